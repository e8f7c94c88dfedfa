/-
Runs of the driver around any integrator and any equation whose components behave deterministically.
-/
import Verif.Model.Program
import Verif.Spec.Program
import Verif.Props.Observer
import Verif.Proofs.Cmd
import Verif.Proofs.Reduce

namespace Madg
open Spec
variable {A K H : Type} [DecidableEq A] [Field K] [LinearOrder K] [IsStrictOrderedRing K]

/-- What is assumed of the components: `Pre k` holds before step `k`, `Post k` after it; step `k` is known to work if
`B k`. -/
structure SimOk (S : Sim A K H) (sz : A → Int) (t d p r : Nat → K) (Q : Nat → K × K × K → Prop)
    (file : Nat → Status K → VtsFile) (Pre Post : Nat → H → Mem A K → Prop) (B : Nat → Prop := fun _ => True) : Prop where
  step : ∀ k, B k → ∀ h m, Pre k h m → ∃ h' m', CDet sz (S.doStep h (t k) (d k)) m h' m' ∧ Post k h' m'
  next : ∀ k h m, Post k h m → ∃ h', CDet sz (S.nextDT h (d k)) m (h', p (k + 1)) m ∧ Pre (k + 1) h' m
  resid : ∀ k h m mx, Post k h m → CDet sz (S.resid mx) m (residRecord mx (r k)) m
  mon : ∀ k h m, Post k h m → ∃ v, CDet sz S.solMon m v m ∧ Q k v
  write : ∀ k h m st, Post k h m → CDet sz (S.write st) m (file k st) m

/-- The driver's state after `k` steps. -/
structure DrvInv (i0 lf se : Int) (t d r : Nat → K) (Q : Nat → K × K × K → Prop) (name : Int → Text)
    (file : Nat → Status K → VtsFile) (k : Nat) (D : Drv H K) : Prop where
  max : D.maxRes = seenMax lf.natAbs r k
  rel : 1 ≤ k → findMon D.resMon "rel_res" = some (seenRel lf.natAbs r k)
  abs : 1 ≤ k → ∃ rest, D.resMon = ("res_c", r (lastLogged lf.natAbs k)) :: rest
  nStep : D.nStep = k
  nSol : se ≠ 0 → D.nSol = k
  rows : ∃ v, (∀ j, j < k → lf.natAbs ∣ j → Q j (v j)) ∧ D.rows = reportRows i0 lf.natAbs t d r v k
  files : D.files = savedFiles i0 se.natAbs t d name file k

theorem tmod_dvd (k : Nat) (f : Int) : ((k : Int).tmod f = 0) ↔ f.natAbs ∣ k := by
  rw [← Int.dvd_iff_tmod_eq_zero]
  exact Int.natAbs_dvd_natAbs (a := f) (b := (k : Int)) |>.symm

omit [Field K] [LinearOrder K] [IsStrictOrderedRing K] in
theorem CDet.ofExcept {sz : A → Int} {α : Type} {e : Except Err α} {x : α} (h : e = .ok x) (m : Mem A K) :
    CDet sz (Cmd.ofExcept e) m x m := by subst h; exact CDet.ret _ _

omit [IsStrictOrderedRing K] in
theorem logRows_succ (i0 : Int) (f : Nat) (t d r : Nat → K) (v : Nat → K × K × K) (k : Nat) :
    reportRows i0 f t d r v (k + 1) =
      reportRows i0 f t d r v k ++ if f ∣ k then [reportRow i0 f t d r v k] else [] := by
  unfold reportRows
  rw [List.range_succ, List.filter_append, List.map_append]
  by_cases h : f ∣ k <;> simp [h]

omit [Field K] [LinearOrder K] [IsStrictOrderedRing K] in
theorem savedFiles_succ {F : Type} (i0 : Int) (s : Nat) (t d : Nat → K) (name : Int → Text) (file : Nat → Status K → F)
    (k : Nat) : savedFiles i0 s t d name file (k + 1) = savedFiles i0 s t d name file k ++
      if s ≠ 0 ∧ s ∣ k then [(name (i0 + k + 1), file k ⟨i0 + k + 1, t (k + 1), d k⟩)] else [] := by
  unfold savedFiles
  rw [List.range_succ, List.filter_append, List.map_append]
  congr 1
  by_cases h : s ≠ 0 ∧ s ∣ k
  · rw [if_pos h, List.filter_cons, if_pos (by simpa using h)]; rfl
  · rw [if_neg h, List.filter_cons, if_neg (by simpa using h)]; rfl

section
variable {S : Sim A K H} {sz : A → Int} {T t0 dt0 : K} {t d p r : Nat → K} {Q : Nat → K × K × K → Prop}
  {file : Nat → Status K → VtsFile} {Pre Post : Nat → H → Mem A K → Prop} {B : Nat → Prop}
  {o : TimeOpts K} {lf se : Int} {base : Text} {name : Int → Text} {i0 : Int}

theorem notifyStep_det (hS : SimOk S sz t d p r Q file Pre Post B) (hf : lf ≠ 0) {k : Nat} {D : Drv H K} {m : Mem A K}
    (hD : DrvInv i0 lf se t d r Q name file k D) (hP : Post k D.h m) :
    ∃ D1, CDet sz (S.notifyStep lf D ⟨i0 + k + 1, t (k + 1), d k⟩) m D1 m ∧ D1.h = D.h ∧
      D1.maxRes = seenMax lf.natAbs r (k + 1) ∧ findMon D1.resMon "rel_res" = some (seenRel lf.natAbs r (k + 1)) ∧
      (∃ rest, D1.resMon = ("res_c", r (lastLogged lf.natAbs (k + 1))) :: rest) ∧ D1.nStep = ((k + 1 : Nat) : Int) ∧
      D1.nSol = D.nSol ∧ D1.files = D.files ∧
      ∃ v, (∀ j, j < k + 1 → lf.natAbs ∣ j → Q j (v j)) ∧ D1.rows = reportRows i0 lf.natAbs t d r v (k + 1) := by
  unfold Sim.notifyStep
  rw [if_neg hf, hD.nStep]
  simp only [tmod_dvd]
  obtain ⟨v, hv, hr⟩ := hD.rows
  by_cases hk : lf.natAbs ∣ k
  · rw [if_pos hk]
    obtain ⟨x, hx, hQ⟩ := hS.mon k D.h m hP
    have d1 : CDet sz (S.onResidual D) m _ m := (hS.resid k D.h m D.maxRes hP).bind (CDet.ret _ _)
    have d2 : ∀ D' : Drv H K, CDet sz (S.onSolution D') m
        { D' with solMon := [("min_c", x.1), ("max_c", x.2.1), ("grad_c_mag", x.2.2)] } m := fun D' => hx.bind (CDet.ret _ _)
    refine ⟨_, d1.bind ((d2 _).bind (CDet.ret _ _)), rfl, ?_⟩
    have hs : seenMax lf.natAbs r (k + 1) = max D.maxRes (r k) := by rw [seenMax_succ, if_pos hk, hD.max]
    have hl : lastLogged lf.natAbs (k + 1) = k := by rw [lastLogged_succ, if_pos hk]
    have hx : ∀ j, j < k + 1 → lf.natAbs ∣ j → Q j (Function.update v k x j) := by
      intro j hj hd
      by_cases e : j = k
      · subst e; rwa [Function.update_self]
      · rw [Function.update_of_ne e]; exact hv j (by omega) hd
    have hrow : reportRows i0 lf.natAbs t d r (Function.update v k x) k = D.rows := by
      rw [hr]
      unfold reportRows
      refine List.map_congr_left fun j hj => ?_
      have : j ≠ k := by
        have := List.mem_range.1 (List.mem_of_mem_filter hj); omega
      unfold reportRow; rw [Function.update_of_ne this]
    unfold seenRel
    rw [hs, hl]
    simp only [Drv.onTime, Drv.onLog, residRecord, stdMax_eq]
    by_cases h0 : max D.maxRes (r k) = 0
    · simp only [h0, ne_eq, not_true_eq_false, if_false]
      refine ⟨by simp, by simp [findMon, List.find?], ⟨_, rfl⟩, by simp, trivial, trivial, Function.update v k x, hx, ?_⟩
      rw [logRows_succ, if_pos hk, hrow]
      simp [reportRow, hs, h0, Function.update_self]
    · simp only [h0, ne_eq, not_false_eq_true, if_true]
      refine ⟨by simp, by simp [findMon, List.find?], ⟨_, rfl⟩, by simp, trivial, trivial, Function.update v k x, hx, ?_⟩
      rw [logRows_succ, if_pos hk, hrow]
      simp [reportRow, hs, h0, Function.update_self]
  · rw [if_neg hk]
    have hk1 : 1 ≤ k := by
      rcases Nat.eq_zero_or_pos k with rfl | h
      · exact absurd (dvd_zero _) hk
      · exact h
    have hs : seenMax lf.natAbs r (k + 1) = seenMax lf.natAbs r k := by rw [seenMax_succ, if_neg hk]
    have hl : lastLogged lf.natAbs (k + 1) = lastLogged lf.natAbs k := by rw [lastLogged_succ, if_neg hk]
    have hrel : seenRel lf.natAbs r (k + 1) = seenRel lf.natAbs r k := by unfold seenRel; rw [hs, hl]
    rw [hs, hl, hrel]
    refine ⟨_, CDet.ret _ _, rfl, hD.max, hD.rel hk1, hD.abs hk1, by simp, rfl, rfl, v, ?_, ?_⟩
    · intro j hj hd
      rcases Nat.lt_succ_iff_lt_or_eq.1 hj with h | rfl
      · exact hv j h hd
      · exact absurd hd hk
    · rw [logRows_succ, if_neg hk, List.append_nil]; exact hr

omit [IsStrictOrderedRing K] in
theorem save_det (hS : SimOk S sz t d p r Q file Pre Post B) {k : Nat} {D : Drv H K} {h : H} {m : Mem A K} (hP : Post k h m)
    (b : Text) (st : Status K) {n : Text} (hn : S.name b st.iter = .ok n) :
    CDet sz (S.save b D st) m { D with files := D.files ++ [(n, file k st)] } m :=
  (CDet.ofExcept hn m).bind ((hS.write k h m st hP).bind (CDet.ret _ _))

/-- One round of notifications. -/
theorem notify_det (hS : SimOk S sz t d p r Q file Pre Post B) (hf : lf ≠ 0)
    (hn : ∀ k : Nat, S.name base (i0 + k + 1) = .ok (name (i0 + k + 1))) {k : Nat} {D : Drv H K} {m : Mem A K}
    (hD : DrvInv i0 lf se t d r Q name file k D) (hP : Post k D.h m) :
    ∃ D1 D2, CDet sz (S.notifyStep lf D ⟨i0 + k + 1, t (k + 1), d k⟩) m D1 m ∧
      CDet sz (S.notifySolution se base D1 ⟨i0 + k + 1, t (k + 1), d k⟩) m D2 m ∧ D2.h = D.h ∧
      DrvInv i0 lf se t d r Q name file (k + 1) D2 := by
  obtain ⟨D1, h1, e1, e2, e3, e4, e5, e6, e7, e8⟩ := notifyStep_det hS hf hD hP
  refine ⟨D1, ?_⟩
  unfold Sim.notifySolution
  by_cases hs : se = 0
  · rw [if_pos hs]
    refine ⟨D1, h1, CDet.ret _ _, e1, e2, fun _ => e3, fun _ => e4, e5, fun h => absurd hs h, e8, ?_⟩
    rw [e7, hD.files, savedFiles_succ, if_neg (by simp [hs]), List.append_nil]
  · rw [if_neg hs, e6, hD.nSol hs]
    simp only [tmod_dvd]
    by_cases hk : se.natAbs ∣ k
    · rw [if_pos hk]
      refine ⟨_, h1, (save_det hS hP base _ (hn k)).bind (CDet.ret _ _), e1, e2, fun _ => e3, fun _ => e4, e5,
        fun _ => by simp, e8, ?_⟩
      rw [savedFiles_succ, if_pos ⟨by simpa using hs, hk⟩, ← hD.files, ← e7]
    · rw [if_neg hk]
      refine ⟨_, h1, CDet.ret _ _, e1, e2, fun _ => e3, fun _ => e4, e5, fun _ => by simp, e8, ?_⟩
      rw [savedFiles_succ, if_neg fun h => hk h.2, List.append_nil, ← hD.files, ← e7]

omit [IsStrictOrderedRing K] in
open Classical in
/-- The decision after a step. -/
theorem nextStep_det (hS : SimOk S sz t d p r Q file Pre Post B) (hm : Marching o.tfinal t0 dt0 t d p) (hc : o.useCfl = false)
    (hi : o.initialStep = i0) {k : Nat} {D : Drv H K} {m : Mem A K} (hD : DrvInv i0 lf se t d r Q name file (k + 1) D)
    (hP : Post k D.h m) :
    ∃ h', CDet sz (S.nextStep o D ⟨i0 + k + 1, t (k + 1), d k⟩) m ({ D with h := h' }, d (k + 1),
      decide (LastStep o.tfinal t p (k + 1)), decide (StopAt o lf.natAbs r (k + 1))) m ∧ Pre (k + 1) h' m := by
  obtain ⟨h', hn, hpre⟩ := hS.next k D.h m hP
  refine ⟨h', hn.bind ?_, hpre⟩
  rw [hc]
  obtain ⟨rest, hrest⟩ := hD.abs (by omega)
  have hrel : relStop o.relTol D.resMon = decide (o.relTol ≠ 0 ∧ seenRel lf.natAbs r (k + 1) < o.relTol) := by
    unfold relStop
    rw [hD.rel (by omega)]
    by_cases h : o.relTol = 0 <;> simp [h]
  have hl : (decide (o.tfinal ≤ t (k + 1) + p (k + 1))) = decide (LastStep o.tfinal t p (k + 1)) := by
    unfold LastStep; simp
  have hst : (decide (o.maxSteps ≠ 0) && decide (o.maxSteps ≤ i0 + k + 1)) =
      decide (o.maxSteps ≠ 0 ∧ o.maxSteps ≤ o.initialStep + ((k + 1 : Nat) : Int)) := by
    rw [hi, Bool.decide_and]; push_cast; rw [add_assoc]
  simp only [Bool.false_eq_true, if_false]
  rw [hrel, hst, hrest]
  have hdt : (if decide (o.tfinal ≤ t (k + 1) + p (k + 1)) = true then o.tfinal - t (k + 1) else p (k + 1)) = d (k + 1) := by
    rw [hm.d_succ]; simp
  rw [hdt, hl]
  unfold StopAt
  by_cases ha : o.absTol = 0
  · simp only [ha, ne_eq, not_true_eq_false, if_false, false_and, or_false, Bool.decide_or]
    exact CDet.ret _ _
  · simp only [ha, ne_eq, not_false_eq_true, if_true, true_and, Bool.decide_or, Bool.or_assoc]
    exact CDet.ret _ _

open Classical in
/-- The time loop from step `k` on. -/
theorem loop_det (hS : SimOk S sz t d p r Q file Pre Post B) (hm : Marching o.tfinal t0 dt0 t d p) (hc : o.useCfl = false)
    (hi : o.initialStep = i0) (hf : lf ≠ 0) (hn : ∀ k : Nat, S.name base (i0 + k + 1) = .ok (name (i0 + k + 1)))
    (hB : ∀ k, (∀ j, 1 ≤ j → j ≤ k → ¬ MustEnd o lf.natAbs t p r j) → B k) :
    ∀ (n k : Nat) (D : Drv H K) (m : Mem A K), (∀ j, 1 ≤ j → j ≤ k → ¬ MustEnd o lf.natAbs t p r j) → Pre k D.h m → DrvInv i0 lf se t d r Q name file k D →
      (∀ N, k < N → N ≤ k + n → MustEnd o lf.natAbs t p r N → (∀ j, k < j → j < N → ¬ MustEnd o lf.natAbs t p r j) →
        ∃ D' m', CDet sz (S.loop o lf se base n (decide (LastStep o.tfinal t p k)) D ⟨i0 + k, t k, d k⟩) m
            (some (D', finalStatus i0 o.tfinal t d p N)) m' ∧ DrvInv i0 lf se t d r Q name file N D' ∧
          ∃ h, Post (N - 1) h m') ∧
      ((∀ j, k < j → j ≤ k + n → ¬ MustEnd o lf.natAbs t p r j) →
        ∃ m', CDet sz (S.loop o lf se base n (decide (LastStep o.tfinal t p k)) D ⟨i0 + k, t k, d k⟩) m none m')
  | 0, k, D, m, _, _, _ => ⟨fun N h1 h2 => by omega, fun _ => ⟨m, CDet.ret _ _⟩⟩
  | n + 1, k, D, m, hgo, hpre, hD => by
    obtain ⟨h', m1, d1, hP⟩ := hS.step k (hB k hgo) D.h m hpre
    have hD' : DrvInv i0 lf se t d r Q name file k { D with h := h' } :=
      ⟨hD.max, hD.rel, hD.abs, hD.nStep, hD.nSol, hD.rows, hD.files⟩
    obtain ⟨D1, D2, n1, n2, e2, hD2⟩ := notify_det (base := base) hS hf hn hD' hP
    have hP2 : Post k D2.h m1 := by rw [e2]; exact hP
    obtain ⟨h3, n3, hpre3⟩ := nextStep_det hS hm hc hi hD2 hP2
    have hD3 : DrvInv i0 lf se t d r Q name file (k + 1) { D2 with h := h3 } :=
      ⟨hD2.max, hD2.rel, hD2.abs, hD2.nStep, hD2.nSol, hD2.rows, hD2.files⟩
    have ht : t k + d k = t (k + 1) := (hm.t_succ k).symm
    have hcast : i0 + ((k + 1 : Nat) : Int) = i0 + k + 1 := by push_cast; ring
    rw [Sim.loop]
    dsimp only
    rw [ht]
    by_cases hl : LastStep o.tfinal t p k
    · have hend : MustEnd o lf.natAbs t p r (k + 1) := Or.inl (by simpa using hl)
      simp only [hl, decide_true, if_true]
      refine ⟨fun N h1 h2 h3 h4 => ?_, fun h => absurd hend (h _ (by omega) (by omega))⟩
      have hN : N = k + 1 := by
        by_contra hne
        exact h4 (k + 1) (by omega) (by omega) hend
      subst hN
      refine ⟨D2, m1, d1.bind (n1.bind (n2.bind ?_)), hD2, D2.h, hP2⟩
      have : finalStatus i0 o.tfinal t d p (k + 1) = ⟨i0 + k + 1, t (k + 1), d k⟩ := by
        unfold finalStatus
        rw [hcast]
        simp [hl]
      rw [this]
      exact CDet.ret _ _
    · simp only [hl, decide_false, Bool.false_eq_true, if_false]
      by_cases hs : StopAt o lf.natAbs r (k + 1)
      · have hend : MustEnd o lf.natAbs t p r (k + 1) := Or.inr hs
        refine ⟨fun N h1 h2 h3 h4 => ?_, fun h => absurd hend (h _ (by omega) (by omega))⟩
        have hN : N = k + 1 := by
          by_contra hne
          exact h4 (k + 1) (by omega) (by omega) hend
        subst hN
        refine ⟨_, m1, d1.bind (n1.bind (n2.bind (n3.bind ?_))), hD3, D2.h, hP2⟩
        have : finalStatus i0 o.tfinal t d p (k + 1) = ⟨i0 + k + 1, t (k + 1), d (k + 1)⟩ := by
          unfold finalStatus
          rw [hcast]
          simp [hl]
        rw [this]
        simp only [hs, decide_true, if_true]
        exact CDet.ret _ _
      · have hne : ¬ MustEnd o lf.natAbs t p r (k + 1) := by
          rintro (h | h)
          · exact hl (by simpa using h)
          · exact hs h
        obtain ⟨ih1, ih2⟩ := loop_det hS hm hc hi hf hn hB n (k + 1) { D2 with h := h3 } m1
          (fun j h1 h2 => by
            rcases Nat.lt_or_ge j (k + 1) with h | h
            · exact hgo j h1 (by omega)
            · rwa [show j = k + 1 by omega]) hpre3 hD3
        rw [hcast] at ih1 ih2
        refine ⟨fun N h1 h2 h3 h4 => ?_, fun h => ?_⟩
        · have hN : k + 1 < N := by
            rcases Nat.lt_or_ge (k + 1) N with h | h
            · exact h
            · have : N = k + 1 := by omega
              subst this; exact absurd h3 hne
          obtain ⟨D', m', g1, g2, g3⟩ := ih1 N hN (by omega) h3 fun j hj => h4 j (by omega)
          refine ⟨D', m', d1.bind (n1.bind (n2.bind (n3.bind ?_))), g2, g3⟩
          simp only [hs, decide_false, Bool.false_eq_true, if_false]
          exact g1
        · obtain ⟨m', g1⟩ := ih2 fun j hj hj' => h j (by omega) (by omega)
          refine ⟨m', d1.bind (n1.bind (n2.bind (n3.bind ?_)))⟩
          simp only [hs, decide_false, Bool.false_eq_true, if_false]
          exact g1

omit [IsStrictOrderedRing K] in
theorem drvInv_new (i0 lf se : Int) (t d r : Nat → K) (Q : Nat → K × K × K → Prop) (name : Int → Text)
    (file : Nat → Status K → VtsFile) (h : H) : DrvInv i0 lf se t d r Q name file 0 (Drv.new h) := by
  refine ⟨rfl, fun h => by omega, fun h => by omega, rfl, fun _ => rfl, ⟨fun _ => (0, 0, 0), fun j h => by omega, rfl⟩, rfl⟩

/-- The whole run: it ends exactly when the rules say, with exactly the specified files and log rows, whatever the schedule;
if the rules never end it, it is still going after any number of steps, and has not failed. -/
theorem run_det (hS : SimOk S sz t d p r Q file Pre Post B) (hm : Marching o.tfinal o.t0 o.dt0 t d p) (hc : o.useCfl = false)
    (hf : lf ≠ 0) (hn : ∀ k : Nat, S.name base (o.initialStep + k + 1) = .ok (name (o.initialStep + k + 1)))
    (hB : ∀ k, (∀ j, 1 ≤ j → j ≤ k → ¬ MustEnd o lf.natAbs t p r j) → B k)
    {fname : Int → Text} (hfn : ∀ k : Nat, S.name (finalBase base) (o.initialStep + k) = .ok (fname (o.initialStep + k)))
    {ic : Cmd A K Unit} {h0 : H} {m m1 : Mem A K} (hic : CDet sz ic m () m1) (hpre : Pre 0 h0 m1) :
    (∀ N fuel, EndsAfter o lf.natAbs t p r N → N ≤ fuel →
      ∃ v m', (∀ k, k < N → lf.natAbs ∣ k → Q k (v k)) ∧
        CDet sz (S.run o lf se base ic h0 fuel) m (.done
          (savedFiles o.initialStep se.natAbs t d name file N ++
            [(fname (o.initialStep + N), file (N - 1) (finalStatus o.initialStep o.tfinal t d p N))])
          (reportRows o.initialStep lf.natAbs t d r v N)) m') ∧
    (∀ fuel, (∀ N, 1 ≤ N → N ≤ fuel → ¬ MustEnd o lf.natAbs t p r N) →
      ∃ m', CDet sz (S.run o lf se base ic h0 fuel) m .outOfFuel m') := by
  classical
  have key := fun fuel => loop_det (o := o) (se := se) (base := base) hS hm hc rfl hf hn hB fuel 0 (Drv.new h0) m1
    (fun j h1 h2 => by omega) hpre
    (drvInv_new o.initialStep lf se t d r Q name file h0)
  have h00 : (decide (LastStep o.tfinal t p 0)) = false := by simp [LastStep]
  have hst : (⟨o.initialStep + ((0 : Nat) : Int), t 0, d 0⟩ : Status K) = ⟨o.initialStep, o.t0, o.dt0⟩ := by
    rw [hm.t_zero, hm.d_zero]; simp
  simp only [h00, hst] at key
  refine ⟨fun N fuel ⟨hN, hE, hB⟩ hle => ?_, fun fuel h => ?_⟩
  · obtain ⟨D, m2, g1, g2, hh, g3⟩ := (key fuel).1 N (by omega) (by omega) hE fun j h1 h2 => hB j (by omega) h2
    obtain ⟨v, hv, hr⟩ := g2.rows
    refine ⟨v, m2, hv, hic.bind ?_⟩
    rw [if_neg (by simp [hc])]
    refine g1.bind ?_
    rw [← hr, ← g2.files]
    exact CDet.bind (f := fun d1 : Drv H K => (.ret (.done d1.files d1.rows) : Cmd A K (RunResult K)))
      (save_det (D := D) hS g3 (finalBase base) (finalStatus o.initialStep o.tfinal t d p N) (hfn N)) (CDet.ret _ _)
  · obtain ⟨m2, g⟩ := (key fuel).2 fun j h1 h2 => h j (by omega) (by omega)
    refine ⟨m2, hic.bind ?_⟩
    rw [if_neg (by simp [hc])]
    exact g.bind (CDet.ret _ _)

end

end Madg
