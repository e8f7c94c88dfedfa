/-
Runs of the driver in any arithmetic, without convergence tolerances.
-/
import Verif.Proofs.Program
import Verif.Proofs.Repro
import Verif.Spec.RunAny

set_option linter.unusedSectionVars false

namespace Madg
open Spec
variable {A K H α β : Type} [DecidableEq A] [Arith K] [LT K] [DecidableLT K] [LE K] [DecidableLE K] [DecidableEq K] [Max K] [Min K] {sz : A → Int}

theorem Spec.AllEnd.ret {x : α} {m : Mem A K} {P : α → Mem A K → Prop} (h : P x m) : AllEnd sz (.ret x) m P := by
  refine ⟨⟨_, .ret _ _⟩, fun r hr => ?_⟩
  cases hr
  exact ⟨_, _, rfl, h⟩

theorem Spec.AllEnd.bind {c : Cmd A K α} {f : α → Cmd A K β} {m : Mem A K} {P : α → Mem A K → Prop} {Q : β → Mem A K → Prop}
    (h : AllEnd sz c m P) (hf : ∀ x m1, P x m1 → AllEnd sz (f x) m1 Q) : AllEnd sz (c.bind f) m Q := by
  obtain ⟨⟨r, hr⟩, ha⟩ := h
  refine ⟨?_, fun r hr => ?_⟩
  · obtain ⟨x, m1, rfl, hP⟩ := ha r hr
    obtain ⟨r', hr'⟩ := (hf x m1 hP).1
    exact ⟨r', cmdOut_bind.2 (Or.inl ⟨x, m1, hr, hr'⟩)⟩
  · rcases cmdOut_bind.1 hr with ⟨x, m1, h1, h2⟩ | ⟨e, h1, rfl⟩
    · obtain ⟨x', m1', e, hP⟩ := ha _ h1
      cases e
      exact (hf x m1 hP).2 r h2
    · obtain ⟨x', m1', e, hP⟩ := ha _ h1
      cases e

theorem Spec.AllEnd.mono {c : Cmd A K α} {m : Mem A K} {P Q : α → Mem A K → Prop} (h : AllEnd sz c m P)
    (hPQ : ∀ x m', P x m' → Q x m') : AllEnd sz c m Q :=
  ⟨h.1, fun r hr => let ⟨x, m', e, hP⟩ := h.2 r hr; ⟨x, m', e, hPQ x m' hP⟩⟩

theorem Spec.AllEnd.of {c : Cmd A K α} {m m' : Mem A K} {x : α} {P : α → Mem A K → Prop} (d : CDet sz c m x m') (h : P x m') :
    AllEnd sz c m P :=
  ⟨⟨_, (d _).2 rfl⟩, fun r hr => ⟨x, m', (d r).1 hr, h⟩⟩

theorem _root_.Madg.CDet.allEnd {c : Cmd A K α} {f : α → Cmd A K β} {m m' : Mem A K} {x : α} {P : β → Mem A K → Prop}
    (d : CDet sz c m x m') (h : AllEnd sz (f x) m' P) : AllEnd sz (c.bind f) m P :=
  (AllEnd.of (P := fun y m1 => y = x ∧ m1 = m') d ⟨rfl, rfl⟩).bind fun y m1 e => by rw [e.1, e.2]; exact h

theorem allEnd_reduce (op : K → K → K) (init : K) (ps : List (Prog A K K))
    (hrun : ∀ p ∈ ps, ∀ m, ∃ x, p.run sz m = .ok (x, m)) (m : Mem A K) :
    AllEnd sz (Cmd.reduceOf op init ps) m fun _ m' => m' = m := by
  refine ⟨reduce_ex op init ps hrun m, fun r hr => ?_⟩
  cases hr with
  | reduce _ _ _ _ _ xs r _ hx hr hk => cases hk; exact ⟨_, _, rfl, rfl⟩
  | reduceFault _ _ _ _ _ p hp e hf =>
    obtain ⟨x, hx⟩ := hrun p hp m
    rw [hx] at hf; cases hf

/-- What is assumed of the components. -/
structure SimAny (S : Sim A K H) (sz : A → Int) (t d p : Nat → K) (Q : Nat → K → K → Prop)
    (file : Nat → Status K → VtsFile) (Pre Post : Nat → H → Mem A K → Prop) : Prop where
  step : ∀ k h m, Pre k h m → ∃ h' m', CDet sz (S.doStep h (t k) (d k)) m h' m' ∧ Post k h' m'
  next : ∀ k h m, Post k h m → ∃ h', CDet sz (S.nextDT h (d k)) m (h', p (k + 1)) m ∧ Pre (k + 1) h' m
  resid : ∀ k h m mx, Post k h m → AllEnd sz (S.resid mx) m fun r m' => m' = m ∧
    ∃ a b c, r.1 = [("res_c", a), ("abs_res", b), ("rel_res", c)]
  mon : ∀ k h m, Post k h m → AllEnd sz S.solMon m fun v m' => m' = m ∧ Q k v.1 v.2.1
  write : ∀ k h m st, Post k h m → CDet sz (S.write st) m (file k st) m

/-- The driver's state after `k` steps. -/
structure DrvAny (i0 lf se : Int) (t d : Nat → K) (Q : Nat → K → K → Prop) (name : Int → Text)
    (file : Nat → Status K → VtsFile) (k : Nat) (D : Drv H K) : Prop where
  nStep : D.nStep = k
  nSol : se ≠ 0 → D.nSol = k
  rows : LogOf i0 lf.natAbs t d Q k D.rows
  files : D.files = savedFiles i0 se.natAbs t d name file k

theorem LogOf_succ {i0 : Int} {f : Nat} {t d : Nat → K} {Q : Nat → K → K → Prop} {k : Nat} {rows : List (List (String × K))}
    (h : LogOf i0 f t d Q k rows) : (¬ f ∣ k → LogOf i0 f t d Q (k + 1) rows) ∧
      (f ∣ k → ∀ row, RowOf i0 t d Q k row → LogOf i0 f t d Q (k + 1) (rows ++ [row])) := by
  unfold LogOf at h ⊢
  rw [List.range_succ, List.filter_append]
  refine ⟨fun hk => ?_, fun hk row hr => ?_⟩
  · rw [List.filter_cons, if_neg (by simpa using hk), List.filter_nil, List.append_nil]; exact h
  · rw [List.filter_cons, if_pos (by simpa using hk), List.filter_nil]
    exact List.rel_append h (.cons hr .nil)

section
variable {S : Sim A K H} {T t0 dt0 : K} {t d p : Nat → K} {Q : Nat → K → K → Prop}
  {file : Nat → Status K → VtsFile} {Pre Post : Nat → H → Mem A K → Prop}
  {o : TimeOpts K} {lf se : Int} {base : Text} {name : Int → Text} {i0 : Int}

theorem notifyStep_any (hS : SimAny S sz t d p Q file Pre Post) (hf : lf ≠ 0) {k : Nat} {D : Drv H K} {m : Mem A K}
    (hD : DrvAny i0 lf se t d Q name file k D) (hP : Post k D.h m) :
    AllEnd sz (S.notifyStep lf D ⟨i0 + k + 1, t (k + 1), d k⟩) m fun D1 m' => m' = m ∧ D1.h = D.h ∧
      D1.nStep = ((k + 1 : Nat) : Int) ∧ D1.nSol = D.nSol ∧ D1.files = D.files ∧ LogOf i0 lf.natAbs t d Q (k + 1) D1.rows := by
  unfold Sim.notifyStep
  rw [if_neg hf, hD.nStep]
  simp only [tmod_dvd]
  by_cases hk : lf.natAbs ∣ k
  · rw [if_pos hk]
    refine AllEnd.bind (P := fun D1 m' => m' = m ∧ ∃ a b c mx, D1 = { D with resMon := [("res_c", a), ("abs_res", b), ("rel_res", c)], maxRes := mx }) ?_ ?_
    · refine (hS.resid k D.h m D.maxRes hP).bind ?_
      rintro r m1 ⟨rfl, a, b, c, e⟩
      refine AllEnd.ret ⟨rfl, a, b, c, r.2, ?_⟩
      rw [e]
    · rintro D1 m1 ⟨rfl, a, b, c, mx, rfl⟩
      refine AllEnd.bind (P := fun D2 m' => m' = m1 ∧ ∃ v : K × K × K, Q k v.1 v.2.1 ∧ D2 = { D with resMon := [("res_c", a), ("abs_res", b), ("rel_res", c)], maxRes := mx, solMon := [("min_c", v.1), ("max_c", v.2.1), ("grad_c_mag", v.2.2)] }) ?_ ?_
      · refine (hS.mon k D.h m1 hP).bind ?_
        rintro v m2 ⟨rfl, hq⟩
        exact AllEnd.ret ⟨rfl, v, hq, rfl⟩
      · rintro D2 m2 ⟨rfl, v, hq, rfl⟩
        refine AllEnd.ret ⟨rfl, rfl, by simp, rfl, rfl, ?_⟩
        exact (LogOf_succ hD.rows).2 hk _ ⟨a, b, c, v.1, v.2.1, v.2.2, hq, rfl⟩
  · rw [if_neg hk]
    exact AllEnd.ret ⟨rfl, rfl, by simp, rfl, rfl, (LogOf_succ hD.rows).1 hk⟩

theorem save_any (hS : SimAny S sz t d p Q file Pre Post) {k : Nat} {D : Drv H K} {h : H} {m : Mem A K} (hP : Post k h m)
    (b : Text) (st : Status K) {n : Text} (hn : S.name b st.iter = .ok n) :
    CDet sz (S.save b D st) m { D with files := D.files ++ [(n, file k st)] } m :=
  (CDet.ofExcept hn m).bind ((hS.write k h m st hP).bind (CDet.ret _ _))

/-- One round of notifications. -/
theorem notify_any (hS : SimAny S sz t d p Q file Pre Post) (hf : lf ≠ 0)
    (hn : ∀ k : Nat, S.name base (i0 + k + 1) = .ok (name (i0 + k + 1))) {k : Nat} {D : Drv H K} {m : Mem A K}
    (hD : DrvAny i0 lf se t d Q name file k D) (hP : Post k D.h m) :
    AllEnd sz ((S.notifyStep lf D ⟨i0 + k + 1, t (k + 1), d k⟩).bind fun D1 =>
      S.notifySolution se base D1 ⟨i0 + k + 1, t (k + 1), d k⟩) m fun D2 m' => m' = m ∧ D2.h = D.h ∧
        DrvAny i0 lf se t d Q name file (k + 1) D2 := by
  refine (notifyStep_any hS hf hD hP).bind ?_
  rintro D1 m1 ⟨rfl, e1, e2, e3, e4, e5⟩
  unfold Sim.notifySolution
  by_cases hs : se = 0
  · rw [if_pos hs]
    refine AllEnd.ret ⟨rfl, e1, e2, fun h => absurd hs h, e5, ?_⟩
    rw [e4, hD.files, savedFiles_succ, if_neg (by simp [hs]), List.append_nil]
  · rw [if_neg hs, e3, hD.nSol hs]
    simp only [tmod_dvd]
    by_cases hk : se.natAbs ∣ k
    · rw [if_pos hk]
      refine (save_any hS hP base _ (hn k)).allEnd (AllEnd.ret ⟨rfl, e1, e2, fun _ => by simp, e5, ?_⟩)
      rw [savedFiles_succ, if_pos ⟨by simpa using hs, hk⟩, ← hD.files, ← e4]
    · rw [if_neg hk]
      refine AllEnd.ret ⟨rfl, e1, e2, fun _ => by simp, e5, ?_⟩
      rw [savedFiles_succ, if_neg fun h => hk h.2, List.append_nil, ← hD.files, ← e4]

theorem stopAt_zero {o : TimeOpts K} (hr : o.relTol = 0) (ha : o.absTol = 0) (f : Nat) (r : Nat → K) (k : Nat) :
    StopAt o f r k ↔ o.maxSteps ≠ 0 ∧ o.maxSteps ≤ o.initialStep + k := by
  unfold StopAt
  rw [hr, ha]
  simp

open Classical in
/-- The decision after a step. -/
theorem nextStep_any (hS : SimAny S sz t d p Q file Pre Post) (hm : Marching o.tfinal t0 dt0 t d p) (hc : o.useCfl = false)
    (hrt : o.relTol = 0) (hat : o.absTol = 0) (hi : o.initialStep = i0) {k : Nat} {D : Drv H K} {m : Mem A K}
    (hP : Post k D.h m) :
    ∃ h', CDet sz (S.nextStep o D ⟨i0 + k + 1, t (k + 1), d k⟩) m ({ D with h := h' }, d (k + 1),
      decide (LastStep o.tfinal t p (k + 1)), decide (StopAt o lf.natAbs (fun _ => 0) (k + 1))) m ∧ Pre (k + 1) h' m := by
  obtain ⟨h', hn, hpre⟩ := hS.next k D.h m hP
  refine ⟨h', hn.bind ?_, hpre⟩
  rw [hc]
  have hrel : relStop o.relTol D.resMon = false := by
    unfold relStop
    rw [hrt]; simp
  have hl : (decide (o.tfinal ≤ t (k + 1) + p (k + 1))) = decide (LastStep o.tfinal t p (k + 1)) := by
    unfold LastStep; simp
  have hst : (decide (o.maxSteps ≠ 0) && decide (o.maxSteps ≤ i0 + k + 1)) =
      decide (StopAt o lf.natAbs (fun _ => 0) (k + 1)) := by
    rw [← Bool.decide_and]
    refine decide_eq_decide.2 ?_
    rw [stopAt_zero hrt hat, hi]; push_cast; rw [add_assoc]
  simp only [Bool.false_eq_true, if_false]
  rw [hrel, hst, hat]
  have hdt : (if decide (o.tfinal ≤ t (k + 1) + p (k + 1)) = true then o.tfinal - t (k + 1) else p (k + 1)) = d (k + 1) := by
    rw [hm.d_succ]; simp
  rw [hdt, hl, if_neg (by simp), Bool.or_false]
  exact CDet.ret _ _

theorem bind_assoc_any {γ : Type} (c : Cmd A K α) (f : α → Cmd A K β) (g : β → Cmd A K γ) {m : Mem A K} {P : γ → Mem A K → Prop}
    (h : AllEnd sz ((c.bind f).bind g) m P) : AllEnd sz (c.bind fun x => (f x).bind g) m P := by
  have key : ∀ r, CmdOut sz (c.bind fun x => (f x).bind g) m r ↔ CmdOut sz ((c.bind f).bind g) m r := by
    intro r
    simp only [cmdOut_bind]
    constructor
    · rintro (⟨x, m1, h1, ⟨y, m2, h2, h3⟩ | ⟨e, h2, rfl⟩⟩ | ⟨e, h1, rfl⟩)
      · exact Or.inl ⟨y, m2, Or.inl ⟨x, m1, h1, h2⟩, h3⟩
      · exact Or.inr ⟨e, Or.inl ⟨x, m1, h1, h2⟩, rfl⟩
      · exact Or.inr ⟨e, Or.inr ⟨e, h1, rfl⟩, rfl⟩
    · rintro (⟨y, m2, ⟨x, m1, h1, h2⟩ | ⟨e, h1, he⟩, h3⟩ | ⟨e, ⟨x, m1, h1, h2⟩ | ⟨e', h1, he⟩, rfl⟩)
      · exact Or.inl ⟨x, m1, h1, Or.inl ⟨y, m2, h2, h3⟩⟩
      · cases he
      · exact Or.inl ⟨x, m1, h1, Or.inr ⟨e, h2, rfl⟩⟩
      · cases he; exact Or.inr ⟨e, h1, rfl⟩
  exact ⟨h.1.imp fun r hr => (key r).2 hr, fun r hr => h.2 r ((key r).1 hr)⟩

open Classical in
/-- The time loop from step `k` on. -/
theorem loop_any (hS : SimAny S sz t d p Q file Pre Post) (hm : Marching o.tfinal t0 dt0 t d p) (hc : o.useCfl = false)
    (hrt : o.relTol = 0) (hat : o.absTol = 0) (hi : o.initialStep = i0) (hf : lf ≠ 0)
    (hn : ∀ k : Nat, S.name base (i0 + k + 1) = .ok (name (i0 + k + 1))) :
    ∀ (n k : Nat) (D : Drv H K) (m : Mem A K), Pre k D.h m → DrvAny i0 lf se t d Q name file k D →
      (∀ N, k < N → N ≤ k + n → MustEnd o lf.natAbs t p (fun _ => 0) N →
        (∀ j, k < j → j < N → ¬ MustEnd o lf.natAbs t p (fun _ => 0) j) →
        AllEnd sz (S.loop o lf se base n (decide (LastStep o.tfinal t p k)) D ⟨i0 + k, t k, d k⟩) m fun r m' =>
          ∃ D', r = some (D', finalStatus i0 o.tfinal t d p N) ∧ DrvAny i0 lf se t d Q name file N D' ∧ ∃ h, Post (N - 1) h m') ∧
      ((∀ j, k < j → j ≤ k + n → ¬ MustEnd o lf.natAbs t p (fun _ => 0) j) →
        AllEnd sz (S.loop o lf se base n (decide (LastStep o.tfinal t p k)) D ⟨i0 + k, t k, d k⟩) m fun r _ => r = none)
  | 0, k, D, m, _, _ => ⟨fun N h1 h2 => by omega, fun _ => AllEnd.ret rfl⟩
  | n + 1, k, D, m, hpre, hD => by
    obtain ⟨h', m1, d1, hP⟩ := hS.step k D.h m hpre
    have hD' : DrvAny i0 lf se t d Q name file k { D with h := h' } := ⟨hD.nStep, hD.nSol, hD.rows, hD.files⟩
    have n12 := notify_any (base := base) hS hf hn hD' hP
    have ht : t k + d k = t (k + 1) := (hm.t_succ k).symm
    have hcast : i0 + ((k + 1 : Nat) : Int) = i0 + k + 1 := by push_cast; ring
    rw [Sim.loop]
    dsimp only
    rw [ht]
    by_cases hl : LastStep o.tfinal t p k
    · have hend : MustEnd o lf.natAbs t p (fun _ => 0) (k + 1) := Or.inl (by simpa using hl)
      simp only [hl, decide_true, if_true]
      refine ⟨fun N h1 h2 h3 h4 => ?_, fun h => absurd hend (h _ (by omega) (by omega))⟩
      have hN : N = k + 1 := by
        by_contra hne
        exact h4 (k + 1) (by omega) (by omega) hend
      subst hN
      refine d1.allEnd (bind_assoc_any _ _ _ (n12.bind ?_))
      rintro D2 m2 ⟨rfl, e2, hD2⟩
      have : finalStatus i0 o.tfinal t d p (k + 1) = ⟨i0 + k + 1, t (k + 1), d k⟩ := by
        unfold finalStatus
        rw [hcast]
        simp [hl]
      rw [this]
      exact AllEnd.ret ⟨D2, rfl, hD2, h', hP⟩
    · simp only [hl, decide_false, Bool.false_eq_true, if_false]
      by_cases hs : StopAt o lf.natAbs (fun _ => 0) (k + 1)
      · have hend : MustEnd o lf.natAbs t p (fun _ => 0) (k + 1) := Or.inr hs
        refine ⟨fun N h1 h2 h3 h4 => ?_, fun h => absurd hend (h _ (by omega) (by omega))⟩
        have hN : N = k + 1 := by
          by_contra hne
          exact h4 (k + 1) (by omega) (by omega) hend
        subst hN
        refine d1.allEnd (bind_assoc_any _ _ _ (n12.bind ?_))
        rintro D2 m2 ⟨rfl, e2, hD2⟩
        obtain ⟨h3, n3, hpre3⟩ := nextStep_any (lf := lf) (D := D2) hS hm hc hrt hat hi (by rw [e2]; exact hP)
        refine n3.allEnd ?_
        have : finalStatus i0 o.tfinal t d p (k + 1) = ⟨i0 + k + 1, t (k + 1), d (k + 1)⟩ := by
          unfold finalStatus
          rw [hcast]
          simp [hl]
        rw [this]
        simp only [hs, decide_true, if_true]
        exact AllEnd.ret ⟨_, rfl, ⟨hD2.nStep, hD2.nSol, hD2.rows, hD2.files⟩, h', hP⟩
      · have hne : ¬ MustEnd o lf.natAbs t p (fun _ => 0) (k + 1) := by
          rintro (h | h)
          · exact hl (by simpa using h)
          · exact hs h
        refine ⟨fun N h1 h2 h3 h4 => ?_, fun h => ?_⟩
        · have hN : k + 1 < N := by
            rcases Nat.lt_or_ge (k + 1) N with h | h
            · exact h
            · have : N = k + 1 := by omega
              subst this; exact absurd h3 hne
          refine d1.allEnd (bind_assoc_any _ _ _ (n12.bind ?_))
          rintro D2 m2 ⟨rfl, e2, hD2⟩
          obtain ⟨h5, n3, hpre3⟩ := nextStep_any (lf := lf) (D := D2) hS hm hc hrt hat hi (by rw [e2]; exact hP)
          refine n3.allEnd ?_
          simp only [hs, decide_false, Bool.false_eq_true, if_false]
          have ih := (loop_any hS hm hc hrt hat hi hf hn n (k + 1) { D2 with h := h5 } m2 hpre3
            ⟨hD2.nStep, hD2.nSol, hD2.rows, hD2.files⟩).1 N hN (by omega) h3 fun j hj => h4 j (by omega)
          rw [hcast] at ih
          exact ih
        · refine d1.allEnd (bind_assoc_any _ _ _ (n12.bind ?_))
          rintro D2 m2 ⟨rfl, e2, hD2⟩
          obtain ⟨h5, n3, hpre3⟩ := nextStep_any (lf := lf) (D := D2) hS hm hc hrt hat hi (by rw [e2]; exact hP)
          refine n3.allEnd ?_
          simp only [hs, decide_false, Bool.false_eq_true, if_false]
          have ih := (loop_any hS hm hc hrt hat hi hf hn n (k + 1) { D2 with h := h5 } m2 hpre3
            ⟨hD2.nStep, hD2.nSol, hD2.rows, hD2.files⟩).2 fun j hj hj' => h j (by omega) (by omega)
          rw [hcast] at ih
          exact ih

theorem drvAny_new (i0 lf se : Int) (t d : Nat → K) (Q : Nat → K → K → Prop) (name : Int → Text)
    (file : Nat → Status K → VtsFile) (h : H) : DrvAny i0 lf se t d Q name file 0 (Drv.new h) :=
  ⟨rfl, fun _ => rfl, .nil, rfl⟩

/-- The whole run. -/
theorem run_any (hS : SimAny S sz t d p Q file Pre Post) (hm : Marching o.tfinal o.t0 o.dt0 t d p) (hc : o.useCfl = false)
    (hrt : o.relTol = 0) (hat : o.absTol = 0)
    (hf : lf ≠ 0) (hn : ∀ k : Nat, S.name base (o.initialStep + k + 1) = .ok (name (o.initialStep + k + 1)))
    {fname : Int → Text} (hfn : ∀ k : Nat, S.name (finalBase base) (o.initialStep + k) = .ok (fname (o.initialStep + k)))
    {ic : Cmd A K Unit} {h0 : H} {m m1 : Mem A K} (hic : CDet sz ic m () m1) (hpre : Pre 0 h0 m1) :
    (∀ N fuel, EndsAfter o lf.natAbs t p (fun _ => 0) N → N ≤ fuel →
      AllEnd sz (S.run o lf se base ic h0 fuel) m fun r _ => ∃ rows, LogOf o.initialStep lf.natAbs t d Q N rows ∧ r = .done
          (savedFiles o.initialStep se.natAbs t d name file N ++
            [(fname (o.initialStep + N), file (N - 1) (finalStatus o.initialStep o.tfinal t d p N))]) rows) ∧
    (∀ fuel, (∀ N, 1 ≤ N → N ≤ fuel → ¬ MustEnd o lf.natAbs t p (fun _ => 0) N) →
      AllEnd sz (S.run o lf se base ic h0 fuel) m fun r _ => r = .outOfFuel) := by
  classical
  have key := fun fuel => loop_any (o := o) (se := se) (base := base) hS hm hc hrt hat rfl hf hn fuel 0 (Drv.new h0) m1
    hpre (drvAny_new o.initialStep lf se t d Q name file h0)
  have h00 : (decide (LastStep o.tfinal t p 0)) = false := by simp [LastStep]
  have hst : (⟨o.initialStep + ((0 : Nat) : Int), t 0, d 0⟩ : Status K) = ⟨o.initialStep, o.t0, o.dt0⟩ := by
    rw [hm.t_zero, hm.d_zero]; simp
  simp only [h00, hst] at key
  refine ⟨fun N fuel ⟨hN, hE, hB⟩ hle => ?_, fun fuel h => ?_⟩
  · have g := (key fuel).1 N (by omega) (by omega) hE fun j h1 h2 => hB j (by omega) h2
    refine hic.allEnd ?_
    rw [if_neg (by simp [hc])]
    refine g.bind ?_
    rintro r m2 ⟨D, rfl, g2, hh, g3⟩
    refine CDet.allEnd (f := fun d1 : Drv H K => (.ret (.done d1.files d1.rows) : Cmd A K (RunResult K)))
      (save_any (D := D) hS g3 (finalBase base) (finalStatus o.initialStep o.tfinal t d p N) (hfn N)) (AllEnd.ret ?_)
    exact ⟨_, g2.rows, by rw [g2.files]⟩
  · have g := (key fuel).2 fun j h1 h2 => h j (by omega) (by omega)
    refine hic.allEnd ?_
    rw [if_neg (by simp [hc])]
    refine g.bind ?_
    rintro r m2 rfl
    exact AllEnd.ret rfl

end

end Madg
