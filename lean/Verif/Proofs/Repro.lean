/-
Two executions of the program compared, in any arithmetic.
-/
import Verif.Spec.Repro
import Verif.Proofs.KernA

set_option linter.unusedSectionVars false
set_option linter.unusedVariables false

namespace Madg
open Spec

/-! ### The driver -/

section
variable {A K H : Type} [DecidableEq A] [Arith K] [LinearOrder K] {sz : A → Int}

theorem SameRow.append {a b c d : List (String × K)} (h1 : SameRow a b) (h2 : SameRow c d) : SameRow (a ++ c) (b ++ d) :=
  List.rel_append h1 h2

theorem SameRow.refl (a : List (String × K)) : SameRow a a := List.forall₂_same.2 fun _ _ => ⟨rfl, fun _ => rfl⟩

/-- Two states of the driver. -/
structure DrvRel (d d' : Drv H K) : Prop where
  h : d.h = d'.h
  timeMon : d.timeMon = d'.timeMon
  resMon : SameRow d.resMon d'.resMon
  solMon : SameRow d.solMon d'.solMon
  rows : List.Forall₂ SameRow d.rows d'.rows
  files : d.files = d'.files
  nStep : d.nStep = d'.nStep
  nSol : d.nSol = d'.nSol

/-- What the driver needs of its components. -/
structure SimAgree (sz : A → Int) (S : Sim A K H) : Prop where
  doStep : ∀ h t dt, Agree sz Eq (S.doStep h t dt) (S.doStep h t dt)
  nextDT : ∀ h dt, Agree sz Eq (S.nextDT h dt) (S.nextDT h dt)
  resid : ∀ a b, Agree sz (fun r r' => SameRow r.1 r'.1) (S.resid a) (S.resid b)
  solMon : Agree sz (fun v v' => v.1 = v'.1 ∧ v.2.1 = v'.2.1) S.solMon S.solMon
  write : ∀ st, Agree sz Eq (S.write st) (S.write st)

variable {S : Sim A K H} (hS : SimAgree sz S)
include hS

theorem onResidual_agree {d d' : Drv H K} (h : DrvRel d d') : Agree sz DrvRel (S.onResidual d) (S.onResidual d') :=
  (hS.resid _ _).bind fun r r' hr => Agree.ret ⟨h.h, h.timeMon, hr, h.solMon, h.rows, h.files, h.nStep, h.nSol⟩

theorem onSolution_agree {d d' : Drv H K} (h : DrvRel d d') : Agree sz DrvRel (S.onSolution d) (S.onSolution d') :=
  hS.solMon.bind fun r r' hr => Agree.ret ⟨h.h, h.timeMon, h.resMon,
    .cons ⟨rfl, fun _ => hr.1⟩ (.cons ⟨rfl, fun _ => hr.2⟩ (.cons ⟨rfl, fun hn => (hn (show "grad_c_mag" ∈ summed by decide)).elim⟩ .nil)),
    h.rows, h.files, h.nStep, h.nSol⟩

theorem save_agree {d d' : Drv H K} (h : DrvRel d d') (base : Text) (st : Status K) :
    Agree sz DrvRel (S.save base d st) (S.save base d' st) := by
  refine (Agree.ofExcept _).bind ?_
  rintro n _ rfl
  refine (hS.write st).bind ?_
  rintro f _ rfl
  exact Agree.ret ⟨h.h, h.timeMon, h.resMon, h.solMon, h.rows, by dsimp only; rw [h.files], h.nStep, h.nSol⟩

theorem notifyStep_agree {d d' : Drv H K} (h : DrvRel d d') (lf : Int) (st : Status K) :
    Agree sz DrvRel (S.notifyStep lf d st) (S.notifyStep lf d' st) := by
  unfold Sim.notifyStep
  rw [h.nStep]
  split
  · exact Agree.fail _
  · split
    · refine (onResidual_agree hS h).bind fun d1 d1' h1 => (onSolution_agree hS h1).bind fun d2 d2' h2 => Agree.ret ?_
      refine ⟨h2.h, rfl, h2.resMon, h2.solMon, ?_, h2.files, rfl, h2.nSol⟩
      exact List.rel_append h2.rows
        (.cons (SameRow.append (SameRow.append (SameRow.refl _) h2.resMon) h2.solMon) .nil)
    · exact Agree.ret ⟨h.h, h.timeMon, h.resMon, h.solMon, h.rows, h.files, rfl, h.nSol⟩

theorem notifySolution_agree {d d' : Drv H K} (h : DrvRel d d') (se : Int) (base : Text) (st : Status K) :
    Agree sz DrvRel (S.notifySolution se base d st) (S.notifySolution se base d' st) := by
  unfold Sim.notifySolution
  rw [h.nSol]
  split
  · exact Agree.ret h
  · split
    · exact (save_agree hS h base st).bind fun d1 d1' h1 =>
        Agree.ret ⟨h1.h, h1.timeMon, h1.resMon, h1.solMon, h1.rows, h1.files, h1.nStep, rfl⟩
    · exact Agree.ret ⟨h.h, h.timeMon, h.resMon, h.solMon, h.rows, h.files, h.nStep, rfl⟩

theorem nextStep_agree {o : TimeOpts K} (hr : o.relTol = 0) (ha : o.absTol = 0) {d d' : Drv H K} (h : DrvRel d d')
    (st : Status K) : Agree sz (fun r r' => DrvRel r.1 r'.1 ∧ r.2 = r'.2) (S.nextStep o d st) (S.nextStep o d' st) := by
  unfold Sim.nextStep
  rw [h.h]
  refine (hS.nextDT _ _).bind ?_
  rintro r _ rfl
  dsimp only
  split
  · exact Agree.fail _
  · have ea : ¬ o.absTol ≠ 0 := by rw [ha]; exact fun h => h rfl
    rw [if_neg ea, if_neg ea]
    have e : ∀ mon, relStop o.relTol mon = false := fun mon => by
      unfold relStop
      rw [if_neg (by rw [hr]; exact fun h => h rfl)]
    rw [e, e]
    refine Agree.ret ?_
    exact ⟨⟨rfl, h.timeMon, h.resMon, h.solMon, h.rows, h.files, h.nStep, h.nSol⟩, rfl⟩

theorem loop_agree {o : TimeOpts K} (hr : o.relTol = 0) (ha : o.absTol = 0) (lf se : Int) (base : Text) (n : Nat) :
    ∀ {d d' : Drv H K}, DrvRel d d' → ∀ (last : Bool) (st : Status K),
      Agree sz (Option.Rel fun r r' => DrvRel r.1 r'.1 ∧ r.2 = r'.2) (S.loop o lf se base n last d st)
        (S.loop o lf se base n last d' st) := by
  induction n with
  | zero => intro d d' h last st; exact Agree.ret .none
  | succ n ih =>
    intro d d' h last st
    unfold Sim.loop
    rw [h.h]
    refine (hS.doStep _ _ _).bind ?_
    rintro e _ rfl
    have h' : DrvRel { d with h := e } { d' with h := e } :=
      ⟨rfl, h.timeMon, h.resMon, h.solMon, h.rows, h.files, h.nStep, h.nSol⟩
    refine (notifyStep_agree hS h' lf _).bind
      fun d1 d1' h1 => (notifySolution_agree hS h1 se base _).bind fun d2 d2' h2 => ?_
    split
    · exact Agree.ret (.some ⟨h2, rfl⟩)
    · refine (nextStep_agree hS hr ha h2 _).bind ?_
      rintro ⟨d3, x⟩ ⟨d3', y⟩ ⟨h3, e⟩
      dsimp only at h3 e ⊢
      subst e
      split
      · exact Agree.ret (.some ⟨h3, rfl⟩)
      · exact ih h3 _ _

theorem run_agree {o : TimeOpts K} (hr : o.relTol = 0) (ha : o.absTol = 0) (lf se : Int) (base : Text) {ic : Cmd A K Unit}
    (hic : Agree sz Eq ic ic) (h0 : H) (fuel : Nat) :
    Agree sz SameResult (S.run o lf se base ic h0 fuel) (S.run o lf se base ic h0 fuel) := by
  unfold Sim.run
  refine hic.bind fun _ _ _ => ?_
  split
  · exact Agree.fail _
  · refine (loop_agree hS hr ha lf se base fuel (d := Drv.new h0) (d' := Drv.new h0) ⟨rfl, rfl, .nil, .nil, .nil, rfl, rfl, rfl⟩ _ _).bind ?_
    intro r r' h
    cases h with
    | none => exact Agree.ret trivial
    | @some a b h =>
      obtain ⟨d, st⟩ := a
      obtain ⟨d', st'⟩ := b
      obtain ⟨h, e⟩ := h
      dsimp only at h e ⊢
      subst e
      exact (save_agree hS h _ st).bind fun d1 d1' h1 => Agree.ret ⟨h1.files, h1.rows⟩

end

/-! ### Components -/

section
variable {A K : Type} [DecidableEq A] [Arith K] {sz : A → Int}

theorem redIdx_run {l : List Int} {body : Int → Prog A K K} (h : ∀ n ∈ l, ∀ m, ∃ x, (body n).run sz m = .ok (x, m)) :
    ∀ p ∈ redIdx l body, ∀ m, ∃ x, p.run sz m = .ok (x, m) := by
  rw [redIdx_eq_map]
  intro p hp
  obtain ⟨n, hn, rfl⟩ := List.mem_map.1 hp
  exact h n hn

theorem residNorm_agree (rt : K → K) {l : List Int} {a : A} (h : ∀ n ∈ l, InB sz a n) :
    Agree sz (fun _ _ => True) (residNorm rt l a) (residNorm rt l a) :=
  (Agree.reduceAny _ _ _ (redIdx_run fun n hn m => ⟨m a n ^ 2, by rw [run_bind_ok (run_rd (h n hn) m)]; rfl⟩)).bind
    fun _ _ _ => Agree.ret trivial

theorem residRecord_same [LinearOrder K] (a b x y : K) : SameRow (residRecord a x).1 (residRecord b y).1 := by
  have k : ∀ s ∈ summed, ∀ u v : K, s = s ∧ (s ∉ summed → u = v) := fun s hs u v => ⟨rfl, fun h => (h hs).elim⟩
  unfold residRecord
  dsimp only
  split <;> split <;>
    exact .cons (k "res_c" (by decide) _ _) (.cons (k "abs_res" (by decide) _ _) (.cons (k "rel_res" (by decide) _ _) .nil))

theorem resid_agree [LinearOrder K] (rt : K → K) {l : List Int} {a : A} (h : ∀ n ∈ l, InB sz a n) (x y : K) :
    Agree sz (fun r r' => SameRow r.1 r'.1) (residualCalculator rt x l a) (residualCalculator rt y l a) :=
  (residNorm_agree rt h).bind fun r r' _ => Agree.ret (residRecord_same x y r r')

theorem gradCell3_runs {g : Grid3} (hg : g.Ok) (h1 : 1 ≤ g.nhalo) {f : A} (hs : sz f = g.size) (rt : K → K) (dx : K)
    {i j k : Int} (h : g.Int3 i j k) (m : Mem A K) : ∃ x, (g.gradCell rt dx f (g.at3 i j k)).run sz m = .ok (x, m) := by
  have hp := h.pad hg
  have rd : ∀ a b c, g.Pad a b c → (Prog.rd f (g.at3 a b c) : Prog A K K).run sz m = .ok (m f (g.at3 a b c), m) := by
    intro a b c hb
    have := Grid3.at3_bounds hb
    exact run_rd ⟨this.1, hs ▸ this.2⟩ m
  unfold Grid3.gradCell
  simp only [Grid3.getI_at3 hp, Grid3.getJ_at3 hp, Grid3.getK_at3 hp]
  obtain ⟨a, b, c⟩ := h
  have P : ∀ x y z, x - i ∈ [(-1 : Int), 0, 1] → y - j ∈ [(-1 : Int), 0, 1] → z - k ∈ [(-1 : Int), 0, 1] → g.Pad x y z := by
    intro x y z hx hy hz
    simp only [List.mem_cons, List.not_mem_nil, or_false] at hx hy hz
    unfold Grid3.Pad; omega
  rw [run_bind_ok (rd i j k hp),
    run_bind_ok (sideDiff_run (fun _ => rd _ _ _ (P _ _ _ (by simp) (by simp) (by simp)))
      (fun _ => rd _ _ _ (P _ _ _ (by simp) (by simp) (by simp)))),
    run_bind_ok (sideDiff_run (fun _ => rd _ _ _ (P _ _ _ (by simp) (by simp) (by simp)))
      (fun _ => rd _ _ _ (P _ _ _ (by simp) (by simp) (by simp)))),
    run_bind_ok (sideDiff_run (fun _ => rd _ _ _ (P _ _ _ (by simp) (by simp) (by simp)))
      (fun _ => rd _ _ _ (P _ _ _ (by simp) (by simp) (by simp))))]
  exact ⟨_, rfl⟩

theorem gradCell2_runs {g : Grid2} (hg : g.Ok) (h1 : 1 ≤ g.nhalo) {f : A} (hs : sz f = g.size) (rt : K → K) (dx : K)
    {i j : Int} (h : g.Int2 i j) (m : Mem A K) : ∃ x, (g.gradCell rt dx f (g.at2 i j)).run sz m = .ok (x, m) := by
  have hp := h.pad hg
  have rd : ∀ a b, g.Pad a b → (Prog.rd f (g.at2 a b) : Prog A K K).run sz m = .ok (m f (g.at2 a b), m) := by
    intro a b hb
    have := Grid2.at2_bounds hb
    exact run_rd ⟨this.1, hs ▸ this.2⟩ m
  unfold Grid2.gradCell
  simp only [(Grid2.get_at2 hp).1, (Grid2.get_at2 hp).2]
  obtain ⟨a, b⟩ := h
  have P : ∀ x y, x - i ∈ [(-1 : Int), 0, 1] → y - j ∈ [(-1 : Int), 0, 1] → g.Pad x y := by
    intro x y hx hy
    simp only [List.mem_cons, List.not_mem_nil, or_false] at hx hy
    unfold Grid2.Pad; omega
  rw [run_bind_ok (rd i j hp),
    run_bind_ok (sideDiff_run (fun _ => rd _ _ (P _ _ (by simp) (by simp)))
      (fun _ => rd _ _ (P _ _ (by simp) (by simp)))),
    run_bind_ok (sideDiff_run (fun _ => rd _ _ (P _ _ (by simp) (by simp)))
      (fun _ => rd _ _ (P _ _ (by simp) (by simp))))]
  exact ⟨_, rfl⟩

theorem solMon3_agree [LinearOrder K] {G : Geom3} (hG : G.Ok) (h1 : 1 ≤ G.g.nhalo) {f : A} (hs : sz f = G.g.size) (rt : K → K)
    (big tiny dx : K) : Agree sz (fun v v' => v.1 = v'.1 ∧ v.2.1 = v'.2.1) (G.solMonitor rt big tiny dx f)
      (G.solMonitor rt big tiny dx f) := by
  have rd : ∀ n ∈ G.interior, ∀ m : Mem A K, ∃ x,
      (Prog.rd f (G.g.at3 (G.g.getI n) (G.g.getJ n) (G.g.getK n)) : Prog A K K).run sz m = .ok (x, m) := by
    intro n hn m
    obtain ⟨i, j, k, h, rfl⟩ := hG.mem_int.1 hn
    have hp := h.pad hG.ok
    rw [Grid3.getI_at3 hp, Grid3.getJ_at3 hp, Grid3.getK_at3 hp]
    exact ⟨_, run_rd (hG.int_inB hs hn) m⟩
  unfold Geom3.solMonitor
  refine (Agree.reduceAC min_assoc min_comm _ _ (redIdx_run rd)).bind ?_
  rintro mn _ rfl
  refine (Agree.reduceAC max_assoc max_comm _ _ (redIdx_run rd)).bind ?_
  rintro mx _ rfl
  refine (Agree.reduceAny _ _ _ (redIdx_run fun n hn m => ?_)).bind fun _ _ _ => Agree.ret ⟨rfl, rfl⟩
  obtain ⟨i, j, k, h, rfl⟩ := hG.mem_int.1 hn
  exact gradCell3_runs hG.ok h1 hs rt dx h m

theorem solMon2_agree [LinearOrder K] {G : Geom2} (hG : G.Ok) (h1 : 1 ≤ G.g.nhalo) {f : A} (hs : sz f = G.g.size) (rt : K → K)
    (big tiny dx : K) : Agree sz (fun v v' => v.1 = v'.1 ∧ v.2.1 = v'.2.1) (G.solMonitor rt big tiny dx f)
      (G.solMonitor rt big tiny dx f) := by
  have rd : ∀ n ∈ G.interior, ∀ m : Mem A K, ∃ x,
      (Prog.rd f (G.g.at2 (G.g.getI n) (G.g.getJ n)) : Prog A K K).run sz m = .ok (x, m) := by
    intro n hn m
    obtain ⟨i, j, h, rfl⟩ := hG.mem_int.1 hn
    have hp := h.pad hG.ok
    rw [(Grid2.get_at2 hp).1, (Grid2.get_at2 hp).2]
    exact ⟨_, run_rd (hG.int_inB hs hn) m⟩
  unfold Geom2.solMonitor
  refine (Agree.reduceAC min_assoc min_comm _ _ (redIdx_run rd)).bind ?_
  rintro mn _ rfl
  refine (Agree.reduceAC max_assoc max_comm _ _ (redIdx_run rd)).bind ?_
  rintro mx _ rfl
  refine (Agree.reduceAny _ _ _ (redIdx_run fun n hn m => ?_)).bind fun _ _ _ => Agree.ret ⟨rfl, rfl⟩
  obtain ⟨i, j, h, rfl⟩ := hG.mem_int.1 hn
  exact gradCell2_runs hG.ok h1 hs rt dx h m

theorem ode23_agree [LinearOrder K] {N : Int} {scratch : A → Prop} {w : RKArr A} (hw : w.Ok sz N scratch)
    {rhs : A → A → K → Host A K}
    (hr : ∀ s r t, s ≠ r → ¬ scratch s → ¬ scratch r → sz s = N → sz r = N → HDet sz (rhs s r t))
    (h : Ode23 K × PID K) (t dt : K) : Agree sz Eq (ode23Do N rhs w h t dt) (ode23Do N rhs w h t dt) := by
  refine Agree.bind (R := Eq) ?_ ?_
  · refine Agree.bind (R := Eq) (Agree.ofHost (ode23_hdet hw hr h.1.first t dt)) fun _ _ _ =>
      Agree.bind (R := Eq) (Agree.reduceAC max_assoc max_comm _ _ ?_) ?_
    · intro p hp m
      obtain ⟨i, hi, rfl⟩ := List.mem_map.1 hp
      rw [mem_irange] at hi
      have hb : ∀ a ∈ [w.sol, w.res, w.k1, w.k2, w.k3, w.k4, w.stage], InB sz a i := fun a ha => by
        rw [InB, hw.size a ha]; exact hi
      refine ⟨fabs (m w.res i - (7 / 24 * m w.k1 i + 1 / 4 * m w.k2 i + 1 / 3 * m w.k3 i + 1 / 8 * m w.k4 i)), ?_⟩
      show Prog.run sz (.load w.k1 i fun x1 => .load w.k2 i fun x2 => .load w.k3 i fun x3 => .load w.k4 i fun x4 =>
        .load w.res i fun r => .pure (fabs (r - (7 / 24 * x1 + 1 / 4 * x2 + 1 / 3 * x3 + 1 / 8 * x4)))) m = _
      simp only [Prog.run]
      rw [if_pos (hb _ (by simp)), if_pos (hb _ (by simp)), if_pos (hb _ (by simp)), if_pos (hb _ (by simp)),
        if_pos (hb _ (by simp))]
    · rintro r _ rfl
      exact Agree.ret rfl
  · rintro e _ rfl
    exact Agree.ret rfl

theorem rk3_agree {N : Int} {scratch : A → Prop} {w : RKArr A} (hw : w.Ok sz N scratch) {rhs : A → A → K → Host A K}
    (hr : ∀ s r t, s ≠ r → ¬ scratch s → ¬ scratch r → sz s = N → sz r = N → HDet sz (rhs s r t))
    (h : Unit) (t dt : K) : Agree sz Eq (rk3Do N rhs w h t dt) (rk3Do N rhs w h t dt) :=
  Agree.ofHost (rk3_hdet hw hr t dt)

theorem ode23Next_agree [LinearOrder K] [Pow K K] (h : Ode23 K × PID K) (dt : K) :
    Agree (A := A) sz Eq (ode23Next h dt) (ode23Next h dt) := by
  unfold ode23Next
  split
  · exact Agree.ret rfl
  · exact Agree.fail _

theorem sim3_agree [LinearOrder K] {H : Type} (E : Env K) {G : Geom3} (hG : G.Ok) (h1 : 1 ≤ G.g.nhalo) (dx : K) {w : ProgArr A}
    (h2 : sz w.rk.sol = G.g.size) (h3 : sz w.rk.res = G.g.size) (ms : Int) {ds : H → K → K → Cmd A K H}
    {nd : H → K → Cmd A K (H × K)} (hd : ∀ h t dt, Agree sz Eq (ds h t dt) (ds h t dt))
    (hn : ∀ h dt, Agree sz Eq (nd h dt) (nd h dt)) : SimAgree sz (sim3 E G dx w ms ds nd) where
  doStep := hd
  nextDT := hn
  resid a b := resid_agree E.rt (fun n hn => hG.int_inB h3 hn) a b
  solMon := solMon3_agree hG h1 h2 _ _ _ _
  write st := Agree.ofProg _

theorem sim2_agree [LinearOrder K] {H : Type} (E : Env K) {G : Geom2} (hG : G.Ok) (h1 : 1 ≤ G.g.nhalo) (dx : K) {w : ProgArr A}
    (h2 : sz w.rk.sol = G.g.size) (h3 : sz w.rk.res = G.g.size) (ms : Int) {ds : H → K → K → Cmd A K H}
    {nd : H → K → Cmd A K (H × K)} (hd : ∀ h t dt, Agree sz Eq (ds h t dt) (ds h t dt))
    (hn : ∀ h dt, Agree sz Eq (nd h dt) (nd h dt)) : SimAgree sz (sim2 E G dx w ms ds nd) where
  doStep := hd
  nextDT := hn
  resid a b := resid_agree E.rt (fun n hn => hG.int_inB h3 hn) a b
  solMon := solMon2_agree hG h1 h2 _ _ _ _
  write st := Agree.ofProg _

theorem icConst_hdet {G : Geom3} (hG : G.Ok) {c : A} (hs : sz c = G.g.size) (v : K) : HDet sz (icConst G.interior c v) := by
  intro m
  obtain ⟨m', d, -⟩ := interior_det (K := K) hG (sz := sz) (r := c) (fun n => Prog.wr c n v) (fun _ _ _ => v) m
    (fun i j k h => ⟨hG.int_inB hs (hG.mem_int.2 ⟨i, j, k, h, rfl⟩), ⟨rfl, rfl⟩, trivial⟩)
    (fun i j k h => Mem.set_same _ _ _ _)
  exact ⟨m', d⟩

theorem icPois_agree [LinearOrder K] (E : Env K) (file : Option VtsFile) {G : Geom3} (hG : G.Ok) {c : A}
    (hs : sz c = G.g.size) (st : StateArr A) :
    Agree sz Eq (icPois E file G.interior st c) (icPois E file G.interior st c) := by
  rcases file with - | f
  · exact Agree.ofHost (icConst_hdet hG hs 0)
  · exact Agree.ofProg _

theorem icOf_agree [LinearOrder K] (E : Env K) (o : RunOpts K) (file : Option VtsFile) (l : List Int) (c : A) (st : StateArr A) :
    Agree sz Eq (icOf E o file l st c) (icOf E o file l st c) := by
  rcases file with - | f
  · exact Agree.ofSingles [_]
  · exact Agree.ofProg _

theorem readField_tol [LinearOrder K] (io : RealText K) {o o' : TimeOpts K} (e : Option String × Text)
    (h : readField io o e = .ok o') : o'.relTol = o.relTol ∧ o'.absTol = o.absTol := by
  unfold readField at h
  split at h
  · cases h; exact ⟨rfl, rfl⟩
  · split at h
    · cases h
    · split at h
      · split at h <;> cases h; exact ⟨rfl, rfl⟩
      · split at h
        · split at h <;> cases h; exact ⟨rfl, rfl⟩
        · split at h
          · split at h <;> cases h; exact ⟨rfl, rfl⟩
          · cases h; exact ⟨rfl, rfl⟩

theorem setInitialTimeStep_tol [LinearOrder K] (io : RealText K) (f : VtsFile) {o o' : TimeOpts K}
    (h : setInitialTimeStep io f o = .ok o') : o'.relTol = o.relTol ∧ o'.absTol = o.absTol := by
  unfold setInitialTimeStep at h
  generalize f.fields = l at h
  induction l generalizing o with
  | nil => cases h; exact ⟨rfl, rfl⟩
  | cons e l ih =>
    rw [List.foldlM_cons] at h
    cases h1 : readField io o e with
    | error x => rw [h1] at h; cases h
    | ok o1 =>
      rw [h1] at h
      have a := ih h
      have b := readField_tol io e h1
      exact ⟨a.1.trans b.1, a.2.trans b.2⟩

theorem timeSetup_tol [LinearOrder K] {o : RunOpts K} {E : Env K} {file : Option VtsFile} {r : TimeOpts K × String}
    (h : timeSetup o E file = .ok r) : r.1.relTol = o.relTol ∧ r.1.absTol = o.absTol := by
  unfold timeSetup at h
  rcases file with - | f
  · simp only [bind, Except.bind] at h
    split at h
    · cases h
    · cases h; exact ⟨rfl, rfl⟩
  · cases e : setInitialTimeStep E.io f o.timeOpts with
    | error x => dsimp only at h; rw [e] at h; cases h
    | ok t =>
      dsimp only at h
      rw [e] at h
      simp only [bind, Except.bind] at h
      split at h
      · cases h
      · cases h; exact setInitialTimeStep_tol E.io f e

end

end Madg
