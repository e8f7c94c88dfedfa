/-
C102: every single execution of an explicit run in any arithmetic, with adaptive steps and convergence tolerances.
-/
import Verif.Proofs.RunEach3
import Verif.Props.BlowUp

set_option linter.unusedSectionVars false

namespace Madg
open Spec

/-! ### Whole runs -/

section
variable {A K : Type} [DecidableEq A] [Arith K] [LT K] [DecidableLT K] [LE K] [DecidableLE K] [DecidableEq K] [Max K] [Min K] [Pow K K]
  (sz : A → Int) (E : Env K) (o : RunOpts K) (w : ProgArr A)
  (heq : o.sel.equation = "cahn-hilliard") (hcfl : o.useCfl = false) (hlf : o.logFreq ≠ 0)
  (hms : 0 < o.maxSteps) (hM : o.maxSteps < 2147483648) {bx bY bz : BCType}
  (hbx : (o.sel.bcx, bx) ∈ [("periodic", BCType.periodic), ("neumann", .neumann), ("dirichlet", .dirichlet)])
  (hby : (o.sel.bcy, bY) ∈ [("periodic", BCType.periodic), ("neumann", .neumann), ("dirichlet", .dirichlet)])
  (hbz : (o.sel.bcz, bz) ∈ [("periodic", BCType.periodic), ("neumann", .neumann), ("dirichlet", .dirichlet)])
  (hdim : o.sel.dimension = 3) (hv : o.variant = 0 ∨ o.variant = 1 ∨ o.variant = 2)
  (hn : 2 ≤ o.nx ∧ 2 ≤ o.ny ∧ 2 ≤ o.nz) (hw : Arrays3 sz w o.nx o.ny o.nz)
include heq hcfl hlf hms hM hbx hby hbz hdim hv hn hw

/-- C102. In any arithmetic, every execution of a fresh 3D Cahn–Hilliard run with the explicit integrator `rk3ssp`, with any convergence
tolerances and any order of its reductions, ends normally and its log and files are those of one documented run: the states of the
method from the documented initial state, residual norms that are sums of squares in some order, the documented stopping rule applied to
these very numbers. -/
theorem C102_rk3ssp3 (hint : o.sel.integrator = "rk3ssp") (dx : K) (hdx : dx = (o.box.xend - o.box.xbeg) / (o.nx : K))
    (W : Nat) (hW : W = max (Nat.log 10 o.maxSteps + 1) 4) (m : Mem A K) :
    RunsEach sz (program E o none w) m ⟨o.t0, o.tfinal, o.dt0, false, o.maxSteps, 0, o.relTol, o.absTol⟩ o.logFreq.natAbs
      o.saveEvery.natAbs (ssprk3Method (rhsOps3 o.variant o.par dx bx bY bz o.nx o.ny o.nz))
      (initialAny3 E.draw o.par.m o.nx o.ny o.nz) (Rms E.rt (triples o.nx o.ny o.nz))
      (Extremes E.big E.tiny (triples o.nx o.ny o.nz)) (stepName o.base W) (stepName (finalBase o.base) W)
      (vts3 E.io o.box.xbeg o.box.ybeg o.box.zbeg dx o.nx o.ny o.nz) := by
  have h := each3_rk3 (domain_none_any (E := E) (o := o) (by omega)) (file := none)
    (ti := ⟨o.t0, o.tfinal, o.dt0, false, o.maxSteps, 0, o.relTol, o.absTol⟩)
    (by dsimp only; rw [timeOpts_any hcfl hM]) heq rfl hlf hms (by dsimp only; omega) le_rfl hbx hby hbz hdim hv hn hw
    (by dsimp only; omega) (u0 := initialAny3 E.draw o.par.m o.nx o.ny o.nz)
    (fun G hG hg m => by
      obtain ⟨m1, h1, h2, h3⟩ := ic3_none_any (E := E) (o := o) hG (sz := sz) (sol := w.rk.sol)
        (by rw [hg]; exact hw.cells _ (by simp)) (.d3 ⟨o.nx, o.ny, o.nz, 2⟩ w.rk.sol) m
      rw [hg] at h2
      exact ⟨m1, h1, by rw [hg]; exact h2, h3⟩)
    hint m
  rw [hW, hdx]
  rw [chFieldA_eq] at h
  exact h

/-- C102. The same for the adaptive integrator `ode23`, whose stage arrays are 0 at the start (as data_structures/managed_array.hpp:28 leaves them): every
execution is one run of the Bogacki–Shampine method, each of its error estimates is the largest difference between the two embedded
slopes as some order of comparisons finds it, and every further step size is the documented function of these estimates. -/
theorem C102_ode23_3 (hint : o.sel.integrator = "ode23") (dx : K) (hdx : dx = (o.box.xend - o.box.xbeg) / (o.nx : K))
    (W : Nat) (hW : W = max (Nat.log 10 o.maxSteps + 1) 4) (m : Mem A K)
    (hz : ∀ a ∈ [w.rk.k1, w.rk.k2, w.rk.k3, w.rk.k4], ∀ n, m a n = 0) :
    RunsEach sz (program E o none w) m ⟨o.t0, o.tfinal, o.dt0, false, o.maxSteps, 0, o.relTol, o.absTol⟩ o.logFreq.natAbs
      o.saveEvery.natAbs (bs23Method (rhsOps3 o.variant o.par dx bx bY bz o.nx o.ny o.nz 0) (triples o.nx o.ny o.nz)
        ((o.nx + 4) * (o.ny + 4) * (o.nz + 4) - o.nx * o.ny * o.nz).toNat o.errTol o.minStep o.maxStep)
      (initialAny3 E.draw o.par.m o.nx o.ny o.nz) (Rms E.rt (triples o.nx o.ny o.nz))
      (Extremes E.big E.tiny (triples o.nx o.ny o.nz)) (stepName o.base W) (stepName (finalBase o.base) W)
      (vts3 E.io o.box.xbeg o.box.ybeg o.box.zbeg dx o.nx o.ny o.nz) := by
  have h := each3_ode23 (domain_none_any (E := E) (o := o) (by omega)) (file := none)
    (ti := ⟨o.t0, o.tfinal, o.dt0, false, o.maxSteps, 0, o.relTol, o.absTol⟩)
    (by dsimp only; rw [timeOpts_any hcfl hM]) heq rfl hlf hms (by dsimp only; omega) le_rfl hbx hby hbz hdim hv hn hw
    (by dsimp only; omega) (u0 := initialAny3 E.draw o.par.m o.nx o.ny o.nz)
    (fun G hG hg m => by
      obtain ⟨m1, h1, h2, h3⟩ := ic3_none_any (E := E) (o := o) hG (sz := sz) (sol := w.rk.sol)
        (by rw [hg]; exact hw.cells _ (by simp)) (.d3 ⟨o.nx, o.ny, o.nz, 2⟩ w.rk.sol) m
      rw [hg] at h2
      exact ⟨m1, h1, by rw [hg]; exact h2, h3⟩)
    hint m hz
  have hpad : ((⟨o.nx, o.ny, o.nz, 2⟩ : Grid3).size.toNat - (triples o.nx o.ny o.nz).length : Nat) =
      ((o.nx + 4) * (o.ny + 4) * (o.nz + 4) - o.nx * o.ny * o.nz).toNat := by
    rw [triples_eq, List.length_map, length_box3]
    obtain ⟨a, ha⟩ := Int.eq_ofNat_of_zero_le (show 0 ≤ o.nx by omega)
    obtain ⟨b, hb⟩ := Int.eq_ofNat_of_zero_le (show 0 ≤ o.ny by omega)
    obtain ⟨c, hc⟩ := Int.eq_ofNat_of_zero_le (show 0 ≤ o.nz by omega)
    rw [ha, hb, hc]
    simp only [Grid3.size, sub_zero, Int.toNat_natCast]
    have e : ((a : Int) + 4) * (b + 4) * (c + 4) - a * b * c = (((a + 4) * (b + 4) * (c + 4) : Nat) : Int) - ((c * (b * a) : Nat) : Int) := by
      push_cast
      ring
    rw [e, Int.toNat_sub]
    congr 1
  rw [hW, hdx]
  rw [chFieldA_eq, hpad] at h
  exact h

/-- C102. No parameter, tolerance, step size limit or order of reductions can crash or hang an explicit 3D Cahn–Hilliard run: with a
step limit `maxSteps` it always ends normally after at most that many steps, having written its solution files. -/
theorem C102_always_ends (hint : o.sel.integrator = "rk3ssp" ∨ o.sel.integrator = "ode23") (m : Mem A K)
    (hz : ∀ a ∈ [w.rk.k1, w.rk.k2, w.rk.k3, w.rk.k4], ∀ n, m a n = 0) :
    AllEnd sz (program E o none w o.maxSteps) m fun res _ => ∃ files rows, res = .done files rows ∧ files ≠ [] ∧
      rows.length ≤ o.maxSteps := by
  have key : ∀ {C : Type} {ti : TimeOpts K} {lf se : Nat} {M : Method K C} {u0 : C → K} {R : (C → K) → K → Prop}
      {Q : (C → K) → K × K × K → Prop} {name fname : Int → Text} {vf : (C → K) → Status K → VtsFile},
      ti.maxSteps = o.maxSteps → ti.initialStep = 0 →
      RunsEach sz (program E o none w) m ti lf se M u0 R Q name fname vf →
      AllEnd sz (program E o none w o.maxSteps) m fun res _ => ∃ files rows, res = .done files rows ∧ files ≠ [] ∧
        rows.length ≤ o.maxSteps := by
    intro C ti lf se M u0 R Q name fname vf e1 e2 h
    refine (h o.maxSteps (by omega) (by rw [e1, e2]; omega)).mono ?_
    rintro res m1 ⟨N, t, d, p, r, e, v, u, q1, q2, q3, q4, q5, rfl⟩
    have hb : ti.initialStep + N ≤ max ti.maxSteps (ti.initialStep + 1) := by
      let : Max K := byLess
      exact q2.bound (by rw [e1]; omega)
    refine ⟨_, _, rfl, by simp, ?_⟩
    refine le_trans (b := N) ?_ (by omega)
    unfold reportRows
    refine le_trans (List.length_map .. ).le ?_
    exact (List.length_filter_le ..).trans (List.length_range ..).le
  rcases hint with h | h
  · exact key rfl rfl (C102_rk3ssp3 sz E o w heq hcfl hlf hms hM hbx hby hbz hdim hv hn hw h _ rfl _ rfl m)
  · exact key rfl rfl (C102_ode23_3 sz E o w heq hcfl hlf hms hM hbx hby hbz hdim hv hn hw h _ rfl _ rfl m hz)

end

/-! ### Step sizes -/

section
variable {K : Type} [Arith K] [LT K] [DecidableLT K] [Pow K K]

/-- C102. From the fourth step on no proposed size lies below the smallest or above the largest step allowed; the only property of the
arithmetic this needs is that nothing is less than itself. -/
theorem C102_limits (hirr : ∀ x : K, ¬ x < x) (tol mn mx : K) (h : ¬ mx < mn) (d e : Nat → K) (k : Nat) (hk : 3 ≤ k) :
    ¬ proposalAny tol mn mx d e k < mn ∧ ¬ mx < proposalAny tol mn mx d e k := by
  unfold proposalAny
  dsimp only
  rw [if_neg (by omega)]
  have key : ∀ y : K, ¬ (if (if mx < y then mx else y) < mn then mn else if mx < y then mx else y) < mn ∧
      ¬ mx < (if (if mx < y then mx else y) < mn then mn else if mx < y then mx else y) := by
    intro y
    by_cases h1 : mx < y
    · rw [if_pos h1, if_neg h]
      exact ⟨h, hirr _⟩
    · rw [if_neg h1]
      by_cases h2 : y < mn
      · rw [if_pos h2]
        exact ⟨hirr _, h⟩
      · rw [if_neg h2]
        exact ⟨h2, h1⟩
  exact key _

variable [LE K] {nan : K} (hN : IsNaN nan)
include hN

/-- C102. The limits do not catch a suggestion that is not a number: the proposed size then is not a number either. -/
theorem C102_nan_proposed (tol mn mx : K) (d e : Nat → K) (k : Nat) (hk : 3 ≤ k)
    (h : pidStepAny tol (d (k - 1)) (d k) (if e (k - 2) < 1 / 2 ^ 52 then 1 / 2 ^ 52 else e (k - 2))
      (if e (k - 1) < 1 / 2 ^ 52 then 1 / 2 ^ 52 else e (k - 1)) (if e k < 1 / 2 ^ 52 then 1 / 2 ^ 52 else e k) = nan) :
    proposalAny tol mn mx d e k = nan := by
  unfold proposalAny
  dsimp only
  rw [if_neg (by omega), h, if_neg (hN.lt_right _), if_neg (hN.lt_left _), if_neg (hN.lt_right _), if_neg (hN.lt_left _)]

/-- C102. Once a proposed size is not a number, neither is any later size or time, and the final time never ends the run: it goes on to
the step limit (or to a convergence tolerance). -/
theorem C102_nan_forever [DecidableLE K] (tol mn mx T t0 dt0 : K) (t d p e : Nat → K) (hm : Marching T t0 dt0 t d p) (N k : Nat)
    (hp : ∀ i, i < N → ¬ LastStep T t p i → p (i + 1) = proposalAny tol mn mx d e i) (hk : p (k + 1) = nan) (j : Nat) (hkj : k < j)
    (hj : j ≤ N) : d j = nan ∧ t (j + 1) = nan ∧ ¬ LastStep T t p j := by
  have key : ∀ i, k + 1 + i ≤ N → p (k + 1 + i) = nan := by
    intro i
    have hstep : ∀ j, p (j + 1) = nan → d (j + 1) = nan ∧ ¬ LastStep T t p (j + 1) := by
      intro j hj
      have hn : ¬ T ≤ t (j + 1) + p (j + 1) := by rw [hj, hN.add_right]; exact hN.le_right _
      exact ⟨by rw [hm.d_succ, if_neg hn, hj], fun h => hn h.2⟩
    induction i with
    | zero => exact fun _ => hk
    | succ i ih =>
      intro hi
      have h1 := ih (by omega)
      obtain ⟨h2, h3⟩ := hstep (k + i) (by rw [← h1]; congr 1; omega)
      rw [show k + i + 1 = k + 1 + i by omega] at h2 h3
      rw [← Nat.add_assoc, hp _ (by omega) h3]
      by_cases h4 : k + 1 + i < 3
      · unfold proposalAny
        rw [if_pos h4, h2]
      · refine C102_nan_proposed hN tol mn mx d e _ (by omega) ?_
        unfold pidStepAny
        dsimp only
        rw [h2, hN.mul_right, hN.mul_left, hN.mul_left, hN.mul_left]
  obtain ⟨i, rfl⟩ : ∃ i, j = k + i + 1 := ⟨j - k - 1, by omega⟩
  have h1 := key i (by omega)
  rw [show k + 1 + i = k + i + 1 by omega] at h1
  have hn : ¬ T ≤ t (k + i + 1) + p (k + i + 1) := by rw [h1, hN.add_right]; exact hN.le_right _
  have h2 : d (k + i + 1) = nan := by rw [hm.d_succ, if_neg hn, h1]
  exact ⟨h2, by rw [hm.t_succ, h2, hN.add_right], fun h => hn h.2⟩

end

/-- Two infinite error estimates in a row do that in double precision, for every power function with the values of C's `pow` at 0 and
infinity: here sizes 1/2, tolerance 1 and limits 1/4 and 1. -/
theorem C102_infinite_errors [Pow (Ieee ieee64) (Ieee ieee64)] (hp0 : ∀ x : Ieee ieee64, 0 < x → (0 : Ieee ieee64) ^ x = 0)
    (hpi : ∀ x : Ieee ieee64, 0 < x → (.inf false : Ieee ieee64) ^ x = .inf false) (d e : Nat → Ieee ieee64)
    (hd : ∀ i, d i = 1 / 2) (k : Nat) (hk : 3 ≤ k) (h1 : e (k - 1) = .inf false) (h2 : e k = .inf false) :
    proposalAny 1 (1 / 4) 1 d e k = .nan := by
  refine C102_nan_proposed Ieee.isNaN 1 (1 / 4) 1 d e k hk ?_
  rw [h1, h2, hd, hd]
  unfold pidStepAny
  dsimp only
  rw [show (1 : Ieee ieee64) / (if (.inf false : Ieee ieee64) < 1 / 2 ^ 52 then 1 / 2 ^ 52 else .inf false) = 0 by decide +kernel,
    show (if (.inf false : Ieee ieee64) < 1 / 2 ^ 52 then 1 / 2 ^ 52 else .inf false) / 1 = (.inf false : Ieee ieee64) by decide +kernel,
    hp0 _ (by decide +kernel), hpi _ (by decide +kernel),
    show (1 : Ieee ieee64) * (1 / 2) * 0 * .inf false = .nan by decide +kernel]
  exact Ieee.isNaN.mul_left _

/-! ### Examples -/

/-- The hypotheses of `C102_limits` hold in double precision with infinities and NaN. -/
example [Pow (Ieee ieee64) (Ieee ieee64)] (d e : Nat → Ieee ieee64) :
    ¬ proposalAny 1 (1 / 4) 1 d e 3 < 1 / 4 ∧ ¬ 1 < proposalAny 1 (1 / 4) 1 d e 3 :=
  C102_limits (fun x => by
    cases x with
    | nan => decide
    | inf s => cases s <;> decide
    | zero s => cases s <;> decide
    | num q => exact fun h => lt_irrefl q (of_decide_eq_true h)) 1 (1 / 4) 1 (by decide +kernel) d e 3 le_rfl

/-- A run asked for with the step size NaN meets the hypotheses of `C102_nan_forever`. -/
example [Pow (Ieee ieee64) (Ieee ieee64)] : ¬ LastStep (2 : Ieee ieee64) (fun k => if k = 0 then 0 else .nan) (fun _ => .nan) 2 :=
  (C102_nan_forever Ieee.isNaN 1 (1 / 4) 1 2 0 .nan (fun k => if k = 0 then 0 else .nan) (fun _ => .nan) (fun _ => .nan) (fun _ => 0)
    ⟨rfl, rfl, fun k => (Ieee.isNaN.add_right _).symm, fun k => by
      rw [if_neg (by rw [Ieee.isNaN.add_right]; exact Ieee.isNaN.le_right _)]⟩ 2 0
    (fun i hi _ => by unfold proposalAny; rw [if_pos (by omega)]) rfl 2 (by omega) le_rfl).2.2

/-- The run of `blowOpts` with the adaptive integrator and both tolerances (test data). -/
def lostOpts : RunOpts (Ieee ieee64) :=
  { blowOpts with
    sel := ⟨3, "periodic", "neumann", "periodic", "cahn-hilliard", "ode23", false⟩
    relTol := 1 / 2
    absTol := 1 / 2 }

/-- The run of `blowOpts` with the adaptive integrator and both tolerances ends normally, whatever the power function. -/
example [Pow (Ieee ieee64) (Ieee ieee64)] (E : Env (Ieee ieee64)) (m : Mem _ (Ieee ieee64)) (hz : ∀ a n, m a n = 0) :
    AllEnd (demoSize 392 252) (program E lostOpts none demoArr 100) m fun res _ => ∃ files rows, res = .done files rows ∧ files ≠ [] ∧
      rows.length ≤ 100 :=
  C102_always_ends (demoSize 392 252) E lostOpts demoArr rfl rfl (by decide) (by decide) (by decide) (bx := .periodic) (bY := .neumann)
    (bz := .periodic) (by simp [lostOpts]) (by simp [lostOpts]) (by simp [lostOpts]) rfl (by simp [lostOpts, blowOpts])
    (by simp [lostOpts, blowOpts])
    ⟨by simp [demoArr], by simp [demoArr, demoSize, lostOpts, blowOpts], by simp [demoArr, demoSize, lostOpts, blowOpts]⟩ (.inr rfl) m
    (fun a _ n => hz a n)

end Madg
