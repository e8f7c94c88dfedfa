/-
The total of a 2D grid after a step with rounding errors.
-/
import Verif.Proofs.RoundRK
import Verif.Proofs.RKCH

set_option linter.unusedSectionVars false

namespace Madg
open Spec

section
variable {K : Type} [Field K] [LinearOrder K] [IsStrictOrderedRing K]

theorem sum2_close {n : Int} (hn : 0 ≤ n) {f g : Int × Int → K} {δ : K}
    (h : ∀ c, In2 n c → |f c - g c| ≤ δ) : |total2 n f - total2 n g| ≤ ((n * n : Int) : K) * δ := by
  rw [← map_sub, ← sum2_const' hn]
  show |sum2 n n _| ≤ sum2 n n _
  unfold sum2
  refine (Finset.abs_sum_le_sum_abs _ _).trans (Finset.sum_le_sum fun i hi => ?_)
  refine (Finset.abs_sum_le_sum_abs _ _).trans (Finset.sum_le_sum fun j hj => ?_)
  rw [Finset.mem_Ico] at hi hj
  exact h (i, j) ⟨hi, hj⟩

variable {n : Int} (hn : 1 ≤ n) (p : CHParams K) (dx : K)
include hn

/-- Distance of the total from its target. -/
def excess2 (n : Int) (p : CHParams K) (y : Int × Int → K) : K :=
  total2 n y - ((n * n : Int) : K) * p.m

theorem excess_update2 {dt δ : K} {y y' e : Int × Int → K} (h : ∀ c, In2 n c → |y' c - (y c + dt * e c)| ≤ δ) :
    |excess2 n p y' - (excess2 n p y + dt * total2 n e)| ≤ ((n * n : Int) : K) * δ := by
  have := sum2_close (by omega) (f := y') (g := y + dt • e) h
  rw [map_add, map_smul, smul_eq_mul] at this
  unfold excess2
  rw [show total2 n y' - ((n * n : Int) : K) * p.m - (total2 n y - ((n * n : Int) : K) * p.m +
    dt * total2 n e) = total2 n y' - (total2 n y + dt * total2 n e) by ring]
  exact this

/-- The total after a three-stage step whose stages are computed with errors of at most `δ`. -/
theorem drift_rk3_2 {dt δ : K} (h0 : 0 ≤ p.sigma * dt) (h1 : p.sigma * dt ≤ 1) {y y2 y3 y' : Int × Int → K}
    (e2 : ∀ c, In2 n c → |y2 c - (y c + dt * chField2 p dx n 0 y c)| ≤ δ)
    (e3 : ∀ c, In2 n c → |y3 c - (y c + dt * (1 / 4 * chField2 p dx n 0 y c +
      1 / 4 * chField2 p dx n 0 y2 c))| ≤ δ)
    (e4 : ∀ c, In2 n c → |y' c - (y c + dt * (1 / 6 * chField2 p dx n 0 y c +
      1 / 6 * chField2 p dx n 0 y2 c +
      2 / 3 * chField2 p dx n 0 y3 c))| ≤ δ) :
    |excess2 n p y' - (1 - p.sigma * dt + (p.sigma * dt) ^ 2 / 2 - (p.sigma * dt) ^ 3 / 6) * excess2 n p y| ≤
      (1 + 2 * (p.sigma * dt)) * (((n * n : Int) : K) * δ) := by
  have T := total2_rhs p dx hn 0
  have E : ∀ v, total2 n v - ((n * n : Int) : K) * p.m = excess2 n p v := fun v => rfl
  have a2 := excess_update2 hn p e2
  have a3 := excess_update2 hn p (e := fun c => 1 / 4 * chField2 p dx n 0 y c +
      1 / 4 * chField2 p dx n 0 y2 c) e3
  have a4 := excess_update2 hn p (e := fun c => 1 / 6 * chField2 p dx n 0 y c +
      1 / 6 * chField2 p dx n 0 y2 c +
      2 / 3 * chField2 p dx n 0 y3 c) e4
  have l3 := (total2 n).map_add ((1 / 4 : K) • chField2 p dx n 0 y)
    ((1 / 4 : K) • chField2 p dx n 0 y2)
  have l4 : total2 n ((1 / 6 : K) • chField2 p dx n 0 y + (1 / 6 : K) • chField2 p dx n 0 y2 +
      (2 / 3 : K) • chField2 p dx n 0 y3) = 1 / 6 * (-p.sigma * excess2 n p y) +
      1 / 6 * (-p.sigma * excess2 n p y2) + 2 / 3 * (-p.sigma * excess2 n p y3) := by
    simp only [map_add, map_smul, smul_eq_mul, T, E]
  simp only [map_smul, smul_eq_mul, T, E] at l3 a2
  refine drift_rk3_scalar h0 h1 (d2 := excess2 n p y2) (d3 := excess2 n p y3) ?_ ?_ ?_
  · refine le_trans (le_of_eq ?_) a2
    congr 1; ring
  · refine le_trans (le_of_eq ?_) a3
    refine Eq.trans ?_ (congrArg (fun x => |excess2 n p y3 - (excess2 n p y + dt * x)|) l3.symm)
    congr 1; ring
  · refine le_trans (le_of_eq ?_) a4
    refine Eq.trans ?_ (congrArg (fun x => |excess2 n p y' - (excess2 n p y + dt * x)|) l4.symm)
    congr 1; ring

theorem drift_ode23_2 {dt δ : K} (h0 : 0 ≤ p.sigma * dt) (h1 : p.sigma * dt ≤ 1) {y y2 y3 y' : Int × Int → K}
    (e2 : ∀ c, In2 n c → |y2 c - (y c + dt * (1 / 2 * chField2 p dx n 0 y c))| ≤ δ)
    (e3 : ∀ c, In2 n c → |y3 c - (y c + dt * (0 * chField2 p dx n 0 y c +
      3 / 4 * chField2 p dx n 0 y2 c))| ≤ δ)
    (e4 : ∀ c, In2 n c → |y' c - (y c + dt * (2 / 9 * chField2 p dx n 0 y c +
      1 / 3 * chField2 p dx n 0 y2 c +
      4 / 9 * chField2 p dx n 0 y3 c))| ≤ δ) :
    |excess2 n p y' - (1 - p.sigma * dt + (p.sigma * dt) ^ 2 / 2 - (p.sigma * dt) ^ 3 / 6) * excess2 n p y| ≤
      (1 + 2 * (p.sigma * dt)) * (((n * n : Int) : K) * δ) := by
  have T := total2_rhs p dx hn 0
  have E : ∀ v, total2 n v - ((n * n : Int) : K) * p.m = excess2 n p v := fun v => rfl
  have a2 := excess_update2 hn p (e := fun c => 1 / 2 * chField2 p dx n 0 y c) e2
  have a3 := excess_update2 hn p (e := fun c => 0 * chField2 p dx n 0 y c +
      3 / 4 * chField2 p dx n 0 y2 c) e3
  have a4 := excess_update2 hn p (e := fun c => 2 / 9 * chField2 p dx n 0 y c +
      1 / 3 * chField2 p dx n 0 y2 c +
      4 / 9 * chField2 p dx n 0 y3 c) e4
  have l2 := (total2 n).map_smul (1 / 2 : K) (chField2 p dx n 0 y)
  have l3 := (total2 n).map_add ((0 : K) • chField2 p dx n 0 y)
    ((3 / 4 : K) • chField2 p dx n 0 y2)
  have l4 : total2 n ((2 / 9 : K) • chField2 p dx n 0 y + (1 / 3 : K) • chField2 p dx n 0 y2 +
      (4 / 9 : K) • chField2 p dx n 0 y3) = 2 / 9 * (-p.sigma * excess2 n p y) +
      1 / 3 * (-p.sigma * excess2 n p y2) + 4 / 9 * (-p.sigma * excess2 n p y3) := by
    simp only [map_add, map_smul, smul_eq_mul, T, E]
  rw [map_smul, map_smul] at l3
  simp only [map_smul, smul_eq_mul, T, E] at l3
  rw [smul_eq_mul, T, E] at l2
  refine drift_ode23_scalar h0 h1 (d2 := excess2 n p y2) (d3 := excess2 n p y3) ?_ ?_ ?_
  · refine le_trans (le_of_eq ?_) a2
    refine Eq.trans ?_ (congrArg (fun x => |excess2 n p y2 - (excess2 n p y + dt * x)|) l2.symm)
    congr 1; ring
  · refine le_trans (le_of_eq ?_) a3
    refine Eq.trans ?_ (congrArg (fun x => |excess2 n p y3 - (excess2 n p y + dt * x)|) l3.symm)
    congr 1; ring
  · refine le_trans (le_of_eq ?_) a4
    refine Eq.trans ?_ (congrArg (fun x => |excess2 n p y' - (excess2 n p y + dt * x)|) l4.symm)
    congr 1; ring

end

end Madg
