/-
Sums over the interior of a grid, discrete gradients and the discrete free energy.
Specification only; independent of the kernels.
-/
import Verif.Spec.Ops2
import Mathlib.Algebra.BigOperators.Group.Finset.Basic
import Mathlib.Order.Interval.Finset.Basic
import Mathlib.Data.Int.Interval

namespace Madg.Spec
open Finset
variable {K : Type} [Field K]

/-- Sum over the interior cells of a 2D grid. -/
def sum2 (ni nj : Int) (f : Int → Int → K) : K := ∑ i ∈ Ico 0 ni, ∑ j ∈ Ico 0 nj, f i j

/-- Sum over the interior cells of a 3D grid. -/
def sum3 (ni nj nk : Int) (f : Int → Int → Int → K) : K :=
  ∑ i ∈ Ico 0 ni, ∑ j ∈ Ico 0 nj, ∑ k ∈ Ico 0 nk, f i j k

/-- `∑ ∇v · ∇u` with forward differences, in units of the spacing. -/
def grad3 (ni nj nk : Int) (v u : Int → Int → Int → K) : K :=
  sum3 ni nj nk fun i j k =>
    (v (i + 1) j k - v i j k) * (u (i + 1) j k - u i j k) +
    (v i (j + 1) k - v i j k) * (u i (j + 1) k - u i j k) +
    (v i j (k + 1) - v i j k) * (u i j (k + 1) - u i j k)

/-- 2D version of `grad3`. -/
def grad2 (ni nj : Int) (v u : Int → Int → K) : K :=
  sum2 ni nj fun i j =>
    (v (i + 1) j - v i j) * (u (i + 1) j - u i j) + (v i (j + 1) - v i j) * (u i (j + 1) - u i j)

/-- Extension of 2D interior data to ℤ², periodic in both directions. -/
def ext2 (n : Int) (u : Int → Int → K) (i j : Int) : K := u (wrapIdx n i) (wrapIdx n j)

/-- Discrete free energy density summed over the grid:
`∑ (c²-1)²/4 + ε²/2 |∇c|²`. -/
def energy3 (eps2 dx : K) (ni nj nk : Int) (c : Int → Int → Int → K) : K :=
  sum3 ni nj nk (fun i j k => (c i j k ^ 2 - 1) ^ 2 / 4) + eps2 / 2 * (grad3 ni nj nk c c / dx ^ 2)

/-- 2D version of `energy3`. -/
def energy2 (eps2 dx : K) (ni nj : Int) (c : Int → Int → K) : K :=
  sum2 ni nj (fun i j => (c i j ^ 2 - 1) ^ 2 / 4) + eps2 / 2 * (grad2 ni nj c c / dx ^ 2)

end Madg.Spec
