/-
Specification of the two-dimensional finite-difference operators on fields over ℤ².
-/
import Verif.Spec.Ops3

namespace Madg.Spec
variable {K : Type} [Field K]

/-- Five-point Laplacian on a uniform grid of spacing `dx`. -/
def lap2 (dx : K) (u : Int → Int → K) (i j : Int) : K :=
  ((u (i + 1) j - 2 * u i j + u (i - 1) j) + (u i (j + 1) - 2 * u i j + u i (j - 1))) / dx ^ 2

/-- Discrete biharmonic operator: the Laplacian of the Laplacian. -/
def bih2 (dx : K) (u : Int → Int → K) : Int → Int → K := lap2 dx (lap2 dx u)

/-- `-ε² Δ²u + Δ(u³ - u) - σ(u - m)`. -/
def chRhs2 (p : CHParams K) (dx : K) (u : Int → Int → K) (i j : Int) : K :=
  -p.eps2 * bih2 dx u i j + lap2 dx (fun x y => u x y ^ 3 - u x y) i j - p.sigma * (u i j - p.m)

end Madg.Spec
