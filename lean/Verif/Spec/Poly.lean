/-
Polynomials in three variables and their exact Laplacians.
-/
import Verif.Spec.Ops3
import Mathlib.Algebra.MvPolynomial.PDeriv

namespace Madg.Spec
open MvPolynomial
variable {K : Type} [Field K]

/-- The point of a uniform grid with origin `o` and spacing `dx`. -/
def gridPt (o : Fin 3 → K) (dx : K) (i j k : Int) : Fin 3 → K := fun t =>
  match t with
  | 0 => o 0 + (i : K) * dx
  | 1 => o 1 + (j : K) * dx
  | 2 => o 2 + (k : K) * dx

/-- Sampling a polynomial on the grid. -/
noncomputable def sample (P : MvPolynomial (Fin 3) K) (o : Fin 3 → K) (dx : K) (i j k : Int) : K := eval (gridPt o dx i j k) P

/-- The Laplacian of a polynomial: `∂₀²P + ∂₁²P + ∂₂²P`. -/
noncomputable def polyLap (P : MvPolynomial (Fin 3) K) : MvPolynomial (Fin 3) K :=
  pderiv 0 (pderiv 0 P) + pderiv 1 (pderiv 1 P) + pderiv 2 (pderiv 2 P)

end Madg.Spec
