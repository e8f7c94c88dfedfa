/-
Polynomials in two variables and their exact Laplacians.
-/
import Verif.Spec.Ops2
import Mathlib.Algebra.MvPolynomial.PDeriv

namespace Madg.Spec
open MvPolynomial
variable {K : Type} [Field K]

/-- The point of a uniform 2D grid with origin `o` and spacing `dx`. -/
def gridPt2 (o : Fin 2 → K) (dx : K) (i j : Int) : Fin 2 → K := fun t =>
  match t with
  | 0 => o 0 + (i : K) * dx
  | 1 => o 1 + (j : K) * dx

/-- Sampling a polynomial on the grid. -/
noncomputable def sample2 (P : MvPolynomial (Fin 2) K) (o : Fin 2 → K) (dx : K) (i j : Int) : K := eval (gridPt2 o dx i j) P

/-- The Laplacian of a polynomial: `∂₀²P + ∂₁²P`. -/
noncomputable def polyLap2 (P : MvPolynomial (Fin 2) K) : MvPolynomial (Fin 2) K :=
  pderiv 0 (pderiv 0 P) + pderiv 1 (pderiv 1 P)

end Madg.Spec
