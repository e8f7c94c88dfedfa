/-
Sizes used in bounds of rounding errors.
-/
import Verif.Spec.Round
import Verif.Spec.Ops3
import Verif.Model.Rounded

namespace Madg.Spec
variable {K : Type} [Field K] [LinearOrder K]

/-- The numbers stored in a set of parameters. -/
def valuesOf {rnd : K → K} (p : CHParams (Fl rnd)) : CHParams K := ⟨p.eps2.val, p.sigma.val, p.m.val⟩

/-- Grid spacings whose second and fourth power and their inverses are neither tiny nor huge. In double precision every spacing
between `2^-255` and `2^255` is such. -/
def Spacing (τ dx : K) : Prop := 0 < dx ∧ 4 * τ ≤ dx ^ 4 ∧ τ * dx ^ 4 ≤ 1

/-- Size of the terms of the Cahn–Hilliard right-hand side on fields with values in `[-M, M]`: the stencil weights of the
biharmonic operator and the Laplacian have absolute sums 144 and 12. -/
def rhsSize (p : CHParams K) (dx M : K) : K :=
  |p.eps2| * (144 * M / dx ^ 4) + 13 * (M ^ 3 + M) / dx ^ 2 + |p.sigma| * (M + |p.m|)

end Madg.Spec
