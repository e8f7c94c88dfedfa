/-
What is assumed about rounding.
-/
import Mathlib.Algebra.Order.Field.Basic
import Mathlib.Algebra.Order.AbsoluteValue.Basic
import Mathlib.Algebra.Order.Group.Unbundled.Abs

namespace Madg.Spec
variable {K : Type} [Field K] [LinearOrder K]

/-- Rounding with relative error at most `u` for numbers of size at least `τ`, and with an absolute error of at most `u τ` for
smaller ones. For double precision `u = 2^-53` and `τ = 2^-1022`, the least normal number. -/
structure Rounds (rnd : K → K) (u τ : K) : Prop where
  unit : 0 ≤ u ∧ u ≤ 1 / 2
  tiny : 0 ≤ τ ∧ τ ≤ 1 / 20
  err : ∀ x, |rnd x - x| ≤ u * max |x| τ

end Madg.Spec
