/-
Specification vocabulary for texts: floating-point numbers, white space, words.
-/
import Verif.Model.Text

namespace Madg.Spec

/-- The finite numbers of a binary format (no upper bound on the exponent): integer multiples, of less than `prec`
bits, of a power of two not below the least one. -/
def IsFloat (F : FloatFmt) (x : ℚ) : Prop := ∃ m e : Int, |m| < 2 ^ F.prec ∧ F.emin ≤ e ∧ x = m * (2 : ℚ) ^ e

/-- A word: nonempty, without separators. -/
def Word (p : Char → Bool) (t : Text) : Prop := t ≠ [] ∧ ∀ c ∈ t, p c = false

/-- Words, each followed by a nonempty run of separators. -/
def spaced : List (Text × Text) → Text
  | [] => []
  | (w, s) :: r => w ++ s ++ spaced r

end Madg.Spec
