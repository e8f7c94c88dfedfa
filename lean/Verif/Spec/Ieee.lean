/-
Numbers of a floating-point format and their exact values.
-/
import Verif.Model.IEEE
import Verif.Spec.PoisOps
import Verif.Spec.Text
import Verif.Model.Rounded

namespace Madg.Spec
variable {F : IeeeFmt}

/-- The number represented; 0 for NaN and infinities, which represent none. -/
def value : Ieee F → ℚ
  | .num x => x
  | _ => 0

/-- Neither NaN nor infinite, and a number of the format. -/
def Ordinary : Ieee F → Prop
  | .zero _ => True
  | .num x => x ≠ 0 ∧ IsFloat F.toFloatFmt x ∧ |x| < (2 : ℚ) ^ F.emax
  | _ => False

/-- A number of a format, or the number 0 for NaN and infinities, as a number of rounded arithmetic. -/
def asFl (a : Ieee F) : Fl F.toFloatFmt.round := ⟨value a⟩

/-- A library function whose results are ordinary numbers between -1 and 1 and depend on the value of the argument only. -/
structure UnitFn (f : Ieee F → Ieee F) : Prop where
  ord : ∀ a, Ordinary a → Ordinary (f a)
  le : ∀ a, Ordinary a → |value (f a)| ≤ 1
  val : ∀ a b, Ordinary a → Ordinary b → value a = value b → value (f a) = value (f b)

/-- A power function whose results are ordinary positive numbers for ordinary positive bases and ordinary exponents between 0 and 1, as
those of an accurate library function, which lie between the base and 1. -/
def PowFn (P : Ieee F → Ieee F → Ieee F) : Prop :=
  ∀ a b, Ordinary a → 0 < value a → Ordinary b → 0 ≤ value b → value b ≤ 1 → Ordinary (P a b) ∧ 0 < value (P a b)

/-- Product of the values the program's sine and cosine return at the centre of a cell, without rounding. -/
def prescribedValue (sn cs : Ieee F → Ieee F) (xb yb zb dx : Ieee F) (i j k : Int) : ℚ :=
  value (sn (centreOps xb dx i)) * value (cs (centreOps yb dx j)) * value (cs (centreOps zb dx k))

end Madg.Spec
