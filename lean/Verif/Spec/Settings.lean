/-
What reading back the printed settings means.
-/
import Verif.Model.Settings

namespace Madg.Spec

/-- A decimal number with at most `n` significant digits. -/
def Decimal (n : Nat) (y : ℚ) : Prop := ∃ m e : Int, |m| < 10 ^ n ∧ y = m * (10 : ℚ) ^ e

/-- `y` is a decimal number with at most `n` digits, and none of them is closer to `x`. -/
def NearestDecimal (n : Nat) (x y : ℚ) : Prop := Decimal n y ∧ ∀ z, Decimal n z → |x - y| ≤ |x - z|

/-- A text that survives in a config file: no comment sign, no end of line, no blank at either end. -/
structure Plain (t : Text) : Prop where
  comment : '#' ∉ t
  newline : '\n' ∉ t
  first : ∀ c, t.head? = some c → c ≠ ' ' ∧ c ≠ '\t' ∧ c ≠ '\r'
  last : ∀ c, t.getLast? = some c → c ≠ ' ' ∧ c ≠ '\t' ∧ c ≠ '\r'

/-- What a setting becomes: real numbers are those nearest to their six digits, the others stay. -/
inductive Reread : OptVal → OptVal → Prop
  | str (t : Text) : Reread (.str t) (.str t)
  | int (i : Int) : Reread (.int i) (.int i)
  | bool (b : Bool) : Reread (.bool b) (.bool b)
  | uint (n : Nat) : Reread (.uint n) (.uint n)
  | dbl (x y : ℚ) (h : NearestDecimal 6 x y) : Reread (.dbl x) (.dbl (binary64.round y))

/-- `s'` are the settings of a run whose only option is the config file printed by a run with settings `s`. -/
def Rerun (s s' : OptState Text OptVal) : Prop :=
  ∃ entries file files, configEntries (settingsText fun n => (s.vm n).map Prod.fst) = .ok entries ∧ file ≠ [] ∧ Plain file ∧
    files file = some entries ∧ parseInputOptions optTable files freshVars [(configName, file)] = .ok s'

end Madg.Spec
