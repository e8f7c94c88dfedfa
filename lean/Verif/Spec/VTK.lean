/-
Specification vocabulary for solution files.
-/
import Verif.Model.VTK
import Verif.Spec.Text

namespace Madg.Spec
variable {K : Type}

/-- The value survives printing and parsing, and its text is one word. -/
def Exact (io : RealText K) (v : K) : Prop := Word isSpaceNl (io.full v) ∧ io.parse (io.full v) = some v

/-- The same for the short form used for time and step size. -/
def ShortExact (io : RealText K) (v : K) : Prop := Word isSpaceNl (io.short v) ∧ io.parse (io.short v) = some v

end Madg.Spec
