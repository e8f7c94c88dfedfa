/-
The Poisson problem a run in rounded arithmetic is measured against.
-/
import Verif.Spec.PoisOps
import Verif.Spec.RoundCH

namespace Madg.Spec
variable {K : Type} [Field K] [LinearOrder K]

/-- Product of the values the program's sine and cosine return at the centre of a cell, without rounding. -/
def prescribed {rnd : K → K} (sn cs : Fl rnd → Fl rnd) (xb yb zb dx : Fl rnd) (i j k : Int) : K :=
  (sn (centreOps xb dx i)).val * (cs (centreOps yb dx j)).val * (cs (centreOps zb dx k)).val

end Madg.Spec
