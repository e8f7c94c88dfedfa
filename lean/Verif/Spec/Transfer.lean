/-
Specification of grid transfer: eight-child average, piecewise constant and trilinear interpolation.
-/
import Verif.Spec.Sums

namespace Madg.Spec
variable {K : Type} [Field K]

/-- Average of the eight fine cells making up coarse cell `(i, j, k)`. -/
def avg8 (u : Int → Int → Int → K) (i j k : Int) : K :=
  (u (2 * i) (2 * j) (2 * k) + u (2 * i) (2 * j) (2 * k + 1) + u (2 * i) (2 * j + 1) (2 * k) + u (2 * i) (2 * j + 1) (2 * k + 1) +
    u (2 * i + 1) (2 * j) (2 * k) + u (2 * i + 1) (2 * j) (2 * k + 1) + u (2 * i + 1) (2 * j + 1) (2 * k) +
    u (2 * i + 1) (2 * j + 1) (2 * k + 1)) / 8

/-- Linear interpolation in one direction. Fine centre `x` lies a quarter of a coarse cell from the nearer of the coarse
centres `(x - 1) / 2` and `(x - 1) / 2 + 1`. -/
def lin1 (w : Int → K) (x : Int) : K :=
  if (x - 1) % 2 = 0 then 3 / 4 * w ((x - 1) / 2) + 1 / 4 * w ((x - 1) / 2 + 1)
  else 1 / 4 * w ((x - 1) / 2) + 3 / 4 * w ((x - 1) / 2 + 1)

/-- The same with the two coarse values exchanged. -/
def lin1r (w : Int → K) (x : Int) : K :=
  if (x - 1) % 2 = 0 then 1 / 4 * w ((x - 1) / 2) + 3 / 4 * w ((x - 1) / 2 + 1)
  else 3 / 4 * w ((x - 1) / 2) + 1 / 4 * w ((x - 1) / 2 + 1)

/-- Trilinear interpolation. -/
def trilin (u : Int → Int → Int → K) (x y z : Int) : K :=
  lin1 (fun c => lin1 (fun b => lin1 (fun a => u a b c) x) y) z

/-- What the code computes: interpolation in which, in the upper of the two `j` planes, the values at the two `i`
neighbours are exchanged. -/
def trilinSwapped (u : Int → Int → Int → K) (x y z : Int) : K :=
  lin1 (fun c => lin1 (fun b => if b = (y - 1) / 2 then lin1 (fun a => u a b c) x else lin1r (fun a => u a b c) x) y) z

end Madg.Spec
