/-
The random initial condition and the right-hand side of 2D runs operation by operation.
-/
import Verif.Spec.Kahan
import Verif.Spec.RunAny
import Verif.Spec.Ops2
import Verif.Spec.Sums

namespace Madg.Spec
variable {K : Type} [Arith K]

/-- Initial concentration of cell `(i, j)` of a 2D run, operation by operation: `mean` plus the draw of the cell, minus the
difference between the compensated mean of those values and `mean`. -/
def initialAny2 (draw : Nat → K) (mean : K) (n : Int) (c : Int × Int) : K :=
  mean + draw (c.1 * n + c.2).toNat -
    (kahan ((List.range (n * n).toNat).map fun ii => mean + draw ii) / (((n * n).toNat : Nat) : K) - mean)

/-- The right-hand side of the 2D Cahn–Hilliard equation at cell `c` of a periodic grid, operation by operation. -/
def rhsOps2 (par : CHParams K) (dx : K) (n : Int) (_t : K) (u : Int × Int → K) (c : Int × Int) : K :=
  let f := fun x y : Int => ext2 n (fun i j => u (i, j)) (c.1 + x) (c.2 + y)
  let g := fun x y : Int => f x y ^ 3 - f x y;
  -par.eps2 * ((f 0 2 + 2 * f (-1) 1 - 8 * f 0 1 + 2 * f 1 1 + f (-2) 0 - 8 * f (-1) 0 + 20 * f 0 0 - 8 * f 1 0 + f 2 0 +
      2 * f (-1) (-1) - 8 * f 0 (-1) + 2 * f 1 (-1) + 1 * f 0 (-2)) / (dx * dx * dx * dx)) +
    ((g (-1) 0 - 2 * g 0 0 + g 1 0) / (dx * dx) + (g 0 (-1) - 2 * g 0 0 + g 0 1) / (dx * dx)) -
    par.sigma * (f 0 0 - par.m)

end Madg.Spec
