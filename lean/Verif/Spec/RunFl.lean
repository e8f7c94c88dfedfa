/-
The random initial condition and the right-hand side operation by operation.
-/
import Verif.Spec.Kahan
import Verif.Spec.RunAny
import Verif.Spec.Ops3

namespace Madg.Spec
variable {K : Type} [Arith K]

/-- Initial concentration of cell `(i, j, k)` of a 3D run, operation by operation: `mean` plus the draw of the cell, minus the
difference between the compensated mean of those values and `mean`. -/
def initialAny3 (draw : Nat → K) (mean : K) (nx ny nz : Int) (c : Int × Int × Int) : K :=
  mean + draw ((c.1 * ny + c.2.1) * nz + c.2.2).toNat -
    (kahan ((List.range (nx * ny * nz).toNat).map fun ii => mean + draw ii) / (((nx * ny * nz).toNat : Nat) : K) - mean)

/-- The right-hand side of the Cahn–Hilliard equation at cell `c`, operation by operation. In variant 0 the fourth power of the
spacing is formed by three multiplications, otherwise by squaring twice. -/
def rhsOps3 (variant : Int) (par : CHParams K) (dx : K) (bx bY bz : BCType) (nx ny nz : Int) (_t : K) (u : Int × Int × Int → K)
    (c : Int × Int × Int) : K :=
  let f := fun x y z : Int => ext3 bx bY bz nx ny nz (fun i j k => u (i, j, k)) (c.1 + x) (c.2.1 + y) (c.2.2 + z)
  let g := fun x y z : Int => f x y z ^ 3 - f x y z;
  -par.eps2 * ((42 * f 0 0 0 - 12 * (f 1 0 0 + f 0 1 0 + f 0 0 1 + f (-1) 0 0 + f 0 (-1) 0 + f 0 0 (-1)) +
      f 2 0 0 + f 0 2 0 + f 0 0 2 + f (-2) 0 0 + f 0 (-2) 0 + f 0 0 (-2) +
      2 * (f (-1) (-1) 0 + f (-1) 1 0 + f 1 (-1) 0 + f 1 1 0 + f (-1) 0 (-1) + f 1 0 (-1) + f 0 (-1) (-1) + f 0 1 (-1) +
        f (-1) 0 1 + f 1 0 1 + f 0 (-1) 1 + f 0 1 1)) / (if variant = 0 then dx * dx * dx * dx else dx * dx * (dx * dx))) +
    (g (-1) 0 0 + g 1 0 0 + g 0 (-1) 0 + g 0 1 0 + g 0 0 (-1) + g 0 0 1 - 6 * g 0 0 0) / (dx * dx) -
    par.sigma * (f 0 0 0 - par.m)

end Madg.Spec
