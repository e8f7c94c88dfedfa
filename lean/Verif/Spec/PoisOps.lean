/-
The Poisson problem operation by operation.
-/
import Verif.Spec.Poisson
import Verif.Model.Arith

namespace Madg.Spec
variable {K : Type} [Arith K]

/-- Coordinate of the centre of cell `i` of an axis that begins at `b`, operation by operation: the mean of the two faces. -/
def centreOps (b dx : K) (i : Int) : K := 1 / 2 * ((b + dx * (i : K)) + (b + dx * ((i + 1 : Int) : K)))

/-- Prescribed boundary value `sin x cos y cos z` at a cell, operation by operation. -/
def exactOps (sn cs : K → K) (xb yb zb dx : K) (i j k : Int) : K :=
  sn (centreOps xb dx i) * cs (centreOps yb dx j) * cs (centreOps zb dx k)

/-- Right-hand side of the Poisson problem at cell `c`, operation by operation: the seven point Laplacian of the state continued
periodically in x and y and by the prescribed values in z, plus the source `3 sin x cos y cos z`. -/
def poisOps (sn cs : K → K) (xb yb zb dx : K) (nx ny nz : Int) (u : Int × Int × Int → K) (c : Int × Int × Int) : K :=
  let f := fun x y z : Int => extDirichlet nx ny nz (exactOps sn cs xb yb zb dx) (fun i j k => u (i, j, k))
    (c.1 + x) (c.2.1 + y) (c.2.2 + z)
  (f (-1) 0 0 + f 1 0 0 + f 0 (-1) 0 + f 0 1 0 + f 0 0 (-1) + f 0 0 1 - 6 * f 0 0 0) / (dx * dx) +
    3 * sn (centreOps xb dx c.1) * cs (centreOps yb dx c.2.1) * cs (centreOps zb dx c.2.2)

end Madg.Spec
