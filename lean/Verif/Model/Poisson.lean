/-
The Poisson verification problem (governing_equations/poisson/poisson_3d_fd.cpp).
-/
import Verif.Model.CH3

namespace Madg

/-- Arrays touched by a right-hand-side evaluation: state, output, cell-centre coordinates of the discretization
(governing_equations/poisson/poisson_3d_fd.cpp:8-32). -/
structure PoisArr (A : Type) where
  c : A
  r : A
  x : A
  y : A
  z : A

namespace Geom3
variable {A K : Type} [Arith K]

/-- Body of both halo loops of `applyDirichletBoundaryConditions` (governing_equations/poisson/poisson_3d_fd.cpp:64-67,
70-73). `sn`, `cs` stand for `sin`, `cos`. -/
def dirichletCell (g : Grid3) (sn cs : K → K) (w : PoisArr A) (i j k : Int) : Prog A K Unit := do
  let x ← Prog.rd w.x (g.at3 i j k)
  let y ← Prog.rd w.y (g.at3 i j k)
  let z ← Prog.rd w.z (g.at3 i j k)
  Prog.wr w.c (g.at3 i j k) (sn x * cs y * cs z)

/-- `applyDirichletBoundaryConditions` (governing_equations/poisson/poisson_3d_fd.cpp:46-77). -/
def applyDirichlet (G : Geom3) (sn cs : K → K) (w : PoisArr A) : Host A K :=
  let g := G.g
  [forAll (-g.nhalo) (g.ni + g.nhalo) fun i =>
    Prog.forEach (irange (-g.nhalo) (g.nj + g.nhalo)) fun j => do
      Prog.forEach (irange (-g.nhalo) 0) fun k => dirichletCell g sn cs w i j k
      Prog.forEach (irange g.nk (g.nk + g.nhalo)) fun k => dirichletCell g sn cs w i j k]

/-- `addSourceTerm` (governing_equations/poisson/poisson_3d_fd.cpp:22-44). -/
def addSource (G : Geom3) (sn cs : K → K) (w : PoisArr A) : Host A K :=
  let g := G.g
  [forIdx G.interior fun n => do
    let i := g.getI n
    let j := g.getJ n
    let k := g.getK n
    let x ← Prog.rd w.x (g.at3 i j k)
    let y ← Prog.rd w.y (g.at3 i j k)
    let z ← Prog.rd w.z (g.at3 i j k)
    let r ← Prog.rd w.r (g.at3 i j k)
    Prog.wr w.r (g.at3 i j k) (r + 3 * sn x * cs y * cs z)]

/-- `evalRHSImpl` (governing_equations/poisson/poisson_3d_fd.cpp:7-20). The `dynamic_cast`s to the 3D scalar state are taken
to succeed. -/
def poissonRHS (G : Geom3) (sn cs : K → K) (dx : K) (w : PoisArr A) : Host A K :=
  G.applyPeriodic w.c ++ G.applyDirichlet sn cs w ++ G.laplacian dx w.c w.r ++ G.addSource sn cs w

end Geom3
end Madg
