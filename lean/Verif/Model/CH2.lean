/-
Right-hand side of the two-dimensional Cahn–Hilliard equation
(governing_equations/cahn_hilliard/cahn_hilliard_2d_fd.cpp).
-/
import Verif.Model.Grid2
import Verif.Model.CH3

namespace Madg
open Spec (CHParams)

namespace Geom2
variable {A K : Type} [Arith K]

/-- `evalRHSImpl` (governing_equations/cahn_hilliard/cahn_hilliard_2d_fd.cpp:16-79). -/
def evalRHS (G : Geom2) (p : CHParams K) (dx : K) (w : CHArr A) : Host A K :=
  G.applyPeriodic w.c ++
  [forAll 0 G.g.size fun i => do
    let v ← Prog.rd w.c i
    Prog.wr w.lapArg i (v ^ 3 - v)] ++
  G.laplacian dx w.lapArg w.lapRhs ++
  G.biharmonic dx w.c w.bihar ++
  [forIdx G.interior fun i => do
    let v ← Prog.rd w.c i
    Prog.wr w.lin i (p.sigma * (v - p.m))] ++
  [forAll 0 G.g.size fun i => Prog.wr w.r i 0] ++
  [forIdx G.interior fun i => do
    let del4 ← Prog.rd w.bihar i
    let del2 ← Prog.rd w.lapRhs i
    let sigterm ← Prog.rd w.lin i
    Prog.wr w.r i (-p.eps2 * del4 + del2 - sigterm)]

end Geom2

end Madg
