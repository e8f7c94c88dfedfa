/-
Right-hand side of the three-dimensional Cahn–Hilliard equation
(governing_equations/cahn_hilliard/cahn_hilliard_3d_fd.cpp).
-/
import Verif.Model.Grid3
import Verif.Spec.Ops3

namespace Madg
open Spec (CHParams)

/-- The arrays a right-hand-side evaluation touches: the state, the output and the four work arrays created by
the constructor (governing_equations/cahn_hilliard/cahn_hilliard_3d_fd.cpp:10-13). -/
structure CHArr (A : Type) where
  c : A
  r : A
  lapRhs : A
  lapArg : A
  bihar : A
  lin : A

namespace Geom3
variable {A K : Type} [Arith K]

/-- `maDGForAll(i, 0, c.size(), { del2f[i] = pow(c[i], 3.0) - c[i]; })`
(governing_equations/cahn_hilliard/cahn_hilliard_3d_fd.cpp:55 and 119). `pow(x, 3.0)` is `x ^ 3`. -/
def lapArgLoop (G : Geom3) (w : CHArr A) : Host A K :=
  [forAll 0 G.g.size fun i => do
    let v ← Prog.rd w.c i
    Prog.wr w.lapArg i (v ^ 3 - v)]

/-- `evalRHSBasic` (governing_equations/cahn_hilliard/cahn_hilliard_3d_fd.cpp:37-101). -/
def evalRHSBasic (G : Geom3) (p : CHParams K) (dx : K) (w : CHArr A) : Host A K :=
  G.applyPeriodic w.c ++ G.applyNeumann w.c ++
  G.lapArgLoop w ++
  G.laplacian dx w.lapArg w.lapRhs ++
  G.biharmonic dx w.c w.bihar ++
  [forIdx G.interior fun i => do
    let v ← Prog.rd w.c i
    Prog.wr w.lin i (p.sigma * (v - p.m))] ++
  [forAll 0 G.g.size fun i => Prog.wr w.r i 0] ++
  [forIdx G.interior fun i => do
    let del4 ← Prog.rd w.bihar i
    let del2 ← Prog.rd w.lapRhs i
    let sigterm ← Prog.rd w.lin i
    Prog.wr w.r i (-p.eps2 * del4 + del2 - sigterm)]

/-- The seven offsets read by the Laplacian expression
(governing_equations/cahn_hilliard/cahn_hilliard_3d_fd.cpp:142-144). -/
def lapOffsets : List (Int × Int × Int) :=
  [(-1, 0, 0), (1, 0, 0), (0, -1, 0), (0, 1, 0), (0, 0, -1), (0, 0, 1), (0, 0, 0)]

/-- The Laplacian expression (governing_equations/cahn_hilliard/cahn_hilliard_3d_fd.cpp:142-145, 201-202). -/
def lapExpr (f : Int → Int → Int → K) (dx2 : K) : K :=
  (f (-1) 0 0 + f 1 0 0 + f 0 (-1) 0 + f 0 1 0 + f 0 0 (-1) + f 0 0 1 - 6 * f 0 0 0) / dx2

/-- `evalRHSFused` (governing_equations/cahn_hilliard/cahn_hilliard_3d_fd.cpp:103-162). -/
def evalRHSFused (G : Geom3) (p : CHParams K) (dx : K) (w : CHArr A) : Host A K :=
  let g := G.g
  let dx2 := dx * dx
  let dx4 := dx2 * dx2
  G.applyPeriodic w.c ++ G.applyNeumann w.c ++
  G.lapArgLoop w ++
  [forIdx G.interior fun n =>
    let i := g.getI n
    let j := g.getJ n
    let k := g.getK n
    loadStencil g w.lapArg i j k lapOffsets fun la =>
    loadStencil g w.c i j k biharmOffsets fun f =>
      let del2 := lapExpr la dx2
      let del4f := biharmExpr f dx4
      let linear := p.sigma * (f 0 0 0 - p.m)
      Prog.wr w.r (g.at3 i j k) (-p.eps2 * del4f + del2 - linear)]

/-- `evalRHSFullyFused` (governing_equations/cahn_hilliard/cahn_hilliard_3d_fd.cpp:165-219). -/
def evalRHSFullyFused (G : Geom3) (p : CHParams K) (dx : K) (w : CHArr A) : Host A K :=
  let g := G.g
  let dx2 := dx * dx
  let dx4 := dx2 * dx2
  G.applyPeriodic w.c ++ G.applyNeumann w.c ++
  [forIdx G.interior fun n =>
    let i := g.getI n
    let j := g.getJ n
    let k := g.getK n
    loadStencil g w.c i j k lapOffsets fun fl =>
    loadStencil g w.c i j k biharmOffsets fun f =>
      let del2 := lapExpr (fun x y z => fl x y z ^ 3 - fl x y z) dx2
      let del4f := biharmExpr f dx4
      let linear := p.sigma * (f 0 0 0 - p.m)
      Prog.wr w.r (g.at3 i j k) (-p.eps2 * del4f + del2 - linear)]

/-- `evalRHSImpl`: dispatch on the kernel variant. The `switch` has no default case, so any other value would
leave the output untouched (governing_equations/cahn_hilliard/cahn_hilliard_3d_fd.cpp:19-34). -/
def evalRHS (G : Geom3) (variant : Int) (p : CHParams K) (dx : K) (w : CHArr A) : Host A K :=
  if variant = 0 then G.evalRHSBasic p dx w
  else if variant = 1 then G.evalRHSFused p dx w
  else if variant = 2 then G.evalRHSFullyFused p dx w
  else []

end Geom3

/-- The check in the constructor (governing_equations/cahn_hilliard/cahn_hilliard_3d_fd.cpp:7-16);
`FatalAssert` aborts the process (logger/logger.cpp:204-210). -/
def ctorCH3 (variant : Int) : Except Err Unit :=
  if 0 ≤ variant ∧ variant ≤ 2 then .ok () else .error .abort

end Madg
