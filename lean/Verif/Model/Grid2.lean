/-
2D Cartesian discretization: indexing, index lists, periodic fill, stencil operators.
Models data_structures/managed_array_2d.hpp and spatial_discretization/discretization_2d_cart.{hpp,cpp}.
-/
import Verif.Model.Arith
import Verif.Model.Loop
import Verif.Spec.Ops3
import Mathlib.Algebra.Field.Basic

namespace Madg

/-- `get1Dindex` (data_structures/managed_array_2d.hpp:8-12), over unbounded integers. -/
def get1Dindex (i j nhalo njhalo : Int) : Int := (i + nhalo) * njhalo + nhalo + j

/-- Extents of a 2D array (data_structures/managed_array_2d.hpp:44-47). -/
structure Grid2 where
  ni : Int
  nj : Int
  nhalo : Int
  deriving DecidableEq, Repr

namespace Grid2

/-- `nihalo_` (data_structures/managed_array_2d.hpp:45). -/
def nih (g : Grid2) : Int := g.ni + 2 * g.nhalo
/-- `njhalo_` (data_structures/managed_array_2d.hpp:45). -/
def njh (g : Grid2) : Int := g.nj + 2 * g.nhalo
/-- Allocated elements (data_structures/managed_array_2d.hpp:86). -/
def size (g : Grid2) : Int := (g.ni + 2 * g.nhalo) * (g.nj + 2 * g.nhalo)
/-- Offset used by `operator()(i,j)` (data_structures/managed_array_2d.hpp:23, 37). -/
def at2 (g : Grid2) (i j : Int) : Int := get1Dindex i j g.nhalo g.njh
/-- `i` of `getIJ` (data_structures/managed_array_2d.hpp:27). -/
def getI (g : Grid2) (n : Int) : Int := n.tdiv g.njh - g.nhalo
/-- `j` of `getIJ` (data_structures/managed_array_2d.hpp:28). -/
def getJ (g : Grid2) (n : Int) : Int := n.tmod g.njh - g.nhalo

/-- Cells of the interior list in loop order (spatial_discretization/discretization_2d_cart.cpp:22-27). -/
def interiorCells (g : Grid2) : List (Int × Int) :=
  (irange 0 g.ni).flatMap fun i => (irange 0 g.ni).map fun j => (i, j)

/-- Cells of the boundary list in loop order: bottom and top rows with corners, then left and right columns
(spatial_discretization/discretization_2d_cart.cpp:34-63). -/
def boundaryCells (g : Grid2) : List (Int × Int) :=
  ((irange (-g.nhalo) 0).flatMap fun j => (irange (-g.nhalo) (g.ni + g.nhalo)).map fun i => (i, j)) ++
  ((irange g.ni (g.ni + g.nhalo)).flatMap fun j => (irange (-g.nhalo) (g.ni + g.nhalo)).map fun i => (i, j)) ++
  ((irange (-g.nhalo) 0).flatMap fun i => (irange 0 g.ni).map fun j => (i, j)) ++
  ((irange g.ni (g.ni + g.nhalo)).flatMap fun i => (irange 0 g.ni).map fun j => (i, j))

end Grid2

/-- A constructed 2D discretization (spatial_discretization/discretization_2d_cart.cpp:5-16). Only `nx` is used:
the grid is `n × n`. -/
structure Geom2 where
  g : Grid2
  interior : List Int
  boundary : List Int

/-- The index-list part of the constructor (spatial_discretization/discretization_2d_cart.cpp:5-64). -/
def mkGeom2 (n nhalo : Int) : Except Err Geom2 := do
  let g : Grid2 := { ni := n, nj := n, nhalo := nhalo }
  let interior ← fillList (n * n) (g.interiorCells.map fun c => g.at2 c.1 c.2)
  let boundary ← fillList ((n + 2 * nhalo) * nhalo * 2 + n * nhalo * 2)
    (g.boundaryCells.map fun c => g.at2 c.1 c.2)
  return { g := g, interior := interior, boundary := boundary }

namespace Geom2
variable {A K : Type}

/-- `applyPeriodicBoundaryConditions` (spatial_discretization/discretization_2d_cart.cpp:107-153):
four loops, each iteration running two sequential inner loops. -/
def applyPeriodic (G : Geom2) (state : A) : Host A K :=
  let g := G.g
  let h := g.nhalo
  let n := g.ni
  let copy (i j i' j' : Int) : Prog A K Unit := do
    let v ← Prog.rd state (g.at2 i' j')
    Prog.wr state (g.at2 i j) v
  [forAll 0 n fun j => do
      Prog.forEach (irange (-h) 0) fun i => copy i j (i + n) j
      Prog.forEach (irange n (n + h)) fun i => copy i j (i - n) j,
   forAll 0 n fun i => do
      Prog.forEach (irange (-h) 0) fun j => copy i j i (j + n)
      Prog.forEach (irange n (n + h)) fun j => copy i j i (j - n),
   forAll (-h) 0 fun i => do
      Prog.forEach (irange (-h) 0) fun j => copy i j (i + n) (j + n)
      Prog.forEach (irange n (n + h)) fun j => copy i j (i + n) (j - n),
   forAll n (n + h) fun i => do
      Prog.forEach (irange (-h) 0) fun j => copy i j (i - n) (j + n)
      Prog.forEach (irange n (n + h)) fun j => copy i j (i - n) (j - n)]

variable [Arith K]

/-- Load the listed offsets around `(i,j)`, each once, and continue with the values as a function of the offset
(the repeated `f(i+a,j+b)` of spatial_discretization/discretization_2d_cart.cpp:170-171, 192-195). -/
def loadStencil (g : Grid2) (a : A) (i j : Int) :
    List (Int × Int) → ((Int → Int → K) → Prog A K Unit) → Prog A K Unit
  | [], cont => cont (fun _ _ => 0)
  | (x, y) :: os, cont => do
    let v ← Prog.rd a (g.at2 (i + x) (j + y))
    loadStencil g a i j os fun f => cont (fun x' y' => if x' = x ∧ y' = y then v else f x' y')

/-- Offsets read by the Laplacian (spatial_discretization/discretization_2d_cart.cpp:170-171). -/
def lapOffsets : List (Int × Int) := [(-1, 0), (0, 0), (1, 0), (0, -1), (0, 1)]

/-- Laplacian expression (spatial_discretization/discretization_2d_cart.cpp:170-171). -/
def lapExpr (f : Int → Int → K) (dx2 : K) : K :=
  (f (-1) 0 - 2 * f 0 0 + f 1 0) / dx2 + (f 0 (-1) - 2 * f 0 0 + f 0 1) / dx2

/-- Offsets read by the biharmonic operator (spatial_discretization/discretization_2d_cart.cpp:192-194). -/
def biharmOffsets : List (Int × Int) :=
  [(0, 2), (-1, 1), (0, 1), (1, 1), (-2, 0), (-1, 0), (0, 0), (1, 0), (2, 0), (-1, -1), (0, -1), (1, -1),
   (0, -2)]

/-- Biharmonic expression (spatial_discretization/discretization_2d_cart.cpp:192-195). -/
def biharmExpr (f : Int → Int → K) (dx4 : K) : K :=
  (f 0 2 + 2 * f (-1) 1 - 8 * f 0 1 + 2 * f 1 1 + f (-2) 0 - 8 * f (-1) 0 + 20 * f 0 0 - 8 * f 1 0 + f 2 0 +
    2 * f (-1) (-1) - 8 * f 0 (-1) + 2 * f 1 (-1) + 1 * f 0 (-2)) / dx4

/-- `laplacian` (spatial_discretization/discretization_2d_cart.cpp:156-173). -/
def laplacian (G : Geom2) (dx : K) (state del2state : A) : Host A K :=
  let g := G.g
  [forIdx G.interior fun n =>
    let i := g.getI n
    let j := g.getJ n
    loadStencil g state i j lapOffsets fun f =>
      Prog.wr del2state (g.at2 i j) (lapExpr f (dx * dx))]

/-- `biharmonic` (spatial_discretization/discretization_2d_cart.cpp:176-197); the `assert(nhalo_ >= 2)` is compiled
out in release builds. -/
def biharmonic (G : Geom2) (dx : K) (f del4f : A) : Host A K :=
  let g := G.g
  [forIdx G.interior fun n =>
    let i := g.getI n
    let j := g.getJ n
    loadStencil g f i j biharmOffsets fun v =>
      Prog.wr del4f (g.at2 i j) (biharmExpr v (dx * dx * dx * dx))]

end Geom2

end Madg
