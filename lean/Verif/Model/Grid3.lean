/-
3D Cartesian discretization: indexing, index lists, boundary fills, stencil operators.
Models data_structures/managed_array_3d.hpp and spatial_discretization/discretization_3d_cart.{hpp,cpp}.
-/
import Verif.Model.Arith
import Verif.Model.Loop
import Mathlib.Algebra.Field.Basic

namespace Madg

/-- `get1DindexFrom3D` (data_structures/managed_array_3d.hpp:8-12), over unbounded integers
(32-bit evaluation is modelled separately in `Verif.Model.Int32`). -/
def get1DindexFrom3D (i j k nhalo njhalo nkhalo : Int) : Int :=
  (i + nhalo) * (njhalo * nkhalo) + (j + nhalo) * nkhalo + (k + nhalo)

/-- Extents of a 3D array: interior sizes and halo width
(data_structures/managed_array_3d.hpp:59-71, 112-118). -/
structure Grid3 where
  ni : Int
  nj : Int
  nk : Int
  nhalo : Int
  deriving DecidableEq, Repr

namespace Grid3

/-- `nihalo_` (data_structures/managed_array_3d.hpp:67). -/
def nih (g : Grid3) : Int := g.ni + 2 * g.nhalo
/-- `njhalo_` (data_structures/managed_array_3d.hpp:68). -/
def njh (g : Grid3) : Int := g.nj + 2 * g.nhalo
/-- `nkhalo_` (data_structures/managed_array_3d.hpp:69). -/
def nkh (g : Grid3) : Int := g.nk + 2 * g.nhalo

/-- Number of elements allocated for a 3D array (data_structures/managed_array_3d.hpp:132,
data_structures/scalar_solution_state.hpp:41-72). -/
def size (g : Grid3) : Int := (g.ni + 2 * g.nhalo) * (g.nj + 2 * g.nhalo) * (g.nk + 2 * g.nhalo)

/-- Offset used by `operator()(i,j,k)` (data_structures/managed_array_3d.hpp:35, 52-55). -/
def at3 (g : Grid3) (i j k : Int) : Int := get1DindexFrom3D i j k g.nhalo g.njh g.nkh

/-- `i` of `getIJK` (data_structures/managed_array_3d.hpp:40); C++ division truncates. -/
def getI (g : Grid3) (n : Int) : Int := n.tdiv (g.njh * g.nkh) - g.nhalo
/-- `j` of `getIJK` (data_structures/managed_array_3d.hpp:41). -/
def getJ (g : Grid3) (n : Int) : Int := (n.tdiv g.nkh).tmod g.njh - g.nhalo
/-- `k` of `getIJK` (data_structures/managed_array_3d.hpp:42). -/
def getK (g : Grid3) (n : Int) : Int := n.tmod g.nkh - g.nhalo

/-- Values written to the interior index list, in order
(spatial_discretization/discretization_3d_cart.cpp:38-45). -/
def interiorVals (g : Grid3) : List Int :=
  (irange 0 g.ni).flatMap fun i => (irange 0 g.nj).flatMap fun j => (irange 0 g.nk).map fun k =>
    g.at3 i j k

/-- `is_halo_cell` (spatial_discretization/discretization_3d_cart.cpp:92-97). -/
def isHalo (g : Grid3) (i j k : Int) : Bool :=
  i < 0 || i ≥ g.ni || j < 0 || j ≥ g.nj || k < 0 || k ≥ g.nk

/-- The lambdas `idonor`, `jdonor`, `kdonor`
(spatial_discretization/discretization_3d_cart.cpp:102-130), `n` being the extent of the axis. -/
def donor1 (n i : Int) : Int := if i < 0 then i + n else if i ≥ n then i - n else i

/-- Halo cells in loop order (spatial_discretization/discretization_3d_cart.cpp:89-99). -/
def haloCells (g : Grid3) : List (Int × Int × Int) :=
  (irange (-g.nhalo) (g.ni + g.nhalo)).flatMap fun i =>
    (irange (-g.nhalo) (g.nj + g.nhalo)).flatMap fun j =>
      (irange (-g.nhalo) (g.nk + g.nhalo)).filterMap fun k =>
        if g.isHalo i j k then some (i, j, k) else none

/-- Values written to the receiver list (spatial_discretization/discretization_3d_cart.cpp:100). -/
def receiverVals (g : Grid3) : List Int := g.haloCells.map fun c => g.at3 c.1 c.2.1 c.2.2

/-- Values written to the donor list (spatial_discretization/discretization_3d_cart.cpp:132). -/
def donorVals (g : Grid3) : List Int :=
  g.haloCells.map fun c => g.at3 (donor1 g.ni c.1) (donor1 g.nj c.2.1) (donor1 g.nk c.2.2)

end Grid3

/-- `BCType` (spatial_discretization/spatial_discretization.hpp:7). -/
inductive BCType where
  | periodic | neumann | dirichlet
  deriving DecidableEq, Repr

/-- A constructed 3D discretization: extents, boundary types, the three index lists in use
(spatial_discretization/discretization_3d_cart.hpp, discretization_3d_cart.cpp:8-140).
The `xmin..zmax` index lists of lines 21-26 are allocated but never used and are omitted. -/
structure Geom3 where
  g : Grid3
  xbc : BCType
  ybc : BCType
  zbc : BCType
  interior : List Int
  donor : List Int
  receiver : List Int

/-- The index-list part of the constructor (spatial_discretization/discretization_3d_cart.cpp:8-46, 84-140).
Coordinates (lines 48-82) are modelled in `Verif.Model.Coords`. -/
def mkGeom3 (g : Grid3) (xbc ybc zbc : BCType) : Except Err Geom3 := do
  let interior ← fillList (g.ni * g.nj * g.nk) g.interiorVals
  let receiver ← fillList (g.nih * g.njh * g.nkh - g.ni * g.nj * g.nk) g.receiverVals
  let donor ← fillList (g.nih * g.njh * g.nkh - g.ni * g.nj * g.nk) g.donorVals
  return { g := g, xbc := xbc, ybc := ybc, zbc := zbc, interior := interior, donor := donor,
           receiver := receiver }

namespace Geom3
variable {A K : Type}

/-- `applyPeriodicBoundaryConditions` (spatial_discretization/discretization_3d_cart.cpp:354-363). -/
def applyPeriodic (G : Geom3) (state : A) : Host A K :=
  [(List.range G.donor.length).map fun i => do
    let d ← Prog.idx G.donor i
    let v ← Prog.rd state d
    let r ← Prog.idx G.receiver i
    Prog.wr state r v]

/-- `applyNeumannBCX` (spatial_discretization/discretization_3d_cart.cpp:380-401). -/
def applyNeumannBCX (G : Geom3) (state : A) : Host A K :=
  let g := G.g
  [forAll (-g.nhalo) (g.nj + g.nhalo) fun j =>
    Prog.forEach (irange (-g.nhalo) (g.nk + g.nhalo)) fun k => do
      Prog.forEach (irange (-g.nhalo) 0) fun i => do
        let v ← Prog.rd state (g.at3 0 j k)
        Prog.wr state (g.at3 i j k) v
      Prog.forEach (irange g.ni (g.ni + g.nhalo)) fun i => do
        let v ← Prog.rd state (g.at3 (g.ni - 1) j k)
        Prog.wr state (g.at3 i j k) v]

/-- `applyNeumannBCY` (spatial_discretization/discretization_3d_cart.cpp:403-424). -/
def applyNeumannBCY (G : Geom3) (state : A) : Host A K :=
  let g := G.g
  [forAll (-g.nhalo) (g.ni + g.nhalo) fun i =>
    Prog.forEach (irange (-g.nhalo) (g.nk + g.nhalo)) fun k => do
      Prog.forEach (irange (-g.nhalo) 0) fun j => do
        let v ← Prog.rd state (g.at3 i 0 k)
        Prog.wr state (g.at3 i j k) v
      Prog.forEach (irange g.nj (g.nj + g.nhalo)) fun j => do
        let v ← Prog.rd state (g.at3 i (g.nj - 1) k)
        Prog.wr state (g.at3 i j k) v]

/-- `applyNeumannBCZ` (spatial_discretization/discretization_3d_cart.cpp:426-447). -/
def applyNeumannBCZ (G : Geom3) (state : A) : Host A K :=
  let g := G.g
  [forAll (-g.nhalo) (g.ni + g.nhalo) fun i =>
    Prog.forEach (irange (-g.nhalo) (g.nj + g.nhalo)) fun j => do
      Prog.forEach (irange (-g.nhalo) 0) fun k => do
        let v ← Prog.rd state (g.at3 i j 0)
        Prog.wr state (g.at3 i j k) v
      Prog.forEach (irange g.nk (g.nk + g.nhalo)) fun k => do
        let v ← Prog.rd state (g.at3 i j (g.nk - 1))
        Prog.wr state (g.at3 i j k) v]

/-- `applyNeumannBoundaryConditions` (spatial_discretization/discretization_3d_cart.cpp:366-378). -/
def applyNeumann (G : Geom3) (state : A) : Host A K :=
  (if G.xbc = .neumann then G.applyNeumannBCX state else []) ++
  (if G.ybc = .neumann then G.applyNeumannBCY state else []) ++
  (if G.zbc = .neumann then G.applyNeumannBCZ state else [])

variable [Arith K]

/-- `laplacian` (spatial_discretization/discretization_3d_cart.cpp:296-316), `dx` being `dx()`.
The loads of the source expression are issued left to right, `state(i,j,k)` last. -/
def laplacian (G : Geom3) (dx : K) (state del2state : A) : Host A K :=
  let g := G.g
  let dx2 := dx * dx
  [forIdx G.interior fun n => do
    let i := g.getI n
    let j := g.getJ n
    let k := g.getK n
    let im ← Prog.rd state (g.at3 (i - 1) j k)
    let ip ← Prog.rd state (g.at3 (i + 1) j k)
    let jm ← Prog.rd state (g.at3 i (j - 1) k)
    let jp ← Prog.rd state (g.at3 i (j + 1) k)
    let km ← Prog.rd state (g.at3 i j (k - 1))
    let kp ← Prog.rd state (g.at3 i j (k + 1))
    let c ← Prog.rd state (g.at3 i j k)
    Prog.wr del2state (g.at3 i j k) ((im + ip + jm + jp + km + kp - 6 * c) / dx2)]

/-- The 25-point biharmonic expression, shared verbatim by
spatial_discretization/discretization_3d_cart.cpp:341-349 and
governing_equations/cahn_hilliard/cahn_hilliard_3d_fd.cpp:147-155, 204-212 (`f` gives the loaded values at an
offset from the cell, `dx4` the denominator). -/
def biharmExpr (f : Int → Int → Int → K) (dx4 : K) : K :=
  (42 * f 0 0 0 -
    12 * (f 1 0 0 + f 0 1 0 + f 0 0 1 + f (-1) 0 0 + f 0 (-1) 0 + f 0 0 (-1)) +
    f 2 0 0 + f 0 2 0 + f 0 0 2 + f (-2) 0 0 + f 0 (-2) 0 + f 0 0 (-2) +
    2 * (f (-1) (-1) 0 + f (-1) 1 0 + f 1 (-1) 0 + f 1 1 0 +
         f (-1) 0 (-1) + f 1 0 (-1) + f 0 (-1) (-1) + f 0 1 (-1) +
         f (-1) 0 1 + f 1 0 1 + f 0 (-1) 1 + f 0 1 1)) / dx4

/-- The 25 offsets read by the biharmonic expression, in the order of the source
(spatial_discretization/discretization_3d_cart.cpp:342-348). -/
def biharmOffsets : List (Int × Int × Int) :=
  [(0, 0, 0), (1, 0, 0), (0, 1, 0), (0, 0, 1), (-1, 0, 0), (0, -1, 0), (0, 0, -1),
   (2, 0, 0), (0, 2, 0), (0, 0, 2), (-2, 0, 0), (0, -2, 0), (0, 0, -2),
   (-1, -1, 0), (-1, 1, 0), (1, -1, 0), (1, 1, 0),
   (-1, 0, -1), (1, 0, -1), (0, -1, -1), (0, 1, -1),
   (-1, 0, 1), (1, 0, 1), (0, -1, 1), (0, 1, 1)]

/-- Load a list of stencil offsets around `(i,j,k)` and continue with the loaded values as a function of the
offset (the repeated `f(i+a,j+b,k+c)` of
spatial_discretization/discretization_3d_cart.cpp:341-349; each offset is loaded once). -/
def loadStencil (g : Grid3) (a : A) (i j k : Int) :
    List (Int × Int × Int) → ((Int → Int → Int → K) → Prog A K Unit) → Prog A K Unit
  | [], cont => cont (fun _ _ _ => 0)
  | (x, y, z) :: os, cont => do
    let v ← Prog.rd a (g.at3 (i + x) (j + y) (k + z))
    loadStencil g a i j k os fun f =>
      cont (fun x' y' z' => if x' = x ∧ y' = y ∧ z' = z then v else f x' y' z')

/-- `biharmonic` (spatial_discretization/discretization_3d_cart.cpp:319-351). The `assert(nhalo_ >= 2)` of
line 327 is compiled out in release builds; too small a halo shows up as out-of-bounds access. -/
def biharmonic (G : Geom3) (dx : K) (f del4f : A) : Host A K :=
  let g := G.g
  let dx4 := dx * dx * dx * dx
  [forIdx G.interior fun n =>
    let i := g.getI n
    let j := g.getJ n
    let k := g.getK n
    loadStencil g f i j k biharmOffsets fun v =>
      Prog.wr del4f (g.at3 i j k) (biharmExpr v dx4)]

end Geom3

end Madg
