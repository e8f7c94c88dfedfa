/-
Transfer of states between a grid and its coarsening (spatial_discretization/discretization_3d_cart.cpp:143-286).
-/
import Verif.Model.CH3

namespace Madg
variable {A K : Type} [Arith K]

/-- `createCoarsenedDiscretization` (spatial_discretization/discretization_3d_cart.cpp:143-156): abort on an odd extent,
otherwise halve the extents, keep the halo width. The box and the boundary types are kept (they live in `Box`, `Geom3`). -/
def Grid3.coarsen (g : Grid3) : Except Err Grid3 :=
  if g.ni.tmod 2 ≠ 0 ∨ g.nj.tmod 2 ≠ 0 ∨ g.nk.tmod 2 ≠ 0 then .error .abort
  else .ok ⟨g.ni.tdiv 2, g.nj.tdiv 2, g.nk.tdiv 2, g.nhalo⟩

/-- Offsets of the eight children, in the order in which the source lists them
(spatial_discretization/discretization_3d_cart.cpp:181-185, 216-223, 247-280). -/
def children : List (Int × Int × Int) :=
  [(0, 0, 0), (1, 0, 0), (1, 1, 0), (0, 1, 0), (0, 0, 1), (1, 0, 1), (1, 1, 1), (0, 1, 1)]

/-- `interpolateFineToCoarse` (spatial_discretization/discretization_3d_cart.cpp:159-187); `Gc` is the coarse
discretization, `gf` the fine extents. -/
def Geom3.restrict (Gc : Geom3) (gf : Grid3) (fine coarse : A) : Host A K :=
  [forIdx Gc.interior fun n =>
    Geom3.loadStencil gf fine (2 * Gc.g.getI n) (2 * Gc.g.getJ n) (2 * Gc.g.getK n) children fun f =>
      Prog.wr coarse (Gc.g.at3 (Gc.g.getI n) (Gc.g.getJ n) (Gc.g.getK n))
        (1 / 8 * (f 0 0 0 + f 1 0 0 + f 1 1 0 + f 0 1 0 + f 0 0 1 + f 1 0 1 + f 1 1 1 + f 0 1 1))]

/-- The `"nearest"` branch of `interpolateCoarseToFine` (spatial_discretization/discretization_3d_cart.cpp:201-224);
the eight stores are a loop over `children`. -/
def Geom3.prolongNearest (Gc : Geom3) (gf : Grid3) (coarse fine : A) : Host A K :=
  [forIdx Gc.interior fun n => do
    let v ← Prog.rd coarse (Gc.g.at3 (Gc.g.getI n) (Gc.g.getJ n) (Gc.g.getK n))
    Prog.forEach children fun o =>
      Prog.wr fine (gf.at3 (2 * Gc.g.getI n + o.1) (2 * Gc.g.getJ n + o.2.1) (2 * Gc.g.getK n + o.2.2)) v]

/-- The corners read by the linear branch, in load order (spatial_discretization/discretization_3d_cart.cpp:237-245). -/
def corners : List (Int × Int × Int) :=
  [(0, 0, 0), (1, 0, 0), (1, 1, 0), (0, 1, 0), (0, 0, 1), (1, 0, 1), (1, 1, 1), (0, 1, 1)]

/-- Weights of one fine value in units of 1/64, in the order of the source:
`s_i1j1k, s_i1j1k1, s_i1jk, s_i1jk1, s_ij1k, s_ij1k1, s_ijk, s_ijk1`. The literals are exact binary fractions:
0.421875 = 27/64, 0.140625 = 9/64, 0.046875 = 3/64, 0.015625 = 1/64
(spatial_discretization/discretization_3d_cart.cpp:247-280). -/
structure LinW where
  i1j1k : Int
  i1j1k1 : Int
  i1jk : Int
  i1jk1 : Int
  ij1k : Int
  ij1k1 : Int
  ijk : Int
  ijk1 : Int
  deriving DecidableEq

/-- The eight assignments of the linear branch, child offset and weights
(spatial_discretization/discretization_3d_cart.cpp:247-280). -/
def linTable : List ((Int × Int × Int) × LinW) :=
  [((0, 0, 0), ⟨9, 3, 9, 3, 3, 1, 27, 9⟩),
   ((1, 0, 0), ⟨3, 1, 27, 9, 9, 3, 9, 3⟩),
   ((1, 1, 0), ⟨9, 3, 9, 3, 27, 9, 3, 1⟩),
   ((0, 1, 0), ⟨27, 9, 3, 1, 9, 3, 9, 3⟩),
   ((0, 0, 1), ⟨3, 9, 3, 9, 1, 3, 9, 27⟩),
   ((1, 0, 1), ⟨1, 3, 9, 27, 3, 9, 3, 9⟩),
   ((1, 1, 1), ⟨3, 9, 3, 9, 9, 27, 1, 3⟩),
   ((0, 1, 1), ⟨9, 27, 1, 3, 3, 9, 3, 9⟩)]

/-- Right-hand side of one assignment (spatial_discretization/discretization_3d_cart.cpp:247-280). -/
def LinW.comb (w : LinW) (f : Int → Int → Int → K) : K :=
  w.i1j1k / 64 * f 1 1 0 + w.i1j1k1 / 64 * f 1 1 1 + w.i1jk / 64 * f 1 0 0 + w.i1jk1 / 64 * f 1 0 1 +
    w.ij1k / 64 * f 0 1 0 + w.ij1k1 / 64 * f 0 1 1 + w.ijk / 64 * f 0 0 0 + w.ijk1 / 64 * f 0 0 1

/-- Body of the inner loop of the linear branch (spatial_discretization/discretization_3d_cart.cpp:235-280). -/
def linBody (gc gf : Grid3) (coarse fine : A) (i j k : Int) : Prog A K Unit :=
  Geom3.loadStencil gc coarse i j k corners fun f =>
    Prog.forEach linTable fun t =>
      Prog.wr fine (gf.at3 (2 * i + 1 + t.1.1) (2 * j + 1 + t.1.2.1) (2 * k + 1 + t.1.2.2)) (t.2.comb f)

/-- The `"linear"` branch of `interpolateCoarseToFine` (spatial_discretization/discretization_3d_cart.cpp:225-282). -/
def Geom3.prolongLinear (Gc : Geom3) (gf : Grid3) (coarse fine : A) : Host A K :=
  [forAll (-1) Gc.g.ni fun i =>
    Prog.forEach (irange (-1) Gc.g.nj) fun j =>
    Prog.forEach (irange (-1) Gc.g.nk) fun k => linBody Gc.g gf coarse fine i j k]

/-- `interpolateCoarseToFine` (spatial_discretization/discretization_3d_cart.cpp:190-286): dispatch on the
`mg_interpolation` option, abort on any other value. -/
def Geom3.prolong (Gc : Geom3) (gf : Grid3) (mode : String) (coarse fine : A) : Host A K :=
  if mode = "nearest" then Gc.prolongNearest gf coarse fine
  else if mode = "linear" then Gc.prolongLinear gf coarse fine
  else abortHost

end Madg
