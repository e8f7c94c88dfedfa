/-
Vertex and cell-centre coordinates filled by the discretization constructors.
-/
import Verif.Model.Grid3
import Verif.Model.Grid2

namespace Madg
variable {A K : Type} [Arith K]

/-- Lower corner and upper x end of the box (spatial_discretization/spatial_discretization.hpp:9-23). The upper ends in y
and z are not used by the constructors. -/
structure Box (K : Type) where
  xbeg : K
  xend : K
  ybeg : K
  zbeg : K

/-- `dx_((domain.xend - domain.xbeg) / real_wp(ni_))` (spatial_discretization/discretization_3d_cart.cpp:17,
spatial_discretization/discretization_2d_cart.cpp:10). -/
def Box.dx (b : Box K) (n : Int) : K := (b.xend - b.xbeg) / (n : K)

/-- Extents of the vertex arrays (spatial_discretization/discretization_3d_cart.cpp:30-32). -/
def Grid3.vert (g : Grid3) : Grid3 := ⟨g.ni + 1, g.nj + 1, g.nk + 1, g.nhalo⟩

/-- Extents of the 2D vertex arrays (spatial_discretization/discretization_2d_cart.cpp:15-16). -/
def Grid2.vert (g : Grid2) : Grid2 := ⟨g.ni + 1, g.nj + 1, g.nhalo⟩

/-- Coordinate arrays of a 3D discretization (`x_coord_` …, spatial_discretization/discretization_3d_cart.cpp:27-32). -/
structure CoordArr (A : Type) where
  x : A
  y : A
  z : A
  xv : A
  yv : A
  zv : A

/-- Vertex loop (spatial_discretization/discretization_3d_cart.cpp:48-62), a sequential host loop. -/
def Grid3.vertexLoop (g : Grid3) (b : Box K) (w : CoordArr A) : Prog A K Unit :=
  Prog.forEach (irange (-g.nhalo) (g.ni + g.nhalo + 1)) fun i =>
  Prog.forEach (irange (-g.nhalo) (g.nj + g.nhalo + 1)) fun j =>
  Prog.forEach (irange (-g.nhalo) (g.nk + g.nhalo + 1)) fun k => do
    Prog.wr w.xv (g.vert.at3 i j k) (b.xbeg + b.dx g.ni * (i : K))
    Prog.wr w.yv (g.vert.at3 i j k) (b.ybeg + b.dx g.ni * (j : K))
    Prog.wr w.zv (g.vert.at3 i j k) (b.zbeg + b.dx g.ni * (k : K))

/-- Centre loop (spatial_discretization/discretization_3d_cart.cpp:65-82); `0.5` is `1 / 2`. -/
def Grid3.centreLoop (g : Grid3) (w : CoordArr A) : Prog A K Unit :=
  Prog.forEach (irange (-g.nhalo) (g.ni + g.nhalo)) fun i =>
  Prog.forEach (irange (-g.nhalo) (g.nj + g.nhalo)) fun j =>
  Prog.forEach (irange (-g.nhalo) (g.nk + g.nhalo)) fun k => do
    let a ← Prog.rd w.xv (g.vert.at3 i j k)
    let c ← Prog.rd w.xv (g.vert.at3 (i + 1) j k)
    Prog.wr w.x (g.at3 i j k) (1 / 2 * (a + c))
    let a ← Prog.rd w.yv (g.vert.at3 i j k)
    let c ← Prog.rd w.yv (g.vert.at3 i (j + 1) k)
    Prog.wr w.y (g.at3 i j k) (1 / 2 * (a + c))
    let a ← Prog.rd w.zv (g.vert.at3 i j k)
    let c ← Prog.rd w.zv (g.vert.at3 i j (k + 1))
    Prog.wr w.z (g.at3 i j k) (1 / 2 * (a + c))

/-- Coordinate part of the 3D constructor (spatial_discretization/discretization_3d_cart.cpp:48-82). -/
def Grid3.fillCoords (g : Grid3) (b : Box K) (w : CoordArr A) : Host A K := [[g.vertexLoop b w], [g.centreLoop w]]

/-- Vertex loop in 2D (spatial_discretization/discretization_2d_cart.cpp:66-76). The y extent of the loop is `ni_`. -/
def Grid2.vertexLoop (g : Grid2) (b : Box K) (w : CoordArr A) : Prog A K Unit :=
  Prog.forEach (irange (-g.nhalo) (g.ni + g.nhalo + 1)) fun i =>
  Prog.forEach (irange (-g.nhalo) (g.ni + g.nhalo + 1)) fun j => do
    Prog.wr w.xv (g.vert.at2 i j) (b.xbeg + b.dx g.ni * (i : K))
    Prog.wr w.yv (g.vert.at2 i j) (b.ybeg + b.dx g.ni * (j : K))

/-- Centre loop in 2D (spatial_discretization/discretization_2d_cart.cpp:78-90). -/
def Grid2.centreLoop (g : Grid2) (w : CoordArr A) : Prog A K Unit :=
  Prog.forEach (irange (-g.nhalo) (g.ni + g.nhalo)) fun i =>
  Prog.forEach (irange (-g.nhalo) (g.ni + g.nhalo)) fun j => do
    let a ← Prog.rd w.xv (g.vert.at2 i j)
    let c ← Prog.rd w.xv (g.vert.at2 (i + 1) j)
    Prog.wr w.x (g.at2 i j) (1 / 2 * (a + c))
    let a ← Prog.rd w.yv (g.vert.at2 i j)
    let c ← Prog.rd w.yv (g.vert.at2 i (j + 1))
    Prog.wr w.y (g.at2 i j) (1 / 2 * (a + c))

/-- Coordinate part of the 2D constructor (spatial_discretization/discretization_2d_cart.cpp:66-90). -/
def Grid2.fillCoords (g : Grid2) (b : Box K) (w : CoordArr A) : Host A K := [[g.vertexLoop b w], [g.centreLoop w]]

end Madg
