/-
Solution files (file_io/vtk_solution_writer.cpp, file_io/vtk_solution_reader.cpp).

A file is modelled by the pieces of text the reader looks at: the extent attribute, the texts of the `CellData`, `Points`
and `FieldData` elements.  The XML syntax around them (fixed strings in the writer, the tinyxml2 parser in the reader) is
not modelled; files lacking one of the elements (null pointers in the reader) are outside the model.
-/
import Verif.Model.Text
import Verif.Model.Coords
import Verif.Model.CSR
import Verif.Model.TimeLoop

namespace Madg

/-- Printing and parsing of reals: `full` with `setprecision(digits10 + 1)` (file_io/vtk_solution_writer.cpp:86, 97, 167,
180), `short` with the default precision (file_io/vtk_solution_writer.cpp:69, 75, 150, 156), both `std::scientific`;
`parse` is `lexical_cast<double>` followed by conversion to `real_wp` (file_io/vtk_solution_reader.cpp:106-108, 144, 199,
207), `none` where it throws. -/
structure RealText (K : Type) where
  full : K → Text
  short : K → Text
  parse : Text → Option K

/-- The texts of a solution file: `Extent` of `Piece`, cell data, points, and name and text of each `DataArray` of
`FieldData` (file_io/vtk_solution_writer.cpp:65-105; file_io/vtk_solution_reader.cpp:24-28, 62-67, 78-83, 183-192). -/
structure VtsFile where
  extent : Text
  cells : Text
  points : Text
  fields : List (Option String × Text)

/-- Entries of `getIterationStatus` used by the writer (time_stepping/time_integrator.hpp:25-34). -/
structure Status (K : Type) where
  iter : Int
  time : K
  dt : K

section
variable {A K : Type}

/-- Text of the `FieldData` arrays (file_io/vtk_solution_writer.cpp:67-77, 148-158). -/
def statusFields (io : RealText K) (s : Status K) : List (Option String × Text) :=
  [(some "TimeValue", "\n".toList ++ io.short s.time ++ "\n     ".toList),
   (some "IterationValue", "\n".toList ++ showInt s.iter ++ "\n     ".toList),
   (some "TimeStepSize", "\n".toList ++ io.short s.dt ++ "\n     ".toList)]

/-- One line of cell data (file_io/vtk_solution_writer.cpp:86, 167). -/
def cellLine (io : RealText K) (c : A) (t : Text) (n : Int) : Prog A K Text := do
  let v ← Prog.rd c n
  pure (t ++ (io.full v ++ "\n".toList))

/-- Extent attribute (file_io/vtk_solution_writer.cpp:78, 159). -/
def extentText (ni nj nk : Int) : Text :=
  " 0 ".toList ++ showInt ni ++ " 0 ".toList ++ showInt nj ++ " 0 ".toList ++ showInt nk

/-- `write_solution_to_vtk_3d` (file_io/vtk_solution_writer.cpp:109-191) without the file name; `xv yv zv` are the vertex
arrays, `c` the field. -/
def vtkWrite3 (io : RealText K) (g : Grid3) (xv yv zv c : A) (s : Status K) : Prog A K VtsFile := do
  let cells ←
    Prog.fold (fun t k => Prog.fold (fun t j => Prog.fold (fun t i => cellLine io c t (g.at3 i j k))
      (irange 0 g.ni) t) (irange 0 g.nj) t) (irange 0 g.nk) "\n".toList
  let points ←
    Prog.fold (fun t k => Prog.fold (fun t j => Prog.fold (fun t i => do
        let x ← Prog.rd xv (g.vert.at3 i j k)
        let y ← Prog.rd yv (g.vert.at3 i j k)
        let z ← Prog.rd zv (g.vert.at3 i j k)
        pure (t ++ (io.full x ++ " ".toList ++ (io.full y ++ " ".toList) ++ (io.full z ++ "\n".toList))))
      (irange 0 (g.ni + 1)) t) (irange 0 (g.nj + 1)) t) (irange 0 (g.nk + 1)) "\n".toList
  pure { extent := extentText g.ni g.nj g.nk, cells := cells ++ "\n    ".toList,
         points := points ++ "        ".toList, fields := statusFields io s }

/-- `write_solution_to_vtk_2d` (file_io/vtk_solution_writer.cpp:34-106) without the file name. Both loops run to `ni`. -/
def vtkWrite2 (io : RealText K) (g : Grid2) (xv yv c : A) (s : Status K) : Prog A K VtsFile := do
  let cells ←
    Prog.fold (fun t j => Prog.fold (fun t i => cellLine io c t (g.at2 i j)) (irange 0 g.ni) t) (irange 0 g.ni) "\n".toList
  let points ←
    Prog.fold (fun t j => Prog.fold (fun t i => do
        let x ← Prog.rd xv (g.vert.at2 i j)
        let y ← Prog.rd yv (g.vert.at2 i j)
        pure (t ++ (io.full x ++ " ".toList ++ (io.full y ++ " ".toList) ++ ("0.0".toList ++ "\n".toList))))
      (irange 0 (g.ni + 1)) t) (irange 0 (g.ni + 1)) "\n".toList
  pure { extent := extentText g.ni g.ni 0, cells := cells ++ "\n    ".toList,
         points := points ++ "        ".toList, fields := statusFields io s }

/-- Tokens of a text block: trim and split (file_io/vtk_solution_reader.cpp:72-75, 86-88, 136-139, 194-196). -/
def tokensOf (t : Text) : List Text := splitCompress isSpaceNl (trimIf isSpaceNl t)

/-- `lexical_cast<double>`, throwing on failure (file_io/vtk_solution_reader.cpp:106, 144). -/
def castReal (io : RealText K) (t : Text) : Except Err K :=
  match io.parse t with
  | some v => .ok v
  | none => .error .thrown

/-- `lexical_cast<int>(tokens[n])` (file_io/vtk_solution_reader.cpp:39-44): indexing past the end is undefined behaviour. -/
def castIntAt (l : List Text) (n : Nat) : Except Err Int :=
  match l[n]? with
  | none => .error .outOfBounds
  | some t =>
    match readInt t with
    | some i => .ok i
    | none => .error .thrown

/-- The members of `CartesianDomainDefinition` set by `getCartesianDomain` (file_io/vtk_solution_reader.cpp:50-60, 111-114).
`yend`, `zend`, the boundary types and the halo width are left unset by it. -/
structure FileDomain (K : Type) where
  nx : Int
  ny : Int
  nz : Int
  xbeg : K
  xend : K
  ybeg : K
  zbeg : K
  deriving DecidableEq

/-- The coordinate loop, three tokens at a time (file_io/vtk_solution_reader.cpp:104-109); reading past the end of the token
vector is undefined behaviour. -/
def readPoints (io : RealText K) : List Text → Except Err (List (K × K × K))
  | [] => .ok []
  | a :: r =>
    match castReal io a with
    | .error e => .error e
    | .ok x =>
      match r with
      | [] => .error .outOfBounds
      | b :: r =>
        match castReal io b with
        | .error e => .error e
        | .ok y =>
          match r with
          | [] => .error .outOfBounds
          | c :: r =>
            match castReal io c with
            | .error e => .error e
            | .ok z =>
              match readPoints io r with
              | .error e => .error e
              | .ok l => .ok ((x, y, z) :: l)

/-- `Logger::FatalAssert` (logger/logger.cpp:204-210). -/
def fatalAssert (b : Bool) : Except Err Unit := if b then .ok () else .error .abort

section
variable [LT K] [DecidableLT K]

/-- `*min_element(v.begin(), v.end())` (file_io/vtk_solution_reader.cpp:111, 113, 114); dereferencing the end iterator of
an empty vector is undefined behaviour. -/
def minElem : List K → Except Err K
  | [] => .error .outOfBounds
  | x :: l => .ok (l.foldl (fun b y => if y < b then y else b) x)

/-- `*max_element(v.begin(), v.end())` (file_io/vtk_solution_reader.cpp:112). -/
def maxElem : List K → Except Err K
  | [] => .error .outOfBounds
  | x :: l => .ok (l.foldl (fun b y => if b < y then y else b) x)

/-- `VTKSolutionReader::getCartesianDomain` (file_io/vtk_solution_reader.cpp:16-117), over unbounded integers. The cell data
tokens of lines 62-75 are not used. -/
def getCartesianDomain (io : RealText K) (f : VtsFile) : Except Err (FileDomain K) := do
  let tokens := splitCompress isBlank (trimIf isBlank f.extent)
  let nxbeg ← castIntAt tokens 0
  let nxend ← castIntAt tokens 1
  let nybeg ← castIntAt tokens 2
  let nyend ← castIntAt tokens 3
  let nzbeg ← castIntAt tokens 4
  let nzend ← castIntAt tokens 5
  fatalAssert (nxbeg = 0)
  fatalAssert (nybeg = 0)
  fatalAssert (nzbeg = 0)
  let nz := if nzend = nzbeg then 0 else nzend
  let pts := tokensOf f.points
  let npoints : Int := (pts.length / 3 : Nat)
  if nzend = nzbeg then fatalAssert (npoints = (nxend + 1) * (nyend + 1))
  else fatalAssert (npoints = (nxend + 1) * (nyend + 1) * (nzend + 1))
  let xyz ← readPoints io pts
  let xbeg ← minElem (xyz.map (·.1))
  let xend ← maxElem (xyz.map (·.1))
  let ybeg ← minElem (xyz.map (·.2.1))
  let zbeg ← minElem (xyz.map (·.2.2))
  return { nx := nxend, ny := nyend, nz := nz, xbeg := xbeg, xend := xend, ybeg := ybeg, zbeg := zbeg }

/-- The solution state handed to the reader: a 2D or a 3D array (`dynamic_cast` at file_io/vtk_solution_reader.cpp:150, 161;
data_structures/scalar_solution_state.hpp:8-72). -/
inductive StateArr (A : Type) where
  | d2 (g : Grid2) (c : A)
  | d3 (g : Grid3) (c : A)

/-- `f0(…) = solution[solidx]; solidx++` (file_io/vtk_solution_reader.cpp:155-156, 167-168); reading past the end of the
vector is undefined behaviour. -/
def putNext (sol : List K) (c : A) (idx : Nat) (n : Int) : Prog A K Nat :=
  match sol[idx]? with
  | none => .fail .outOfBounds
  | some v => (Prog.wr c n v).bind fun _ => .pure (idx + 1)

/-- `VTKSolutionReader::setSolution` (file_io/vtk_solution_reader.cpp:120-173). A failing `dynamic_cast` throws. -/
def setSolution (io : RealText K) (f : VtsFile) (st : StateArr A) : Prog A K Unit :=
  match (tokensOf f.cells).mapM (castReal io) with
  | .error e => .fail e
  | .ok sol =>
    match getCartesianDomain io f with
    | .error e => .fail e
    | .ok dom =>
      if dom.nz = 0 then
        match st with
        | .d3 _ _ => .fail .thrown
        | .d2 g c =>
          (Prog.fold (fun s j => Prog.fold (fun s i => putNext sol c s (g.at2 i j)) (irange 0 dom.nx) s)
            (irange 0 dom.ny) 0).bind fun _ => .pure ()
      else
        match st with
        | .d2 _ _ => .fail .thrown
        | .d3 g c =>
          (Prog.fold (fun s k => Prog.fold (fun s j => Prog.fold (fun s i => putNext sol c s (g.at3 i j k))
            (irange 0 dom.nx) s) (irange 0 dom.ny) s) (irange 0 dom.nz) 0).bind fun _ => .pure ()

end

/-- One `DataArray` of `FieldData` (file_io/vtk_solution_reader.cpp:186-211). -/
def readField (io : RealText K) (o : TimeOpts K) (e : Option String × Text) : Except Err (TimeOpts K) :=
  match e.1 with
  | none => .ok o
  | some name =>
    match tokensOf e.2 with
    | [] => .error .outOfBounds
    | t :: _ =>
      if name = "TimeValue" then
        match castReal io t with
        | .ok v => .ok { o with t0 := v }
        | .error e => .error e
      else if name = "IterationValue" then
        match readInt t with
        | some i => .ok { o with initialStep := i }
        | none => .error .thrown
      else if name = "TimeStepSize" then
        match castReal io t with
        | .ok v => .ok { o with dt0 := v }
        | .error e => .error e
      else .ok o

/-- `VTKSolutionReader::setInitialTimeStep` (file_io/vtk_solution_reader.cpp:176-213), called by
`Puppeteer::timeIntegratorFactory` (initialization/puppeteer.cpp:205-207). -/
def setInitialTimeStep (io : RealText K) (f : VtsFile) (o : TimeOpts K) : Except Err (TimeOpts K) :=
  f.fields.foldlM (readField io) o

end

/-- Printing and parsing of doubles as in a double precision build (file_io/vtk_solution_writer.cpp:69, 86;
file_io/vtk_solution_reader.cpp:144; typedefs.hpp:12-13): 16 and 6 digits after the point, correctly rounded parsing. -/
def doubleText : RealText ℚ := ⟨sci 16, sci 6, readFloat binary64⟩

/-- The same in a single precision build (typedefs.hpp:9-10): `digits10 + 1 = 7` digits after the point; the text is parsed
as a double and then converted to `float`. -/
def floatText : RealText ℚ := ⟨sci 7, sci 6, fun t => (readFloat binary64 t).map binary32.round⟩

end Madg
