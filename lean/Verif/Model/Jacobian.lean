/-
Sparse Jacobian of the 3D Cahn–Hilliard right-hand side
(governing_equations/cahn_hilliard/cahn_hilliard_3d_fd.cpp:222-494).
-/
import Verif.Model.CH3
import Verif.Model.CSR

namespace Madg
open Spec (CHParams)

/-- One coordinate of `periodic_idx`
(governing_equations/cahn_hilliard/cahn_hilliard_3d_fd.cpp:251-271, 332-354): two tests in sequence. -/
def shift1 (n i : Int) : Int :=
  let i1 := if i < 0 then i + n else i
  if i1 ≥ n then i1 - n else i1

/-- `periodic_idx(i, j, k)` (governing_equations/cahn_hilliard/cahn_hilliard_3d_fd.cpp:251-271, 332-354). The code
tests the lower ends of all axes before the upper ends; the axes do not interact. -/
def Grid3.periodicIdx (g : Grid3) (i j k : Int) : Int :=
  get1DindexFrom3D (shift1 g.ni i) (shift1 g.nj j) (shift1 g.nk k) 0 g.nj g.nk

/-- Offsets in the order of the `push_back` calls
(governing_equations/cahn_hilliard/cahn_hilliard_3d_fd.cpp:283-307). -/
def jacOffsets : List (Int × Int × Int) :=
  [(0, 0, 0), (1, 0, 0), (0, 1, 0), (0, 0, 1), (-1, 0, 0), (0, -1, 0), (0, 0, -1),
   (2, 0, 0), (0, 2, 0), (0, 0, 2), (-2, 0, 0), (0, -2, 0), (0, 0, -2),
   (-1, -1, 0), (-1, 1, 0), (1, -1, 0), (1, 1, 0),
   (-1, 0, -1), (1, 0, -1), (0, -1, -1), (0, 1, -1),
   (-1, 0, 1), (1, 0, 1), (0, -1, 1), (0, 1, 1)]

/-- `std::unique` followed by `erase`: drops elements equal to their predecessor
(governing_equations/cahn_hilliard/cahn_hilliard_3d_fd.cpp:309). -/
def uniq : List Int → List Int
  | [] => []
  | x :: xs =>
    match uniq xs with
    | [] => [x]
    | y :: ys => if x = y then y :: ys else x :: y :: ys

/-- Sorted, deduplicated column indices of one row
(governing_equations/cahn_hilliard/cahn_hilliard_3d_fd.cpp:281-309). -/
def Grid3.rowCols (g : Grid3) (c : Int × Int × Int) : List Int :=
  uniq ((jacOffsets.map fun o => g.periodicIdx (c.1 + o.1) (c.2.1 + o.2.1) (c.2.2 + o.2.2)).mergeSort (fun a b => a ≤ b))

/-- The copy of one row: `col_idx[icol - row_start]` for 25 positions
(governing_equations/cahn_hilliard/cahn_hilliard_3d_fd.cpp:311-313); reading beyond the vector is undefined. -/
def Grid3.copyRow (g : Grid3) (c : Int × Int × Int) : Except Err (List Int) :=
  let cols := g.rowCols c
  if cols.length < 25 then .error .outOfBounds else .ok (cols.take 25)

/-- Sequential loop collecting results, stopping at the first error (the loops over cells of
governing_equations/cahn_hilliard/cahn_hilliard_3d_fd.cpp:278-319). -/
def collect {α β : Type} (f : α → Except Err β) : List α → Except Err (List β)
  | [] => .ok []
  | a :: as =>
    match f a with
    | .error e => .error e
    | .ok b =>
      match collect f as with
      | .error e => .error e
      | .ok bs => .ok (b :: bs)

/-- Interior cells in loop order (governing_equations/cahn_hilliard/cahn_hilliard_3d_fd.cpp:278-280). -/
def Grid3.cells (g : Grid3) : List (Int × Int × Int) :=
  (irange 0 g.ni).flatMap fun i => (irange 0 g.nj).flatMap fun j => (irange 0 g.nk).map fun k => (i, j, k)

/-- `createSparseMatrix` (governing_equations/cahn_hilliard/cahn_hilliard_3d_fd.cpp:222-328): row pointers
`25 * irow` (line 243), column indices row after row; `vals` is the name of the value array, which the new matrix fills
with zeros (`createSparseValues`). -/
def Grid3.createSparse {A : Type} (g : Grid3) (vals : A) : Except Err (CSR A) :=
  match collect g.copyRow g.cells with
  | .error e => .error e
  | .ok rows => .ok ⟨g.ni * g.nj * g.nk, g.ni * g.nj * g.nk,
      (irange 0 (g.ni * g.nj * g.nk + 1)).map fun irow => 25 * irow, rows.flatten, vals⟩

/-- Zeroing of the values (governing_equations/cahn_hilliard/cahn_hilliard_3d_fd.cpp:235-238, 421). -/
def CSR.zeroValues {A K : Type} [Field K] (M : CSR A) : Host A K :=
  [forAll 0 (M.colIdx.length : Int) fun i => Prog.wr M.vals i 0]

/-- `nNonZerosPerRow` (governing_equations/cahn_hilliard/cahn_hilliard_3d_fd.cpp:356-368). -/
def Grid3.nNonZerosPerRow (g : Grid3) : List Int := List.replicate (g.ni * g.nj * g.nk).toNat 25

section
variable {A K : Type} [Field K]

/-- `vals[val_idx] += x` (governing_equations/cahn_hilliard/cahn_hilliard_3d_fd.cpp:442-488). -/
def Prog.addTo (a : A) (p : Int) (x : K) : Prog A K Unit := do
  let v ← Prog.rd a p
  Prog.wr a p (v + x)

/-- The six axis neighbours, in the order of the tests
(governing_equations/cahn_hilliard/cahn_hilliard_3d_fd.cpp:448-471). -/
def jacNear : List (Int × Int × Int) := [(-1, 0, 0), (1, 0, 0), (0, -1, 0), (0, 1, 0), (0, 0, -1), (0, 0, 1)]
/-- Second neighbours (governing_equations/cahn_hilliard/cahn_hilliard_3d_fd.cpp:474-475). -/
def jacFar : List (Int × Int × Int) := [(2, 0, 0), (-2, 0, 0), (0, 2, 0), (0, -2, 0), (0, 0, 2), (0, 0, -2)]
/-- Diagonal neighbours (governing_equations/cahn_hilliard/cahn_hilliard_3d_fd.cpp:480-487). -/
def jacDiag : List (Int × Int × Int) :=
  [(-1, -1, 0), (-1, 1, 0), (1, -1, 0), (1, 1, 0), (-1, 0, -1), (1, 0, -1), (0, -1, -1), (0, 1, -1),
   (-1, 0, 1), (1, 0, 1), (0, -1, 1), (0, 1, 1)]

/-- Body of the loop over the entries of a row, for the entry at `p` with column `icol`
(governing_equations/cahn_hilliard/cahn_hilliard_3d_fd.cpp:434-489). `pow(x, 2.0)` is `x ^ 2`. -/
def jacBody (g : Grid3) (p : CHParams K) (dx : K) (c vals : A) (irow i j k : Int) (pos icol : Int) : Prog A K Unit :=
  let dx2 := dx * dx
  let dx4 := dx2 * dx2
  let img := fun o : Int × Int × Int => g.periodicIdx (i + o.1) (j + o.2.1) (k + o.2.2)
  (if icol = irow then
    (Prog.addTo vals pos (-p.sigma)).bind fun _ =>
    (Prog.addTo vals pos (-p.eps2 * 42 / dx4)).bind fun _ =>
    (Prog.rd c (g.at3 i j k)).bind fun f =>
    Prog.addTo vals pos (-6 * (3 * f ^ 2 - 1) / dx2)
   else .pure ()).bind fun _ =>
  (Prog.forEach jacNear fun o =>
    if icol = img o then
      (Prog.rd c (g.at3 (i + o.1) (j + o.2.1) (k + o.2.2))).bind fun f =>
      (Prog.addTo vals pos ((3 * f ^ 2 - 1) / dx2)).bind fun _ =>
      Prog.addTo vals pos (12 * p.eps2 / dx4)
    else .pure ()).bind fun _ =>
  (if ∃ o ∈ jacFar, icol = img o then Prog.addTo vals pos (-p.eps2 / dx4) else .pure ()).bind fun _ =>
  if ∃ o ∈ jacDiag, icol = img o then Prog.addTo vals pos (-p.eps2 * 2 / dx4) else .pure ()

/-- `evalJacobian` (governing_equations/cahn_hilliard/cahn_hilliard_3d_fd.cpp:370-494). -/
def evalJacobian (g : Grid3) (p : CHParams K) (dx : K) (c : A) (J : CSR A) : Host A K :=
  J.zeroValues ++
  [forAll 0 ((J.rowIdx.length : Int) - 1) fun irow =>
    let i := irow.tdiv (g.nj * g.nk)
    let j := (irow.tdiv g.nk).tmod g.nj
    let k := irow.tmod g.nk
    J.rowLoop irow (fun (_ : Unit) pos => do
      let icol ← Prog.idxAt J.colIdx pos
      jacBody g p dx c J.vals irow i j k pos icol) ()]

end

end Madg
