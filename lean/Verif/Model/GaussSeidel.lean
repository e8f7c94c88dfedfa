/-
The functions of data_structures/csr_matrix.cpp and data_structures/ldu_csr_matrix.cpp that use the sparse library
(`MADG_USE_ROCSPARSE`): library products, triangular solves, Gauss-Seidel smoothing.

The library is represented by its documented effect.  A product `y = A x + beta y` is a loop over rows.  A triangular
solve with unit diagonal is substitution, row by row; entries on the other side of the diagonal and stored diagonal
entries are ignored, as the library does for the fill mode and diagonal type set in
data_structures/csr_matrix.cpp:104-110.  The analysis step and its buffer are not modelled.
-/
import Verif.Model.CSR

namespace Madg

section
variable {A K : Type} [Field K]

/-- `CSRMatrix::matVecMultiplyBLAS(x, b, beta)` (data_structures/csr_matrix.cpp:272-330): `b = A x + beta b`.  For
`beta = 0` the library does not use the old contents. -/
def CSR.matVecBLAS [DecidableEq K] (M : CSR A) (x b : A) (beta : K) : Host A K :=
  [forAll 0 M.rows fun irow => do
    let s ← M.rowLoop irow (M.addTerm x) 0
    if beta = 0 then Prog.wr b irow s
    else
      let y ← Prog.rd b irow
      Prog.wr b irow (s + beta * y)]

/-- `CSRMatrix::TriangularType` (data_structures/csr_matrix.hpp:66). -/
inductive Tri
  | lower
  | upper

/-- Whether an entry in column `c` of row `i` belongs to the strict triangle (data_structures/csr_matrix.cpp:104-110). -/
def Tri.has : Tri → Int → Int → Bool
  | .lower, i, c => c < i
  | .upper, i, c => i < c

/-- Order of substitution (data_structures/csr_matrix.cpp:158-188; library contract). -/
def Tri.order (n : Int) : Tri → List Int
  | .lower => irange 0 n
  | .upper => (irange 0 n).reverse

/-- Summand of the substitution: `v x[c]` for entries of the strict triangle
(data_structures/csr_matrix.cpp:158-188; library contract). -/
def CSR.triTerm (M : CSR A) (t : Tri) (x : A) (irow : Int) (s : K) (j : Int) : Prog A K K := do
  let c ← Prog.idxAt M.colIdx j
  if t.has irow c then
    let v ← Prog.rd M.vals j
    let xv ← Prog.rd x c
    pure (s + v * xv)
  else pure s

/-- `CSRMatrix::triangularSolve` (data_structures/csr_matrix.cpp:158-188): `x` solves `(I + T) x = rhs` with `T` the
strict triangle, by substitution. -/
def CSR.triSolve (M : CSR A) (t : Tri) (x rhs : A) : Host A K :=
  [[Prog.forEach (t.order M.rows) fun irow => do
    let s ← M.rowLoop irow (M.triTerm t x irow) 0
    let r ← Prog.rd rhs irow
    Prog.wr x irow (r - s)]]

variable [LinearOrder K]

/-- `CSRMatrix::jacobiSmoothBLASCacheDiagonalInverse` up to the final swap (data_structures/csr_matrix.cpp:416-435). -/
def CSR.jacobiBLAS (M : CSR A) (eps : K) (x b tmp dinv : A) (w : K) (stale : Bool) : Host A K :=
  (if stale then M.updateDiags eps dinv else []) ++ M.matVecBLAS x tmp 0 ++
  [forAll 0 M.rows fun irow => do
    let d ← Prog.rd dinv irow
    let bv ← Prog.rd b irow
    let xv ← Prog.rd x irow
    let t ← Prog.rd tmp irow
    Prog.wr tmp irow (w * d * bv + (xv - w * d * t))]

/-- `LDUCSRMatrix::jacobiSmoothBLASCacheDiagonalInverse` (data_structures/ldu_csr_matrix.cpp:189-216). -/
def LDU.jacobiBLAS (L : LDU A) (x b tmp : A) (w : K) : Host A K :=
  L.lower.matVecBLAS x tmp 0 ++ L.upper.matVecBLAS x tmp 1 ++
  [forAll 0 L.rows fun i => do
    let di ← Prog.rd L.diagInv i
    let bv ← Prog.rd b i
    let lux ← Prog.rd tmp i
    if w = 1 then Prog.wr x i (di * (bv - lux))
    else
      let xv ← Prog.rd x i
      Prog.wr x i (w * di * (bv - lux) + (1 - w) * xv)]

/-- What the first Gauss-Seidel call does to the split matrix (data_structures/ldu_csr_matrix.cpp:225-234, 272-281):
both triangles are scaled by the stored reciprocals, the diagonal is set to one; the reciprocals stay.  `D.size()` is
the number of rows (data_structures/ldu_csr_matrix.cpp:46-47). -/
def LDU.gsInit (L : LDU A) : Host A K :=
  L.lower.scaleRows L.diagInv ++ L.upper.scaleRows L.diagInv ++ [forAll 0 L.rows fun i => Prog.wr L.diag i 1]

/-- Middle loop (data_structures/ldu_csr_matrix.cpp:239-251, 286-298): right-hand side of the triangular solve, copy of
the old iterate.  The work vectors have `cols` elements (data_structures/ldu_csr_matrix.cpp:52-53). -/
def LDU.gsRhs (L : LDU A) (x b t1 t2 : A) : Host A K :=
  [forAll 0 L.cols fun i => do
    let di ← Prog.rd L.diagInv i
    let bv ← Prog.rd b i
    let p ← Prog.rd t1 i
    Prog.wr t1 i (di * bv - p)
    let xv ← Prog.rd x i
    Prog.wr t2 i xv]

/-- Relaxation loop over `x.size()` elements (data_structures/ldu_csr_matrix.cpp:256-263, 303-310). -/
def gsRelax (nx : Int) (x t2 : A) (w : K) : Host A K :=
  [forAll 0 nx fun i => do
    let o ← Prog.rd t2 i
    let xv ← Prog.rd x i
    Prog.wr x i ((1 - w) * o + w * xv)]

/-- The part of a sweep after the initialisation (data_structures/ldu_csr_matrix.cpp:236-264, 283-311): `first` is the
triangle multiplied with the old iterate, `second` the one solved with.  `nx` is `x.size()`. -/
def LDU.gsBody (L : LDU A) (first second : CSR A) (t : Tri) (nx : Int) (x b t1 t2 : A) (w : K) : Host A K :=
  first.matVecBLAS x t1 0 ++ L.gsRhs x b t1 t2 ++ second.triSolve t x t1 ++
    (if w = 1 then [] else gsRelax nx x t2 w)

/-- `LDUCSRMatrix::forwardGaussSeidelSmooth` (data_structures/ldu_csr_matrix.cpp:219-264); `ready` is
`initialized_for_unit_diagonal_`. -/
def LDU.gsForward (L : LDU A) (ready : Bool) (nx : Int) (x b t1 t2 : A) (w : K) : Host A K :=
  (if ready then [] else L.gsInit) ++ L.gsBody L.upper L.lower .lower nx x b t1 t2 w

/-- `LDUCSRMatrix::backwardGaussSeidelSmooth` (data_structures/ldu_csr_matrix.cpp:266-311). -/
def LDU.gsBackward (L : LDU A) (ready : Bool) (nx : Int) (x b t1 t2 : A) (w : K) : Host A K :=
  (if ready then [] else L.gsInit) ++ L.gsBody L.lower L.upper .upper nx x b t1 t2 w

/-- `LDUCSRMatrix::symmetricGaussSeidelSmooth` (data_structures/ldu_csr_matrix.cpp:313-321): the forward sweep leaves
`initialized_for_unit_diagonal_` set. -/
def LDU.gsSymmetric (L : LDU A) (ready : Bool) (nx : Int) (x b t1 t2 : A) (w : K) : Host A K :=
  L.gsForward ready nx x b t1 t2 w ++ L.gsBackward true nx x b t1 t2 w

/-- `LDUCSRMatrix::rmsNormDiagScaledRHS` before the square root (data_structures/ldu_csr_matrix.cpp:111-124). -/
def LDU.rmsScaled2 (L : LDU A) (x b tmp : A) : Cmd A K K :=
  (Cmd.ofHost (L.matVec x tmp)).bind fun _ =>
    (Cmd.reduceOf (· + ·) 0 ((irange 0 L.cols).map fun i => do
      let l ← Prog.rd tmp i
      let d ← Prog.rd L.diagInv i
      let r ← Prog.rd b i
      pure ((l - d * r) ^ 2))).bind fun s => .ret (s / (L.cols : K))

/-- Gauss-Seidel smoothers of one split matrix (data_structures/ldu_csr_matrix.cpp:219-321). -/
inductive GSKind
  | forward
  | backward
  | symmetric

/-- A call `kind(x, b, w)` (data_structures/ldu_csr_matrix.cpp:219-321). -/
def LDU.gsCall (L : LDU A) (ready : Bool) (nx : Int) (x b t1 t2 : A) : GSKind → K → Host A K
  | .forward, w => L.gsForward ready nx x b t1 t2 w
  | .backward, w => L.gsBackward ready nx x b t1 t2 w
  | .symmetric, w => L.gsSymmetric ready nx x b t1 t2 w

/-- Consecutive calls on the same vectors (data_structures/ldu_csr_matrix.cpp:219-321): only the first of a split
matrix that is not initialised scales it. -/
def LDU.gsCalls (L : LDU A) (nx : Int) (x b t1 t2 : A) : Bool → List (GSKind × K) → Host A K
  | _, [] => []
  | ready, c :: cs => L.gsCall ready nx x b t1 t2 c.1 c.2 ++ L.gsCalls nx x b t1 t2 true cs

end

end Madg
