/-
Sparse matrices: data_structures/csr_matrix.{hpp,cpp}, data_structures/ldu_csr_matrix.{hpp,cpp}.

The integer index arrays are lists (they are not written by the kernels modelled here); values and vectors live in
memory.  The rocSPARSE branches (`MADG_USE_ROCSPARSE`) are not modelled; without it these functions abort.
-/
import Verif.Model.Cmd
import Mathlib.Algebra.Order.Field.Basic
import Mathlib.Algebra.Order.Group.Unbundled.Abs

namespace Madg

/-- Checked access to a read-only index array at a computed position (data_structures/span.hpp:14-20). -/
def Prog.idxAt {A K : Type} (l : List Int) (j : Int) : Prog A K Int :=
  if 0 ≤ j then Prog.idx l j.toNat else .fail .outOfBounds

/-- A sequential inner loop carrying local variables, e.g. `row_sum` in data_structures/csr_matrix.cpp:264-267. -/
def Prog.fold {A K ι σ : Type} (f : σ → ι → Prog A K σ) : List ι → σ → Prog A K σ
  | [], s => .pure s
  | x :: xs, s => (f s x).bind (Prog.fold f xs)

/-- Members of `CSRMatrix` (data_structures/csr_matrix.hpp:77-87): dimensions, index arrays, the name of the value
array. -/
structure CSR (A : Type) where
  rows : Int
  cols : Int
  rowIdx : List Int
  colIdx : List Int
  vals : A

section
variable {A K : Type} [Field K]

/-- Loop header `for (int j = row_idx[irow]; j < row_idx[irow + 1]; ++j)` with carried state
(e.g. data_structures/csr_matrix.cpp:265). -/
def CSR.rowLoop {σ : Type} (M : CSR A) (irow : Int) (f : σ → Int → Prog A K σ) (s : σ) : Prog A K σ := do
  let lo ← Prog.idxAt M.rowIdx irow
  let hi ← Prog.idxAt M.rowIdx (irow + 1)
  Prog.fold f (irange lo hi) s

/-- Summand `row_sum += vals[j] * x[col_idx[j]]` (data_structures/csr_matrix.cpp:266). -/
def CSR.addTerm (M : CSR A) (x : A) (s : K) (j : Int) : Prog A K K := do
  let v ← Prog.rd M.vals j
  let c ← Prog.idxAt M.colIdx j
  let xv ← Prog.rd x c
  pure (s + v * xv)

/-- `CSRMatrix::matVecMultiply` (data_structures/csr_matrix.cpp:254-270). -/
def CSR.matVec (M : CSR A) (x b : A) : Host A K :=
  [forAll 0 M.rows fun irow => do
    let s ← M.rowLoop irow (M.addTerm x) 0
    Prog.wr b irow s]

variable [LinearOrder K]

/-- The guarded diagonal `|v| > epsilon ? v : epsilon` (data_structures/csr_matrix.cpp:367-368, 455-457,
data_structures/ldu_csr_matrix.cpp:63-65, 143-144, 152-153). -/
def guardDiag (eps v : K) : K := if eps < |v| then v else eps

/-- `CSRMatrix::jacobiSmooth` up to the final swap (data_structures/csr_matrix.cpp:347-377): the new iterate is left in
`tmp`.  A row without diagonal entry uses the uninitialised local `d`. -/
def CSR.jacobi (M : CSR A) (eps : K) (x b tmp : A) (w : K) : Host A K :=
  [forAll 0 M.rows fun irow => do
    let (s, d) ← M.rowLoop irow (fun (st : K × Option K) j => do
      let c ← Prog.idxAt M.colIdx j
      if c ≠ irow then
        let v ← Prog.rd M.vals j
        let xv ← Prog.rd x c
        pure (st.1 + v * xv, st.2)
      else
        let v ← Prog.rd M.vals j
        pure (st.1, some (guardDiag eps v))) (0, none)
    match d with
    | none => Prog.fail .uninit
    | some d =>
      let bv ← Prog.rd b irow
      if w = 1 then Prog.wr tmp irow (1 / d * (bv - s))
      else
        let xv ← Prog.rd x irow
        Prog.wr tmp irow (w / d * (bv - s) + (1 - w) * xv)]

/-- `n` consecutive calls `A.jacobiSmooth(x, b, w)`: each ends with `x_in_out.swap(*tmp_work_vector_)`
(data_structures/csr_matrix.cpp:379, data_structures/managed_array.hpp:123-130), so the next call reads what was the
work array.  Returns the name that `x` refers to at the end. -/
def CSR.jacobiN (M : CSR A) (eps : K) (b : A) (w : K) : Nat → A → A → Host A K × A
  | 0, x, _ => ([], x)
  | n + 1, x, tmp =>
    let r := M.jacobiN eps b w n tmp x
    (M.jacobi eps x b tmp w ++ r.1, r.2)

/-- `CSRMatrix::updateDiags` (data_structures/csr_matrix.cpp:442-461): a new zero-filled array
(data_structures/managed_array.hpp:22-33), then the reciprocals of the guarded diagonal entries. -/
def CSR.updateDiags (M : CSR A) (eps : K) (dinv : A) : Host A K :=
  [forAll 0 M.rows (fun i => Prog.wr dinv i 0),
   forAll 0 M.rows fun irow =>
    M.rowLoop irow (fun (_ : Unit) j => do
      let c ← Prog.idxAt M.colIdx j
      if c = irow then
        let v ← Prog.rd M.vals j
        Prog.wr dinv irow (1 / guardDiag eps v)
      else pure ()) ()]

/-- The loop of `jacobiSmoothCacheDiagonalInverse` (data_structures/csr_matrix.cpp:404-410). -/
def CSR.jacobiCachedLoop (M : CSR A) (x b tmp dinv : A) (w : K) : Host A K :=
  [forAll 0 M.rows fun irow => do
    let s ← M.rowLoop irow (M.addTerm x) 0
    let d ← Prog.rd dinv irow
    let bv ← Prog.rd b irow
    let xv ← Prog.rd x irow
    Prog.wr tmp irow (w * d * bv + (xv - w * d * s))]

/-- `CSRMatrix::jacobiSmoothCacheDiagonalInverse` up to the final swap (data_structures/csr_matrix.cpp:383-410);
`stale` is `diags_need_update_`. -/
def CSR.jacobiCached (M : CSR A) (eps : K) (x b tmp dinv : A) (w : K) (stale : Bool) : Host A K :=
  (if stale then M.updateDiags eps dinv else []) ++ M.jacobiCachedLoop x b tmp dinv w

/-- `CSRMatrix::scaleMatrixRows` (data_structures/csr_matrix.cpp:464-476). -/
def CSR.scaleRows (M : CSR A) (scale : A) : Host A K :=
  [forAll 0 M.rows fun irow =>
    M.rowLoop irow (fun (_ : Unit) j => do
      let s ← Prog.rd scale irow
      let v ← Prog.rd M.vals j
      Prog.wr M.vals j (v * s)) ()]

/-- The reduction of `rmsNorm` (data_structures/csr_matrix.cpp:332-344,
data_structures/ldu_csr_matrix.cpp:97-109) before the square root: mean of the squared differences of two arrays of
`n` elements. -/
def meanSquare (n : Int) (lhs rhs : A) : Cmd A K K :=
  (Cmd.reduceOf (· + ·) 0 ((irange 0 n).map fun i => do
    let l ← Prog.rd lhs i
    let r ← Prog.rd rhs i
    pure ((l - r) ^ 2))).bind fun s => .ret (s / (n : K))

/-- `CSRMatrix::rmsNorm` before the square root (data_structures/csr_matrix.cpp:332-344); `tmp` has `cols` elements. -/
def CSR.rms2 (M : CSR A) (x b tmp : A) : Cmd A K K :=
  (Cmd.ofHost (M.matVec x tmp)).bind fun _ => meanSquare M.cols tmp b

/-- `CSRMatrix::diagonalDominance` (data_structures/csr_matrix.cpp:479-510) with `big` for the largest number.
A row without off-diagonal entries divides by zero: in IEEE arithmetic the result is infinite (or NaN for a zero
diagonal), here the field's `x / 0 = 0`; theorems about this function assume non-zero off-diagonal sums. -/
def CSR.dominance (M : CSR A) (big : K) : Cmd A K K :=
  Cmd.reduceOf min big ((irange 0 (M.rowIdx.length - 1)).map fun irow => do
    let (dg, off) ← M.rowLoop irow (fun (st : K × K) j => do
      let c ← Prog.idxAt M.colIdx j
      let v ← Prog.rd M.vals j
      pure (if c = irow then (|v|, st.2) else (st.1, st.2 + |v|))) (0, 0)
    pure (dg / off))

/-! ### The diagonal cache over a history of calls -/

/-- Operations on one `CSRMatrix` object that matter for the cached diagonal (data_structures/csr_matrix.hpp:50-84). -/
inductive MatOp (A K : Type)
  /-- calling a mutable accessor `values()`, `colIdx()`, `rowIdx()` (data_structures/csr_matrix.hpp:50-64) -/
  | access
  /-- storing an entry through a view obtained from `values()` earlier -/
  | write (p : Int) (v : K)
  /-- `scaleMatrixRows` (data_structures/csr_matrix.cpp:464-476) -/
  | scale (s : A)
  /-- `jacobiSmoothCacheDiagonalInverse` (data_structures/csr_matrix.cpp:383-413) -/
  | smooth (x b tmp : A) (w : K)

/-- Possible effects of one operation on memory and `diags_need_update_` (data_structures/csr_matrix.hpp:50-64, 83-84,
data_structures/csr_matrix.cpp:389-392, 467).  The index arrays are constant here, so the accessors `colIdx()` and
`rowIdx()` only set the flag. -/
inductive MatStep [DecidableEq A] (sz : A → Int) (M : CSR A) (eps : K) (dinv : A) :
    MatOp A K → Mem A K × Bool → Mem A K × Bool → Prop
  | access (m s) : MatStep sz M eps dinv .access (m, s) (m, true)
  | write (m s p v) : InB sz M.vals p → MatStep sz M eps dinv (.write p v) (m, s) (m.set M.vals p v, s)
  | scale (m s c m') : HostOut sz (M.scaleRows c) m (.ok m') → MatStep sz M eps dinv (.scale c) (m, s) (m', true)
  | smooth (m s x b tmp w m') : HostOut sz (M.jacobiCached eps x b tmp dinv w s) m (.ok m') →
      MatStep sz M eps dinv (.smooth x b tmp w) (m, s) (m', false)

/-- A history of operations (data_structures/csr_matrix.hpp:50-84). -/
inductive MatRun [DecidableEq A] (sz : A → Int) (M : CSR A) (eps : K) (dinv : A) :
    List (MatOp A K) → Mem A K × Bool → Mem A K × Bool → Prop
  | nil (c) : MatRun sz M eps dinv [] c c
  | cons {op ops c c1 c2} : MatStep sz M eps dinv op c c1 → MatRun sz M eps dinv ops c1 c2 →
      MatRun sz M eps dinv (op :: ops) c c2

/-! ### LDU -/

/-- The vectors filled by the constructor of `LDUCSRMatrix` (data_structures/ldu_csr_matrix.cpp:10-16).  The row
pointer vectors are extended instead of pre-sized. -/
structure LDUVecs (K : Type) where
  diags : List K := []
  lowerVals : List K := []
  lowerCols : List Int := []
  lowerRows : List Int := [0]
  upperVals : List K := []
  upperCols : List Int := []
  upperRows : List Int := [0]

/-- Treatment of one entry (data_structures/ldu_csr_matrix.cpp:26-39). -/
def LDUVecs.push (irow : Int) (s : LDUVecs K) (e : Int × K) : LDUVecs K :=
  if e.1 = irow then { s with diags := s.diags ++ [e.2] }
  else if e.1 < irow then { s with lowerVals := s.lowerVals ++ [e.2], lowerCols := s.lowerCols ++ [e.1] }
  else { s with upperVals := s.upperVals ++ [e.2], upperCols := s.upperCols ++ [e.1] }

/-- End of a row (data_structures/ldu_csr_matrix.cpp:41-42): the counters of the row are the growth of the vectors. -/
def LDUVecs.endRow (s : LDUVecs K) : LDUVecs K :=
  { s with lowerRows := s.lowerRows ++ [(s.lowerVals.length : Int)],
           upperRows := s.upperRows ++ [(s.upperVals.length : Int)] }

/-- Entries of a row in storage order, read sequentially on the host (data_structures/ldu_csr_matrix.cpp:25-28). -/
def CSR.readRow (M : CSR A) (irow : Int) : Prog A K (List (Int × K)) :=
  M.rowLoop irow (fun (l : List (Int × K)) j => do
    let c ← Prog.idxAt M.colIdx j
    let v ← Prog.rd M.vals j
    pure (l ++ [(c, v)])) []

/-- The loop over all rows (data_structures/ldu_csr_matrix.cpp:22-43). -/
def CSR.split (M : CSR A) : Prog A K (LDUVecs K) :=
  Prog.fold (fun (s : LDUVecs K) irow => do
    let es ← M.readRow irow
    pure (es.foldl (LDUVecs.push irow) s).endRow) (irange 0 M.rows) {}

/-- Members of `LDUCSRMatrix` (data_structures/ldu_csr_matrix.hpp:32-44). -/
structure LDU (A : Type) where
  rows : Int
  cols : Int
  lower : CSR A
  upper : CSR A
  diag : A
  diagInv : A

/-- The matrix objects made from the vectors (data_structures/ldu_csr_matrix.cpp:46-50); `lv`, `uv`, `dg`, `di` are
the new arrays. -/
def LDUVecs.toLDU (s : LDUVecs K) (M : CSR A) (lv uv dg di : A) : LDU A where
  rows := M.rows
  cols := M.cols
  lower := ⟨M.rows, M.cols, s.lowerRows, s.lowerCols, lv⟩
  upper := ⟨M.rows, M.cols, s.upperRows, s.upperCols, uv⟩
  diag := dg
  diagInv := di

/-- `copyArray(std::vector, ManagedArray)` (data_structures/csr_matrix.cpp:203-209) and the copying constructor of
`ManagedArray` from a `Span` (data_structures/managed_array.hpp:40-47). -/
def copyVec (l : List K) (a : A) : Pool A K :=
  forAll 0 (l.length : Int) fun i => Prog.wr a i (l.getD i.toNat 0)

/-- `LDUCSRMatrix::updateDiags` (data_structures/ldu_csr_matrix.cpp:57-67); `n` is the size of `diag_`. -/
def lduUpdateDiags (n : Int) (eps : K) (dg di : A) : Pool A K :=
  forAll 0 n fun i => do
    let v ← Prog.rd dg i
    Prog.wr di i (1 / guardDiag eps v)

/-- Second half of the constructor (data_structures/ldu_csr_matrix.cpp:46-54). -/
def LDUVecs.store (s : LDUVecs K) (eps : K) (lv uv dg di : A) : Host A K :=
  [copyVec s.diags dg, copyVec s.lowerVals lv, copyVec s.upperVals uv,
   lduUpdateDiags s.diags.length eps dg di]

/-- `LDUCSRMatrix::matVecMultiply` (data_structures/ldu_csr_matrix.cpp:70-94). -/
def LDU.matVec (L : LDU A) (x b : A) : Host A K :=
  [forAll 0 L.rows fun irow => do
    let s1 ← L.lower.rowLoop irow (L.lower.addTerm x) 0
    let s2 ← L.upper.rowLoop irow (L.upper.addTerm x) s1
    let d ← Prog.rd L.diag irow
    let xv ← Prog.rd x irow
    Prog.wr b irow (s2 + d * xv)]

/-- `LDUCSRMatrix::jacobiSmooth` (data_structures/ldu_csr_matrix.cpp:126-158). -/
def LDU.jacobi (L : LDU A) (eps : K) (x b t1 t2 : A) (w : K) : Host A K :=
  L.lower.matVec x t1 ++ L.upper.matVec x t2 ++
  [forAll 0 L.rows fun i => do
    let v ← Prog.rd L.diag i
    let d := guardDiag eps v
    let bv ← Prog.rd b i
    let lx ← Prog.rd t1 i
    let ux ← Prog.rd t2 i
    if w = 1 then Prog.wr x i (1 / d * (bv - lx - ux))
    else
      let xv ← Prog.rd x i
      Prog.wr x i (w * 1 / d * (bv - lx - ux) + (1 - w) * xv)]

/-- `LDUCSRMatrix::jacobiSmoothCacheDiagonalInverse` (data_structures/ldu_csr_matrix.cpp:161-187). -/
def LDU.jacobiCached (L : LDU A) (x b t1 t2 : A) (w : K) : Host A K :=
  L.lower.matVec x t1 ++ L.upper.matVec x t2 ++
  [forAll 0 L.rows fun i => do
    let di ← Prog.rd L.diagInv i
    let bv ← Prog.rd b i
    let lx ← Prog.rd t1 i
    let ux ← Prog.rd t2 i
    if w = 1 then Prog.wr x i (di * (bv - lx - ux))
    else
      let xv ← Prog.rd x i
      Prog.wr x i (w * di * (bv - lx - ux) + (1 - w) * xv)]

/-- `LDUCSRMatrix::rmsNorm` before the square root (data_structures/ldu_csr_matrix.cpp:97-109). -/
def LDU.rms2 (L : LDU A) (x b tmp : A) : Cmd A K K :=
  (Cmd.ofHost (L.matVec x tmp)).bind fun _ => meanSquare L.cols tmp b

/-- The Gauss-Seidel smoothers without rocSPARSE (data_structures/ldu_csr_matrix.cpp:219-321): the first call scales
the rows of the lower part in place (data_structures/csr_matrix.cpp:100-102) and then aborts
(data_structures/csr_matrix.cpp:153-155). -/
def LDU.gaussSeidel (L : LDU A) : Host A K := L.lower.scaleRows L.diagInv ++ abortHost

end

end Madg
