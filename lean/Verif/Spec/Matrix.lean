/-
Meaning of sparse matrices: the dense matrix they stand for.  Independent of the kernels.
-/
import Verif.Model.CSR
import Verif.Spec.Sums

namespace Madg.Spec
open Finset
variable {A K : Type} [Field K]

/-- Row pointer as a function. -/
def rowPtr (M : CSR A) (i : Int) : Int := M.rowIdx.getD i.toNat 0

/-- Column of the `p`-th stored entry. -/
def colOf (M : CSR A) (p : Int) : Int := M.colIdx.getD p.toNat 0

/-- The dense matrix denoted by a CSR matrix with stored values `v`: duplicate entries add up. -/
def dense (M : CSR A) (v : Int → K) (i j : Int) : K :=
  ∑ p ∈ Ico (rowPtr M i) (rowPtr M (i + 1)), if colOf M p = j then v p else 0

/-- Matrix-vector product of a dense matrix with `n` columns. -/
def mulVec (n : Int) (a : Int → Int → K) (x : Int → K) (i : Int) : K := ∑ j ∈ Ico 0 n, a i j * x j

/-- A usable CSR structure: `rows + 1` row pointers inside the entry arrays, column indices in range, one value per
column index. -/
structure CSRWf (sz : A → Int) (M : CSR A) : Prop where
  rows : 0 ≤ M.rows
  len : (M.rowIdx.length : Int) = M.rows + 1
  lo : ∀ i, 0 ≤ i → i ≤ M.rows → 0 ≤ rowPtr M i
  hi : ∀ i, 0 ≤ i → i ≤ M.rows → rowPtr M i ≤ M.colIdx.length
  col : ∀ c ∈ M.colIdx, 0 ≤ c ∧ c < M.cols
  vals : sz M.vals = M.colIdx.length

/-- Row pointers do not decrease. -/
def Monotone' (M : CSR A) : Prop := ∀ i, 0 ≤ i → i < M.rows → rowPtr M i ≤ rowPtr M (i + 1)

/-- Every row stores exactly one diagonal entry. -/
def OneDiag (M : CSR A) : Prop :=
  ∀ i, 0 ≤ i → i < M.rows → ∃ p, rowPtr M i ≤ p ∧ p < rowPtr M (i + 1) ∧ colOf M p = i ∧
    ∀ q, rowPtr M i ≤ q → q < rowPtr M (i + 1) → colOf M q = i → q = p

/-- One sweep of weighted Jacobi for `a x = b`: `x + w D⁻¹ (b - a x)`. -/
def jacobiStep (n : Int) (a : Int → Int → K) (b : Int → K) (w : K) (x : Int → K) (i : Int) : K :=
  x i + w / a i i * (b i - mulVec n a x i)

/-- An LDU triple in memory `m` stands for the square matrix `a`: strictly lower part, strictly upper part, diagonal and
the array of reciprocals of the guarded diagonal. -/
structure LDURep [LinearOrder K] (sz : A → Int) (eps : K) (L : LDU A) (m : Mem A K) (a : Int → Int → K) : Prop where
  wfl : CSRWf sz L.lower
  wfu : CSRWf sz L.upper
  rl : L.lower.rows = L.rows
  ru : L.upper.rows = L.rows
  cl : L.lower.cols = L.cols
  cu : L.upper.cols = L.cols
  sq : L.rows = L.cols
  szd : L.rows ≤ sz L.diag
  szi : L.rows ≤ sz L.diagInv
  low : ∀ i j, 0 ≤ i → i < L.rows → dense L.lower (m L.lower.vals) i j = if j < i then a i j else 0
  up : ∀ i j, 0 ≤ i → i < L.rows → dense L.upper (m L.upper.vals) i j = if i < j then a i j else 0
  dg : ∀ i, 0 ≤ i → i < L.rows → m L.diag i = a i i
  di : ∀ i, 0 ≤ i → i < L.rows → m L.diagInv i = 1 / guardDiag eps (a i i)
  ml : Monotone' L.lower
  mu : Monotone' L.upper

end Madg.Spec
