/-
Gauss-Seidel relaxation for a dense system `a x = b` with `n` unknowns, as in textbooks.  Independent of the kernels.
-/
import Verif.Spec.Matrix
import Verif.Model.GaussSeidel

namespace Madg.Spec
open Finset
variable {A K : Type} [Field K]

/-- One forward sweep: the `i`-th equation is solved for the `i`-th unknown with new values for the unknowns before it
and old values for those after it. -/
def GSForward (n : Int) (a : Int → Int → K) (b x y : Int → K) : Prop :=
  ∀ i, 0 ≤ i → i < n → ∑ j ∈ Ico 0 (i + 1), a i j * y j + ∑ j ∈ Ico (i + 1) n, a i j * x j = b i

/-- One backward sweep: new values for the unknowns after the `i`-th, old values for those before it. -/
def GSBackward (n : Int) (a : Int → Int → K) (b x y : Int → K) : Prop :=
  ∀ i, 0 ≤ i → i < n → ∑ j ∈ Ico 0 i, a i j * x j + ∑ j ∈ Ico i n, a i j * y j = b i

/-- `x'` is the relaxed combination of old value and sweep. -/
def Relaxed (n : Int) (w : K) (x y x' : Int → K) : Prop := ∀ i, 0 ≤ i → i < n → x' i = (1 - w) * x i + w * y i

/-- Effect of a smoother on the iterate. -/
def GSStep (n : Int) (a : Int → Int → K) (b : Int → K) : GSKind → K → (Int → K) → (Int → K) → Prop
  | .forward, w, x, x' => ∃ y, GSForward n a b x y ∧ Relaxed n w x y x'
  | .backward, w, x, x' => ∃ y, GSBackward n a b x y ∧ Relaxed n w x y x'
  | .symmetric, w, x, x' => ∃ y u z, GSForward n a b x y ∧ Relaxed n w x y u ∧ GSBackward n a b u z ∧ Relaxed n w u z x'

/-- Effect of consecutive smoothers. -/
def GSSteps (n : Int) (a : Int → Int → K) (b : Int → K) : List (GSKind × K) → (Int → K) → (Int → K) → Prop
  | [], x, x' => ∀ i, 0 ≤ i → i < n → x' i = x i
  | c :: cs, x, x' => ∃ u, GSStep n a b c.1 c.2 x u ∧ GSSteps n a b cs u x'

/-- Error reduction of one smoother when the off-diagonal row sums are at most `q` times the diagonal. -/
def gsFactor (q : K) : GSKind × K → K
  | (.symmetric, w) => (1 - w + w * q) ^ 2
  | (_, w) => 1 - w + w * q

/-- The split matrix after its first Gauss-Seidel call, for the original matrix `a`: triangles scaled by the guarded
diagonal, diagonal one, reciprocals as before. -/
structure ScaledRep [LinearOrder K] (sz : A → Int) (eps : K) (L : LDU A) (m : Mem A K) (a : Int → Int → K) : Prop where
  wfl : CSRWf sz L.lower
  wfu : CSRWf sz L.upper
  rl : L.lower.rows = L.rows
  ru : L.upper.rows = L.rows
  cl : L.lower.cols = L.cols
  cu : L.upper.cols = L.cols
  sq : L.rows = L.cols
  szd : L.rows ≤ sz L.diag
  szi : L.rows ≤ sz L.diagInv
  low : ∀ i j, 0 ≤ i → i < L.rows →
    dense L.lower (m L.lower.vals) i j = if j < i then a i j / guardDiag eps (a i i) else 0
  up : ∀ i j, 0 ≤ i → i < L.rows →
    dense L.upper (m L.upper.vals) i j = if i < j then a i j / guardDiag eps (a i i) else 0
  dg : ∀ i, 0 ≤ i → i < L.rows → m L.diag i = 1
  di : ∀ i, 0 ≤ i → i < L.rows → m L.diagInv i = 1 / guardDiag eps (a i i)
  ml : Monotone' L.lower
  mu : Monotone' L.upper

end Madg.Spec
