/-
Specification of the Poisson problem: state continued periodically in x and y and by prescribed values in z.
-/
import Verif.Spec.Ext
import Verif.Spec.Ops3

namespace Madg.Spec
variable {K : Type}

/-- Interior data `u` continued periodically in `i`, `j`; values `b` outside `[0, nk)` in `k`. -/
def extDirichlet (ni nj nk : Int) (b u : Int → Int → Int → K) (i j k : Int) : K :=
  if 0 ≤ k ∧ k < nk then u (wrapIdx ni i) (wrapIdx nj j) k else b i j k

/-- Right-hand side of the Poisson problem: Laplacian plus three times the exact solution `e`. -/
def poisRhs [Field K] (dx : K) (ni nj nk : Int) (e u : Int → Int → Int → K) (i j k : Int) : K :=
  lap3 dx (extDirichlet ni nj nk e u) i j k + 3 * e i j k

end Madg.Spec
