/-
Runs of the Poisson problem with the explicit integrators.
-/
import Verif.Spec.Run
import Verif.Spec.Poisson

namespace Madg.Spec

/-- The arrays of a 3D run of the Poisson problem are different and have the sizes of the grid with a halo of width 2. -/
structure ArraysPois {A : Type} (sz : A → Int) (w : ProgArr A) (nx ny nz : Int) : Prop where
  distinct : [w.co.x, w.co.y, w.co.z, w.co.xv, w.co.yv, w.co.zv, w.rk.sol, w.rk.res, w.rk.k1, w.rk.k2, w.rk.k3, w.rk.k4,
    w.rk.stage].Nodup
  cells : ∀ a ∈ [w.co.x, w.co.y, w.co.z, w.rk.sol, w.rk.res, w.rk.k1, w.rk.k2, w.rk.k3, w.rk.k4, w.rk.stage],
    sz a = (nx + 4) * (ny + 4) * (nz + 4)
  verts : ∀ a ∈ [w.co.xv, w.co.yv, w.co.zv], sz a = (nx + 5) * (ny + 5) * (nz + 5)

/-- Right-hand side of the Poisson problem as an autonomous system for the interior values. -/
def poisField {K : Type} [Field K] (dx : K) (ni nj nk : Int) (e : Int → Int → Int → K) (_ : K) (u : Int × Int × Int → K)
    (c : Int × Int × Int) : K :=
  poisRhs dx ni nj nk e (fun i j k => u (i, j, k)) c.1 c.2.1 c.2.2

end Madg.Spec
