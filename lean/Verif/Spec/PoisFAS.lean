/-
The full approximation scheme for the Poisson problem.
-/
import Verif.Spec.FAS
import Verif.Spec.Poisson
import Verif.Model.Grid3

namespace Madg.Spec
variable {K : Type} [Field K]

/-- On level `ℓ` the discrete Poisson right-hand side of that level's grid and spacing, with boundary values and source from
`e ℓ`; cell averages for restriction; piecewise constant or (as coded) linear interpolation of the change, continued by zero
in z, for prolongation; smoothing steps `cfl dx^2`; relaxation factors for the finest and the other levels. -/
def poisFas (g : Nat → Grid3) (e : Nat → Int → Int → Int → K) (dx : Nat → K) (mode : String) (cfl rf rc : K) :
    Fas (Int × Int × Int) K where
  F ℓ u c := poisRhs (dx ℓ) (g ℓ).ni (g ℓ).nj (g ℓ).nk (e ℓ) (fun i j k => u (i, j, k)) c.1 c.2.1 c.2.2
  R _ u c := avg8 (fun x y z => u (x, y, z)) c.1 c.2.1 c.2.2
  T ℓ w c :=
    if mode = "nearest" then w (c.1 / 2, c.2.1 / 2, c.2.2 / 2)
    else trilinSwapped (extDirichlet (g (ℓ + 1)).ni (g (ℓ + 1)).nj (g (ℓ + 1)).nk (fun _ _ _ => 0) fun i j k => w (i, j, k))
      c.1 c.2.1 c.2.2
  dt ℓ := cfl * dx ℓ ^ 2
  relax ℓ := if ℓ = 0 then rf else rc

end Madg.Spec
