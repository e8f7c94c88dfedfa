/-
The multigrid integrator on the 3D Cahn–Hilliard equations: the hierarchy set up by the constructor.
-/
import Verif.Model.Multigrid
import Verif.Model.Transfer

namespace Madg
open Spec
variable {A K : Type}

/-- Grids of the levels, finest first: the loop of the constructor (time_stepping/bdf_multigrid.cpp:18-24) calls
`createCoarsenedDiscretization` on the last grid (time_stepping/bdf_multigrid.cpp:240) for the levels `2 .. n`, here
`more` times. -/
def mgGrids : Nat → Grid3 → Except Err (List Grid3)
  | 0, g => .ok [g]
  | more + 1, g =>
    match g.coarsen with
    | .error e => .error e
    | .ok gc =>
      match mgGrids more gc with
      | .error e => .error e
      | .ok l => .ok (g :: l)

variable [Arith K]

/-- The integrator for the 3D Cahn–Hilliard equations: on level `ℓ` the discretization `G ℓ` with spacing `dx ℓ`, right-hand
side kernel variant `v` with work arrays `wk ℓ`
(governing_equations/cahn_hilliard/cahn_hilliard_3d_fd.hpp: `clone` constructs the equations anew on the coarse
discretization), prolongation `mode`, smoother steps `cfl * dx^4`
(governing_equations/cahn_hilliard/cahn_hilliard_3d_fd.hpp:39-43, time_stepping/ode23_smoother.cpp:119). -/
def chMG (nlev : Nat) (G : Nat → Geom3) (dx : Nat → K) (v : Int) (p : CHParams K) (wk : Nat → Fin 4 → A)
    (arr : Nat → MGRole → A) (mode : String) (cfl relaxFine relaxCoarse : K) (unsteady : Bool) : MG A K where
  nlev := nlev
  arr := arr
  size ℓ := (G ℓ).g.size
  rhs ℓ s r _ := (G ℓ).evalRHS v p (dx ℓ) ⟨s, r, wk ℓ 0, wk ℓ 1, wk ℓ 2, wk ℓ 3⟩
  restrict ℓ f c := (G (ℓ + 1)).restrict (G ℓ).g f c
  prolong ℓ c f := (G (ℓ + 1)).prolong (G ℓ).g mode c f
  smoothDt ℓ := cfl * dx ℓ ^ 4
  interior := (G 0).interior
  relaxFine := relaxFine
  relaxCoarse := relaxCoarse
  unsteady := unsteady

end Madg
