/-
The multigrid integrator on the Poisson verification problem.
-/
import Verif.Model.MGCH
import Verif.Model.Poisson

namespace Madg
variable {A K : Type} [Arith K]

/-- The integrator for the Poisson problem: on level `ℓ` the discretization `G ℓ` with spacing `dx ℓ` and its arrays `co ℓ` of
cell centres (governing_equations/poisson/poisson_3d_fd.cpp:7-20; `clone`, 80-84, constructs the equations anew on the coarse
discretization), prolongation `mode`, smoother steps `cfl * dx^2` (governing_equations/poisson/poisson_3d_fd.hpp:37-41,
time_stepping/ode23_smoother.cpp:119). The spacing in `cflScale` is computed from the domain of the level, which is that of
`discretization_3d_cart.cpp:8-140`. -/
def poissonMG (nlev : Nat) (G : Nat → Geom3) (dx : Nat → K) (sn cs : K → K) (co : Nat → Fin 3 → A)
    (arr : Nat → MGRole → A) (mode : String) (cfl relaxFine relaxCoarse : K) (unsteady : Bool) : MG A K where
  nlev := nlev
  arr := arr
  size ℓ := (G ℓ).g.size
  rhs ℓ s r _ := (G ℓ).poissonRHS sn cs (dx ℓ) ⟨s, r, co ℓ 0, co ℓ 1, co ℓ 2⟩
  restrict ℓ f c := (G (ℓ + 1)).restrict (G ℓ).g f c
  prolong ℓ c f := (G (ℓ + 1)).prolong (G ℓ).g mode c f
  smoothDt ℓ := cfl * dx ℓ ^ 2
  interior := (G 0).interior
  relaxFine := relaxFine
  relaxCoarse := relaxCoarse
  unsteady := unsteady

end Madg
