/-
Which configurations the program supports.
-/
import Verif.Spec.PoisRun
import Verif.Spec.MGRun

namespace Madg.Spec

/-- Combinations of options for which the program has an implementation, the PETSc integrators aside. -/
structure Supported (o : RunOpts) : Prop where
  bc : ∀ b ∈ [o.sel.bcx, o.sel.bcy, o.sel.bcz], b ∈ ["periodic", "neumann", "dirichlet"]
  cfl : o.useCfl = false
  combination :
    (o.sel.dimension = 2 ∧ o.sel.equation = "cahn-hilliard" ∧ (o.sel.integrator = "rk3ssp" ∨ o.sel.integrator = "ode23")) ∨
    (o.sel.dimension = 3 ∧
      ((o.sel.equation = "cahn-hilliard" ∧ (o.variant = 0 ∨ o.variant = 1 ∨ o.variant = 2)) ∨ o.sel.equation = "poisson") ∧
      ((o.sel.integrator = "rk3ssp" ∨ o.sel.integrator = "ode23") ∨
        ((o.sel.integrator = "bdf1" ∨ o.sel.integrator = "steady") ∧ (1 ≤ o.mg.levels ∧ o.mg.levels ≤ 6) ∧ 0 ≤ o.mg.nsmooth)))

/-- Numbers, arrays and memory that go with a supported configuration. -/
structure Fits {A : Type} (sz : A → Int) (w : ProgArr A) (m : Mem A ℝ) (o : RunOpts) : Prop where
  log : o.logFreq ≠ 0
  steps : 0 < o.maxSteps ∧ o.maxSteps < 1000000
  two : o.sel.dimension = 2 → 2 ≤ o.nx ∧ Arrays2 sz w o.nx
  three : o.sel.dimension = 3 → 2 ≤ o.nx ∧ 2 ≤ o.ny ∧ 2 ≤ o.nz
  ch : o.sel.dimension = 3 → o.sel.integrator = "rk3ssp" ∨ o.sel.integrator = "ode23" → o.sel.equation = "cahn-hilliard" →
    Arrays3 sz w o.nx o.ny o.nz
  pois : o.sel.dimension = 3 → o.sel.integrator = "rk3ssp" ∨ o.sel.integrator = "ode23" → o.sel.equation = "poisson" →
    ArraysPois sz w o.nx o.ny o.nz
  ode23 : o.sel.integrator = "ode23" → ∀ a ∈ [w.rk.k1, w.rk.k2, w.rk.k3, w.rk.k4], ∀ n, m a n = 0
  mg : o.sel.integrator = "bdf1" ∨ o.sel.integrator = "steady" →
    (o.mg.interp = "nearest" ∨ o.mg.interp = "linear") ∧ 1 ≤ o.mg.nsmooth ∧ ArraysMG sz w o.mg.levels.toNat o.nx o.ny o.nz ∧
    (∀ n ∈ [o.nx, o.ny, o.nz], (2 : Int) ^ (o.mg.levels.toNat - 1) ∣ n ∧ (2 : Int) ^ o.mg.levels.toNat ≤ n)
  bdf1 : o.sel.integrator = "bdf1" → 0 < o.dt0 ∧ o.tfinal ≠ o.t0 + o.dt0

end Madg.Spec
