/-
Specification of the differential operators of the continuous problem, for functions on `ℝ^d`.
-/
import Verif.Spec.Ops3
import Mathlib.Analysis.Calculus.FDeriv.Symmetric
import Mathlib.Analysis.Calculus.ContDiff.Operations
import Mathlib.Analysis.Calculus.FDeriv.Pi
import Mathlib.Data.Fin.VecNotation

namespace Madg.Spec

/-- Partial derivative along axis `a`. -/
noncomputable def pd {d : Nat} (a : Fin d) (u : (Fin d → ℝ) → ℝ) (x : Fin d → ℝ) : ℝ := fderiv ℝ u x (Pi.single a 1)

/-- Laplace operator: sum of the second partial derivatives. -/
noncomputable def laplace {d : Nat} (u : (Fin d → ℝ) → ℝ) (x : Fin d → ℝ) : ℝ := ∑ a, pd a (pd a u) x

/-- The Cahn-Hilliard right-hand side `-ε² Δ²u + Δ(u³ - u) - σ(u - m)` at a point. -/
noncomputable def chCont {d : Nat} (p : CHParams ℝ) (u : (Fin d → ℝ) → ℝ) (x : Fin d → ℝ) : ℝ :=
  -p.eps2 * laplace (laplace u) x + laplace (fun y => u y ^ 3 - u y) x - p.sigma * (u x - p.m)

/-- Periodic with period `L a` along every axis. -/
def BoxPeriodic {d : Nat} (L : Fin d → ℝ) (u : (Fin d → ℝ) → ℝ) : Prop := ∀ a x, u (x + Pi.single a (L a)) = u x

/-- Centre of a cell of the grid with corner `o` and spacing `dx`. -/
noncomputable def centre3 (o : Fin 3 → ℝ) (dx : ℝ) (i j k : Int) : Fin 3 → ℝ :=
  ![o 0 + ((i : ℝ) + 1 / 2) * dx, o 1 + ((j : ℝ) + 1 / 2) * dx, o 2 + ((k : ℝ) + 1 / 2) * dx]

/-- Centre of a cell in two dimensions. -/
noncomputable def centre2 (o : Fin 2 → ℝ) (dx : ℝ) (i j : Int) : Fin 2 → ℝ :=
  ![o 0 + ((i : ℝ) + 1 / 2) * dx, o 1 + ((j : ℝ) + 1 / 2) * dx]

end Madg.Spec
