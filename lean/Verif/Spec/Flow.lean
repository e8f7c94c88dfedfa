/-
Solutions of the semi-discrete equations in time. Specification only; independent of the integrators.
-/
import Verif.Spec.Semi
import Mathlib.Analysis.Calculus.Deriv.Basic

namespace Madg.Spec

/-- On `[0, T]`, `y` solves `dy/dt = F(y)` at every cell with `P`. -/
def SolvesOn {C : Type} (F : (C → ℝ) → C → ℝ) (P : C → Prop) (T : ℝ) (y : ℝ → C → ℝ) : Prop :=
  ∀ t, 0 ≤ t → t ≤ T → ∀ c, P c → HasDerivWithinAt (fun t => y t c) (F (y t) c) (Set.Icc 0 T) t

end Madg.Spec
