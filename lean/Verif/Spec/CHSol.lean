/-
Smooth periodic solutions of the continuous Cahn–Hilliard equation.
-/
import Verif.Spec.Taylor
import Mathlib.Analysis.Calculus.Deriv.Basic

namespace Madg.Spec

/-- `u` is a solution of `∂u/∂t = -ε² Δ²u + Δ(u³ - u) - σ(u - m)` for times in `[0, T]`, periodic on the box with sides `L`,
and six times continuously differentiable in space and time. -/
structure CHSolution {d : Nat} (p : CHParams ℝ) (L : Fin d → ℝ) (T : ℝ) (u : ℝ → (Fin d → ℝ) → ℝ) : Prop where
  smooth : ContDiff ℝ (6 : ℕ) fun q : ℝ × (Fin d → ℝ) => u q.1 q.2
  periodic : ∀ t, 0 ≤ t → t ≤ T → BoxPeriodic L (u t)
  eqn : ∀ t, 0 ≤ t → t ≤ T → ∀ x, HasDerivAt (fun s => u s x) (chCont p (u t) x) t

end Madg.Spec
