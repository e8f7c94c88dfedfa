/-
The full approximation scheme (FAS) for nonlinear problems on a hierarchy of grids, on interior fields only.
-/
import Verif.Spec.Multigrid
import Verif.Spec.Transfer
import Mathlib.Algebra.Module.Pi

namespace Madg.Spec
variable {C K : Type} [Field K]

/-- `n` explicit smoothing passes for `u' = Φ u`, the first with step `δ`, the others with step `δ'`. The result is the field
and the mean slope of the last pass (`s` if there is none). -/
def smoothN (Φ : (C → K) → C → K) (δ δ' : K) : Nat → (C → K) × (C → K) → (C → K) × (C → K)
  | 0, us => us
  | n + 1, us => smoothN Φ δ' δ' n
      ((bs23 : Tableau K).step (fun _ => Φ) 0 δ us.1, (bs23 : Tableau K).slope (fun _ => Φ) 0 δ us.1)

/-- What the scheme is built from: the operators of the levels, restriction from and prolongation to level `ℓ`, the smoothers'
regular steps and the factors applied to the corrections. -/
structure Fas (C K : Type) where
  F : Nat → (C → K) → C → K
  R : Nat → (C → K) → C → K
  T : Nat → (C → K) → C → K
  dt : Nat → K
  relax : Nat → K

/-- One V-cycle for `Φ u = 0` on level `ℓ` with `d` coarser levels: smooth; restrict the field to `v0`; on the coarser level
apply a cycle to `F v = F v0 - R (Φ u)` starting from `v0`; correct by the prolonged change; smooth. The first pass on level
`j` uses the step `e j`. -/
def Fas.cycle (S : Fas C K) (n : Nat) (e : Nat → K) :
    Nat → Nat → ((C → K) → C → K) → (C → K) × (C → K) → (C → K) × (C → K)
  | 0, ℓ, Φ, us => smoothN Φ (e ℓ) (S.dt ℓ) (n + n) us
  | d + 1, ℓ, Φ, us =>
    let u1 := (smoothN Φ (e ℓ) (S.dt ℓ) n us).1
    let v0 := S.R ℓ u1
    let v := (S.cycle n e d (ℓ + 1) (fun v c => S.F (ℓ + 1) v c - S.F (ℓ + 1) v0 c + S.R ℓ (Φ u1) c) (v0, 0)).1
    smoothN Φ (S.dt ℓ) (S.dt ℓ) n (fun c => u1 c + S.relax ℓ * S.T ℓ (fun c => v c - v0 c) c, 0)

/-- Field and slope after `i` cycles, the smoothers having the steps `e` at first. -/
def Fas.iterate (S : Fas C K) (n d : Nat) (e : Nat → K) (Φ : (C → K) → C → K) (us : (C → K) × (C → K)) :
    Nat → (C → K) × (C → K)
  | 0 => us
  | i + 1 => S.cycle n (if i = 0 then e else S.dt) d 0 Φ (S.iterate n d e Φ us i)

end Madg.Spec
