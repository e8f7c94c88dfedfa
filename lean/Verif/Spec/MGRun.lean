/-
Whole runs of the multigrid integrator: the fields it steps through, and the arrays it needs.
-/
import Verif.Spec.FAS
import Verif.Spec.PoisFAS
import Verif.Spec.Run

namespace Madg.Spec
variable {C : Type}

/-- A solve with residual norms `res` uses `c` of at most `maxC` cycles: it ends with the first cycle that brings the norm
down to `tol` times the first one (never, if that is zero), or when the cycles are used up. -/
def CyclesUsed (tol : ℝ) (maxC : Nat) (res : Nat → ℝ) (c : Nat) : Prop :=
  c ≤ maxC ∧ (∀ i, 1 ≤ i → i < c → ¬ (res 0 ≠ 0 ∧ res i / res 0 ≤ tol)) ∧
    (c < maxC → 1 ≤ c ∧ res 0 ≠ 0 ∧ res c / res 0 ≤ tol)

/-- The cycles of the step with size `dt` from the field `u`: V-cycles of `S` with `n` passes and `L` coarser levels for the
backward Euler equation, or for `F u = 0` if `un` is false. The first passes use the steps `e`. -/
noncomputable def Fas.solve (S : Fas C ℝ) (n L : Nat) (e : Nat → ℝ) (un : Bool) (dt : ℝ) (u : C → ℝ) : Nat → (C → ℝ) × (C → ℝ) :=
  S.iterate n L e (fun w x => S.F 0 w x - if un then (w x - u x) / dt else 0) (u, S.F 0 u)

/-- Fields `u k` before step `k`, numbers of cycles `c k` and last mean slopes `s k` of the steps of a run from `u0`. The
smoothers' first steps are `e0` in the first step of the run, the regular ones later. -/
structure FasRun (S : Fas C ℝ) (n L : Nat) (tol : ℝ) (maxC : Nat) (nrm : (C → ℝ) → ℝ) (un : Bool) (e0 : Nat → ℝ)
    (dt : Nat → ℝ) (u0 : C → ℝ) (u s : Nat → C → ℝ) (c : Nat → Nat) : Prop where
  start : u 0 = u0
  used : ∀ k, CyclesUsed tol maxC (fun i => nrm (S.solve n L (if k = 0 then e0 else S.dt) un (dt k) (u k) i).2) (c k)
  next : ∀ k, u (k + 1) = (S.solve n L (if k = 0 then e0 else S.dt) un (dt k) (u k) (c k)).1
  slope : ∀ k, s k = (S.solve n L (if k = 0 then e0 else S.dt) un (dt k) (u k) (c k)).2

/-- The arrays of a run with the multigrid integrator: by level and purpose, coordinates, work arrays. -/
inductive MGName where
  | field (ℓ : Nat) (ρ : MGRole)
  | coord (ℓ : Nat) (x : Fin 6)
  | work (ℓ : Nat) (x : Fin 4)
  deriving DecidableEq

/-- Which array has which purpose. -/
def named {A : Type} (w : ProgArr A) : MGName → A
  | .field ℓ ρ => w.mgArr ℓ ρ
  | .coord ℓ x => ![(w.mgCo ℓ).x, (w.mgCo ℓ).y, (w.mgCo ℓ).z, (w.mgCo ℓ).xv, (w.mgCo ℓ).yv, (w.mgCo ℓ).zv] x
  | .work ℓ x => w.mgWk ℓ x

/-- The arrays of a multigrid run are different and have the sizes of their level's grid, halved from level to level, with a
halo of width 2. Names of levels that are not used are free to differ from all others, sizes matter only up to level `L`. -/
structure ArraysMG {A : Type} (sz : A → Int) (w : ProgArr A) (L : Nat) (nx ny nz : Int) : Prop where
  distinct : Function.Injective (named w)
  fields : ∀ ℓ, ℓ < L → ∀ ρ, sz (named w (.field ℓ ρ)) = (nx / 2 ^ ℓ + 4) * (ny / 2 ^ ℓ + 4) * (nz / 2 ^ ℓ + 4)
  centres : ∀ ℓ, ℓ < L → ∀ x : Fin 6, (x : Nat) < 3 →
    sz (named w (.coord ℓ x)) = (nx / 2 ^ ℓ + 4) * (ny / 2 ^ ℓ + 4) * (nz / 2 ^ ℓ + 4)
  vertices : ∀ ℓ, ℓ < L → ∀ x : Fin 6, 3 ≤ (x : Nat) →
    sz (named w (.coord ℓ x)) = (nx / 2 ^ ℓ + 5) * (ny / 2 ^ ℓ + 5) * (nz / 2 ^ ℓ + 5)
  works : ∀ ℓ, ℓ < L → ∀ x, sz (named w (.work ℓ x)) = (nx / 2 ^ ℓ + 4) * (ny / 2 ^ ℓ + 4) * (nz / 2 ^ ℓ + 4)

end Madg.Spec
