/-
C113: the mean concentration of 2D runs in rounded arithmetic.
-/
import Verif.Proofs.RoundMean2
import Verif.Proofs.RoundCH2
import Verif.Proofs.RoundGen
import Verif.Props.Round
import Verif.Props.InitRound
import Verif.Props.RunEach2

set_option linter.unusedSectionVars false
set_option linter.unusedVariables false

namespace Madg
open Spec
variable {A K : Type} [DecidableEq A] [Field K] [LinearOrder K] [IsStrictOrderedRing K]
variable {rnd : K → K} {u τ : K}

/-! ### C113: the mean concentration -/

section
variable (hr : Rounds rnd u τ) (l : Int) (hn : 2 ≤ l) (G : Geom2)
  (hG : mkGeom2 l 2 = .ok G) (sz : A → Int) (l1 l2 l3 l4 : A)
  (hl : [l1, l2, l3, l4].Nodup) (hls : ∀ a ∈ [l1, l2, l3, l4], sz a = (l + 2 * 2) * (l + 2 * 2))
  (w : RKArr A) (hnd : [w.sol, w.res, w.k1, w.k2, w.k3, w.k4, w.stage].Nodup)
  (hsz : ∀ a ∈ [w.sol, w.res, w.k1, w.k2, w.k3, w.k4, w.stage], sz a = (l + 2 * 2) * (l + 2 * 2))
  (hfr : ∀ a ∈ [w.sol, w.res, w.k1, w.k2, w.k3, w.k4, w.stage], a ∉ [l1, l2, l3, l4])
  (p : CHParams (Fl rnd)) (dx : Fl rnd) (hdx : Spacing τ dx.val) (M : K) (hM : 1 ≤ M)
include hr hn hG hl hls hnd hsz hfr hdx hM

/-- C113. One rk3ssp step on a 2D periodic grid in rounded arithmetic. If the stored concentrations and the two stage values are at
most `M`, the deviation of the total from `N m` is multiplied by `1 - z + z²/2 - z³/6`, `z = σ dt`, up to `(1 + 2z) N` times the
error of a cell; with `σ = 0` the total is kept up to this error. -/
theorem C113_rk3_step (t dt : Fl rnd) (hdt : 2 * τ ≤ dt.val) (h0 : 0 ≤ p.sigma.val) (h1 : p.sigma.val * dt.val ≤ 1)
    (m m' : Mem A (Fl rnd)) (d : Det sz (rk3Step ((l + 2 * 2) * (l + 2 * 2)) (fun s r _ => G.evalRHS p dx ⟨s, r, l1, l2, l3, l4⟩) w t dt) m m')
    (hb : ∀ i j, (0 ≤ i ∧ i < l) → (0 ≤ j ∧ j < l) →
      |(m w.sol (G.g.at2 i j)).val| ≤ M ∧
      |(m w.sol (G.g.at2 i j) + dt * 1 * m' w.k1 (G.g.at2 i j)).val| ≤ M ∧
      |(m w.sol (G.g.at2 i j) + dt * (1 / 4 * m' w.k1 (G.g.at2 i j) + 1 / 4 * m' w.k2 (G.g.at2 i j))).val| ≤ M) :
    |(sum2 l l (fun i j => (m' w.sol (G.g.at2 i j)).val) - ((l * l : Int) : K) * p.m.val) -
        (1 - p.sigma.val * dt.val + (p.sigma.val * dt.val) ^ 2 / 2 - (p.sigma.val * dt.val) ^ 3 / 6) *
          (sum2 l l (fun i j => (m w.sol (G.g.at2 i j)).val) - ((l * l : Int) : K) * p.m.val)| ≤
      (1 + 2 * (p.sigma.val * dt.val)) * (((l * l : Int) : K) *
        (((1 + u) ^ 34 - 1) * (2 * M + dt.val * rhsSize (valuesOf p) dx.val M))) := by
  obtain ⟨m1, d1, q, -⟩ := rk3_onA (ch2_contractA hn hG hl hls p dx) ⟨hnd, hsz, hfr⟩ t dt m trivial
  obtain rfl := d.unique d1
  have t0 := hr.tiny.1
  have hd : |dt.val| = dt.val := abs_of_nonneg (by linarith)
  obtain ⟨y2, y3, e2, e3, e4⟩ := Gen.rk3_errors hr (rhsSize_ge hr (le_refl (1 : Int)) (le_refl (1 : Int)) (le_refl (1 : Int)) hM hdx (p := p))
    (FE := chField2 (valuesOf p) dx.val l 0) (fun t y hy c _ => near_field2 hr (by omega) hM hdx hy c) hM (by rw [hd]; exact hdt) q
    (fun c hc => (hb _ _ hc.1 hc.2).1) (fun c hc => (hb _ _ hc.1 hc.2).2.1)
    (fun c hc => (hb _ _ hc.1 hc.2).2.2)
  rw [hd] at e2 e3 e4
  generalize ((1 + u) ^ 34 - 1) * (2 * M + dt.val * rhsSize (valuesOf p) dx.val M) = δ at e2 e3 e4 ⊢
  have key := drift_rk3_2 (n := l) (by omega) (valuesOf p) dx.val
    (dt := dt.val) (δ := δ) (mul_nonneg h0 (by linarith)) h1 (y := fun c => (m w.sol (G.g.at2 c.1 c.2)).val) (y2 := y2)
    (y3 := y3) (y' := fun c => (m' w.sol (G.g.at2 c.1 c.2)).val) e2 e3 e4
  exact key

/-- C113. A whole rk3ssp run: after `n` steps of sizes at most `T` the total is as close to `N m` as at the start, up to `n` times
an error of a few hundred roundings per cell. -/
theorem C113_rk3_run (n : Nat) (ts dts : Nat → Fl rnd) (T : K) (hdt : ∀ i < n, 2 * τ ≤ (dts i).val ∧ (dts i).val ≤ T)
    (h0 : 0 ≤ p.sigma.val) (h1 : ∀ i < n, p.sigma.val * (dts i).val ≤ 1) (ms : Nat → Mem A (Fl rnd))
    (d : ∀ i < n, Det sz (rk3Step ((l + 2 * 2) * (l + 2 * 2)) (fun s r _ => G.evalRHS p dx ⟨s, r, l1, l2, l3, l4⟩) w (ts i) (dts i)) (ms i) (ms (i + 1)))
    (hb : ∀ i' < n, ∀ i j, (0 ≤ i ∧ i < l) → (0 ≤ j ∧ j < l) →
      |(ms i' w.sol (G.g.at2 i j)).val| ≤ M ∧
      |(ms i' w.sol (G.g.at2 i j) + dts i' * 1 * ms (i' + 1) w.k1 (G.g.at2 i j)).val| ≤ M ∧
      |(ms i' w.sol (G.g.at2 i j) + dts i' * (1 / 4 * ms (i' + 1) w.k1 (G.g.at2 i j) + 1 / 4 * ms (i' + 1) w.k2 (G.g.at2 i j))).val| ≤ M) :
    |sum2 l l (fun i j => (ms n w.sol (G.g.at2 i j)).val) - ((l * l : Int) : K) * p.m.val| ≤
      |sum2 l l (fun i j => (ms 0 w.sol (G.g.at2 i j)).val) - ((l * l : Int) : K) * p.m.val| +
        n * (3 * (((l * l : Int) : K) * (((1 + u) ^ 34 - 1) * (2 * M + T * rhsSize (valuesOf p) dx.val M)))) := by
  have hR := rhsSize_ge hr (le_refl (1 : Int)) (le_refl (1 : Int)) (le_refl (1 : Int)) hM hdx (p := p)
  have hN : (0 : K) < ((l * l : Int) : K) := by
    have : 0 < l * l := by have : 0 < l := (by omega); positivity
    exact_mod_cast this
  induction n with
  | zero => simp
  | succ n ih =>
    have ih := ih (fun i hi => hdt i (by omega)) (fun i hi => h1 i (by omega)) (fun i hi => d i (by omega)) (fun i hi => hb i (by omega))
    have st := C113_rk3_step hr l hn G hG sz l1 l2 l3 l4 hl hls w hnd hsz hfr p dx hdx M hM (ts n) (dts n)
      (hdt n (by omega)).1 h0 (h1 n (by omega)) (ms n) (ms (n + 1)) (d n (by omega)) (hb n (by omega))
    exact run_step hr hN.le (by have := hr.tiny.1; linarith) (by linarith) h0 (hdt n (by omega)) (h1 n (by omega)) st ih

/-- C113. With `σ = 0` the mean concentration after `n` rk3ssp steps is that of the initial state up to `n` times the error of a
cell. -/
theorem C113_rk3_mean (n : Nat) (ts dts : Nat → Fl rnd) (T : K) (hdt : ∀ i < n, 2 * τ ≤ (dts i).val ∧ (dts i).val ≤ T)
    (h0 : p.sigma.val = 0) (ms : Nat → Mem A (Fl rnd))
    (d : ∀ i < n, Det sz (rk3Step ((l + 2 * 2) * (l + 2 * 2)) (fun s r _ => G.evalRHS p dx ⟨s, r, l1, l2, l3, l4⟩) w (ts i) (dts i)) (ms i) (ms (i + 1)))
    (hb : ∀ i' < n, ∀ i j, (0 ≤ i ∧ i < l) → (0 ≤ j ∧ j < l) →
      |(ms i' w.sol (G.g.at2 i j)).val| ≤ M ∧
      |(ms i' w.sol (G.g.at2 i j) + dts i' * 1 * ms (i' + 1) w.k1 (G.g.at2 i j)).val| ≤ M ∧
      |(ms i' w.sol (G.g.at2 i j) + dts i' * (1 / 4 * ms (i' + 1) w.k1 (G.g.at2 i j) + 1 / 4 * ms (i' + 1) w.k2 (G.g.at2 i j))).val| ≤ M) :
    |sum2 l l (fun i j => (ms n w.sol (G.g.at2 i j)).val) / ((l * l : Int) : K) -
        sum2 l l (fun i j => (ms 0 w.sol (G.g.at2 i j)).val) / ((l * l : Int) : K)| ≤
      n * (((1 + u) ^ 34 - 1) * (2 * M + T * rhsSize (valuesOf p) dx.val M)) := by
  have hR := rhsSize_ge hr (le_refl (1 : Int)) (le_refl (1 : Int)) (le_refl (1 : Int)) hM hdx (p := p)
  have hN : (0 : K) < ((l * l : Int) : K) := by
    have : 0 < l * l := by have : 0 < l := (by omega); positivity
    exact_mod_cast this
  induction n with
  | zero => simp
  | succ n ih =>
    have ih := ih (fun i hi => hdt i (by omega)) (fun i hi => d i (by omega)) (fun i hi => hb i (by omega))
    have st := C113_rk3_step hr l hn G hG sz l1 l2 l3 l4 hl hls w hnd hsz hfr p dx hdx M hM (ts n) (dts n)
      (hdt n (by omega)).1 h0.ge (by rw [h0, zero_mul]; exact zero_le_one) (ms n) (ms (n + 1)) (d n (by omega)) (hb n (by omega))
    rw [h0] at st
    exact mean_step hr hN (by have := hr.tiny.1; linarith) (hdt n (by omega)) st ih

/-- Every step of an ode23 run starts from the slope at its state. -/
theorem ode23_posts2 (n : Nat) (ts dts : Nat → Fl rnd) (ms : Nat → Mem A (Fl rnd))
    (d : ∀ i < n, Det sz (ode23Host ((l + 2 * 2) * (l + 2 * 2)) (fun s r _ => G.evalRHS p dx ⟨s, r, l1, l2, l3, l4⟩) w (decide (i = 0)) (ts i) (dts i))
      (ms i) (ms (i + 1))) :
    ∀ i < n, Ode23Post (In2 l) (fun c : Int × Int => G.g.at2 c.1 c.2)
      (chFieldA2 p dx l) w (ts i) (dts i) (ms i) (ms (i + 1)) := by
  intro i
  induction i with
  | zero =>
    intro hi
    obtain ⟨m1, d1, q, -⟩ := ode23_onA (ch2_contractA hn hG hl hls p dx) ⟨hnd, hsz, hfr⟩ (decide (0 = 0)) (ts 0) (dts 0) (ms 0)
      trivial (by simp)
    obtain rfl := (d 0 hi).unique d1
    exact q
  | succ i ih =>
    intro hi
    obtain ⟨m1, d1, q, -⟩ := ode23_onA (ch2_contractA hn hG hl hls p dx) ⟨hnd, hsz, hfr⟩ (decide (i + 1 = 0)) (ts (i + 1))
      (dts (i + 1)) (ms (i + 1)) trivial (fun _ c hc => (ih (by omega)).k4 c hc)
    rw [(d (i + 1) hi).unique d1]
    exact q

/-- C113. The step after `n` ode23 steps, of which only the very first evaluates its first slope. -/
theorem C113_ode23_step (n : Nat) (ts dts : Nat → Fl rnd) (ms : Nat → Mem A (Fl rnd))
    (d : ∀ i < n + 1, Det sz (ode23Host ((l + 2 * 2) * (l + 2 * 2)) (fun s r _ => G.evalRHS p dx ⟨s, r, l1, l2, l3, l4⟩) w (decide (i = 0)) (ts i) (dts i))
      (ms i) (ms (i + 1)))
    (hdt : 2 * τ ≤ (dts n).val) (h0 : 0 ≤ p.sigma.val) (h1 : p.sigma.val * (dts n).val ≤ 1)
    (hb : ∀ i j, (0 ≤ i ∧ i < l) → (0 ≤ j ∧ j < l) →
      |(ms n w.sol (G.g.at2 i j)).val| ≤ M ∧
      |(ms n w.sol (G.g.at2 i j) + dts n * (1 / 2) * ms (n + 1) w.k1 (G.g.at2 i j)).val| ≤ M ∧
      |(ms n w.sol (G.g.at2 i j) + dts n * (0 * ms (n + 1) w.k1 (G.g.at2 i j) + 3 / 4 * ms (n + 1) w.k2 (G.g.at2 i j))).val| ≤ M) :
    |(sum2 l l (fun i j => (ms (n + 1) w.sol (G.g.at2 i j)).val) - ((l * l : Int) : K) * p.m.val) -
        (1 - p.sigma.val * (dts n).val + (p.sigma.val * (dts n).val) ^ 2 / 2 - (p.sigma.val * (dts n).val) ^ 3 / 6) *
          (sum2 l l (fun i j => (ms n w.sol (G.g.at2 i j)).val) - ((l * l : Int) : K) * p.m.val)| ≤
      (1 + 2 * (p.sigma.val * (dts n).val)) * (((l * l : Int) : K) *
        (((1 + u) ^ 34 - 1) * (2 * M + (dts n).val * rhsSize (valuesOf p) dx.val M))) := by
  have post   := ode23_posts2 hr l hn G hG sz l1 l2 l3 l4 hl hls w hnd hsz hfr p dx hdx M hM (n + 1) ts dts ms d
  have q := post n (by omega)
  have t0 := hr.tiny.1
  have hd : |(dts n).val| = (dts n).val := abs_of_nonneg (by linarith)
  obtain ⟨y2, y3, e2, e3, e4⟩ := Gen.ode23_errors hr (rhsSize_ge hr (le_refl (1 : Int)) (le_refl (1 : Int)) (le_refl (1 : Int)) hM hdx (p := p))
    (FE := chField2 (valuesOf p) dx.val l 0) (fun t y hy c _ => near_field2 hr (by omega) hM hdx hy c) hM (by rw [hd]; exact hdt) q
    (fun c hc => (hb _ _ hc.1 hc.2).1) (fun c hc => (hb _ _ hc.1 hc.2).2.1)
    (fun c hc => (hb _ _ hc.1 hc.2).2.2)
  rw [hd] at e2 e3 e4
  generalize ((1 + u) ^ 34 - 1) * (2 * M + (dts n).val * rhsSize (valuesOf p) dx.val M) = δ at e2 e3 e4 ⊢
  have key := drift_ode23_2 (n := l) (by omega) (valuesOf p) dx.val
    (dt := (dts n).val) (δ := δ) (mul_nonneg h0 (by linarith)) h1 (y := fun c => (ms n w.sol (G.g.at2 c.1 c.2)).val) (y2 := y2)
    (y3 := y3) (y' := fun c => (ms (n + 1) w.sol (G.g.at2 c.1 c.2)).val) e2 e3 e4
  exact key

/-- C113. A whole ode23 run, the first step evaluating its first slope and the others taking over the last one of the step before: after `n` steps of sizes at most `T` the total is as close to `N m` as at the start, up to `n` times
an error of a few hundred roundings per cell. -/
theorem C113_ode23_run (n : Nat) (ts dts : Nat → Fl rnd) (T : K) (hdt : ∀ i < n, 2 * τ ≤ (dts i).val ∧ (dts i).val ≤ T)
    (h0 : 0 ≤ p.sigma.val) (h1 : ∀ i < n, p.sigma.val * (dts i).val ≤ 1) (ms : Nat → Mem A (Fl rnd))
    (d : ∀ i < n, Det sz (ode23Host ((l + 2 * 2) * (l + 2 * 2)) (fun s r _ => G.evalRHS p dx ⟨s, r, l1, l2, l3, l4⟩) w (decide (i = 0)) (ts i) (dts i)) (ms i) (ms (i + 1)))
    (hb : ∀ i' < n, ∀ i j, (0 ≤ i ∧ i < l) → (0 ≤ j ∧ j < l) →
      |(ms i' w.sol (G.g.at2 i j)).val| ≤ M ∧
      |(ms i' w.sol (G.g.at2 i j) + dts i' * (1 / 2) * ms (i' + 1) w.k1 (G.g.at2 i j)).val| ≤ M ∧
      |(ms i' w.sol (G.g.at2 i j) + dts i' * (0 * ms (i' + 1) w.k1 (G.g.at2 i j) + 3 / 4 * ms (i' + 1) w.k2 (G.g.at2 i j))).val| ≤ M) :
    |sum2 l l (fun i j => (ms n w.sol (G.g.at2 i j)).val) - ((l * l : Int) : K) * p.m.val| ≤
      |sum2 l l (fun i j => (ms 0 w.sol (G.g.at2 i j)).val) - ((l * l : Int) : K) * p.m.val| +
        n * (3 * (((l * l : Int) : K) * (((1 + u) ^ 34 - 1) * (2 * M + T * rhsSize (valuesOf p) dx.val M)))) := by
  have hR := rhsSize_ge hr (le_refl (1 : Int)) (le_refl (1 : Int)) (le_refl (1 : Int)) hM hdx (p := p)
  have hN : (0 : K) < ((l * l : Int) : K) := by
    have : 0 < l * l := by have : 0 < l := (by omega); positivity
    exact_mod_cast this
  induction n with
  | zero => simp
  | succ n ih =>
    have D := d
    have ih := ih (fun i hi => hdt i (by omega)) (fun i hi => h1 i (by omega)) (fun i hi => d i (by omega)) (fun i hi => hb i (by omega))
    have st := C113_ode23_step hr l hn G hG sz l1 l2 l3 l4 hl hls w hnd hsz hfr p dx hdx M hM n ts dts ms D
      (hdt n (by omega)).1 h0 (h1 n (by omega)) (hb n (by omega))
    exact run_step hr hN.le (by have := hr.tiny.1; linarith) (by linarith) h0 (hdt n (by omega)) (h1 n (by omega)) st ih

/-- C113. With `σ = 0` the mean concentration after `n` ode23 steps is that of the initial state up to `n` times the error of a
cell. -/
theorem C113_ode23_mean (n : Nat) (ts dts : Nat → Fl rnd) (T : K) (hdt : ∀ i < n, 2 * τ ≤ (dts i).val ∧ (dts i).val ≤ T)
    (h0 : p.sigma.val = 0) (ms : Nat → Mem A (Fl rnd))
    (d : ∀ i < n, Det sz (ode23Host ((l + 2 * 2) * (l + 2 * 2)) (fun s r _ => G.evalRHS p dx ⟨s, r, l1, l2, l3, l4⟩) w (decide (i = 0)) (ts i) (dts i)) (ms i) (ms (i + 1)))
    (hb : ∀ i' < n, ∀ i j, (0 ≤ i ∧ i < l) → (0 ≤ j ∧ j < l) →
      |(ms i' w.sol (G.g.at2 i j)).val| ≤ M ∧
      |(ms i' w.sol (G.g.at2 i j) + dts i' * (1 / 2) * ms (i' + 1) w.k1 (G.g.at2 i j)).val| ≤ M ∧
      |(ms i' w.sol (G.g.at2 i j) + dts i' * (0 * ms (i' + 1) w.k1 (G.g.at2 i j) + 3 / 4 * ms (i' + 1) w.k2 (G.g.at2 i j))).val| ≤ M) :
    |sum2 l l (fun i j => (ms n w.sol (G.g.at2 i j)).val) / ((l * l : Int) : K) -
        sum2 l l (fun i j => (ms 0 w.sol (G.g.at2 i j)).val) / ((l * l : Int) : K)| ≤
      n * (((1 + u) ^ 34 - 1) * (2 * M + T * rhsSize (valuesOf p) dx.val M)) := by
  have hR := rhsSize_ge hr (le_refl (1 : Int)) (le_refl (1 : Int)) (le_refl (1 : Int)) hM hdx (p := p)
  have hN : (0 : K) < ((l * l : Int) : K) := by
    have : 0 < l * l := by have : 0 < l := (by omega); positivity
    exact_mod_cast this
  induction n with
  | zero => simp
  | succ n ih =>
    have D := d
    have ih := ih (fun i hi => hdt i (by omega)) (fun i hi => d i (by omega)) (fun i hi => hb i (by omega))
    have st := C113_ode23_step hr l hn G hG sz l1 l2 l3 l4 hl hls w hnd hsz hfr p dx hdx M hM n ts dts ms D
      (hdt n (by omega)).1 h0.ge (by rw [h0, zero_mul]; exact zero_le_one) (hb n (by omega))
    rw [h0] at st
    exact mean_step hr hN (by have := hr.tiny.1; linarith) (hdt n (by omega)) st ih

/-- C113. The same without conditions on the stages, for rk3ssp steps so small that `4 T` times the size of the right-hand side is
at most `M`, where `M / 2` bounds the states: the mean changes by at most `9/4 ((1+u)^34 - 1) M` per step. -/
theorem C113_rk3_small_steps (hM2 : 2 ≤ M) (h34 : (1 + u) ^ 34 ≤ 5 / 4) (n : Nat) (ts dts : Nat → Fl rnd) (T : K)
    (hT : T * rhsSize (valuesOf p) dx.val M ≤ M / 4) (hdt : ∀ i < n, 2 * τ ≤ (dts i).val ∧ (dts i).val ≤ T)
    (h0 : p.sigma.val = 0) (ms : Nat → Mem A (Fl rnd))
    (d : ∀ i < n, Det sz (rk3Step ((l + 2 * 2) * (l + 2 * 2)) (fun s r _ => G.evalRHS p dx ⟨s, r, l1, l2, l3, l4⟩) w (ts i) (dts i)) (ms i) (ms (i + 1)))
    (hb : ∀ i' < n, ∀ i j, (0 ≤ i ∧ i < l) → (0 ≤ j ∧ j < l) →
      |(ms i' w.sol (G.g.at2 i j)).val| ≤ M / 2) :
    |sum2 l l (fun i j => (ms n w.sol (G.g.at2 i j)).val) / ((l * l : Int) : K) -
        sum2 l l (fun i j => (ms 0 w.sol (G.g.at2 i j)).val) / ((l * l : Int) : K)| ≤
      n * (9 / 4 * ((1 + u) ^ 34 - 1) * M) := by
  have hR := rhsSize_ge hr (le_refl (1 : Int)) (le_refl (1 : Int)) (le_refl (1 : Int)) hM hdx (p := p)
  have t0 := hr.tiny.1
  have ρ := sub_nonneg.2 (Near.one_le hr.unit.1 34)
  refine le_trans (C113_rk3_mean hr l hn G hG sz l1 l2 l3 l4 hl hls w hnd hsz hfr p dx hdx M hM n ts dts T hdt h0 ms d ?_)
    (mul_le_mul_of_nonneg_left ?_ (Nat.cast_nonneg n))
  · intro i hi
    obtain ⟨m1, d1, q, -⟩ := rk3_onA (ch2_contractA hn hG hl hls p dx) ⟨hnd, hsz, hfr⟩ (ts i) (dts i) (ms i) trivial
    rw [← (d i hi).unique d1] at q
    have hd : |(dts i).val| = (dts i).val := abs_of_nonneg (by have := hdt i hi; linarith)
    obtain ⟨x, y, z⟩ := Gen.rk3_stages hr (rhsSize_ge hr (le_refl (1 : Int)) (le_refl (1 : Int)) (le_refl (1 : Int)) hM hdx (p := p))
      (FE := chField2 (valuesOf p) dx.val l 0) (fun t y hy c _ => near_field2 hr (by omega) hM hdx hy c) hM h34 hM2 (by rw [hd]; exact (hdt i hi).1)
      (by rw [hd]; exact (mul_le_mul_of_nonneg_right (hdt i hi).2 (by linarith)).trans hT) q
      (fun c hc => hb i hi _ _ hc.1 hc.2)
    exact fun a b ha hb => ⟨x (a, b) ⟨ha, hb⟩, y (a, b) ⟨ha, hb⟩, z (a, b) ⟨ha, hb⟩⟩
  · calc ((1 + u) ^ 34 - 1) * (2 * M + T * rhsSize (valuesOf p) dx.val M) ≤ ((1 + u) ^ 34 - 1) * (2 * M + M / 4) := by gcongr
      _ = 9 / 4 * ((1 + u) ^ 34 - 1) * M := by ring

/-- C113. The same without conditions on the stages, for ode23 steps so small that `4 T` times the size of the right-hand side is
at most `M`, where `M / 2` bounds the states: the mean changes by at most `9/4 ((1+u)^34 - 1) M` per step. -/
theorem C113_ode23_small_steps (hM2 : 2 ≤ M) (h34 : (1 + u) ^ 34 ≤ 5 / 4) (n : Nat) (ts dts : Nat → Fl rnd) (T : K)
    (hT : T * rhsSize (valuesOf p) dx.val M ≤ M / 4) (hdt : ∀ i < n, 2 * τ ≤ (dts i).val ∧ (dts i).val ≤ T)
    (h0 : p.sigma.val = 0) (ms : Nat → Mem A (Fl rnd))
    (d : ∀ i < n, Det sz (ode23Host ((l + 2 * 2) * (l + 2 * 2)) (fun s r _ => G.evalRHS p dx ⟨s, r, l1, l2, l3, l4⟩) w (decide (i = 0)) (ts i) (dts i)) (ms i) (ms (i + 1)))
    (hb : ∀ i' < n, ∀ i j, (0 ≤ i ∧ i < l) → (0 ≤ j ∧ j < l) →
      |(ms i' w.sol (G.g.at2 i j)).val| ≤ M / 2) :
    |sum2 l l (fun i j => (ms n w.sol (G.g.at2 i j)).val) / ((l * l : Int) : K) -
        sum2 l l (fun i j => (ms 0 w.sol (G.g.at2 i j)).val) / ((l * l : Int) : K)| ≤
      n * (9 / 4 * ((1 + u) ^ 34 - 1) * M) := by
  have hR := rhsSize_ge hr (le_refl (1 : Int)) (le_refl (1 : Int)) (le_refl (1 : Int)) hM hdx (p := p)
  have t0 := hr.tiny.1
  have ρ := sub_nonneg.2 (Near.one_le hr.unit.1 34)
  refine le_trans (C113_ode23_mean hr l hn G hG sz l1 l2 l3 l4 hl hls w hnd hsz hfr p dx hdx M hM n ts dts T hdt h0 ms d ?_)
    (mul_le_mul_of_nonneg_left ?_ (Nat.cast_nonneg n))
  · intro i hi
    have q   := ode23_posts2 hr l hn G hG sz l1 l2 l3 l4 hl hls w hnd hsz hfr p dx hdx M hM n ts dts ms d i hi
    have hd : |(dts i).val| = (dts i).val := abs_of_nonneg (by have := hdt i hi; linarith)
    obtain ⟨x, y, z⟩ := Gen.ode23_stages hr (rhsSize_ge hr (le_refl (1 : Int)) (le_refl (1 : Int)) (le_refl (1 : Int)) hM hdx (p := p))
      (FE := chField2 (valuesOf p) dx.val l 0) (fun t y hy c _ => near_field2 hr (by omega) hM hdx hy c) hM h34 hM2 (by rw [hd]; exact (hdt i hi).1)
      (by rw [hd]; exact (mul_le_mul_of_nonneg_right (hdt i hi).2 (by linarith)).trans hT) q
      (fun c hc => hb i hi _ _ hc.1 hc.2)
    exact fun a b ha hb => ⟨x (a, b) ⟨ha, hb⟩, y (a, b) ⟨ha, hb⟩, z (a, b) ⟨ha, hb⟩⟩
  · calc ((1 + u) ^ 34 - 1) * (2 * M + T * rhsSize (valuesOf p) dx.val M) ≤ ((1 + u) ^ 34 - 1) * (2 * M + M / 4) := by gcongr
      _ = 9 / 4 * ((1 + u) ^ 34 - 1) * M := by ring

end

/-! ### From the initial condition on -/

/-- C113. The initial state of a 2D run, cell by cell: each value and the mean are as prescribed up to `21 u B` and `19 u B`. -/
theorem C113_initial (hr : Rounds rnd u τ) {l : Int} (hn : 2 ≤ l) (mean : Fl rnd) (draw : Nat → Fl rnd) {B : K}
    (hB : τ ≤ B) (hb : ∀ i, i < (l * l).toNat → |mean.val| + |(draw i).val| ≤ B)
    (hlen : rnd ((l * l : Int) : K) = ((l * l : Int) : K)) (hnu : ((l * l : Int) : K) * u ≤ 1 / 16) :
    (∀ c, In2 l c → |(initialAny2 draw mean l c).val - (mean.val + (draw (c.1 * l + c.2).toNat).val -
      ((List.range (l * l).toNat).map fun i => (draw i).val).sum / ((l * l : Int) : K))| ≤ 21 * (u * B)) ∧
    |sum2 l l (fun i j => (initialAny2 draw mean l (i, j)).val) / ((l * l : Int) : K) - mean.val| ≤
      19 * (u * B) := by
  obtain ⟨G, hG, -⟩ := mkGeom2_ok (n := l) (nhalo := 2) (by omega) (by omega)
  obtain ⟨hGo, hg⟩ := Geom2.ok_of_mk (by omega) (by omega) hG
  have hl := hGo.length_int
  rw [hg] at hl
  dsimp only at hl
  have hN : (l * l).toNat = G.interior.length := by omega
  have hK : ((G.interior.length : Nat) : K) = ((l * l : Int) : K) := by rw [← hl]; push_cast; rfl
  rw [← hK] at hlen hnu ⊢
  rw [hN] at hb
  obtain ⟨m', d, h1, h2, -⟩ := C100_initial hr (fun _ : Nat => G.g.size) G.interior hGo.nodup_int hGo.int_ne 0
    (fun n hn => hGo.int_inB rfl hn) mean draw B hB hb hlen hnu (fun _ _ => 0)
  have hv : ∀ c, In2 l c → m' 0 (G.g.at2 c.1 c.2) = initialAny2 draw mean l c := by
    intro c hc
    obtain ⟨m1, d', v, -⟩ := icRandom_detA G.interior hGo.nodup_int 0 (fun n hn => hGo.int_inB (sz := fun _ : Nat => G.g.size) rfl hn) mean draw (fun _ _ => 0)
    obtain rfl := d.unique d'
    have hlt : (c.1 * l + c.2).toNat < G.interior.length := by
      rw [← hN]
      have := idx2_lt (by omega : (((l * l).toNat : Nat) : Int) = l * l) hc.1 hc.2
      exact this
    have := v _ hlt
    have e := interior2_getD hGo (i := c.1) (j := c.2) (by rw [hg]; exact hc.1) (by rw [hg]; exact hc.2)
    rw [hg] at e
    dsimp only at e
    rw [e] at this
    rw [hg, this]
    unfold initialAny2
    rw [hN]
  refine ⟨fun c hc => ?_, ?_⟩
  · have hlt : (c.1 * l + c.2).toNat < G.interior.length := by
      rw [← hN]
      exact idx2_lt (by omega : (((l * l).toNat : Nat) : Int) = l * l) hc.1 hc.2
    have := h1 _ hlt
    have e := interior2_getD hGo (i := c.1) (j := c.2) (by rw [hg]; exact hc.1) (by rw [hg]; exact hc.2)
    rw [hg] at e
    dsimp only at e
    have hvc := hv c hc
    rw [hg] at hvc
    rw [e, hvc] at this
    rw [hN]
    exact this
  · rw [hGo.int_sum, hg] at h2
    dsimp only at h2
    rw [sum2_congr (g := fun i j => (initialAny2 draw mean l (i, j)).val) (fun i j hi hj => by
      have := hv (i, j) ⟨hi, hj⟩
      rw [hg] at this
      rw [← this])] at h2
    exact h2

/-- C113. Periodic 2D runs with the explicit integrator `rk3ssp` in rounded arithmetic, with or without the nonlocal term: as long as
the states stay below `M / 2` the mean of the state after `n` steps differs from the prescribed mean by at most `19 u B` from the
initial field plus `27/4 ((1+u)^34 - 1) M` for each step. -/
theorem C113_run_mean (hr : Rounds rnd u τ) {l : Int} (hn : 2 ≤ l)
    (par : CHParams (Fl rnd)) (dx : Fl rnd) (hdx : Spacing τ dx.val) (draw : Nat → Fl rnd) (B : K) (hB : τ ≤ B)
    (hb : ∀ i, i < (l * l).toNat → |par.m.val| + |(draw i).val| ≤ B)
    (hlen : rnd ((l * l : Int) : K) = ((l * l : Int) : K)) (hnu : ((l * l : Int) : K) * u ≤ 1 / 16)
    (M T : K) (hM : 2 ≤ M) (h34 : (1 + u) ^ 34 ≤ 5 / 4) (hT : T * rhsSize (valuesOf par) dx.val M ≤ M / 4) (h0 : 0 ≤ par.sigma.val)
    (t d : Nat → Fl rnd) (s : Nat → Int × Int → Fl rnd)
    (hs : s = iterates (ssprk3Step (rhsOps2 par dx l)) t d (initialAny2 draw par.m l))
    (n : Nat) (hd : ∀ i < n, 2 * τ ≤ (d i).val ∧ (d i).val ≤ T ∧ par.sigma.val * (d i).val ≤ 1)
    (hbd : ∀ i < n, ∀ c, In2 l c → |(s i c).val| ≤ M / 2) :
    |sum2 l l (fun i j => (s n (i, j)).val) / ((l * l : Int) : K) - par.m.val| ≤
      19 * (u * B) + n * (27 / 4 * (((1 + u) ^ 34 - 1) * M)) := by
  obtain ⟨G, hG, -⟩ := mkGeom2_ok (n := l) (nhalo := 2) (by omega) (by omega)
  obtain ⟨sz, hsz⟩ : ∃ sz : Nat → Int, ∀ a, sz a = (l + 2 * 2) * (l + 2 * 2) := ⟨fun _ => _, fun _ => rfl⟩
  obtain ⟨w, hw⟩ : ∃ w : RKArr Nat, w = ⟨0, 1, 2, 3, 4, 5, 6⟩ := ⟨_, rfl⟩
  have hl : ([7, 8, 9, 10] : List Nat).Nodup := by decide
  have hnd : [w.sol, w.res, w.k1, w.k2, w.k3, w.k4, w.stage].Nodup := by rw [hw]; decide
  have hfr : ∀ a ∈ [w.sol, w.res, w.k1, w.k2, w.k3, w.k4, w.stage], a ∉ [7, 8, 9, 10] := by rw [hw]; decide
  have hc := ch2_contractA hn hG hl (fun a _ => hsz a) par dx
  have hW : w.Ok sz ((l + 2 * 2) * (l + 2 * 2)) (· ∈ [7, 8, 9, 10]) := ⟨hnd, fun a _ => hsz a, hfr⟩
  choose Φ hΦ hval hfrm using fun t dt m => rk3_any hc hW t dt m trivial
  obtain ⟨hGo, hg⟩ := Geom2.ok_of_mk (by omega) (by omega) hG
  obtain ⟨m0, hm0⟩ : ∃ m0 : Mem Nat (Fl rnd), ∀ c, In2 l c →
      m0 w.sol (G.g.at2 c.1 c.2) = initialAny2 draw par.m l c := by
    refine ⟨fun _ q => initialAny2 draw par.m l (G.g.getI q, G.g.getJ q), fun c hc => ?_⟩
    have hp : G.g.Pad c.1 c.2 := by rw [hg]; unfold In2 at hc; unfold Grid2.Pad; dsimp only; omega
    dsimp only
    rw [(Grid2.get_at2 hp).1, (Grid2.get_at2 hp).2]
  obtain ⟨ms, ms0, mss⟩ : ∃ ms : Nat → Mem Nat (Fl rnd), ms 0 = m0 ∧ ∀ i, ms (i + 1) = Φ (t i) (d i) (ms i) :=
    ⟨fun i => Nat.rec m0 (fun i m => Φ (t i) (d i) m) i, rfl, fun _ => rfl⟩
  have hst : ∀ i c, In2 l c → ms i w.sol (G.g.at2 c.1 c.2) = s i c := by
    intro i
    induction i with
    | zero => intro c hc'; rw [ms0, hs]; exact hm0 c hc'
    | succ i ih =>
      intro c hc'
      rw [mss]
      refine (hval (t i) (d i) (ms i) c hc').trans ((ssprk3Step_congr hc (t i) (d i) (v := s i) ih c hc').trans ?_)
      rw [show chFieldA2 par dx l = rhsOps2 par dx l from funext fun t => chFieldA2_eq par dx l t, hs]
      rfl
  have hN : (0 : K) < ((l * l : Int) : K) := by
    have : 0 < l * l := by have : 0 < l := (by omega); positivity
    exact_mod_cast this
  have hsum : ∀ i, sum2 l l (fun a b => (ms i w.sol (G.g.at2 a b)).val) =
      sum2 l l (fun a b => (s i (a, b)).val) := fun i =>
    sum2_congr fun a b h1 h2 => by rw [← hst i (a, b) ⟨h1, h2⟩]
  have run := C113_rk3_run hr l hn G hG sz 7 8 9 10 hl (fun a _ => hsz a) w hnd (fun a _ => hsz a) hfr par dx hdx M
    (by linarith) n t d T (fun i hi => ⟨(hd i hi).1, (hd i hi).2.1⟩) h0 (fun i hi => (hd i hi).2.2) ms
    (fun i hi => by rw [mss]; exact hΦ (t i) (d i) (ms i))
    (by
      intro i hi
      obtain ⟨m1, d1, q, -⟩ := rk3_onA hc hW (t i) (d i) (ms i) trivial
      rw [← (hΦ (t i) (d i) (ms i)).unique d1, ← mss] at q
      have t0 := hr.tiny.1
      have hR := rhsSize_ge hr (le_refl (1 : Int)) (le_refl (1 : Int)) (le_refl (1 : Int)) (show 1 ≤ M by linarith) hdx (p := par)
      have hda : |(d i).val| = (d i).val := abs_of_nonneg (by have := hd i hi; linarith)
      obtain ⟨x, y, z⟩ := Gen.rk3_stages hr hR (FE := chField2 (valuesOf par) dx.val l 0)
        (fun t y hy c _ => near_field2 hr (by omega) (show 1 ≤ M by linarith) hdx hy c) (show 1 ≤ M by linarith) h34 hM
        (by rw [hda]; exact (hd i hi).1)
        (by rw [hda]; exact (mul_le_mul_of_nonneg_right (hd i hi).2.1 (by linarith)).trans hT) q
        (fun c hc => by rw [hst i c hc]; exact hbd i hi c hc)
      exact fun a b ha hb => ⟨x (a, b) ⟨ha, hb⟩, y (a, b) ⟨ha, hb⟩, z (a, b) ⟨ha, hb⟩⟩)
  rw [hsum, hsum] at run
  have h1 := (C113_initial hr hn par.m draw hB hb hlen hnu).2
  have e0 : s 0 = initialAny2 draw par.m l := by rw [hs]; rfl
  rw [e0] at run
  have ρ := sub_nonneg.2 (Near.one_le hr.unit.1 34)
  have h2 : ((1 + u) ^ 34 - 1) * (2 * M + T * rhsSize (valuesOf par) dx.val M) ≤ 9 / 4 * (((1 + u) ^ 34 - 1) * M) := by
    calc _ ≤ ((1 + u) ^ 34 - 1) * (2 * M + M / 4) := by gcongr
      _ = _ := by ring
  have q : ∀ S : K, S / ((l * l : Int) : K) - par.m.val = (S - ((l * l : Int) : K) * par.m.val) / ((l * l : Int) : K) := by
    intro S
    field_simp
  rw [q, abs_div, abs_of_pos hN, div_le_iff₀ hN] at h1 ⊢
  have h3 := mul_le_mul_of_nonneg_left h2 (mul_nonneg (Nat.cast_nonneg (α := K) n) hN.le)
  nlinarith

/-- C113. Periodic 2D runs with the explicit integrator `ode23` in rounded arithmetic, with or without the nonlocal term: as long as
the states stay below `M / 2` the mean of the state after `n` steps differs from the prescribed mean by at most `19 u B` from the
initial field plus `27/4 ((1+u)^34 - 1) M` for each step. -/
theorem C113_run_mean_ode23 (hr : Rounds rnd u τ) {l : Int} (hn : 2 ≤ l)
    (par : CHParams (Fl rnd)) (dx : Fl rnd) (hdx : Spacing τ dx.val) (draw : Nat → Fl rnd) (B : K) (hB : τ ≤ B)
    (hb : ∀ i, i < (l * l).toNat → |par.m.val| + |(draw i).val| ≤ B)
    (hlen : rnd ((l * l : Int) : K) = ((l * l : Int) : K)) (hnu : ((l * l : Int) : K) * u ≤ 1 / 16)
    (M T : K) (hM : 2 ≤ M) (h34 : (1 + u) ^ 34 ≤ 5 / 4) (hT : T * rhsSize (valuesOf par) dx.val M ≤ M / 4) (h0 : 0 ≤ par.sigma.val)
    (t d : Nat → Fl rnd) (s : Nat → Int × Int → Fl rnd)
    (hs : s = iterates (fun _ dt u c => u c + dt * bs23Slope (rhsOps2 par dx l 0) dt u c) t d (initialAny2 draw par.m l))
    (n : Nat) (hd : ∀ i < n, 2 * τ ≤ (d i).val ∧ (d i).val ≤ T ∧ par.sigma.val * (d i).val ≤ 1)
    (hbd : ∀ i < n, ∀ c, In2 l c → |(s i c).val| ≤ M / 2) :
    |sum2 l l (fun i j => (s n (i, j)).val) / ((l * l : Int) : K) - par.m.val| ≤
      19 * (u * B) + n * (27 / 4 * (((1 + u) ^ 34 - 1) * M)) := by
  obtain ⟨G, hG, -⟩ := mkGeom2_ok (n := l) (nhalo := 2) (by omega) (by omega)
  obtain ⟨sz, hsz⟩ : ∃ sz : Nat → Int, ∀ a, sz a = (l + 2 * 2) * (l + 2 * 2) := ⟨fun _ => _, fun _ => rfl⟩
  obtain ⟨w, hw⟩ : ∃ w : RKArr Nat, w = ⟨0, 1, 2, 3, 4, 5, 6⟩ := ⟨_, rfl⟩
  have hl : ([7, 8, 9, 10] : List Nat).Nodup := by decide
  have hnd : [w.sol, w.res, w.k1, w.k2, w.k3, w.k4, w.stage].Nodup := by rw [hw]; decide
  have hfr : ∀ a ∈ [w.sol, w.res, w.k1, w.k2, w.k3, w.k4, w.stage], a ∉ [7, 8, 9, 10] := by rw [hw]; decide
  have hc := ch2_contractA hn hG hl (fun a _ => hsz a) par dx
  have hW : w.Ok sz ((l + 2 * 2) * (l + 2 * 2)) (· ∈ [7, 8, 9, 10]) := ⟨hnd, fun a _ => hsz a, hfr⟩
  obtain ⟨hGo, hg⟩ := Geom2.ok_of_mk (by omega) (by omega) hG
  have hmem : ∀ f : Int × Int → Fl rnd, ∃ m0 : Mem Nat (Fl rnd), ∀ c, In2 l c → m0 w.sol (G.g.at2 c.1 c.2) = f c := by
    intro f
    refine ⟨fun _ q => f (G.g.getI q, G.g.getJ q), fun c hc => ?_⟩
    have hp : G.g.Pad c.1 c.2 := by rw [hg]; unfold In2 at hc; unfold Grid2.Pad; dsimp only; omega
    dsimp only
    rw [(Grid2.get_at2 hp).1, (Grid2.get_at2 hp).2]
  have hR := rhsSize_ge hr (le_refl (1 : Int)) (le_refl (1 : Int)) (le_refl (1 : Int)) (show 1 ≤ M by linarith) hdx (p := par)
  have t0 := hr.tiny.1
  have hN : (0 : K) < ((l * l : Int) : K) := by
    have : 0 < l * l := by have : 0 < l := (by omega); positivity
    exact_mod_cast this
  have hA : ∀ τ', chFieldA2 par dx l τ' = rhsOps2 par dx l 0 := fun τ' => chFieldA2_eq par dx l τ'
  have run : ∀ k, k ≤ n → |sum2 l l (fun a b => (s k (a, b)).val) - ((l * l : Int) : K) * par.m.val| ≤
      |sum2 l l (fun a b => (s 0 (a, b)).val) - ((l * l : Int) : K) * par.m.val| +
        k * (3 * (((l * l : Int) : K) * (((1 + u) ^ 34 - 1) * (2 * M + T * rhsSize (valuesOf par) dx.val M)))) := by
    intro k
    induction k with
    | zero => intro _; simp
    | succ k ih =>
      intro hk
      obtain ⟨hd1, hd2, hd3⟩ := hd k (by omega)
      obtain ⟨m0, hm0⟩ := hmem (s k)
      obtain ⟨m1, d1, q, -⟩ := ode23_onA hc hW true (t k) (d k) m0 trivial (by simp)
      have hda : |(d k).val| = (d k).val := abs_of_nonneg (by linarith)
      obtain ⟨x, y, z⟩ := Gen.ode23_stages hr hR (FE := chField2 (valuesOf par) dx.val l 0)
        (fun t y hy c _ => near_field2 hr (by omega) (show 1 ≤ M by linarith) hdx hy c) (show 1 ≤ M by linarith) h34 hM
        (by rw [hda]; exact hd1) (by rw [hda]; exact (mul_le_mul_of_nonneg_right hd2 (by linarith)).trans hT) q
        (fun c hc => by rw [hm0 c hc]; exact hbd k (by omega) c hc)
      have st := C113_ode23_step hr l hn G hG sz 7 8 9 10 hl (fun a _ => hsz a) w hnd (fun a _ => hsz a) hfr par dx hdx M
        (by linarith) 0 (fun _ => t k) (fun _ => d k) (fun i => if i = 0 then m0 else m1)
        (fun i hi => by obtain rfl : i = 0 := by omega
                        exact d1) hd1 h0 hd3
        (fun a b ha hb => ⟨x (a, b) ⟨ha, hb⟩, y (a, b) ⟨ha, hb⟩, z (a, b) ⟨ha, hb⟩⟩)
      have hF : ∀ v1 v2 : Int × Int → Fl rnd, (∀ c, In2 l c → v1 c = v2 c) → ∀ c, In2 l c →
          rhsOps2 par dx l 0 v1 c = rhsOps2 par dx l 0 v2 c := fun v1 v2 h c hc' => by
        rw [← hA 0]; exact hc.interior 0 v1 v2 h c hc'
      have e1 : ∀ c, In2 l c → m1 w.k1 (G.g.at2 c.1 c.2) = rhsOps2 par dx l 0 (s k) c := fun c hc => by
        rw [q.k1 c hc, hA]; exact hF _ _ hm0 c hc
      have e2 : ∀ c, In2 l c → m1 w.k2 (G.g.at2 c.1 c.2) =
          rhsOps2 par dx l 0 (fun c => s k c + d k * (1 / 2) * rhsOps2 par dx l 0 (s k) c) c := fun c hc => by
        rw [q.k2 c hc, hA]; exact hF _ _ (fun c hc => by rw [hm0 c hc, e1 c hc]) c hc
      have e3 : ∀ c, In2 l c → m1 w.k3 (G.g.at2 c.1 c.2) = rhsOps2 par dx l 0 (fun c => s k c + d k *
          (0 * rhsOps2 par dx l 0 (s k) c + 3 / 4 * rhsOps2 par dx l 0 (fun c => s k c + d k * (1 / 2) * rhsOps2 par dx l 0 (s k) c) c)) c :=
        fun c hc => by rw [q.k3 c hc, hA]; exact hF _ _ (fun c hc => by rw [hm0 c hc, e1 c hc, e2 c hc]) c hc
      have es : ∀ c, In2 l c → m1 w.sol (G.g.at2 c.1 c.2) = s (k + 1) c := fun c hc => by
        rw [q.sol c hc, hm0 c hc, e1 c hc, e2 c hc, e3 c hc, hs]; rfl
      have s0 : sum2 l l (fun a b => (m0 w.sol (G.g.at2 a b)).val) = sum2 l l (fun a b => (s k (a, b)).val) :=
        sum2_congr fun a b h1 h2 => by rw [← hm0 (a, b) ⟨h1, h2⟩]
      have s1 : sum2 l l (fun a b => (m1 w.sol (G.g.at2 a b)).val) = sum2 l l (fun a b => (s (k + 1) (a, b)).val) :=
        sum2_congr fun a b h1 h2 => by rw [← es (a, b) ⟨h1, h2⟩]
      simp only [zero_add, if_pos, one_ne_zero, if_false] at st
      rw [s0, s1] at st
      exact run_step hr hN.le (by linarith) (by linarith) h0 ⟨hd1, hd2⟩ hd3 st (ih (by omega))
  replace run := run n le_rfl
  have h1 := (C113_initial hr hn par.m draw hB hb hlen hnu).2
  have e0 : s 0 = initialAny2 draw par.m l := by rw [hs]; rfl
  rw [e0] at run
  have ρ := sub_nonneg.2 (Near.one_le hr.unit.1 34)
  have h2 : ((1 + u) ^ 34 - 1) * (2 * M + T * rhsSize (valuesOf par) dx.val M) ≤ 9 / 4 * (((1 + u) ^ 34 - 1) * M) := by
    calc _ ≤ ((1 + u) ^ 34 - 1) * (2 * M + M / 4) := by gcongr
      _ = _ := by ring
  have q : ∀ S : K, S / ((l * l : Int) : K) - par.m.val = (S - ((l * l : Int) : K) * par.m.val) / ((l * l : Int) : K) := by
    intro S
    field_simp
  rw [q, abs_div, abs_of_pos hN, div_le_iff₀ hN] at h1 ⊢
  have h3 := mul_le_mul_of_nonneg_left h2 (mul_nonneg (Nat.cast_nonneg (α := K) n) hN.le)
  nlinarith

section
variable {A : Type} [DecidableEq A] [Pow (Fl binary64.round) (Fl binary64.round)] (sz : A → Int) (E : Env (Fl binary64.round))
  (o : RunOpts (Fl binary64.round)) (w : ProgArr A)

/-- C113. 2D runs with the adaptive integrator `ode23` in double precision, from the command on. Every execution ends normally
and leaves the states of the method for its steps in the files, and as long as the steps are at most `T` and those states below `L / 2` the
mean of the state after `n` steps differs from the prescribed mean by at most `(19 B + 230 n L) / 2^53`. -/
theorem C113_double (heq : o.sel.equation = "cahn-hilliard") (hint : o.sel.integrator = "ode23")
    (hcfl : o.useCfl = false) (hlf : o.logFreq ≠ 0) (hms : 0 < o.maxSteps) (hM : o.maxSteps < 1000000)
    (hbx : o.sel.bcx ∈ ["periodic", "neumann", "dirichlet"]) (hby : o.sel.bcy ∈ ["periodic", "neumann", "dirichlet"])
    (hbz : o.sel.bcz ∈ ["periodic", "neumann", "dirichlet"]) (hdim : o.sel.dimension = 2) (hn : 2 ≤ o.nx) (hsize : o.nx * o.nx ≤ 2 ^ 49)
    (hw : Arrays2 sz w o.nx) (dx : Fl binary64.round) (hdx : dx = (o.box.xend - o.box.xbeg) / (o.nx : Fl binary64.round))
    (hsp : 1 / 2 ^ 255 ≤ dx.val ∧ dx.val ≤ 2 ^ 255) (W : Nat) (hW : W = Nat.log 10 o.maxSteps + 1)
    (B : ℚ) (hB : 1 / 1024 ≤ B) (hb : ∀ i, i < (o.nx * o.nx).toNat → |o.par.m.val| + |(E.draw i).val| ≤ B)
    (L T : ℚ) (hL : 2 ≤ L) (hT : T * rhsSize (valuesOf o.par) dx.val L ≤ L / 4) (h0 : 0 ≤ o.par.sigma.val)
    (m : Mem A (Fl binary64.round)) (hz : ∀ a ∈ [w.rk.k1, w.rk.k2, w.rk.k3, w.rk.k4], ∀ n, m a n = 0) :
    RunsEach sz (program E o none w) m ⟨o.t0, o.tfinal, o.dt0, false, o.maxSteps, 0, o.relTol, o.absTol⟩ o.logFreq.natAbs
      o.saveEvery.natAbs (bs23Method (rhsOps2 o.par dx o.nx 0) (pairs o.nx o.nx)
        ((o.nx + 4) * (o.nx + 4) - o.nx * o.nx).toNat o.errTol o.minStep o.maxStep)
      (initialAny2 E.draw o.par.m o.nx) (Rms E.rt (pairs o.nx o.nx))
      (Extremes E.big E.tiny (pairs o.nx o.nx)) (stepName o.base W) (stepName (finalBase o.base) W)
      (vts2 E.io o.box.xbeg o.box.ybeg dx o.nx) ∧
    ∀ (t d : Nat → Fl binary64.round) (s : Nat → Int × Int → Fl binary64.round),
      s = iterates (fun _ dt u c => u c + dt * bs23Slope (rhsOps2 o.par dx o.nx 0) dt u c) t d (initialAny2 E.draw o.par.m o.nx) →
      ∀ n, (∀ i < n, 1 / 2 ^ 1021 ≤ (d i).val ∧ (d i).val ≤ T ∧ o.par.sigma.val * (d i).val ≤ 1) →
        (∀ i < n, ∀ c, In2 o.nx c → |(s i c).val| ≤ L / 2) →
        |sum2 o.nx o.nx (fun i j => (s n (i, j)).val) / ((o.nx * o.nx : Int) : ℚ) - o.par.m.val| ≤ (19 * B + 230 * n * L) / 2 ^ 53 := by
  refine ⟨C102_ode23_2 sz E o w heq hcfl hlf hms hM hbx hby hbz hdim hn hw hint dx hdx W hW m hz, fun t d s hs n hd hbd => ?_⟩
  obtain ⟨u, τ, hr, hu, c34, c34', ctau, csp, cd⟩ : ∃ u τ : ℚ, Rounds binary64.round u τ ∧ u = 1 / 2 ^ 53 ∧ (1 + u) ^ 34 ≤ 5 / 4 ∧
      27 / 4 * ((1 + u) ^ 34 - 1) ≤ 230 * u ∧ τ ≤ 1 / 1024 ∧ Spacing τ dx.val ∧ 2 * τ = 1 / 2 ^ 1021 :=
    ⟨_, _, binary64_rounds, rfl, by norm_num, by norm_num, tiny64.2, spacing64 hsp, by
      rw [show (2 : ℚ) ^ 1022 = 2 ^ 1021 * 2 from pow_succ _ _]; field_simp⟩
  have hN0 : 0 ≤ o.nx * o.nx := by have : 0 ≤ o.nx := (by omega); positivity
  have key := C113_run_mean_ode23 hr hn o.par dx csp E.draw B (ctau.trans hB) hb (round_int64 hN0 hsize)
    (by
      have : ((o.nx * o.nx : Int) : ℚ) ≤ 2 ^ 49 := by exact_mod_cast hsize
      rw [hu]
      linarith)
    L T hL c34 hT h0 t d s hs n (fun i hi => by rw [cd]; exact hd i hi) hbd
  refine key.trans ?_
  have h1 : (n : ℚ) * (27 / 4 * (((1 + u) ^ 34 - 1) * L)) ≤ n * (230 * u * L) := by
    rw [← mul_assoc (27 / 4 : ℚ)]
    gcongr
  rw [hu] at h1 ⊢
  linarith

end

/-- Half a unit of concentration everywhere but in the cell in the middle. -/
def roundDemo2 : Mem Nat (Fl binary64.round) := fun _ n => ⟨if n = 24 then 1 else 1 / 2⟩

example : ∃ (G : Geom2) (m' : Mem Nat (Fl binary64.round)), mkGeom2 3 2 = .ok G ∧
    Det (fun _ => 49) (rk3Step 49 (fun s r _ => G.evalRHS ⟨⟨1 / 1024⟩, ⟨0⟩, ⟨0⟩⟩ ⟨1⟩ ⟨s, r, 7, 8, 9, 10⟩) ⟨0, 1, 2, 3, 4, 5, 6⟩ ⟨0⟩ ⟨1 / 512⟩)
      roundDemo2 m' ∧
    |sum2 3 3 (fun i j => (m' 0 (G.g.at2 i j)).val) / ((3 * 3 : Int) : ℚ) -
      sum2 3 3 (fun i j => (roundDemo2 0 (G.g.at2 i j)).val) / ((3 * 3 : Int) : ℚ)| ≤
      ((1 : Nat) : ℚ) * (9 / 4 * ((1 + 1 / 2 ^ 53) ^ 34 - 1) * 2) := by
  obtain ⟨G, e, -⟩ := mkGeom2_ok (n := 3) (nhalo := 2) (by norm_num) (by norm_num)
  obtain ⟨m', d, -⟩ := rk3_onA (w := (⟨0, 1, 2, 3, 4, 5, 6⟩ : RKArr Nat)) (ch2_contractA (A := Nat) (n := 3) (by decide) e
    (sz := fun _ => 49) (l1 := 7) (l2 := 8) (l3 := 9) (l4 := 10) (by decide) (fun _ _ => by decide)
    ⟨⟨1 / 1024⟩, ⟨0⟩, ⟨0⟩⟩ ⟨1⟩) ⟨by decide, fun _ _ => by decide, by decide⟩ ⟨0⟩ ⟨1 / 512⟩ roundDemo2 trivial
  refine ⟨_, m', e, d, ?_⟩
  obtain ⟨u, τ, hr, hu, c34, cdt, csp⟩ : ∃ u τ : ℚ, Rounds binary64.round u τ ∧ u = 1 / 2 ^ 53 ∧ (1 + u) ^ 34 ≤ 5 / 4 ∧ 2 * τ ≤ 1 / 512 ∧
      Spacing τ 1 :=
    ⟨_, _, binary64_rounds, rfl, by norm_num, by have := tiny64.2; linarith, spacing64 (by norm_num)⟩
  rw [← hu]
  have cT : (1 / 512 : ℚ) * rhsSize (valuesOf (rnd := binary64.round) ⟨⟨1 / 1024⟩, ⟨0⟩, ⟨0⟩⟩) 1 2 ≤ 2 / 4 := by
    unfold rhsSize valuesOf; norm_num
  have cb : ∀ n, |(roundDemo2 0 n).val| ≤ 2 / 2 := fun n => by unfold roundDemo2; dsimp only; split <;> norm_num
  obtain ⟨ms, h0, h1⟩ : ∃ ms : Nat → Mem Nat (Fl binary64.round), ms 0 = roundDemo2 ∧ ms 1 = m' :=
    ⟨fun i => if i = 0 then roundDemo2 else m', rfl, rfl⟩
  have := C113_rk3_small_steps hr 3 (by decide) _ e (fun _ => 49) 7 8 9 10 (by decide)
    (fun _ _ => by decide) ⟨0, 1, 2, 3, 4, 5, 6⟩ (by decide) (fun _ _ => by decide) (by decide) ⟨⟨1 / 1024⟩, ⟨0⟩, ⟨0⟩⟩ ⟨1⟩
    csp 2 (by norm_num) le_rfl c34 1 (fun _ => ⟨0⟩) (fun _ => ⟨1 / 512⟩) (1 / 512)
    cT (fun _ _ => ⟨cdt, le_rfl⟩) rfl ms
    (fun i hi => by
      obtain rfl : i = 0 := by omega
      have h1' : ms (0 + 1) = m' := h1
      rw [h0, h1']
      exact d)
    (fun i hi a b _ _ => by
      obtain rfl : i = 0 := by omega
      rw [h0]
      exact cb _)
  rw [h0, h1] at this
  exact this

example : ∃ (G : Geom2) (m' : Mem Nat (Fl binary64.round)), mkGeom2 3 2 = .ok G ∧
    Det (fun _ => 49) (ode23Host 49 (fun s r _ => G.evalRHS ⟨⟨1 / 1024⟩, ⟨0⟩, ⟨0⟩⟩ ⟨1⟩ ⟨s, r, 7, 8, 9, 10⟩) ⟨0, 1, 2, 3, 4, 5, 6⟩ true ⟨0⟩ ⟨1 / 512⟩)
      roundDemo2 m' ∧
    |sum2 3 3 (fun i j => (m' 0 (G.g.at2 i j)).val) / ((3 * 3 : Int) : ℚ) -
      sum2 3 3 (fun i j => (roundDemo2 0 (G.g.at2 i j)).val) / ((3 * 3 : Int) : ℚ)| ≤
      ((1 : Nat) : ℚ) * (9 / 4 * ((1 + 1 / 2 ^ 53) ^ 34 - 1) * 2) := by
  obtain ⟨G, e, -⟩ := mkGeom2_ok (n := 3) (nhalo := 2) (by norm_num) (by norm_num)
  obtain ⟨m', d, -⟩ := ode23_onA (w := (⟨0, 1, 2, 3, 4, 5, 6⟩ : RKArr Nat)) (ch2_contractA (A := Nat) (n := 3) (by decide) e
    (sz := fun _ => 49) (l1 := 7) (l2 := 8) (l3 := 9) (l4 := 10) (by decide) (fun _ _ => by decide)
    ⟨⟨1 / 1024⟩, ⟨0⟩, ⟨0⟩⟩ ⟨1⟩) ⟨by decide, fun _ _ => by decide, by decide⟩ true ⟨0⟩ ⟨1 / 512⟩ roundDemo2 trivial
    (by simp)
  refine ⟨_, m', e, d, ?_⟩
  obtain ⟨u, τ, hr, hu, c34, cdt, csp⟩ : ∃ u τ : ℚ, Rounds binary64.round u τ ∧ u = 1 / 2 ^ 53 ∧ (1 + u) ^ 34 ≤ 5 / 4 ∧ 2 * τ ≤ 1 / 512 ∧
      Spacing τ 1 :=
    ⟨_, _, binary64_rounds, rfl, by norm_num, by have := tiny64.2; linarith, spacing64 (by norm_num)⟩
  rw [← hu]
  have cT : (1 / 512 : ℚ) * rhsSize (valuesOf (rnd := binary64.round) ⟨⟨1 / 1024⟩, ⟨0⟩, ⟨0⟩⟩) 1 2 ≤ 2 / 4 := by
    unfold rhsSize valuesOf; norm_num
  have cb : ∀ n, |(roundDemo2 0 n).val| ≤ 2 / 2 := fun n => by unfold roundDemo2; dsimp only; split <;> norm_num
  obtain ⟨ms, h0, h1⟩ : ∃ ms : Nat → Mem Nat (Fl binary64.round), ms 0 = roundDemo2 ∧ ms 1 = m' :=
    ⟨fun i => if i = 0 then roundDemo2 else m', rfl, rfl⟩
  have := C113_ode23_small_steps hr 3 (by decide) _ e (fun _ => 49) 7 8 9 10 (by decide)
    (fun _ _ => by decide) ⟨0, 1, 2, 3, 4, 5, 6⟩ (by decide) (fun _ _ => by decide) (by decide) ⟨⟨1 / 1024⟩, ⟨0⟩, ⟨0⟩⟩ ⟨1⟩
    csp 2 (by norm_num) le_rfl c34 1 (fun _ => ⟨0⟩) (fun _ => ⟨1 / 512⟩) (1 / 512)
    cT (fun _ _ => ⟨cdt, le_rfl⟩) rfl ms
    (fun i hi => by
      obtain rfl : i = 0 := by omega
      have h1' : ms (0 + 1) = m' := h1
      rw [h0, h1']
      exact d)
    (fun i hi a b _ _ => by
      obtain rfl : i = 0 := by omega
      rw [h0]
      exact cb _)
  rw [h0, h1] at this
  exact this

/-- A periodic square of unit cells, adaptive steps from 1/1024 on (test data). -/
def squareOpts : RunOpts (Fl binary64.round) where
  sel := ⟨2, "periodic", "periodic", "periodic", "cahn-hilliard", "ode23", false⟩
  nx := 3
  ny := 3
  nz := 3
  box := ⟨0, ⟨3⟩, 0, 0⟩
  variant := 1
  par := ⟨⟨1 / 1024⟩, ⟨1⟩, ⟨1 / 4⟩⟩
  t0 := 0
  tfinal := ⟨2⟩
  dt0 := ⟨1 / 1024⟩
  useCfl := false
  maxSteps := 100
  relTol := 0
  absTol := 0
  errTol := 1
  minStep := 0
  maxStep := 1
  logFreq := 1
  saveEvery := 1
  logFile := []
  solFile := ['s']
  mg := ⟨1, 1, 100, dbl (1 / 100), 1, 1, 1, "nearest"⟩

/-- The hypotheses are met: the mean after the first step of such a run. -/
example [Pow (Fl binary64.round) (Fl binary64.round)] (E : Env (Fl binary64.round)) (hE : ∀ i, |(E.draw i).val| ≤ 1 / 4) :
    RunsEach (demoSize 64 49) (program E squareOpts none demoArr) (fun _ _ => 0) ⟨0, ⟨2⟩, ⟨1 / 1024⟩, false, 100, 0, 0, 0⟩ 1 1
      (bs23Method (rhsOps2 squareOpts.par ⟨1⟩ 3 0) (pairs 3 3) 40 1 0 1) (initialAny2 E.draw ⟨1 / 4⟩ 3) (Rms E.rt (pairs 3 3))
      (Extremes E.big E.tiny (pairs 3 3)) (stepName squareOpts.base 3) (stepName (finalBase squareOpts.base) 3) (vts2 E.io 0 0 ⟨1⟩ 3) ∧
    ∀ (t d : Nat → Fl binary64.round) (s : Nat → Int × Int → Fl binary64.round), d 0 = ⟨1 / 1024⟩ →
      s = iterates (fun _ dt u c => u c + dt * bs23Slope (rhsOps2 squareOpts.par ⟨1⟩ 3 0) dt u c) t d (initialAny2 E.draw ⟨1 / 4⟩ 3) →
      |sum2 3 3 (fun i j => (s 1 (i, j)).val) / 9 - 1 / 4| ≤ 1 / 10 ^ 12 := by
  obtain ⟨dx, hdx⟩ : ∃ dx : Fl binary64.round, dx = ⟨1⟩ := ⟨_, rfl⟩
  have hB : ∀ i : Nat, i < (squareOpts.nx * squareOpts.nx).toNat → |squareOpts.par.m.val| + |(E.draw i).val| ≤ 1 := by
    intro i _
    have := hE i
    have e : |squareOpts.par.m.val| = 1 / 4 := by decide +kernel
    linarith
  obtain ⟨r, k⟩ := C113_double (demoSize 64 49) E squareOpts demoArr rfl rfl rfl (by decide) (by decide) (by decide)
    (by simp [squareOpts]) (by simp [squareOpts]) (by simp [squareOpts]) rfl (by decide) (by decide)
    ⟨by simp [demoArr], by simp [demoArr, demoSize, squareOpts], by simp [demoArr, demoSize, squareOpts]⟩
    dx (by rw [hdx]; decide +kernel) (by rw [hdx]; norm_num) 3 (by simp only [squareOpts]; decide +kernel) 1 (by norm_num) hB 2
    (1 / 1024) le_rfl (by rw [hdx]; unfold rhsSize valuesOf squareOpts; norm_num) (by unfold squareOpts; norm_num) (fun _ _ => 0) (fun _ _ _ => rfl)
  rw [hdx] at r k
  refine ⟨r, fun t d s hd0 hs => ?_⟩
  have := k t d s hs 1 (fun i hi => by
      obtain rfl : i = 0 := by omega
      rw [hd0]
      refine ⟨?_, le_rfl, by unfold squareOpts; norm_num⟩
      exact one_div_le_one_div_of_le (by norm_num) (calc (1024 : ℚ) = 2 ^ 10 := by norm_num
        _ ≤ 2 ^ 1021 := pow_le_pow_right₀ (by norm_num) (by norm_num)))
    (fun i hi c hc => by
      obtain rfl : i = 0 := by omega
      have h1 := (C113_initial binary64_rounds (l := 3) (by decide) squareOpts.par.m E.draw (B := 1)
        (tiny64.2.trans (by norm_num)) hB (round_int64 (by decide) (by norm_num)) (by norm_num)).1 c hc
      have e : s 0 c = initialAny2 E.draw squareOpts.par.m 3 c := by rw [hs]; rfl
      rw [e]
      have h2 := sum_close (List.range 9) (fun i => (E.draw i).val) (fun _ => 0) (1 / 4) (fun i _ => by rw [sub_zero]; exact hE i)
      simp only [List.map_const', List.sum_replicate, smul_zero, sub_zero, List.length_range] at h2
      have h3 := hE (c.1 * 3 + c.2).toNat
      have e1 : ((3 * 3 : Int)).toNat = 9 := rfl
      have e2 : ((3 * 3 : Int) : ℚ) = 9 := by norm_num
      have e3 : squareOpts.par.m.val = 1 / 4 := rfl
      rw [e1, e2, e3] at h1
      generalize ((List.range 9).map fun i => (E.draw i).val).sum = S at h1 h2
      rw [abs_le] at *
      norm_num at h1 h2 ⊢
      constructor <;> linarith)
  have e2 : ((squareOpts.nx * squareOpts.nx : Int) : ℚ) = 9 := by
    show ((3 * 3 : Int) : ℚ) = 9
    norm_num
  rw [e2] at this
  refine le_trans this ?_
  norm_num

end Madg
