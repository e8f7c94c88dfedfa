/-
C90: decay of the free energy along runs of the explicit integrators on periodic grids, and what follows for residuals and
termination.
-/
import Verif.Proofs.EnergyGrid
import Verif.Props.Program

set_option linter.unusedSectionVars false

namespace Madg
open Spec

/-! ### C90: 3D -/

section
variable {ni nj nk : Int} (hi : 1 ≤ ni) (hj : 1 ≤ nj) (hk : 1 ≤ nk) {p : CHParams ℝ} {dx : ℝ} (hdx : 0 < dx)

include hi hj hk hdx in
/-- On a periodic 3D grid, `Δφ = m - u` can be solved exactly when `u` has mean `m`; the energy and the dissipation of `u` do
not depend on which solution is used. -/
theorem C90_potential3 (m : ℝ) (u : Int × Int × Int → ℝ) (p : CHParams ℝ) :
    ((∃ φ, Potential3 dx m ni nj nk u φ) ↔ (sum3 ni nj nk fun i j k => u (i, j, k)) / ((ni * nj * nk : Int) : ℝ) = m) ∧
    ∀ φ ψ, Potential3 dx m ni nj nk u φ → Potential3 dx m ni nj nk u ψ →
      freeEnergy3 p dx ni nj nk u φ = freeEnergy3 p dx ni nj nk u ψ ∧
      dissipation3 p dx ni nj nk u φ = dissipation3 p dx ni nj nk u ψ := by
  have hne : ((ni * nj * nk : Int) : ℝ) ≠ 0 := by
    exact_mod_cast (Int.mul_pos (Int.mul_pos (by omega) (by omega)) (by omega) : 0 < ni * nj * nk).ne'
  refine ⟨?_, fun φ ψ h1 h2 => pot3_indep hi hj hk p h1 h2⟩
  rw [pot3_exists hi hj hk hdx, div_eq_iff hne, mul_comm m]

variable (he : 0 ≤ p.eps2) (hsg : 0 ≤ p.sigma) (m0 : ℝ) (hσ : p.sigma = 0 ∨ p.m = m0)
  (T : Tableau ℝ) (hT : T = ssprk3 ∨ T = bs23) (t d : Nat → ℝ) (u0 φ0 : Int × Int × Int → ℝ) (hφ0 : Potential3 dx m0 ni nj nk u0 φ0)
  (E0 : ℝ) (hE0 : freeEnergy3 p dx ni nj nk u0 φ0 ≤ E0) (n : Nat)
  (F : ℝ → (Int × Int × Int → ℝ) → Int × Int × Int → ℝ) (hF : F = chField3 p dx .periodic .periodic .periodic ni nj nk)
  (u : Nat → Int × Int × Int → ℝ) (hu : u = states T F t d u0)

section
variable (hd : ∀ k, k < n → 0 ≤ d k ∧ d k * (12 / dx ^ 2 * (28 + 54 * Real.sqrt E0 + 12 * p.eps2 / dx ^ 2) + p.sigma) ≤ 1 / 2)
include hi hj hk hdx he hsg hσ hT hφ0 hE0 hd hF hu

/-- Energy stability of the explicit integrators on a periodic 3D grid. As long as the steps obey the stated limit, which
depends on the initial energy but not on the number of steps, every step lowers the free energy by at least a quarter of
step size times dissipation, and all values stay within a bound given by the initial energy. -/
theorem C90_energy3 :
    (∀ k, k < n → ∀ φ ψ, Potential3 dx m0 ni nj nk (u k) φ → Potential3 dx m0 ni nj nk (u (k + 1)) ψ →
      freeEnergy3 p dx ni nj nk (u (k + 1)) ψ + d k / 4 * dissipation3 p dx ni nj nk (u k) φ ≤ freeEnergy3 p dx ni nj nk (u k) φ) ∧
    ∀ k, k ≤ n → (∃ φ, Potential3 dx m0 ni nj nk (u k) φ) ∧ ∀ c, In3 ni nj nk c → u k c ^ 2 ≤ 1 + 2 * Real.sqrt E0 := by
  obtain ⟨a, b, -⟩ := energy3_main hi hj hk hdx he hsg hσ hT hφ0 hE0 hd hF hu
  exact ⟨fun k hk φ ψ h1 h2 => (b k hk φ ψ h1 h2).1, a⟩

/-- The residual norms of such a run are bounded by the energy it uses up. -/
theorem C90_residuals3 (k : Nat) (hkn : k ≤ n) (φ : Int × Int × Int → ℝ) (hφ : Potential3 dx m0 ni nj nk (u k) φ) :
    (∑ a ∈ Finset.range k, d a * rms3 Real.sqrt ni nj nk (T.slope F (t a) (d a) (u a)) ^ 2) ≤
      96 / (dx ^ 2 * ((ni * nj * nk : Int) : ℝ)) * (E0 - freeEnergy3 p dx ni nj nk (u k) φ) := by
  have hpos : (0 : ℝ) < ((ni * nj * nk : Int) : ℝ) := by
    exact_mod_cast Int.mul_pos (Int.mul_pos (by omega) (by omega)) (by omega)
  have a := (energy3_main hi hj hk hdx he hsg hσ hT hφ0 hE0 hd hF hu).2.2 k hkn φ hφ
  have e : ∀ a, d a * rms3 Real.sqrt ni nj nk (T.slope F (t a) (d a) (u a)) ^ 2 =
      (d a * sum3 ni nj nk fun i j l => T.slope F (t a) (d a) (u a) (i, j, l) ^ 2) / ((ni * nj * nk : Int) : ℝ) := by
    intro a
    have c : ((ni : ℝ) * nj * nk) = ((ni * nj * nk : Int) : ℝ) := by push_cast; ring
    unfold rms3 sum3
    rw [c, Real.sq_sqrt (div_nonneg (Finset.sum_nonneg fun i _ => Finset.sum_nonneg fun j _ => Finset.sum_nonneg fun k _ => sq_nonneg _)
      hpos.le), mul_div_assoc]
  rw [Finset.sum_congr rfl fun a _ => e a, ← Finset.sum_div, div_le_iff₀ hpos]
  refine a.trans (le_of_eq ?_)
  field_simp

end

section
variable (δ : ℝ) (hδ : 0 < δ)
  (hd : ∀ k, δ ≤ d k ∧ d k * (12 / dx ^ 2 * (28 + 54 * Real.sqrt E0 + 12 * p.eps2 / dx ^ 2) + p.sigma) ≤ 1 / 2)
include hi hj hk hdx he hsg hσ hT hφ0 hE0 hF hu hδ hd

/-- If the steps also stay away from zero, the residual norms tend to zero: the run settles. -/
theorem C90_settles3 : Filter.Tendsto (fun k => rms3 Real.sqrt ni nj nk (T.slope F (t k) (d k) (u k))) Filter.atTop (nhds 0) := by
  have hd' : ∀ n k, k < n → 0 ≤ d k ∧ d k * (12 / dx ^ 2 * (28 + 54 * Real.sqrt E0 + 12 * p.eps2 / dx ^ 2) + p.sigma) ≤ 1 / 2 :=
    fun n k _ => ⟨hδ.le.trans (hd k).1, (hd k).2⟩
  refine residual_tendsto hδ (fun k => (hd k).1) (S := 96 / (dx ^ 2 * ((ni * nj * nk : Int) : ℝ)) * E0) fun n => ?_
  obtain ⟨φ, hφ⟩ := ((C90_energy3 hi hj hk hdx he hsg m0 hσ T hT t d u0 φ0 hφ0 E0 hE0 n F hF u hu (hd' n)).2 n le_rfl).1
  have h := C90_residuals3 hi hj hk hdx he hsg m0 hσ T hT t d u0 φ0 hφ0 E0 hE0 n F hF u hu (hd' n) n le_rfl φ hφ
  have h0 : 0 ≤ freeEnergy3 p dx ni nj nk (u n) φ := by
    rw [← gEn3 hi hj hk]; exact gEn_nonneg (pL3_sym hi hj hk dx) (pL3_neg hi hj hk dx) he hsg _ _
  have hpos : (0 : ℝ) < ((ni * nj * nk : Int) : ℝ) := by
    exact_mod_cast Int.mul_pos (Int.mul_pos (by omega) (by omega)) (by omega)
  exact h.trans (mul_le_mul_of_nonneg_left (by linarith) (by positivity))

end

include hi hj hk hdx he hsg hσ hT hφ0 hE0 hF hu in
/-- With an absolute tolerance a run with fixed step ends by itself: a bound on the number of its steps, whatever final time
and step limit are. -/
theorem C90_stops3 (o : TimeOpts ℝ) (dt : ℝ) (hdt : 0 ≤ dt)
    (hlim : dt * (12 / dx ^ 2 * (28 + 54 * Real.sqrt E0 + 12 * p.eps2 / dx ^ 2) + p.sigma) ≤ 1 / 2) (f : Nat) (hf : 0 < f)
    (t0 : ℝ) (q : Nat → ℝ) (hm : Marching o.tfinal t0 dt t d q) (hq : ∀ k, q (k + 1) = d k) (ha : 0 < o.absTol) (N : Nat)
    (hN : EndsAfter o f t q (fun k => rms3 Real.sqrt ni nj nk (T.slope F (t k) (d k) (u k))) N) :
    ((N : ℝ) - 1) * (dt * o.absTol ^ 2) ≤ f * (96 / (dx ^ 2 * ((ni * nj * nk : Int) : ℝ)) * E0) := by
  refine stops_count hf hm hq hN ha hdt fun n hn => ?_
  have hd : ∀ k, k < n → 0 ≤ d k ∧ d k * (12 / dx ^ 2 * (28 + 54 * Real.sqrt E0 + 12 * p.eps2 / dx ^ 2) + p.sigma) ≤ 1 / 2 :=
    fun k hk => by rw [hn k hk]; exact ⟨hdt, hlim⟩
  obtain ⟨φ, hφ⟩ := ((C90_energy3 hi hj hk hdx he hsg m0 hσ T hT t d u0 φ0 hφ0 E0 hE0 n F hF u hu hd).2 n le_rfl).1
  have h := C90_residuals3 hi hj hk hdx he hsg m0 hσ T hT t d u0 φ0 hφ0 E0 hE0 n F hF u hu hd n le_rfl φ hφ
  have h0 : 0 ≤ freeEnergy3 p dx ni nj nk (u n) φ := by
    rw [← gEn3 hi hj hk]; exact gEn_nonneg (pL3_sym hi hj hk dx) (pL3_neg hi hj hk dx) he hsg _ _
  have hpos : (0 : ℝ) < ((ni * nj * nk : Int) : ℝ) := by
    exact_mod_cast Int.mul_pos (Int.mul_pos (by omega) (by omega)) (by omega)
  exact h.trans (mul_le_mul_of_nonneg_left (by linarith) (by positivity))

end

/-- Without relaxation (`σ = 0`) the double-well and interface energy itself decreases, for every initial field. -/
theorem C90_plain3 {ni nj nk : Int} (hi : 1 ≤ ni) (hj : 1 ≤ nj) (hk : 1 ≤ nk) (p : CHParams ℝ) (dx : ℝ) (hdx : 0 < dx)
    (he : 0 ≤ p.eps2) (hσ : p.sigma = 0) (T : Tableau ℝ) (hT : T = ssprk3 ∨ T = bs23) (t d : Nat → ℝ)
    (u0 : Int × Int × Int → ℝ) (E : (Int × Int × Int → ℝ) → ℝ) (hE : E = fun v => energy3 p.eps2 dx ni nj nk (per3 ni nj nk v)) (n : Nat)
    (hd : ∀ k, k < n → 0 ≤ d k ∧ d k * (12 / dx ^ 2 * (28 + 54 * Real.sqrt (E u0) + 12 * p.eps2 / dx ^ 2)) ≤ 1 / 2)
    (u : Nat → Int × Int × Int → ℝ) (hu : u = states T (chField3 p dx .periodic .periodic .periodic ni nj nk) t d u0) :
    (∀ k, k < n → E (u (k + 1)) ≤ E (u k)) ∧ ∀ k, k ≤ n → ∀ c, In3 ni nj nk c → u k c ^ 2 ≤ 1 + 2 * Real.sqrt (E u0) := by
  obtain ⟨m0, hm0⟩ : ∃ m0, (sum3 ni nj nk fun i j k => u0 (i, j, k)) / ((ni * nj * nk : Int) : ℝ) = m0 := ⟨_, rfl⟩
  obtain ⟨φ0, hφ0⟩ := (C90_potential3 hi hj hk hdx m0 u0 p).1.2 hm0
  have eE : ∀ v φ, freeEnergy3 p dx ni nj nk v φ = E v := fun v φ => by
    rw [hE]; unfold freeEnergy3; rw [hσ, zero_div, zero_mul, add_zero]
  obtain ⟨a, b⟩ := C90_energy3 hi hj hk hdx he (le_of_eq hσ.symm) m0 (.inl hσ) T hT t d u0 φ0 hφ0 (E u0) (le_of_eq (eE _ _)) n _ rfl u hu
    (fun k hk => by rw [hσ, add_zero]; exact hd k hk)
  refine ⟨fun k hk => ?_, fun k hk => (b k hk).2⟩
  obtain ⟨φ, hφ⟩ := (b k hk.le).1
  obtain ⟨ψ, hψ⟩ := (b (k + 1) hk).1
  have := a k hk φ ψ hφ hψ
  rw [eE, eE] at this
  have h0 : 0 ≤ dissipation3 p dx ni nj nk (u k) φ := div_nonneg (grad3_nonneg _ _ _ _) (by positivity)
  have := mul_nonneg (by linarith [(hd k hk).1] : 0 ≤ d k / 4) h0
  linarith

/-! ### C90: 2D -/

section
variable {n : Int} (hn : 1 ≤ n) {p : CHParams ℝ} {dx : ℝ} (hdx : 0 < dx)

include hn hdx in
/-- On a 2D grid, `Δφ = m - u` can be solved exactly when `u` has mean `m`; the energy and the dissipation of `u` do
not depend on which solution is used. -/
theorem C90_potential2 (m : ℝ) (u : Int × Int → ℝ) (p : CHParams ℝ) :
    ((∃ φ, Potential2 dx m n u φ) ↔ (sum2 n n fun i j => u (i, j)) / ((n * n : Int) : ℝ) = m) ∧
    ∀ φ ψ, Potential2 dx m n u φ → Potential2 dx m n u ψ →
      freeEnergy2 p dx n u φ = freeEnergy2 p dx n u ψ ∧
      dissipation2 p dx n u φ = dissipation2 p dx n u ψ := by
  have hne : ((n * n : Int) : ℝ) ≠ 0 := by
    exact_mod_cast (Int.mul_pos (by omega) (by omega) : 0 < n * n).ne'
  refine ⟨?_, fun φ ψ h1 h2 => pot2_indep hn p h1 h2⟩
  rw [pot2_exists hn hdx, div_eq_iff hne, mul_comm m]

variable (he : 0 ≤ p.eps2) (hsg : 0 ≤ p.sigma) (m0 : ℝ) (hσ : p.sigma = 0 ∨ p.m = m0)
  (T : Tableau ℝ) (hT : T = ssprk3 ∨ T = bs23) (t d : Nat → ℝ) (u0 φ0 : Int × Int → ℝ) (hφ0 : Potential2 dx m0 n u0 φ0)
  (E0 : ℝ) (hE0 : freeEnergy2 p dx n u0 φ0 ≤ E0) (M : Nat)
  (F : ℝ → (Int × Int → ℝ) → Int × Int → ℝ) (hF : F = chField2 p dx n)
  (u : Nat → Int × Int → ℝ) (hu : u = states T F t d u0)

section
variable (hd : ∀ k, k < M → 0 ≤ d k ∧ d k * (8 / dx ^ 2 * (28 + 54 * Real.sqrt E0 + 8 * p.eps2 / dx ^ 2) + p.sigma) ≤ 1 / 2)
include hn hdx he hsg hσ hT hφ0 hE0 hd hF hu

/-- Energy stability of the explicit integrators on a 2D grid. As long as the steps obey the stated limit, which
depends on the initial energy but not on the number of steps, every step lowers the free energy by at least a quarter of
step size times dissipation, and all values stay within a bound given by the initial energy. -/
theorem C90_energy2 :
    (∀ k, k < M → ∀ φ ψ, Potential2 dx m0 n (u k) φ → Potential2 dx m0 n (u (k + 1)) ψ →
      freeEnergy2 p dx n (u (k + 1)) ψ + d k / 4 * dissipation2 p dx n (u k) φ ≤ freeEnergy2 p dx n (u k) φ) ∧
    ∀ k, k ≤ M → (∃ φ, Potential2 dx m0 n (u k) φ) ∧ ∀ c, In2 n c → u k c ^ 2 ≤ 1 + 2 * Real.sqrt E0 := by
  obtain ⟨a, b, -⟩ := energy2_main hn hdx he hsg hσ hT hφ0 hE0 hd hF hu
  exact ⟨fun k hk φ ψ h1 h2 => (b k hk φ ψ h1 h2).1, a⟩

/-- The residual norms of such a run are bounded by the energy it uses up. -/
theorem C90_residuals2 (k : Nat) (hkn : k ≤ M) (φ : Int × Int → ℝ) (hφ : Potential2 dx m0 n (u k) φ) :
    (∑ a ∈ Finset.range k, d a * rms2 Real.sqrt n (T.slope F (t a) (d a) (u a)) ^ 2) ≤
      64 / (dx ^ 2 * ((n * n : Int) : ℝ)) * (E0 - freeEnergy2 p dx n (u k) φ) := by
  have hpos : (0 : ℝ) < ((n * n : Int) : ℝ) := by
    exact_mod_cast Int.mul_pos (by omega) (by omega)
  have a := (energy2_main hn hdx he hsg hσ hT hφ0 hE0 hd hF hu).2.2 k hkn φ hφ
  have e : ∀ a, d a * rms2 Real.sqrt n (T.slope F (t a) (d a) (u a)) ^ 2 =
      (d a * sum2 n n fun i j => T.slope F (t a) (d a) (u a) (i, j) ^ 2) / ((n * n : Int) : ℝ) := by
    intro a
    have c : ((n : ℝ) * n) = ((n * n : Int) : ℝ) := by push_cast; ring
    unfold rms2 sum2
    rw [c, Real.sq_sqrt (div_nonneg (Finset.sum_nonneg fun i _ => Finset.sum_nonneg fun j _ => sq_nonneg _)
      hpos.le), mul_div_assoc]
  rw [Finset.sum_congr rfl fun a _ => e a, ← Finset.sum_div, div_le_iff₀ hpos]
  refine a.trans (le_of_eq ?_)
  field_simp

end

section
variable (δ : ℝ) (hδ : 0 < δ)
  (hd : ∀ k, δ ≤ d k ∧ d k * (8 / dx ^ 2 * (28 + 54 * Real.sqrt E0 + 8 * p.eps2 / dx ^ 2) + p.sigma) ≤ 1 / 2)
include hn hdx he hsg hσ hT hφ0 hE0 hF hu hδ hd

/-- If the steps also stay away from zero, the residual norms tend to zero: the run settles. -/
theorem C90_settles2 : Filter.Tendsto (fun k => rms2 Real.sqrt n (T.slope F (t k) (d k) (u k))) Filter.atTop (nhds 0) := by
  have hd' : ∀ M k, k < M → 0 ≤ d k ∧ d k * (8 / dx ^ 2 * (28 + 54 * Real.sqrt E0 + 8 * p.eps2 / dx ^ 2) + p.sigma) ≤ 1 / 2 :=
    fun M k _ => ⟨hδ.le.trans (hd k).1, (hd k).2⟩
  refine residual_tendsto hδ (fun k => (hd k).1) (S := 64 / (dx ^ 2 * ((n * n : Int) : ℝ)) * E0) fun M => ?_
  obtain ⟨φ, hφ⟩ := ((C90_energy2 hn hdx he hsg m0 hσ T hT t d u0 φ0 hφ0 E0 hE0 M F hF u hu (hd' M)).2 M le_rfl).1
  have h := C90_residuals2 hn hdx he hsg m0 hσ T hT t d u0 φ0 hφ0 E0 hE0 M F hF u hu (hd' M) M le_rfl φ hφ
  have h0 : 0 ≤ freeEnergy2 p dx n (u M) φ := by
    rw [← gEn2 hn]; exact gEn_nonneg (pL2_sym hn dx) (pL2_neg hn dx) he hsg _ _
  have hpos : (0 : ℝ) < ((n * n : Int) : ℝ) := by
    exact_mod_cast Int.mul_pos (by omega) (by omega)
  exact h.trans (mul_le_mul_of_nonneg_left (by linarith) (by positivity))

end

include hn hdx he hsg hσ hT hφ0 hE0 hF hu in
/-- With an absolute tolerance a run with fixed step ends by itself: a bound on the number of its steps, whatever final time
and step limit are. -/
theorem C90_stops2 (o : TimeOpts ℝ) (dt : ℝ) (hdt : 0 ≤ dt)
    (hlim : dt * (8 / dx ^ 2 * (28 + 54 * Real.sqrt E0 + 8 * p.eps2 / dx ^ 2) + p.sigma) ≤ 1 / 2) (f : Nat) (hf : 0 < f)
    (t0 : ℝ) (q : Nat → ℝ) (hm : Marching o.tfinal t0 dt t d q) (hq : ∀ k, q (k + 1) = d k) (ha : 0 < o.absTol) (N : Nat)
    (hN : EndsAfter o f t q (fun k => rms2 Real.sqrt n (T.slope F (t k) (d k) (u k))) N) :
    ((N : ℝ) - 1) * (dt * o.absTol ^ 2) ≤ f * (64 / (dx ^ 2 * ((n * n : Int) : ℝ)) * E0) := by
  refine stops_count hf hm hq hN ha hdt fun M hM => ?_
  have hd : ∀ k, k < M → 0 ≤ d k ∧ d k * (8 / dx ^ 2 * (28 + 54 * Real.sqrt E0 + 8 * p.eps2 / dx ^ 2) + p.sigma) ≤ 1 / 2 :=
    fun k hk => by rw [hM k hk]; exact ⟨hdt, hlim⟩
  obtain ⟨φ, hφ⟩ := ((C90_energy2 hn hdx he hsg m0 hσ T hT t d u0 φ0 hφ0 E0 hE0 M F hF u hu hd).2 M le_rfl).1
  have h := C90_residuals2 hn hdx he hsg m0 hσ T hT t d u0 φ0 hφ0 E0 hE0 M F hF u hu hd M le_rfl φ hφ
  have h0 : 0 ≤ freeEnergy2 p dx n (u M) φ := by
    rw [← gEn2 hn]; exact gEn_nonneg (pL2_sym hn dx) (pL2_neg hn dx) he hsg _ _
  have hpos : (0 : ℝ) < ((n * n : Int) : ℝ) := by
    exact_mod_cast Int.mul_pos (by omega) (by omega)
  exact h.trans (mul_le_mul_of_nonneg_left (by linarith) (by positivity))

end

/-- Without relaxation (`σ = 0`) the double-well and interface energy itself decreases, for every initial field. -/
theorem C90_plain2 {n : Int} (hn : 1 ≤ n) (p : CHParams ℝ) (dx : ℝ) (hdx : 0 < dx)
    (he : 0 ≤ p.eps2) (hσ : p.sigma = 0) (T : Tableau ℝ) (hT : T = ssprk3 ∨ T = bs23) (t d : Nat → ℝ)
    (u0 : Int × Int → ℝ) (E : (Int × Int → ℝ) → ℝ) (hE : E = fun v => energy2 p.eps2 dx n n (per2 n v)) (M : Nat)
    (hd : ∀ k, k < M → 0 ≤ d k ∧ d k * (8 / dx ^ 2 * (28 + 54 * Real.sqrt (E u0) + 8 * p.eps2 / dx ^ 2)) ≤ 1 / 2)
    (u : Nat → Int × Int → ℝ) (hu : u = states T (chField2 p dx n) t d u0) :
    (∀ k, k < M → E (u (k + 1)) ≤ E (u k)) ∧ ∀ k, k ≤ M → ∀ c, In2 n c → u k c ^ 2 ≤ 1 + 2 * Real.sqrt (E u0) := by
  obtain ⟨m0, hm0⟩ : ∃ m0, (sum2 n n fun i j => u0 (i, j)) / ((n * n : Int) : ℝ) = m0 := ⟨_, rfl⟩
  obtain ⟨φ0, hφ0⟩ := (C90_potential2 hn hdx m0 u0 p).1.2 hm0
  have eE : ∀ v φ, freeEnergy2 p dx n v φ = E v := fun v φ => by
    rw [hE]; unfold freeEnergy2; rw [hσ, zero_div, zero_mul, add_zero]
  obtain ⟨a, b⟩ := C90_energy2 hn hdx he (le_of_eq hσ.symm) m0 (.inl hσ) T hT t d u0 φ0 hφ0 (E u0) (le_of_eq (eE _ _)) M _ rfl u hu
    (fun k hk => by rw [hσ, add_zero]; exact hd k hk)
  refine ⟨fun k hk => ?_, fun k hk => (b k hk).2⟩
  obtain ⟨φ, hφ⟩ := (b k hk.le).1
  obtain ⟨ψ, hψ⟩ := (b (k + 1) hk).1
  have := a k hk φ ψ hφ hψ
  rw [eE, eE] at this
  have h0 : 0 ≤ dissipation2 p dx n (u k) φ := div_nonneg (grad2_nonneg _ _ _) (by positivity)
  have := mul_nonneg (by linarith [(hd k hk).1] : 0 ≤ d k / 4) h0
  linarith

/-! ### Whole runs -/

section
variable {A : Type} [DecidableEq A] (sz : A → Int) (E : Env ℝ) (hrt : E.rt = Real.sqrt) (o : RunOpts) (w : ProgArr A)
  (heq : o.sel.equation = "cahn-hilliard") (hint : o.sel.integrator = "rk3ssp") (hcfl : o.useCfl = false) (hlf : o.logFreq ≠ 0)
  (hms : 0 < o.maxSteps) (hbox : o.box.xbeg < o.box.xend)
  (he : 0 ≤ o.par.eps2) (hsg : 0 ≤ o.par.sigma) (hdt : 0 < o.dt0) (ha : 0 < o.absTol) (dx : ℝ) (hdx : dx = (o.box.xend - o.box.xbeg) / o.nx)

include hrt heq hint hcfl hlf hms hbox he hsg hdt ha hdx

/-- A periodic 3D run of the program with rk3ssp, an absolute tolerance and a step within the limit: every execution ends
normally, after a number of steps bounded by the energy of the random initial field. -/
theorem C90_program3 (hbx : o.sel.bcx = "periodic") (hby : o.sel.bcy = "periodic") (hbz : o.sel.bcz = "periodic")
    (hmax : o.maxSteps < 2147483648) (hdim : o.sel.dimension = 3) (hv : o.variant = 0 ∨ o.variant = 1 ∨ o.variant = 2) (hn : 2 ≤ o.nx ∧ 2 ≤ o.ny ∧ 2 ≤ o.nz)
    (hw : Arrays3 sz w o.nx o.ny o.nz) (E0 : ℝ)
    (hE0 : ∀ φ, Potential3 dx o.par.m o.nx o.ny o.nz (initial3 E.draw o.par.m o.nx o.ny o.nz) φ →
      freeEnergy3 o.par dx o.nx o.ny o.nz (initial3 E.draw o.par.m o.nx o.ny o.nz) φ ≤ E0)
    (hlim : o.dt0 * (12 / dx ^ 2 * (28 + 54 * Real.sqrt E0 + 12 * o.par.eps2 / dx ^ 2) + o.par.sigma) ≤ 1 / 2) (m : Mem A ℝ) :
    ∃ N : Nat, ((N : ℝ) - 1) * (o.dt0 * o.absTol ^ 2) ≤
        o.logFreq.natAbs * (96 / (dx ^ 2 * ((o.nx * o.ny * o.nz : Int) : ℝ)) * E0) ∧ N ≤ o.maxSteps ∧
      ∀ fuel, N ≤ fuel → ∃ files rows m', CDet sz (program E o none w fuel) m (.done files rows) m' := by
  obtain ⟨t, d, q, ⟨hm, hq⟩, -⟩ := C85_sequences o.tfinal o.t0 o.dt0
  have hpos : 0 < dx := by
    rw [hdx]
    exact div_pos (by linarith) (by exact_mod_cast (by omega : 0 < o.nx))
  have hN3 : 1 ≤ o.nx ∧ 1 ≤ o.ny ∧ 1 ≤ o.nz := by omega
  have hr := C85_rk3ssp3 (bx := .periodic) (bY := .periodic) (bz := .periodic) sz E o w heq hcfl hlf hms (by rw [hbx]; simp) (by rw [hby]; simp)
    (by rw [hbz]; simp) hdim hv hn hw hmax hint t d q hm hq dx hdx _ rfl _ rfl _ rfl m
  obtain ⟨N, hN, hrun, -⟩ := hr
  have hmean := C85_mean3 ssprk3 o.par dx o.nx o.ny o.nz hN3 E.draw t d 0
  obtain ⟨φ0, hφ0⟩ := (C90_potential3 hN3.1 hN3.2.1 hN3.2.2 hpos o.par.m (initial3 E.draw o.par.m o.nx o.ny o.nz) o.par).1.2 hmean
  refine ⟨N, ?_, ?_, fun fuel hf => ?_⟩
  · rw [hrt] at hN
    exact C90_stops3 hN3.1 hN3.2.1 hN3.2.2 hpos he hsg o.par.m (.inr rfl) ssprk3 (.inl rfl) t d _ φ0 hφ0 E0 (hE0 φ0 hφ0) _ rfl _ rfl
      ⟨o.t0, o.tfinal, o.dt0, false, o.maxSteps, 0, o.relTol, o.absTol⟩ o.dt0 hdt.le hlim o.logFreq.natAbs (Int.natAbs_pos.2 hlf) o.t0 q hm hq
      ha N hN
  · by_contra hc
    refine hN.2.2 o.maxSteps hms (by omega) (.inr (.inl ⟨?_, ?_⟩))
    · dsimp only; omega
    · dsimp only; omega
  · obtain ⟨v, m', -, hD⟩ := hrun fuel hf
    exact ⟨_, _, m', hD⟩

/-- A 2D run of the program with rk3ssp, an absolute tolerance and a step within the limit: every execution ends
normally, after a number of steps bounded by the energy of the random initial field. -/
theorem C90_program2 (hbx : o.sel.bcx ∈ ["periodic", "neumann", "dirichlet"]) (hby : o.sel.bcy ∈ ["periodic", "neumann", "dirichlet"]) (hbz : o.sel.bcz ∈ ["periodic", "neumann", "dirichlet"])
    (hmax : o.maxSteps < 1000000) (hdim : o.sel.dimension = 2) (hn : 2 ≤ o.nx)
    (hw : Arrays2 sz w o.nx) (E0 : ℝ)
    (hE0 : ∀ φ, Potential2 dx o.par.m o.nx (initial2 E.draw o.par.m o.nx) φ →
      freeEnergy2 o.par dx o.nx (initial2 E.draw o.par.m o.nx) φ ≤ E0)
    (hlim : o.dt0 * (8 / dx ^ 2 * (28 + 54 * Real.sqrt E0 + 8 * o.par.eps2 / dx ^ 2) + o.par.sigma) ≤ 1 / 2) (m : Mem A ℝ) :
    ∃ N : Nat, ((N : ℝ) - 1) * (o.dt0 * o.absTol ^ 2) ≤
        o.logFreq.natAbs * (64 / (dx ^ 2 * ((o.nx * o.nx : Int) : ℝ)) * E0) ∧ N ≤ o.maxSteps ∧
      ∀ fuel, N ≤ fuel → ∃ files rows m', CDet sz (program E o none w fuel) m (.done files rows) m' := by
  obtain ⟨t, d, q, ⟨hm, hq⟩, -⟩ := C85_sequences o.tfinal o.t0 o.dt0
  have hpos : 0 < dx := by
    rw [hdx]
    exact div_pos (by linarith) (by exact_mod_cast (by omega : 0 < o.nx))
  have hN3 : 1 ≤ o.nx := by omega
  have hr := C85_rk3ssp2 sz E o w heq hcfl hlf hms hbx hby hbz hdim hn hw hmax hint t d q hm hq dx hdx _ rfl _ rfl _ rfl m
  obtain ⟨N, hN, hrun, -⟩ := hr
  have hmean := C85_mean2 ssprk3 o.par dx o.nx hN3 E.draw t d 0
  obtain ⟨φ0, hφ0⟩ := (C90_potential2 hN3 hpos o.par.m (initial2 E.draw o.par.m o.nx) o.par).1.2 hmean
  refine ⟨N, ?_, ?_, fun fuel hf => ?_⟩
  · rw [hrt] at hN
    exact C90_stops2 hN3 hpos he hsg o.par.m (.inr rfl) ssprk3 (.inl rfl) t d _ φ0 hφ0 E0 (hE0 φ0 hφ0) _ rfl _ rfl
      ⟨o.t0, o.tfinal, o.dt0, false, o.maxSteps, 0, o.relTol, o.absTol⟩ o.dt0 hdt.le hlim o.logFreq.natAbs (Int.natAbs_pos.2 hlf) o.t0 q hm hq
      ha N hN
  · by_contra hc
    refine hN.2.2 o.maxSteps hms (by omega) (.inr (.inl ⟨?_, ?_⟩))
    · dsimp only; omega
    · dsimp only; omega
  · obtain ⟨v, m', -, hD⟩ := hrun fuel hf
    exact ⟨_, _, m', hD⟩

end

/-! ### Non-vacuity -/

/-- A non-constant field of mean 1/5 on 2×2×2 cells, with step sizes that meet the limit. -/
example : ∃ (φ0 : Int × Int × Int → ℝ) (dt : ℝ), 0 < dt ∧
    Potential3 1 (1 / 5) 2 2 2 (initial3 (fun k => (k : ℝ)) (1 / 5) 2 2 2) φ0 ∧
    dt * (12 / 1 ^ 2 * (28 + 54 * Real.sqrt (freeEnergy3 ⟨1, 1, 1 / 5⟩ 1 2 2 2 (initial3 (fun k => (k : ℝ)) (1 / 5) 2 2 2) φ0) +
      12 * 1 / 1 ^ 2) + 1) ≤ 1 / 2 := by
  have hm := C85_mean3 ssprk3 ⟨1, 1, 1 / 5⟩ 1 2 2 2 (by norm_num) (fun k => (k : ℝ)) (fun _ => 0) (fun _ => 0) 0
  obtain ⟨φ0, hφ0⟩ := (C90_potential3 (by norm_num) (by norm_num) (by norm_num) one_pos (1 / 5)
    (initial3 (fun k => (k : ℝ)) (1 / 5) 2 2 2) ⟨1, 1, 1 / 5⟩).1.2 hm
  have h := Real.sqrt_nonneg (freeEnergy3 ⟨1, 1, 1 / 5⟩ 1 2 2 2 (initial3 (fun k => (k : ℝ)) (1 / 5) 2 2 2) φ0)
  have hB : 0 < 12 / (1 : ℝ) ^ 2 * (28 + 54 * Real.sqrt (freeEnergy3 ⟨1, 1, 1 / 5⟩ 1 2 2 2 (initial3 (fun k => (k : ℝ)) (1 / 5) 2 2 2) φ0) +
      12 * 1 / 1 ^ 2) + 1 := by positivity
  exact ⟨φ0, 1 / 2 / _, div_pos (by norm_num) hB, hφ0, le_of_eq (div_mul_cancel₀ _ hB.ne')⟩

/-- With these data the runs of both integrators settle. -/
example (T : Tableau ℝ) (hT : T = ssprk3 ∨ T = bs23) (φ0 : Int × Int × Int → ℝ) (dt : ℝ) (h0 : 0 < dt)
    (hφ : Potential3 1 (1 / 5) 2 2 2 (initial3 (fun k => (k : ℝ)) (1 / 5) 2 2 2) φ0)
    (hdt : dt * (12 / 1 ^ 2 * (28 + 54 * Real.sqrt (freeEnergy3 ⟨1, 1, 1 / 5⟩ 1 2 2 2 (initial3 (fun k => (k : ℝ)) (1 / 5) 2 2 2) φ0) +
      12 * 1 / 1 ^ 2) + 1) ≤ 1 / 2) (u : Nat → Int × Int × Int → ℝ)
    (hu : u = states T (chField3 ⟨1, 1, 1 / 5⟩ 1 .periodic .periodic .periodic 2 2 2) (fun k => k * dt) (fun _ => dt)
      (initial3 (fun k => (k : ℝ)) (1 / 5) 2 2 2)) :
    Filter.Tendsto (fun k : Nat => rms3 Real.sqrt 2 2 2 (T.slope (chField3 ⟨1, 1, 1 / 5⟩ 1 .periodic .periodic .periodic 2 2 2)
      (k * dt) dt (u k))) Filter.atTop (nhds 0) :=
  C90_settles3 (by norm_num) (by norm_num) (by norm_num) one_pos (p := ⟨1, 1, 1 / 5⟩) (by norm_num) (by norm_num) (1 / 5) (.inr rfl) T hT
    (fun k => k * dt) (fun _ => dt) _ φ0 hφ _ le_rfl _ rfl u hu dt h0 fun _ => ⟨le_rfl, hdt⟩

/-- A 2D field and step that meet the limit. -/
example : ∃ (φ0 : Int × Int → ℝ) (dt : ℝ), 0 < dt ∧ Potential2 1 (1 / 5) 3 (initial2 (fun k => (k : ℝ)) (1 / 5) 3) φ0 ∧
    dt * (8 / 1 ^ 2 * (28 + 54 * Real.sqrt (freeEnergy2 ⟨1, 1, 1 / 5⟩ 1 3 (initial2 (fun k => (k : ℝ)) (1 / 5) 3) φ0) +
      8 * 1 / 1 ^ 2) + 1) ≤ 1 / 2 := by
  have hm := C85_mean2 ssprk3 ⟨1, 1, 1 / 5⟩ 1 3 (by norm_num) (fun k => (k : ℝ)) (fun _ => 0) (fun _ => 0) 0
  obtain ⟨φ0, hφ0⟩ := (C90_potential2 (by norm_num) one_pos (1 / 5) (initial2 (fun k => (k : ℝ)) (1 / 5) 3) ⟨1, 1, 1 / 5⟩).1.2 hm
  have h := Real.sqrt_nonneg (freeEnergy2 ⟨1, 1, 1 / 5⟩ 1 3 (initial2 (fun k => (k : ℝ)) (1 / 5) 3) φ0)
  have hB : 0 < 8 / (1 : ℝ) ^ 2 * (28 + 54 * Real.sqrt (freeEnergy2 ⟨1, 1, 1 / 5⟩ 1 3 (initial2 (fun k => (k : ℝ)) (1 / 5) 3) φ0) +
      8 * 1 / 1 ^ 2) + 1 := by positivity
  exact ⟨φ0, 1 / 2 / _, div_pos (by norm_num) hB, hφ0, le_of_eq (div_mul_cancel₀ _ hB.ne')⟩

/-- A whole run: for every energy bound there is a step size that meets the limit. -/
example (E : Env ℝ) (hrt : E.rt = Real.sqrt) (m : Mem Nat ℝ) : ∃ dt : ℝ, 0 < dt ∧ ∃ N : Nat, ∀ fuel, N ≤ fuel → ∃ files rows m',
    CDet (demoSize 392 252) (program E { demoOpts "rk3ssp" with
      sel := ⟨3, "periodic", "periodic", "periodic", "cahn-hilliard", "rk3ssp", false⟩, dt0 := dt, absTol := 1 } none demoArr fuel) m
      (.done files rows) m' := by
  have hp : (0 : ℝ) < (((1 : ℝ) - 0) / ((2 : Int) : ℝ)) := by norm_num
  obtain ⟨φ0, hφ0⟩ := (C90_potential3 (ni := 2) (nj := 2) (nk := 3) (by norm_num) (by norm_num) (by norm_num) hp (demoOpts "rk3ssp").par.m
    (initial3 E.draw (demoOpts "rk3ssp").par.m 2 2 3) (demoOpts "rk3ssp").par).1.2
    (C85_mean3 ssprk3 (demoOpts "rk3ssp").par (((1 : ℝ) - 0) / ((2 : Int) : ℝ)) 2 2 3 (by norm_num) E.draw (fun _ => 0) (fun _ => 0) 0)
  obtain ⟨E0, hE0⟩ : ∃ e, e = freeEnergy3 (demoOpts "rk3ssp").par (((1 : ℝ) - 0) / ((2 : Int) : ℝ)) 2 2 3
    (initial3 E.draw (demoOpts "rk3ssp").par.m 2 2 3) φ0 := ⟨_, rfl⟩
  have h := Real.sqrt_nonneg E0
  have he : 0 ≤ (demoOpts "rk3ssp").par.eps2 := by norm_num [demoOpts]
  have hs : 0 ≤ (demoOpts "rk3ssp").par.sigma := by norm_num [demoOpts]
  have hB : 0 < 12 / (((1 : ℝ) - 0) / ((2 : Int) : ℝ)) ^ 2 * (28 + 54 * Real.sqrt E0 +
      12 * (demoOpts "rk3ssp").par.eps2 / (((1 : ℝ) - 0) / ((2 : Int) : ℝ)) ^ 2) + (demoOpts "rk3ssp").par.sigma := by positivity
  refine ⟨1 / 2 / _, div_pos (by norm_num) hB, ?_⟩
  obtain ⟨N, -, -, hN⟩ := C90_program3 (demoSize 392 252) E hrt { demoOpts "rk3ssp" with
      sel := ⟨3, "periodic", "periodic", "periodic", "cahn-hilliard", "rk3ssp", false⟩, dt0 := 1 / 2 / _, absTol := 1 } demoArr
    rfl rfl rfl (by simp [demoOpts]) (by simp [demoOpts]) (by norm_num [demoOpts]) he hs (div_pos (by norm_num) hB) one_pos
    _ rfl rfl rfl rfl (by simp [demoOpts]) rfl (by simp [demoOpts]) (by simp [demoOpts])
    ⟨by simp [demoArr], by simp [demoArr, demoSize, demoOpts], by simp [demoArr, demoSize, demoOpts]⟩ E0
    (fun φ hφ => by rw [hE0]; exact le_of_eq (((C90_potential3 (by norm_num [demoOpts]) (by norm_num [demoOpts]) (by norm_num [demoOpts]) hp
      _ _ _).2 φ φ0 hφ hφ0).1)) (le_of_eq (div_mul_cancel₀ _ hB.ne')) m
  exact ⟨N, hN⟩

end Madg
