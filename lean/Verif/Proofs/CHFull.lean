/-
Convergence of explicit runs to a smooth solution, for any periodic grid Laplacian: choice of the constants.
-/
import Verif.Proofs.CHGrid
import Verif.Proofs.CHTime

set_option linter.unusedVariables false

namespace Madg
open Spec

/-- For every smooth solution there are one constant and one largest spacing such that on every grid with at most that spacing
every run with steps `dt ≤ dx⁴ / (4608 ε²)`, started within `a dx²` of the solution, stays within a constant times `dx²` of the
solution in the root-mean-square sense. -/
theorem cell_converges {d : Nat} (p : CHParams ℝ) (he : 0 < p.eps2) {L : Fin d → ℝ} (hL : ∀ a, 0 < L a) {T : ℝ}
    {u : ℝ → (Fin d → ℝ) → ℝ} (hu : CHSolution p L T u) (a vol : ℝ) (ha : 0 ≤ a) (hv : 0 ≤ vol) :
    ∃ Cst h0, 0 ≤ Cst ∧ 0 < h0 ∧ ∀ (C : Type) (S : Finset C) (lap : (C → ℝ) →ₗ[ℝ] (C → ℝ)) (pos : C → Fin d → ℝ)
      (dx : ℝ) (hdx : 0 < dx) (hdx1 : dx ≤ h0)
      (sym : ∀ u v : C → ℝ, ∑ c ∈ S, lap u c * v c = ∑ c ∈ S, u c * lap v c)
      (bnd : ∀ u : C → ℝ, cellNorm S (lap u) ≤ 12 / dx ^ 2 * cellNorm S u)
      (hN : (S.card : ℝ) * dx ^ 4 ≤ vol * dx) (F : (C → ℝ) → C → ℝ)
      (hFd : ∀ u, F u = lap (fun c => u c ^ 3 - u c) - p.eps2 • lap (lap u) - p.sigma • (u - fun _ => p.m))
      (hpos : ∀ t, 0 ≤ t → t ≤ T → ∀ c ∈ S, F (fun c => u t (pos c)) c =
        -p.eps2 * dlap dx (dlap dx (u t)) (pos c) + dlap dx (fun y => u t y ^ 3 - u t y) (pos c) - p.sigma * (u t (pos c) - p.m))
      (Tb : RK3c) (dts : List ℝ) (hdts : ∀ dt ∈ dts, 0 ≤ dt ∧ 4608 * p.eps2 * dt ≤ dx ^ 4) (hsum : dts.sum ≤ T)
      (y : C → ℝ) (hy : ∀ c ∈ S, |y c - u 0 (pos c)| ≤ a * dx ^ 2),
      cellNorm S (Tb.run F dts y - fun c => u dts.sum (pos c)) ≤ Cst * (Real.sqrt S.card * dx ^ 2) := by
  obtain ⟨b, b0, hb⟩ := sol_bound hL hu
  obtain ⟨C1, c0, hC1⟩ := sol_trunc hL hu
  obtain ⟨M, m0, hM1, hM2⟩ := sol_time hL hu
  obtain ⟨Λ, hΛ⟩ : ∃ Λ, Λ = 3 * (b + 1) ^ 2 + 1 := ⟨_, rfl⟩
  obtain ⟨κ, hκ⟩ : ∃ κ, κ = Λ ^ 2 / p.eps2 + |p.sigma| := ⟨_, rfl⟩
  have κ0 : 0 ≤ κ := by rw [hκ]; positivity
  obtain ⟨q, hq⟩ : ∃ q, q = 1 / (4608 * p.eps2) := ⟨_, rfl⟩
  have q0 : 0 < q := by rw [hq]; positivity
  obtain ⟨C2, hC2⟩ : ∃ C2, C2 = C1 + M * q := ⟨_, rfl⟩
  have C20 : 0 ≤ C2 := by rw [hC2]; positivity
  obtain ⟨Cst, hCst⟩ : ∃ Cst, Cst = Real.exp (3 / 2 * κ * |T|) * (a + 3 * C2 * |T|) := ⟨_, rfl⟩
  have Cst0 : 0 ≤ Cst := by rw [hCst]; positivity
  obtain ⟨D, hD⟩ : ∃ D, D = Cst + 3 * q * C2 := ⟨_, rfl⟩
  have D0 : 0 ≤ D := by rw [hD]; positivity
  refine ⟨Cst, min 1 (min (1 / (16 * (D ^ 2 * vol + 1))) (1 / (32 * (q * κ + 1)))), Cst0, by positivity, ?_⟩
  intro C S lap pos dx hdx hdx1 sym bnd hN F hFd hpos Tb dts hdts hsum y hy
  have d1 : dx ≤ 1 := hdx1.trans (min_le_left _ _)
  have d2 : dx ≤ 1 / (16 * (D ^ 2 * vol + 1)) := hdx1.trans ((min_le_right _ _).trans (min_le_left _ _))
  have d3 : dx ≤ 1 / (32 * (q * κ + 1)) := hdx1.trans ((min_le_right _ _).trans (min_le_right _ _))
  rw [le_div_iff₀ (by positivity)] at d2 d3
  have p4 : dx ^ 4 ≤ dx := by
    have := pow_le_one₀ (n := 3) hdx.le d1
    calc dx ^ 4 = dx ^ 3 * dx := by ring
      _ ≤ 1 * dx := mul_le_mul_of_nonneg_right this hdx.le
      _ = dx := one_mul _
  have p2 : dx ^ 2 ≤ 1 := pow_le_one₀ hdx.le d1
  have p42 : dx ^ 4 ≤ dx ^ 2 := by
    calc dx ^ 4 = dx ^ 2 * dx ^ 2 := by ring
      _ ≤ 1 * dx ^ 2 := mul_le_mul_of_nonneg_right p2 (sq_nonneg _)
      _ = _ := one_mul _
  obtain ⟨X, hX⟩ : ∃ X, X = Real.sqrt S.card * dx ^ 2 := ⟨_, rfl⟩
  have X0 : 0 ≤ X := by rw [hX]; positivity
  have X2 : X ^ 2 ≤ vol * dx := by
    rw [hX, mul_pow, Real.sq_sqrt (Nat.cast_nonneg _), ← pow_mul]; exact hN
  have DX : D * X ≤ 1 / 4 := by
    refine abs_le_of_sq_le_sq' ?_ (by norm_num) |>.2
    rw [mul_pow]
    have h1 := mul_le_mul_of_nonneg_left X2 (sq_nonneg D)
    have h2 : 0 ≤ dx * 16 := by positivity
    nlinarith
  have δ0 : 0 ≤ q * dx ^ 4 := by positivity
  have hst : ∀ dt ∈ dts, (0 ≤ dt ∧ dt * (p.eps2 * (12 / dx ^ 2) ^ 2) ≤ 1 / 32 ∧ dt * (Λ ^ 2 / p.eps2 + |p.sigma|) ≤ 1 / 32) ∧
      dt ≤ q * dx ^ 4 := by
    intro dt hdt
    obtain ⟨h1, h2⟩ := hdts dt hdt
    have h3 : dt ≤ q * dx ^ 4 := by
      rw [hq, div_mul_eq_mul_div, one_mul, le_div_iff₀ (by positivity)]; linarith
    refine ⟨⟨h1, ?_, ?_⟩, h3⟩
    · have : dt * (p.eps2 * (12 / dx ^ 2) ^ 2) = (144 * p.eps2 * dt) / dx ^ 4 := by field_simp; ring
      rw [this, div_le_iff₀ (by positivity)]; linarith
    · rw [← hκ]
      calc dt * κ ≤ (q * dx ^ 4) * κ := mul_le_mul_of_nonneg_right h3 κ0
        _ ≤ (q * dx) * κ := mul_le_mul_of_nonneg_right (mul_le_mul_of_nonneg_left p4 q0.le) κ0
        _ ≤ 1 / 32 := by nlinarith
  have sum0 : 0 ≤ dts.sum := List.sum_nonneg fun x hx => (hdts x hx).1
  have sumT : dts.sum ≤ |T| := hsum.trans (le_abs_self _)
  have defect : C1 * dx ^ 2 + M * (q * dx ^ 4) ≤ C2 * dx ^ 2 := by
    rw [hC2, add_mul]
    have := mul_le_mul_of_nonneg_left p42 (mul_nonneg m0 q0.le)
    linarith
  have q1 : 0 ≤ Real.sqrt S.card := Real.sqrt_nonneg _
  have defN : Real.sqrt S.card * (C1 * dx ^ 2 + M * (q * dx ^ 4)) ≤ C2 * X := by
    calc _ ≤ Real.sqrt S.card * (C2 * dx ^ 2) := mul_le_mul_of_nonneg_left defect q1
      _ = C2 * X := by rw [hX]; ring
  have def0 : 0 ≤ Real.sqrt S.card * (C1 * dx ^ 2 + M * (q * dx ^ 4)) := by positivity
  have init : cellNorm S (y - fun c => u 0 (pos c)) ≤ a * X := by
    refine (cellNorm_le S (by positivity) hy).trans (le_of_eq ?_)
    rw [hX]; ring
  have init0 : 0 ≤ cellNorm S (y - fun c => u 0 (pos c)) := Real.sqrt_nonneg _
  have hE : Real.exp (3 / 2 * (Λ ^ 2 / p.eps2 + |p.sigma|) * dts.sum) *
      (cellNorm S (y - fun c => u 0 (pos c)) + 3 * (Real.sqrt S.card * (C1 * dx ^ 2 + M * (q * dx ^ 4))) * dts.sum) ≤ Cst * X := by
    rw [← hκ]
    have g1 : Real.exp (3 / 2 * κ * dts.sum) ≤ Real.exp (3 / 2 * κ * |T|) :=
      Real.exp_le_exp.2 (mul_le_mul_of_nonneg_left sumT (by positivity))
    have g2 : cellNorm S (y - fun c => u 0 (pos c)) + 3 * (Real.sqrt S.card * (C1 * dx ^ 2 + M * (q * dx ^ 4))) * dts.sum ≤
        (a + 3 * C2 * |T|) * X := by
      have := mul_le_mul defN sumT sum0 (mul_nonneg C20 X0)
      have e : (a + 3 * C2 * |T|) * X = a * X + 3 * (C2 * X * |T|) := by ring
      rw [e]
      linarith
    calc _ ≤ Real.exp (3 / 2 * κ * |T|) * ((a + 3 * C2 * |T|) * X) := mul_le_mul g1 g2 (by positivity) (Real.exp_pos _).le
      _ = Cst * X := by rw [hCst]; ring
  have CX : Cst * X ≤ 1 / 4 := le_trans (mul_le_mul_of_nonneg_right (by rw [hD]; linarith [mul_nonneg q0.le C20]) X0) DX
  have key := cell_run_error S Tb lap (12 / dx ^ 2) p.eps2 p.sigma p.m he (by positivity) sym bnd F hFd
    (w := fun t c => u t (pos c)) (w' := fun t c => chCont p (u t) (pos c)) (Tm := T) (ρ0 := C1 * dx ^ 2) (M := M)
    (δ := q * dx ^ 4) (b := b) (Λ := Λ) (by positivity) m0 δ0
    (fun t h1 h2 c hc => by rw [hpos t h1 h2 c hc]; exact hC1 t h1 h2 dx hdx _)
    (fun t s h1 h2 h3 c _ => hM2 t s h1 h2 h3 _) (fun t s h1 h2 h3 c _ => hM1 t s h1 h2 h3 _)
    (fun t h1 h2 c _ => hb t h1 h2 _) hΛ
    (by
      have h1 : q * dx ^ 4 * (Real.sqrt S.card * (C1 * dx ^ 2 + M * (q * dx ^ 4))) ≤ q * (C2 * X) := by
        have : q * dx ^ 4 ≤ q := by
          have := mul_le_mul_of_nonneg_left (p42.trans p2) q0.le
          linarith
        exact mul_le_mul this defN def0 q0.le
      have h2 : 3 * (q * (C2 * X)) ≤ D * X := by
        rw [hD]
        have := mul_nonneg Cst0 X0
        have e : (Cst + 3 * q * C2) * X = Cst * X + 3 * (q * (C2 * X)) := by ring
        linarith
      linarith)
    dts 0 y hst le_rfl (by rw [zero_add]; exact hsum) _ rfl (hE.trans CX)
  rw [zero_add] at key
  exact key.trans (hX ▸ hE)

end Madg
