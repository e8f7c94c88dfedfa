/-
The explicit methods on the Poisson problem: error propagation, and what the residual says about the error.
-/
import Verif.Proofs.PoisTrunc
import Verif.Props.MGPoisson
import Verif.Spec.PoisRun
import Mathlib.Analysis.SpecialFunctions.Exp

set_option linter.unusedSectionVars false
set_option linter.unusedVariables false

namespace Madg
open Spec Finset

section
variable {K : Type} [Field K] [LinearOrder K] [IsStrictOrderedRing K] {C : Type} {P : C → Prop} {L : (C → K) →ₗ[K] (C → K)}
  (hL : ∀ u v, (∀ c, P c → u c = v c) → L u = L v) {Φ : (C → K) → C → K} {us : C → K}
  (hΦ : ∀ w c, P c → Φ w c = L (w - us) c)

include hL hΦ in
/-- The error after one step of the strong-stability-preserving method. -/
theorem ssprk3_err (t δ : K) (y : C → K) : ∀ c, P c →
    (ssprk3 : Tableau K).step (fun _ => Φ) t δ y c - us c = smo (-δ • L) (y - us) c := by
  intro c hc
  set e := y - us with he
  have k1 : ∀ c, P c → Φ y c = L e c := fun c hc => hΦ y c hc
  have k2 : ∀ c, P c → Φ (y + (δ * 1) • Φ y) c = L (e + δ • L e) c := fun c hc => by
    rw [hΦ _ c hc, hL (y + (δ * 1) • Φ y - us) (e + δ • L e) fun c hc => by
      simp only [Pi.sub_apply, Pi.add_apply, Pi.smul_apply, k1 c hc, he]; ring_nf]
  have k3 : ∀ c, P c → Φ (y + δ • ((1 / 4 : K) • Φ y + (1 / 4 : K) • Φ (y + (δ * 1) • Φ y))) c =
      L (e + (δ * (1 / 4)) • (L e + L (e + δ • L e))) c := fun c hc => by
    rw [hΦ _ c hc, hL (y + δ • ((1 / 4 : K) • Φ y + (1 / 4 : K) • Φ (y + (δ * 1) • Φ y)) - us)
      (e + (δ * (1 / 4)) • (L e + L (e + δ • L e))) fun c hc => by
        simp only [Pi.sub_apply, Pi.add_apply, Pi.smul_apply, smul_eq_mul]
        rw [show Φ (y + (δ * 1) • Φ y) c = _ from k2 c hc, show Φ y c = _ from k1 c hc]; simp only [he, Pi.sub_apply]; ring]
  rw [Tableau.step, ssprk3_slope, ssprk3_stage0, ssprk3_stage1, ssprk3_stage2]
  simp only [Pi.add_apply, Pi.smul_apply, smul_eq_mul]
  have e3 := k3 c hc
  have e2 := k2 c hc
  have e1 := k1 c hc
  rw [e1, e2, e3]
  simp only [smo_apply, LinearMap.smul_apply, map_add, map_smul, Pi.sub_apply, Pi.add_apply, Pi.smul_apply, smul_eq_mul, he]
  ring

theorem bs23_step_const (Φ : (C → K) → C → K) (t δ : K) (y : C → K) :
    (bs23 : Tableau K).step (fun _ => Φ) t δ y = (bs23 : Tableau K).step (fun _ => Φ) 0 δ y := by
  rw [Tableau.step, Tableau.step, bs23_slope, bs23_slope, bs23_stage0, bs23_stage1, bs23_stage2, bs23_stage0, bs23_stage1, bs23_stage2]

include hL hΦ in
theorem rk_err {T : Tableau K} (hT : T = ssprk3 ∨ T = bs23) (t δ : K) (y : C → K) : ∀ c, P c →
    T.step (fun _ => Φ) t δ y c - us c = smo (-δ • L) (y - us) c := by
  rcases hT with rfl | rfl
  · exact ssprk3_err hL hΦ t δ y
  · rw [bs23_step_const]
    exact bs23_err hL hΦ δ y

/-- A step of size zero has the right-hand side as its slope. -/
theorem rk_zero {T : Tableau K} (hT : T = ssprk3 ∨ T = bs23) (F : K → (C → K) → C → K) (t : K) (y : C → K) : T.slope F t 0 y = F t y := by
  rcases hT with rfl | rfl
  · rw [ssprk3_slope, ssprk3_stage0, ssprk3_stage1, ssprk3_stage2]
    simp only [mul_zero, zero_mul, add_zero, zero_smul, ← add_smul]
    norm_num
  · rw [bs23_slope, bs23_stage0, bs23_stage1, bs23_stage2]
    simp only [mul_zero, zero_mul, add_zero, zero_smul, ← add_smul]
    norm_num

end

section
variable {K : Type} [Field K] [LinearOrder K] [IsStrictOrderedRing K] {dx : K} (hdx : dx ≠ 0) {ni nj nk : Int}
  (hi : 1 ≤ ni) (hj : 1 ≤ nj) (hk : 1 ≤ nk) {e : Int → Int → Int → K} {us : Fld K} (hus : PoisSolves dx ni nj nk e us)
  {T : Tableau K} (hT : T = ssprk3 ∨ T = bs23) {dt : K} (h0 : 0 ≤ dt) (h1 : dt ≤ 1 / 5 * dx ^ 2)
include hdx hi hj hk hus hT h0 h1

theorem pois_step_err (t : K) (y : Fld K) : ∀ c, In3 ni nj nk c →
    (T.step (poisField dx ni nj nk e) t dt y - us) c = smo (-(dt / dx ^ 2 * dx ^ 2) • lapL dx ni nj nk) (y - us) c := by
  intro c hc
  rw [div_mul_cancel₀ _ (pow_ne_zero 2 hdx)]
  exact rk_err (P := In3 ni nj nk) (fun u v h => lapL_congr dx hi hj h)
    (fun w c hc => by
      have := pois_phi hus w c hc
      simpa using this) hT t dt y c hc

/-- The slope of a step bounds the error after it. -/
theorem pois_rk_slope (t : K) (y : Fld K) :
    ipL ni nj nk (T.step (poisField dx ni nj nk e) t dt y - us) (T.step (poisField dx ni nj nk e) t dt y - us) ≤
      64 / 25 * ((nk : K) * dx) ^ 4 * ipL ni nj nk (T.slope (poisField dx ni nj nk e) t dt y) (T.slope (poisField dx ni nj nk e) t dt y) := by
  have hd2 : 0 < dx ^ 2 := by positivity
  have err := pois_step_err hdx hi hj hk hus hT h0 h1 t y
  rcases eq_or_lt_of_le h0 with hz | hp
  · subst hz
    have e1 : T.step (poisField dx ni nj nk e) t 0 y - us = y - us := by rw [Tableau.step, zero_smul, add_zero]
    rw [e1, rk_zero hT]
    refine (lapL_stable hdx hi hj hk _).trans ?_
    have e2 : ipL ni nj nk (poisField dx ni nj nk e t y) (poisField dx ni nj nk e t y) =
        ipL ni nj nk (lapL dx ni nj nk (y - us)) (lapL dx ni nj nk (y - us)) := by
      have q : ∀ c, In3 ni nj nk c → poisField dx ni nj nk e t y c = lapL dx ni nj nk (y - us) c := fun c hc => by
        have := pois_phi hus y c hc
        unfold poisField
        simpa using this
      exact ipL_congr q q
    rw [e2]
    have a1 := ipL_nonneg ni nj nk (lapL dx ni nj nk (y - us))
    have a2 : 0 ≤ ((nk : K) * dx) ^ 4 := by positivity
    have := mul_nonneg a2 a1
    nlinarith
  · rw [ipL_congr err err]
    refine slope_bound hdx (div_pos hp hd2) (by rw [div_le_iff₀ hd2]; exact h1) hi hj hk _ _ fun c hc => ?_
    rw [← err c hc, div_mul_cancel₀ _ hd2.ne']
    simp only [Tableau.step, Pi.add_apply, Pi.smul_apply, Pi.sub_apply, smul_eq_mul]
    ring

/-- A step contracts the energy of the error. -/
theorem pois_rk_decay (t : K) (y : Fld K) :
    dirForm ni nj nk (T.step (poisField dx ni nj nk e) t dt y - us) (T.step (poisField dx ni nj nk e) t dt y - us) ≤
      (1 - dt / (8 * ((nk : K) * dx) ^ 2)) * dirForm ni nj nk (y - us) (y - us) := by
  have hd2 : 0 < dx ^ 2 := by positivity
  rcases eq_or_lt_of_le h0 with hz | hp
  · subst hz
    have e1 : T.step (poisField dx ni nj nk e) t 0 y - us = y - us := by rw [Tableau.step, zero_smul, add_zero]
    rw [e1]
    simp
  have err := pois_step_err hdx hi hj hk hus hT h0 h1 t y
  have hn : (0 : K) < (nk : K) := by exact_mod_cast (show 0 < nk by omega)
  have cp : 0 < dt / dx ^ 2 := div_pos hp hd2
  have key := (pois_symOp hdx cp.le hi hj hk).smo_contract
    (pois_up hdx cp.le (by rw [div_le_iff₀ hd2]; exact h1) hi hj hk) (c := dt / dx ^ 2 / (nk : K) ^ 2) (by positivity)
    (pois_low hdx cp.le hi hj hk) (y - us)
  have e1 : ∀ a b : Fld K, (∀ c, In3 ni nj nk c → a c = b c) → dirForm ni nj nk a a = dirForm ni nj nk b b := by
    intro a b h
    have g1 := dir_green dx hi hj hk a a
    have g2 := dir_green dx hi hj hk b b
    rw [lapL_congr dx hi hj h, ipL_congr h (fun _ _ => rfl), g2] at g1
    have := neg_injective g1
    field_simp at this
    exact this.symm
  rw [e1 _ _ err]
  rw [pois_en hdx _ hi hj hk, pois_en hdx _ hi hj hk] at key
  have e2 : (1 - dt / dx ^ 2 / (nk : K) ^ 2 / 8) = 1 - dt / (8 * ((nk : K) * dx) ^ 2) := by
    congr 1; field_simp
  rw [e2] at key
  refine le_of_mul_le_mul_left (key.trans (le_of_eq ?_)) cp
  ring

end

/-- Steps that are proposed between 0 and `b` stay there, and never pass the final time. -/
theorem steps_between {T t0 dt0 b : ℝ} {t d p : Nat → ℝ} (hm : Marching T t0 dt0 t d p) (h0 : 0 ≤ dt0) (hb : dt0 ≤ b)
    (hT : t0 + dt0 ≤ T) (hp : ∀ k, 0 ≤ d k → d k ≤ b → 0 ≤ p (k + 1) ∧ p (k + 1) ≤ b) : ∀ k, 0 ≤ d k ∧ d k ≤ b ∧ t k + d k ≤ T := by
  intro k
  induction k with
  | zero => rw [hm.t_zero, hm.d_zero]; exact ⟨h0, hb, hT⟩
  | succ k ih =>
    obtain ⟨a1, a2⟩ := hp k ih.1 ih.2.1
    have e := hm.t_succ k
    rw [hm.d_succ]
    split
    · refine ⟨by linarith [ih.2.2], by linarith, by linarith⟩
    · refine ⟨a1, a2, by linarith⟩

/-- A quantity contracted in every step decays exponentially in time. -/
theorem exp_decay {T t0 dt0 c : ℝ} {t d p En : Nat → ℝ} (hm : Marching T t0 dt0 t d p) (h0 : ∀ k, 0 ≤ En k)
    (hs : ∀ k, En (k + 1) ≤ (1 - d k * c) * En k) (k : Nat) : En k ≤ Real.exp (-(c * (t k - t0))) * En 0 := by
  induction k with
  | zero => rw [hm.t_zero]; simp
  | succ k ih =>
    have h1 : 1 - d k * c ≤ Real.exp (-(d k * c)) := by linarith [Real.add_one_le_exp (-(d k * c))]
    refine (hs k).trans ((mul_le_mul_of_nonneg_right h1 (h0 k)).trans ?_)
    refine (mul_le_mul_of_nonneg_left ih (Real.exp_pos _).le).trans (le_of_eq ?_)
    rw [← mul_assoc, ← Real.exp_add, hm.t_succ]
    congr 2; ring

end Madg
