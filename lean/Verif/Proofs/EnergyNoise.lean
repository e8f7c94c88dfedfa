/-
One explicit step with stage errors, compared with the exact step: how far the state and the energy move (C114).
-/
import Verif.Proofs.Energy
import Verif.Proofs.CHNoisy

set_option linter.unusedSectionVars false
set_option linter.unusedVariables false

namespace Madg
open Finset

section
variable {ι : Type} [Fintype ι] {lap : (ι → ℝ) →ₗ[ℝ] (ι → ℝ)} (hsym : ∀ u v : ι → ℝ, ∑ i, lap u i * v i = ∑ i, u i * lap v i)
  (hneg : ∀ u : ι → ℝ, ∑ i, lap u i * u i ≤ 0) {lam : ℝ} (hlam : 0 ≤ lam)
  (hbnd : ∀ u : ι → ℝ, ∑ i, lap u i ^ 2 ≤ lam ^ 2 * ∑ i, u i ^ 2)
  (hsup : ∀ (u : ι → ℝ) (B : ℝ), (∀ i, |u i| ≤ B) → ∀ i, |lap u i| ≤ lam * B)
  {e2 sg m0 : ℝ} (he : 0 ≤ e2) (hsg : 0 ≤ sg) (T : RK3c) (o2 : T.b2 * T.a21 + T.b3 * (T.a31 + T.a32) = 1 / 2)
  (o3 : T.b3 * T.a32 * T.a21 = 1 / 6) {R dt : ℝ} (hR : 0 ≤ R) (hm0 : |m0| ≤ R) (hdt : 0 ≤ dt)
  (hκ : dt * (lam * (27 * R ^ 2 + 1 + e2 * lam) + sg) ≤ 1 / 2)
  {F : (ι → ℝ) → ι → ℝ} (hF : ∀ u, F u = lap (fun i => u i ^ 3 - u i) - e2 • lap (lap u) - sg • (u - fun _ => m0))

include hsup he hsg hR hdt hκ hF hlam in
/-- The right-hand side times the step size does not enlarge distances below `4 R`. -/
theorem field_lip {u v : ι → ℝ} {e : ℝ} (e0 : 0 ≤ e) (hu : ∀ i, |u i| ≤ 4 * R) (hv : ∀ i, |v i| ≤ 4 * R)
    (h : ∀ i, |u i - v i| ≤ e) (i : ι) : dt * |F u i - F v i| ≤ e := by
  have h1 : ∀ i, |(fun i => (u i ^ 3 - u i) - (v i ^ 3 - v i)) i| ≤ (48 * R ^ 2 + 1) * e := by
    intro i
    refine (cubic_lip (hu i) (hv i)).trans ?_
    calc (3 * (4 * R) ^ 2 + 1) * |u i - v i| ≤ (3 * (4 * R) ^ 2 + 1) * e := mul_le_mul_of_nonneg_left (h i) (by positivity)
      _ = _ := by ring
  have h2 := hsup _ _ h1 i
  have h3 := hsup _ _ (hsup (u - v) e h) i
  have e1 : F u i - F v i = lap (fun i => (u i ^ 3 - u i) - (v i ^ 3 - v i)) i - e2 * lap (lap (u - v)) i - sg * (u i - v i) := by
    have : (fun i => (u i ^ 3 - u i) - (v i ^ 3 - v i)) = (fun i => u i ^ 3 - u i) - fun i => v i ^ 3 - v i := rfl
    rw [hF, hF, this, map_sub, map_sub, map_sub]
    simp only [Pi.sub_apply, Pi.smul_apply, smul_eq_mul]
    ring
  have h5 : |F u i - F v i| ≤ lam * ((48 * R ^ 2 + 1) * e) + e2 * (lam * (lam * e)) + sg * e := by
    rw [e1]
    refine (abs_sub _ _).trans (add_le_add ((abs_sub _ _).trans (add_le_add h2 ?_)) ?_)
    · rw [abs_mul, abs_of_nonneg he]; exact mul_le_mul_of_nonneg_left h3 he
    · rw [abs_mul, abs_of_nonneg hsg]; exact mul_le_mul_of_nonneg_left (h i) hsg
  have h6 : lam * ((48 * R ^ 2 + 1) * e) + e2 * (lam * (lam * e)) + sg * e ≤
      2 * e * (lam * (27 * R ^ 2 + 1 + e2 * lam) + sg) := by
    have : 0 ≤ e * (lam * (6 * R ^ 2 + 1 + e2 * lam) + sg) := by positivity
    nlinarith
  calc dt * |F u i - F v i| ≤ dt * (2 * e * (lam * (27 * R ^ 2 + 1 + e2 * lam) + sg)) := mul_le_mul_of_nonneg_left (h5.trans h6) hdt
    _ = 2 * e * (dt * (lam * (27 * R ^ 2 + 1 + e2 * lam) + sg)) := by ring
    _ ≤ 2 * e * (1 / 2) := mul_le_mul_of_nonneg_left hκ (by linarith)
    _ = e := by ring

include hsup he hsg hR hm0 hdt hκ hF hlam in
/-- A step with stage errors up to `η` ends within `3 η` of the exact step. -/
theorem noisy_close {η : ℝ} (h0 : 0 ≤ η) (h1 : 2 * η ≤ R) {u u' y2 y3 : ι → ℝ} (hu : ∀ i, |u i| ≤ R)
    (e2' : ∀ s, |y2 s - (u s + dt * (T.a21 * F u s))| ≤ η)
    (e3' : ∀ s, |y3 s - (u s + dt * (T.a31 * F u s + T.a32 * F y2 s))| ≤ η)
    (e4' : ∀ s, |u' s - (u s + dt * (T.b1 * F u s + T.b2 * F y2 s + T.b3 * F y3 s))| ≤ η) (i : ι) :
    |u' i - T.step F dt u i| ≤ 3 * η := by
  have sup := fun {u : ι → ℝ} {B : ℝ} => field_sup hlam hsup he hsg hR hm0 hdt hκ hF (u := u) (B := B)
  have lip := fun {u v : ι → ℝ} {e : ℝ} => field_lip hlam hsup he hsg hR hdt hκ hF (u := u) (v := v) (e := e)
  have tri : ∀ {x y X Y : ℝ}, |x| ≤ X → |y - x| ≤ Y → |y| ≤ X + Y := fun h1 h2 => by
    rw [abs_le] at *; constructor <;> linarith [h1.1, h1.2, h2.1, h2.2]
  have mulb : ∀ {a x X : ℝ}, 0 ≤ a → dt * |x| ≤ X → |dt * (a * x)| ≤ a * X := by
    intro a x X ha h
    rw [abs_mul, abs_mul, abs_of_nonneg hdt, abs_of_nonneg ha]
    calc dt * (a * |x|) = a * (dt * |x|) := by ring
      _ ≤ _ := mul_le_mul_of_nonneg_left h ha
  obtain ⟨z2, hz2⟩ : ∃ z, z = T.y2 F dt u := ⟨_, rfl⟩
  obtain ⟨z3, hz3⟩ : ∃ z, z = T.y3 F dt u := ⟨_, rfl⟩
  have z2e : ∀ i, z2 i = u i + dt * (T.a21 * F u i) := fun i => by rw [hz2]; rfl
  have z3e : ∀ i, z3 i = u i + dt * (T.a31 * F u i + T.a32 * F z2 i) := fun i => by rw [hz3, hz2]; rfl
  have z4e : ∀ i, T.step F dt u i = u i + dt * (T.b1 * F u i + T.b2 * F z2 i + T.b3 * F z3 i) := fun i => by rw [hz3, hz2]; rfl
  have s1 := sup (by linarith) le_rfl hu
  have z2b : ∀ i, |z2 i| ≤ 2 * R := by
    intro i
    have a := mulb T.h21 (s1 i)
    have b : T.a21 * R ≤ R := by nlinarith [T.c2]
    rw [z2e]
    refine (abs_add_le _ _).trans ?_
    linarith [hu i]
  have s2 := sup (by linarith) (by linarith) z2b
  have z3b : ∀ i, |z3 i| ≤ 3 * R := by
    intro i
    have a := mulb T.h31 (s1 i)
    have b := mulb T.h32 (s2 i)
    have c : T.a31 * R + T.a32 * (2 * R) ≤ 2 * R := by nlinarith [T.c3, T.h31, mul_nonneg T.h31 hR]
    rw [z3e, mul_add]
    refine (abs_add_le _ _).trans ?_
    have := abs_add_le (dt * (T.a31 * F u i)) (dt * (T.a32 * F z2 i))
    linarith [hu i]
  have d2 : ∀ i, |y2 i - z2 i| ≤ η := fun i => by rw [z2e]; exact e2' i
  have y2b : ∀ i, |y2 i| ≤ 4 * R := fun i => (tri (z2b i) (d2 i)).trans (by linarith)
  have l2 := lip h0 y2b (fun i => (z2b i).trans (by linarith)) d2
  have d3 : ∀ i, |y3 i - z3 i| ≤ 2 * η := by
    intro i
    have a := mulb T.h32 (l2 i)
    have b : T.a32 * η ≤ η := by nlinarith [T.c3, T.h31]
    have e : y3 i - z3 i = (y3 i - (u i + dt * (T.a31 * F u i + T.a32 * F y2 i))) + dt * (T.a32 * (F y2 i - F z2 i)) := by
      rw [z3e]; ring
    rw [e]
    refine (abs_add_le _ _).trans ?_
    linarith [e3' i]
  have y3b : ∀ i, |y3 i| ≤ 4 * R := fun i => (tri (z3b i) (d3 i)).trans (by linarith)
  have l3 := lip (by linarith) y3b (fun i => (z3b i).trans (by linarith)) d3
  have a := mulb T.k2 (l2 i)
  have b := mulb T.k3 (l3 i)
  have c : T.b2 * η + T.b3 * (2 * η) ≤ 2 * η := by nlinarith [T.sum, T.k1, T.k2, mul_nonneg T.k2 h0, mul_nonneg T.k1 h0]
  have e : u' i - T.step F dt u i = (u' i - (u i + dt * (T.b1 * F u i + T.b2 * F y2 i + T.b3 * F y3 i))) +
      (dt * (T.b2 * (F y2 i - F z2 i)) + dt * (T.b3 * (F y3 i - F z3 i))) := by
    rw [z4e]; ring
  rw [e]
  refine (abs_add_le _ _).trans ?_
  have := abs_add_le (dt * (T.b2 * (F y2 i - F z2 i))) (dt * (T.b3 * (F y3 i - F z3 i)))
  linarith [e4' i]

theorem well_close {a b ρ e : ℝ} (h1 : 1 ≤ ρ) (ha : |a| ≤ ρ) (hb : |b| ≤ ρ) (h : |a - b| ≤ e) :
    (a ^ 2 - 1) ^ 2 / 4 ≤ (b ^ 2 - 1) ^ 2 / 4 + ρ ^ 3 * e := by
  have sq : ∀ {x : ℝ}, |x| ≤ ρ → x ^ 2 ≤ ρ ^ 2 := fun h => sq_le_sq' (by linarith [neg_abs_le ‹ℝ›, (abs_le.1 h).1]) (abs_le.1 h).2
  have s1 := sq ha
  have s2 := sq hb
  have r1 : 1 ≤ ρ ^ 2 := one_le_pow₀ h1
  have a1 : |a + b| ≤ 2 * ρ := (abs_add_le _ _).trans (by linarith)
  have a2 : |a ^ 2 + b ^ 2 - 2| ≤ 2 * ρ ^ 2 := by rw [abs_le]; constructor <;> nlinarith [sq_nonneg a, sq_nonneg b]
  have e' : (a ^ 2 - 1) ^ 2 / 4 - (b ^ 2 - 1) ^ 2 / 4 = (a - b) * ((a + b) * (a ^ 2 + b ^ 2 - 2)) / 4 := by ring
  have b1 : |(a - b) * ((a + b) * (a ^ 2 + b ^ 2 - 2))| ≤ e * (2 * ρ * (2 * ρ ^ 2)) := by
    rw [abs_mul, abs_mul]
    have e0 : 0 ≤ e := (abs_nonneg _).trans h
    gcongr
  have b2 := (le_abs_self _).trans b1
  have : e * (2 * ρ * (2 * ρ ^ 2)) / 4 = ρ ^ 3 * e := by ring
  linarith

include hsym hsup he hlam in
/-- Moving every value by at most `e` moves the energy by at most `N (ρ³ + ε² λ ρ) e`. -/
theorem gEn_close {u v φ ψ : ι → ℝ} {ρ e : ℝ} (h1 : 1 ≤ ρ) (hu : ∀ i, |u i| ≤ ρ) (hv : ∀ i, |v i| ≤ ρ) (h : ∀ i, |u i - v i| ≤ e) :
    gEn lap e2 0 u φ ≤ gEn lap e2 0 v ψ + Fintype.card ι * ((ρ ^ 3 + e2 * (lam * ρ)) * e) := by
  have w : ∑ i, (u i ^ 2 - 1) ^ 2 / 4 ≤ ∑ i, (v i ^ 2 - 1) ^ 2 / 4 + Fintype.card ι * (ρ ^ 3 * e) := by
    refine (Finset.sum_le_sum fun i _ => well_close h1 (hu i) (hv i) (h i)).trans (le_of_eq ?_)
    rw [Finset.sum_add_distrib, Finset.sum_const, nsmul_eq_mul, Finset.card_univ]
  have a : aF lap u u - aF lap v v ≤ Fintype.card ι * (2 * (lam * ρ * e)) := by
    have e1 : aF lap u u - aF lap v v = ∑ i, (-(lap (u - v) i)) * (u i + v i) := by
      have hs := hsym u v
      have hc : ∑ i, lap v i * u i = ∑ i, u i * lap v i := Finset.sum_congr rfl fun i _ => mul_comm _ _
      have : ∑ i, (-(lap (u - v) i)) * (u i + v i) =
          -∑ i, lap u i * u i - ∑ i, lap u i * v i + ∑ i, lap v i * u i + ∑ i, lap v i * v i := by
        rw [map_sub, ← Finset.sum_neg_distrib, ← Finset.sum_sub_distrib, ← Finset.sum_add_distrib, ← Finset.sum_add_distrib]
        exact Finset.sum_congr rfl fun i _ => by simp only [Pi.sub_apply]; ring
      rw [this]
      unfold aF
      linarith
    rw [e1]
    refine (Finset.sum_le_sum (g := fun _ => 2 * (lam * ρ * e)) fun i _ => ?_).trans (le_of_eq ?_)
    · have b1 := hsup (u - v) e h i
      have b2 : |u i + v i| ≤ 2 * ρ := (abs_add_le _ _).trans (by linarith [hu i, hv i])
      have e0 : 0 ≤ e := (abs_nonneg _).trans (h i)
      refine (le_abs_self _).trans ?_
      rw [abs_mul, abs_neg]
      calc |lap (u - v) i| * |u i + v i| ≤ (lam * e) * (2 * ρ) := by gcongr
        _ = _ := by ring
    · rw [Finset.sum_const, nsmul_eq_mul, Finset.card_univ]
  unfold gEn
  have := mul_le_mul_of_nonneg_left a (by linarith : 0 ≤ e2 / 2)
  nlinarith

/-- A bound for the field from the energy, without roots. -/
theorem gEn_sup_sq (hsym : ∀ u v : ι → ℝ, ∑ i, lap u i * v i = ∑ i, u i * lap v i) (hneg : ∀ u : ι → ℝ, ∑ i, lap u i * u i ≤ 0)
    {e2 : ℝ} (he : 0 ≤ e2) {u φ : ι → ℝ} {R : ℝ} (hR : 1 ≤ R) (hE : gEn lap e2 0 u φ ≤ ((R ^ 2 - 1) / 2) ^ 2) (i : ι) : |u i| ≤ R := by
  have r1 : 0 ≤ R ^ 2 - 1 := by nlinarith
  have hs : Real.sqrt (((R ^ 2 - 1) / 2) ^ 2) = (R ^ 2 - 1) / 2 := Real.sqrt_sq (by linarith)
  exact gEn_sup hsym hneg he le_rfl hE (by linarith) (by rw [hs]; ring) i

include hsym hneg hlam hbnd hsup he o2 o3 hm0 hdt in
/-- One step with stage errors: the energy rises at most by the noise. -/
theorem noisy_energy_step (h1R : 1 ≤ R) (hκ : dt * (lam * (27 * R ^ 2 + 1 + e2 * lam) + 0) ≤ 1 / 2)
    (hF : ∀ u, F u = lap (fun i => u i ^ 3 - u i) - e2 • lap (lap u) - (0 : ℝ) • (u - fun _ => m0)) {η : ℝ} (h0 : 0 ≤ η) (h1 : 3 * η ≤ R)
    {u u' y2 y3 φ φ' : ι → ℝ} (hE : gEn lap e2 0 u φ ≤ ((R ^ 2 - 1) / 2) ^ 2) (hφ : lap φ = (fun _ => m0) - u)
    (e2' : ∀ s, |y2 s - (u s + dt * (T.a21 * F u s))| ≤ η)
    (e3' : ∀ s, |y3 s - (u s + dt * (T.a31 * F u s + T.a32 * F y2 s))| ≤ η)
    (e4' : ∀ s, |u' s - (u s + dt * (T.b1 * F u s + T.b2 * F y2 s + T.b3 * F y3 s))| ≤ η) :
    gEn lap e2 0 u' φ' ≤ gEn lap e2 0 u φ + Fintype.card ι * (((2 * R) ^ 3 + e2 * (lam * (2 * R))) * (3 * η)) := by
  have hR : 0 ≤ R := by linarith
  have hu := gEn_sup_sq hsym hneg he h1R hE
  obtain ⟨h, -, -, dec, -⟩ := energy_step hsym hneg hlam hbnd hsup he le_rfl T o2 o3 hR hm0 hdt hκ hF hu hφ
  have g0 := mul_nonneg (by linarith : 0 ≤ dt / 4) (aF_nonneg hsym hneg (gPot lap e2 0 u φ))
  have dec' : gEn lap e2 0 (T.step F dt u) (φ - dt • h) ≤ gEn lap e2 0 u φ := by linarith
  have hv := gEn_sup_sq hsym hneg he h1R (dec'.trans hE)
  have cl := noisy_close hlam hsup he le_rfl T hR hm0 hdt hκ hF h0 (by linarith) hu e2' e3' e4'
  have hu' : ∀ i, |u' i| ≤ 2 * R := by
    intro i
    have a := abs_le.1 (cl i)
    have b := abs_le.1 (hv i)
    rw [abs_le]; constructor <;> linarith [a.1, a.2, b.1, b.2]
  have := gEn_close hsym hlam hsup he (φ := φ') (ψ := φ - dt • h) (by linarith : 1 ≤ 2 * R) hu' (fun i => (hv i).trans (by linarith)) cl
  linarith

end

end Madg
