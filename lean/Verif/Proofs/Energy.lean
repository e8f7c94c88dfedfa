/-
Decay of the free energy along steps of three-stage methods for `u' = Δ(u³ - u) - ε²Δ²u - σ(u - m)` with an abstract symmetric
negative semidefinite `Δ` on functions over a finite set.
-/
import Verif.Proofs.CHGrid
import Mathlib.LinearAlgebra.FiniteDimensional.Basic

set_option linter.unusedVariables false
set_option linter.unusedSectionVars false

namespace Madg

theorem core_add_le {V : Type} [AddCommGroup V] [Module ℝ V] (c : PreInnerProductSpace.Core ℝ V) (u v : V) :
    Real.sqrt (c.inner (u + v) (u + v)) ≤ Real.sqrt (c.inner u u) + Real.sqrt (c.inner v v) := by
  let i0 := @InnerProductSpace.Core.toSeminormedAddCommGroup ℝ V _ _ _ c
  exact norm_add_le u v

theorem core_abs_le {V : Type} [AddCommGroup V] [Module ℝ V] (c : PreInnerProductSpace.Core ℝ V) (u v : V) :
    |c.inner u v| ≤ Real.sqrt (c.inner u u) * Real.sqrt (c.inner v v) := by
  let i0 := @InnerProductSpace.Core.toSeminormedAddCommGroup ℝ V _ _ _ c
  let i1 : InnerProductSpace ℝ V := InnerProductSpace.ofCore c
  exact abs_real_inner_le_norm u v

/-! ### Form of a semidefinite operator -/

section
variable {ι : Type} [Fintype ι] (lap : (ι → ℝ) →ₗ[ℝ] (ι → ℝ))

/-- The form `-⟨Δu, v⟩`. -/
noncomputable def aF (u v : ι → ℝ) : ℝ := -∑ i, lap u i * v i

/-- Its seminorm. -/
noncomputable def aN (u : ι → ℝ) : ℝ := Real.sqrt (aF lap u u)

variable {lap} (hsym : ∀ u v : ι → ℝ, ∑ i, lap u i * v i = ∑ i, u i * lap v i) (hneg : ∀ u : ι → ℝ, ∑ i, lap u i * u i ≤ 0)

theorem aF_add_left (u v w : ι → ℝ) : aF lap (u + v) w = aF lap u w + aF lap v w := by
  simp only [aF, map_add, Pi.add_apply, add_mul, Finset.sum_add_distrib]; ring

theorem aF_smul_left (r : ℝ) (u w : ι → ℝ) : aF lap (r • u) w = r * aF lap u w := by
  simp only [aF, map_smul, Pi.smul_apply, smul_eq_mul, mul_assoc, ← Finset.mul_sum]; ring

include hsym
theorem aF_comm (u v : ι → ℝ) : aF lap u v = aF lap v u := by
  unfold aF
  rw [hsym]
  exact congrArg Neg.neg (Finset.sum_congr rfl fun i _ => mul_comm _ _)

theorem aF_add_right (u v w : ι → ℝ) : aF lap w (u + v) = aF lap w u + aF lap w v := by
  rw [aF_comm hsym, aF_add_left, aF_comm hsym u, aF_comm hsym v]

theorem aF_smul_right (r : ℝ) (u w : ι → ℝ) : aF lap w (r • u) = r * aF lap w u := by
  rw [aF_comm hsym, aF_smul_left, aF_comm hsym u]

include hneg

theorem aF_nonneg (u : ι → ℝ) : 0 ≤ aF lap u u := neg_nonneg.2 (hneg u)

/-- The form as an inner product. -/
@[reducible] noncomputable def aCore : PreInnerProductSpace.Core ℝ (ι → ℝ) where
  inner u v := aF lap u v
  conj_inner_symm u v := by simp only [conj_trivial]; exact aF_comm hsym v u
  re_inner_nonneg u := by simp only [RCLike.re_to_real]; exact aF_nonneg hsym hneg u
  add_left u v w := aF_add_left u v w
  smul_left u v r := by simp only [conj_trivial]; exact aF_smul_left r u v

theorem aN_sq (u : ι → ℝ) : aN lap u ^ 2 = aF lap u u := Real.sq_sqrt (aF_nonneg hsym hneg u)

theorem aN_add_le (u v : ι → ℝ) : aN lap (u + v) ≤ aN lap u + aN lap v := by
  exact core_add_le (aCore hsym hneg) u v

theorem aN_smul (r : ℝ) (u : ι → ℝ) : aN lap (r • u) = |r| * aN lap u := by
  unfold aN
  rw [aF_smul_left, aF_smul_right hsym, ← mul_assoc, ← sq, Real.sqrt_mul (sq_nonneg r), Real.sqrt_sq_eq_abs]

theorem aF_le (u v : ι → ℝ) : |aF lap u v| ≤ aN lap u * aN lap v := by
  exact core_abs_le (aCore hsym hneg) u v

end

theorem aN_nonneg {ι : Type} [Fintype ι] (lap : (ι → ℝ) →ₗ[ℝ] (ι → ℝ)) (u : ι → ℝ) : 0 ≤ aN lap u := Real.sqrt_nonneg _

/-! ### One increment -/

section
variable {ι : Type} [Fintype ι] {lap : (ι → ℝ) →ₗ[ℝ] (ι → ℝ)} (hsym : ∀ u v : ι → ℝ, ∑ i, lap u i * v i = ∑ i, u i * lap v i)
  (hneg : ∀ u : ι → ℝ, ∑ i, lap u i * u i ≤ 0) {lam : ℝ} (hlam : 0 ≤ lam)
  (hbnd : ∀ u : ι → ℝ, ∑ i, lap u i ^ 2 ≤ lam ^ 2 * ∑ i, u i ^ 2)

include hsym hneg hlam hbnd

theorem aF_le_sq (u : ι → ℝ) : aF lap u u ≤ lam * ∑ i, u i ^ 2 := by
  have h := Finset.sum_mul_sq_le_sq_mul_sq Finset.univ (fun i => lap u i) u
  have h2 : aF lap u u ^ 2 ≤ (lam * ∑ i, u i ^ 2) ^ 2 := by
    unfold aF
    rw [neg_sq]
    refine h.trans ?_
    have := mul_le_mul_of_nonneg_right (hbnd u) (Finset.sum_nonneg fun i (_ : i ∈ Finset.univ) => sq_nonneg (u i))
    refine this.trans (le_of_eq ?_)
    ring
  exact abs_le_of_sq_le_sq' h2 (mul_nonneg hlam (Finset.sum_nonneg fun i _ => sq_nonneg _)) |>.2

theorem lap_sq_le (u : ι → ℝ) : ∑ i, lap u i ^ 2 ≤ lam * aF lap u u := by
  have e : ∑ i, lap u i ^ 2 = -aF lap u (lap u) := by
    unfold aF; rw [neg_neg]; exact Finset.sum_congr rfl fun i _ => sq _
  have h1 := aF_le hsym hneg u (lap u)
  have h2 := aF_le_sq hsym hneg hlam hbnd (lap u)
  have n0 : 0 ≤ ∑ i, lap u i ^ 2 := Finset.sum_nonneg fun i _ => sq_nonneg _
  have h3 : (∑ i, lap u i ^ 2) ^ 2 ≤ aF lap u u * (lam * ∑ i, lap u i ^ 2) := by
    have a1 : (∑ i, lap u i ^ 2) ≤ aN lap u * aN lap (lap u) := by
      rw [e]; exact (neg_le_abs _).trans h1
    calc (∑ i, lap u i ^ 2) ^ 2 ≤ (aN lap u * aN lap (lap u)) ^ 2 := pow_le_pow_left₀ n0 a1 2
      _ = aF lap u u * aF lap (lap u) (lap u) := by rw [mul_pow, aN_sq hsym hneg, aN_sq hsym hneg]
      _ ≤ _ := mul_le_mul_of_nonneg_left h2 (aF_nonneg hsym hneg u)
  by_cases h0 : ∑ i, lap u i ^ 2 = 0
  · rw [h0]; exact mul_nonneg hlam (aF_nonneg hsym hneg u)
  · refine le_of_mul_le_mul_right ?_ (lt_of_le_of_ne n0 (Ne.symm h0))
    linarith

omit hsym hneg hlam hbnd in
theorem well_le {a b r : ℝ} (ha : |a| ≤ r) (hb : |b| ≤ r) :
    (b ^ 2 - 1) ^ 2 / 4 - (a ^ 2 - 1) ^ 2 / 4 ≤ (a ^ 3 - a) * (b - a) + (3 * r ^ 2 + 1) / 2 * (b - a) ^ 2 := by
  have e : (a ^ 3 - a) * (b - a) + (3 * r ^ 2 + 1) / 2 * (b - a) ^ 2 - ((b ^ 2 - 1) ^ 2 / 4 - (a ^ 2 - 1) ^ 2 / 4) =
      (b - a) ^ 2 * ((3 * r ^ 2 + 1) / 2 + 1 / 2 - (b ^ 2 + 2 * a * b + 3 * a ^ 2) / 4) := by ring
  have h1 : a ^ 2 ≤ r ^ 2 := sq_le_sq' (by linarith [neg_abs_le a]) ((le_abs_self a).trans ha)
  have h2 : b ^ 2 ≤ r ^ 2 := sq_le_sq' (by linarith [neg_abs_le b]) ((le_abs_self b).trans hb)
  have h3 : 0 ≤ (b - a) ^ 2 * ((3 * r ^ 2 + 1) / 2 + 1 / 2 - (b ^ 2 + 2 * a * b + 3 * a ^ 2) / 4) :=
    mul_nonneg (sq_nonneg _) (by nlinarith [sq_nonneg (a - b)])
  linarith

variable (lap) in
/-- Chemical potential with the nonlocal part. -/
noncomputable def gPot (e2 sg : ℝ) (u φ : ι → ℝ) : ι → ℝ := (fun i => u i ^ 3 - u i) - e2 • lap u + sg • φ

variable (lap) in
/-- Free energy with the nonlocal part. -/
noncomputable def gEn (e2 sg : ℝ) (u φ : ι → ℝ) : ℝ := ∑ i, (u i ^ 2 - 1) ^ 2 / 4 + e2 / 2 * aF lap u u + sg / 2 * aF lap φ φ

variable {e2 sg : ℝ} (he : 0 ≤ e2) (hsg : 0 ≤ sg) {ρ K : ℝ} (hK : K = lam * (3 * ρ ^ 2 + 1 + e2 * lam) + sg)
include he hsg hK

theorem gEn_descent {u h φ : ι → ℝ} (hu : ∀ i, |u i| ≤ ρ) (hv : ∀ i, |(u + lap h) i| ≤ ρ) :
    gEn lap e2 sg (u + lap h) (φ - h) ≤ gEn lap e2 sg u φ - aF lap (gPot lap e2 sg u φ) h + K / 2 * aF lap h h := by
  have w1 : ∑ i, ((u + lap h) i ^ 2 - 1) ^ 2 / 4 ≤ ∑ i, (u i ^ 2 - 1) ^ 2 / 4 + ∑ i, (u i ^ 3 - u i) * lap h i +
      (3 * ρ ^ 2 + 1) / 2 * ∑ i, lap h i ^ 2 := by
    rw [Finset.mul_sum, ← Finset.sum_add_distrib, ← Finset.sum_add_distrib]
    refine Finset.sum_le_sum fun i _ => ?_
    have := well_le (hu i) (hv i)
    rw [Pi.add_apply, add_sub_cancel_left] at this
    rw [Pi.add_apply]
    linarith
  have w2 : aF lap (u + lap h) (u + lap h) = aF lap u u - 2 * ∑ i, lap u i * lap h i + aF lap (lap h) (lap h) := by
    rw [aF_add_left, aF_add_right hsym, aF_add_right hsym, aF_comm hsym (lap h) u]
    have : aF lap u (lap h) = -∑ i, lap u i * lap h i := rfl
    rw [this]; ring
  have w3 : aF lap (φ - h) (φ - h) = aF lap φ φ - 2 * aF lap φ h + aF lap h h := by
    rw [sub_eq_add_neg, ← neg_one_smul ℝ h, aF_add_left, aF_add_right hsym, aF_add_right hsym, aF_smul_left, aF_smul_right hsym,
      aF_smul_left, aF_smul_right hsym, aF_comm hsym h φ]
    ring
  have w4 : aF lap (gPot lap e2 sg u φ) h = -∑ i, (u i ^ 3 - u i) * lap h i + e2 * ∑ i, lap u i * lap h i + sg * aF lap φ h := by
    have e1 : aF lap (fun i => u i ^ 3 - u i) h = -∑ i, (u i ^ 3 - u i) * lap h i := by
      unfold aF; rw [hsym]
    have e3 : aF lap (lap u) h = -∑ i, lap u i * lap h i := by unfold aF; rw [hsym]
    unfold gPot
    rw [aF_add_left, sub_eq_add_neg, ← neg_smul, aF_add_left, aF_smul_left, aF_smul_left, e1, e3]
    ring
  have b1 := aF_le_sq hsym hneg hlam hbnd (lap h)
  have b2 := lap_sq_le hsym hneg hlam hbnd h
  have a0 := aF_nonneg hsym hneg h
  unfold gEn
  rw [w2, w3, w4, hK]
  have c1 : (3 * ρ ^ 2 + 1) / 2 * ∑ i, lap h i ^ 2 ≤ (3 * ρ ^ 2 + 1) / 2 * (lam * aF lap h h) :=
    mul_le_mul_of_nonneg_left b2 (by positivity)
  have c2 : e2 / 2 * aF lap (lap h) (lap h) ≤ e2 / 2 * (lam * (lam * aF lap h h)) :=
    mul_le_mul_of_nonneg_left (b1.trans (mul_le_mul_of_nonneg_left b2 hlam)) (by linarith)
  linarith

theorem gPot_lip {u h φ : ι → ℝ} (hu : ∀ i, |u i| ≤ ρ) (hv : ∀ i, |(u + lap h) i| ≤ ρ) :
    aN lap (gPot lap e2 sg (u + lap h) (φ - h) - gPot lap e2 sg u φ) ≤ K * aN lap h := by
  have e : gPot lap e2 sg (u + lap h) (φ - h) - gPot lap e2 sg u φ =
      ((fun i => ((u + lap h) i ^ 3 - (u + lap h) i) - (u i ^ 3 - u i)) + (-e2) • lap (lap h)) + (-sg) • h := by
    unfold gPot
    rw [map_add]
    funext i
    simp only [Pi.add_apply, Pi.sub_apply, Pi.smul_apply, smul_eq_mul]
    ring
  have n0 := aN_nonneg lap h
  have key : ∀ (x : ι → ℝ) (k : ℝ), 0 ≤ k → ∑ i, x i ^ 2 ≤ k ^ 2 * ∑ i, lap h i ^ 2 → aN lap x ≤ k * lam * aN lap h := by
    intro x k hk hx
    unfold aN
    rw [show k * lam * Real.sqrt (aF lap h h) = Real.sqrt ((k * lam) ^ 2 * aF lap h h) by
      rw [Real.sqrt_mul (sq_nonneg _), Real.sqrt_sq (mul_nonneg hk hlam)]]
    refine Real.sqrt_le_sqrt ?_
    have s1 := aF_le_sq hsym hneg hlam hbnd x
    have s2 := lap_sq_le hsym hneg hlam hbnd h
    calc aF lap x x ≤ lam * ∑ i, x i ^ 2 := s1
      _ ≤ lam * (k ^ 2 * (lam * aF lap h h)) :=
        mul_le_mul_of_nonneg_left (hx.trans (mul_le_mul_of_nonneg_left s2 (sq_nonneg k))) hlam
      _ = _ := by ring
  have k1 := key (fun i => ((u + lap h) i ^ 3 - (u + lap h) i) - (u i ^ 3 - u i)) (3 * ρ ^ 2 + 1) (by positivity) (by
    rw [Finset.mul_sum]
    refine Finset.sum_le_sum fun i _ => ?_
    have := cubic_lip (hv i) (hu i)
    rw [Pi.add_apply, add_sub_cancel_left] at this
    rw [← sq_abs, ← sq_abs (lap h i), ← mul_pow, Pi.add_apply]
    exact pow_le_pow_left₀ (abs_nonneg _) this 2)
  have k2 := key (lap (lap h)) lam hlam (hbnd (lap h))
  rw [e, hK]
  refine (aN_add_le hsym hneg _ _).trans ((add_le_add (aN_add_le hsym hneg _ _) le_rfl).trans ?_)
  rw [aN_smul hsym hneg, aN_smul hsym hneg, abs_neg, abs_neg, abs_of_nonneg he, abs_of_nonneg hsg]
  have := mul_le_mul_of_nonneg_left k2 he
  linarith

end

/-! ### One step -/

/-- Mean slope of a step. -/
noncomputable def RK3c.slope {V : Type} [AddCommGroup V] [Module ℝ V] (T : RK3c) (F : V → V) (dt : ℝ) (y : V) : V :=
  T.b1 • F y + T.b2 • F (T.y2 F dt y) + T.b3 • F (T.y3 F dt y)

theorem rate_le {κ : ℝ} (h0 : 0 ≤ κ) (h1 : κ ≤ 1 / 2) :
    0 ≤ κ / 2 + κ ^ 2 / 6 ∧ (1 + (κ / 2 + κ ^ 2 / 6)) ^ 2 ≤ 2 ∧
    -1 + (κ / 2 + κ ^ 2 / 6) + κ / 2 * (1 + (κ / 2 + κ ^ 2 / 6)) ^ 2 ≤ -(1 / 4) := by
  have a : κ / 2 + κ ^ 2 / 6 ≤ 7 / 24 := by nlinarith
  have b : 0 ≤ κ / 2 + κ ^ 2 / 6 := by positivity
  have c : (1 + (κ / 2 + κ ^ 2 / 6)) ^ 2 ≤ (31 / 24) ^ 2 := pow_le_pow_left₀ (by linarith) (by linarith) 2
  refine ⟨b, c.trans (by norm_num), ?_⟩
  have : κ / 2 * (1 + (κ / 2 + κ ^ 2 / 6)) ^ 2 ≤ 1 / 4 * (31 / 24) ^ 2 := mul_le_mul (by linarith) c (sq_nonneg _) (by norm_num)
  linarith

section
variable {ι : Type} [Fintype ι] {lap : (ι → ℝ) →ₗ[ℝ] (ι → ℝ)} (hsym : ∀ u v : ι → ℝ, ∑ i, lap u i * v i = ∑ i, u i * lap v i)
  (hneg : ∀ u : ι → ℝ, ∑ i, lap u i * u i ≤ 0) {lam : ℝ} (hlam : 0 ≤ lam)
  (hbnd : ∀ u : ι → ℝ, ∑ i, lap u i ^ 2 ≤ lam ^ 2 * ∑ i, u i ^ 2)
  (hsup : ∀ (u : ι → ℝ) (B : ℝ), (∀ i, |u i| ≤ B) → ∀ i, |lap u i| ≤ lam * B)
  {e2 sg m0 : ℝ} (he : 0 ≤ e2) (hsg : 0 ≤ sg) (T : RK3c) (o2 : T.b2 * T.a21 + T.b3 * (T.a31 + T.a32) = 1 / 2)
  (o3 : T.b3 * T.a32 * T.a21 = 1 / 6) {R dt : ℝ} (hR : 0 ≤ R) (hm0 : |m0| ≤ R) (hdt : 0 ≤ dt)
  (hκ : dt * (lam * (27 * R ^ 2 + 1 + e2 * lam) + sg) ≤ 1 / 2)
  {F : (ι → ℝ) → ι → ℝ} (hF : ∀ u, F u = lap (fun i => u i ^ 3 - u i) - e2 • lap (lap u) - sg • (u - fun _ => m0))

include hF in
theorem field_pot {u φ : ι → ℝ} (hφ : lap φ = (fun _ => m0) - u) : F u = lap (gPot lap e2 sg u φ) := by
  rw [hF, gPot, map_add, map_sub, map_smul, map_smul, hφ, ← neg_sub u, smul_neg]
  rfl

include hsup he hsg hR hm0 hdt hκ hF hlam in
theorem field_sup {u : ι → ℝ} {B : ℝ} (hB : B ≤ 3 * R) (hRB : R ≤ B) (hu : ∀ i, |u i| ≤ B) (i : ι) : dt * |F u i| ≤ B := by
  have hB0 : 0 ≤ B := hR.trans hRB
  have h1 : ∀ i, |u i ^ 3 - u i| ≤ B * (9 * R ^ 2 + 1) := by
    intro i
    have : u i ^ 3 - u i = u i * (u i ^ 2 - 1) := by ring
    rw [this, abs_mul]
    refine mul_le_mul (hu i) ?_ (abs_nonneg _) hB0
    have : u i ^ 2 ≤ B ^ 2 := sq_le_sq' (by linarith [neg_abs_le (u i), hu i]) ((le_abs_self _).trans (hu i))
    have h9 : B ^ 2 ≤ 9 * R ^ 2 := by nlinarith
    rw [abs_le]
    constructor <;> nlinarith [sq_nonneg (u i)]
  have h2 := hsup _ _ h1 i
  have h3 := hsup _ _ (hsup u B hu) i
  have h4 : |u i - m0| ≤ 2 * B := (abs_sub _ _).trans (by linarith [hu i])
  have h5 : |F u i| ≤ lam * (B * (9 * R ^ 2 + 1)) + e2 * (lam * (lam * B)) + sg * (2 * B) := by
    rw [hF]
    simp only [Pi.sub_apply, Pi.smul_apply, smul_eq_mul]
    refine (abs_sub _ _).trans (add_le_add ((abs_sub _ _).trans (add_le_add h2 ?_)) ?_)
    · rw [abs_mul, abs_of_nonneg he]; exact mul_le_mul_of_nonneg_left h3 he
    · rw [abs_mul, abs_of_nonneg hsg]; exact mul_le_mul_of_nonneg_left h4 hsg
  have h6 : lam * (B * (9 * R ^ 2 + 1)) + e2 * (lam * (lam * B)) + sg * (2 * B) ≤
      2 * B * (lam * (27 * R ^ 2 + 1 + e2 * lam) + sg) := by
    have : 0 ≤ B * (lam * (45 * R ^ 2 + 1 + e2 * lam)) := by positivity
    nlinarith
  calc dt * |F u i| ≤ dt * (2 * B * (lam * (27 * R ^ 2 + 1 + e2 * lam) + sg)) := mul_le_mul_of_nonneg_left (h5.trans h6) hdt
    _ = 2 * B * (dt * (lam * (27 * R ^ 2 + 1 + e2 * lam) + sg)) := by ring
    _ ≤ 2 * B * (1 / 2) := mul_le_mul_of_nonneg_left hκ (by linarith)
    _ = B := by ring

include hsym hneg hlam hbnd hsup he hsg o2 o3 hR hm0 hdt hκ hF

/-- One step keeps a potential, lowers the energy, and its slope is controlled by the dissipation. -/
theorem energy_step {u φ : ι → ℝ} (hu : ∀ i, |u i| ≤ R) (hφ : lap φ = (fun _ => m0) - u) :
    ∃ h : ι → ℝ, lap h = T.slope F dt u ∧ lap (φ - dt • h) = (fun _ => m0) - T.step F dt u ∧
      gEn lap e2 sg (T.step F dt u) (φ - dt • h) ≤
        gEn lap e2 sg u φ - dt / 4 * aF lap (gPot lap e2 sg u φ) (gPot lap e2 sg u φ) ∧
      ∑ i, lap h i ^ 2 ≤ 2 * lam * aF lap (gPot lap e2 sg u φ) (gPot lap e2 sg u φ) := by
  obtain ⟨K, hK⟩ : ∃ K, K = lam * (3 * (3 * R) ^ 2 + 1 + e2 * lam) + sg := ⟨_, rfl⟩
  have hκ' : dt * K ≤ 1 / 2 := by rw [hK, show 3 * (3 * R) ^ 2 = 27 * R ^ 2 by ring]; exact hκ
  have hK0 : 0 ≤ K := by rw [hK]; positivity
  have sup := fun {u : ι → ℝ} {B : ℝ} => field_sup hlam hsup he hsg hR hm0 hdt hκ hF (u := u) (B := B)
  have addb : ∀ {x y X Y : ℝ}, |x| ≤ X → |y| ≤ Y → |x + y| ≤ X + Y := fun h1 h2 => (abs_add_le _ _).trans (add_le_add h1 h2)
  have mulb : ∀ {a x X : ℝ}, 0 ≤ a → dt * |x| ≤ X → |dt * (a * x)| ≤ a * X := by
    intro a x X ha h
    rw [abs_mul, abs_mul, abs_of_nonneg hdt, abs_of_nonneg ha]
    calc dt * (a * |x|) = a * (dt * |x|) := by ring
      _ ≤ _ := mul_le_mul_of_nonneg_left h ha
  obtain ⟨g1, hg1⟩ : ∃ g1, g1 = gPot lap e2 sg u φ := ⟨_, rfl⟩
  have f1 : F u = lap g1 := by rw [hg1]; exact field_pot hF hφ
  have s1 := sup (by linarith) le_rfl hu
  -- second stage
  obtain ⟨y2, hy2⟩ : ∃ y2, y2 = T.y2 F dt u := ⟨_, rfl⟩
  have y2e : y2 = u + lap ((dt * T.a21) • g1) := by
    rw [hy2, RK3c.y2, f1, map_smul]; module
  have y2s : ∀ i, |y2 i| ≤ (1 + T.a21) * R := by
    intro i
    rw [hy2]
    have := addb (hu i) (mulb T.h21 (s1 i))
    exact this.trans (le_of_eq (by ring))
  have y2b : (1 + T.a21) * R ≤ 3 * R := by nlinarith [T.c2]
  obtain ⟨φ2, hφ2⟩ : ∃ φ2, φ2 = φ - (dt * T.a21) • g1 := ⟨_, rfl⟩
  have p2 : lap φ2 = (fun _ => m0) - y2 := by
    rw [hφ2, map_sub, hφ, y2e]; abel
  obtain ⟨g2, hg2⟩ : ∃ g2, g2 = gPot lap e2 sg y2 φ2 := ⟨_, rfl⟩
  have f2 : F y2 = lap g2 := by rw [hg2]; exact field_pot hF p2
  have s2 := sup y2b (by nlinarith [T.h21]) y2s
  have l2 : aN lap (g2 - g1) ≤ dt * K * T.a21 * aN lap g1 := by
    have := gPot_lip hsym hneg hlam hbnd he hsg hK (u := u) (h := (dt * T.a21) • g1) (φ := φ)
      (fun i => (hu i).trans (by linarith)) (fun i => by rw [← y2e]; exact (y2s i).trans y2b)
    rw [← y2e, ← hφ2, ← hg2, ← hg1, aN_smul hsym hneg, abs_of_nonneg (mul_nonneg hdt T.h21)] at this
    refine this.trans (le_of_eq (by ring))
  -- third stage
  obtain ⟨y3, hy3⟩ : ∃ y3, y3 = T.y3 F dt u := ⟨_, rfl⟩
  have y3e : y3 = u + lap (dt • (T.a31 • g1 + T.a32 • g2)) := by
    rw [hy3, RK3c.y3, ← hy2, f1, f2, map_smul, map_add, map_smul, map_smul]
  have y3s : ∀ i, |y3 i| ≤ (1 + (T.a31 + T.a32) + T.a32 * T.a21) * R := by
    intro i
    have e : y3 i = u i + (dt * (T.a31 * F u i) + dt * (T.a32 * F y2 i)) := by
      rw [hy3, RK3c.y3, ← hy2]
      simp only [Pi.add_apply, Pi.smul_apply, smul_eq_mul]
      ring
    rw [e]
    refine (addb (hu i) (addb (mulb T.h31 (s1 i)) (mulb T.h32 (s2 i)))).trans (le_of_eq (by ring))
  have hc : T.a32 * T.a21 ≤ 1 := by
    have : T.a32 ≤ 1 := by linarith [T.c3, T.h31]
    nlinarith [T.c2, T.h21, T.h32]
  have y3b : (1 + (T.a31 + T.a32) + T.a32 * T.a21) * R ≤ 3 * R := mul_le_mul_of_nonneg_right (by linarith [T.c3]) hR
  have y3r : R ≤ (1 + (T.a31 + T.a32) + T.a32 * T.a21) * R := by
    have : 0 ≤ T.a32 * T.a21 := mul_nonneg T.h32 T.h21
    have : 0 ≤ (T.a31 + T.a32 + T.a32 * T.a21) * R := mul_nonneg (by linarith [T.h31, T.h32]) hR
    linarith
  obtain ⟨φ3, hφ3⟩ : ∃ φ3, φ3 = φ - dt • (T.a31 • g1 + T.a32 • g2) := ⟨_, rfl⟩
  have p3 : lap φ3 = (fun _ => m0) - y3 := by
    rw [hφ3, map_sub, hφ, y3e]; abel
  obtain ⟨g3, hg3⟩ : ∃ g3, g3 = gPot lap e2 sg y3 φ3 := ⟨_, rfl⟩
  have f3 : F y3 = lap g3 := by rw [hg3]; exact field_pot hF p3
  have s3 := sup y3b y3r y3s
  have N0 := aN_nonneg lap g1
  have l3 : aN lap (g3 - g1) ≤ dt * K * ((T.a31 + T.a32) + T.a32 * (dt * K * T.a21)) * aN lap g1 := by
    have := gPot_lip hsym hneg hlam hbnd he hsg hK (u := u) (h := dt • (T.a31 • g1 + T.a32 • g2)) (φ := φ)
      (fun i => (hu i).trans (by linarith)) (fun i => by rw [← y3e]; exact (y3s i).trans y3b)
    rw [← y3e, ← hφ3, ← hg3, ← hg1, aN_smul hsym hneg, abs_of_nonneg hdt] at this
    have e : T.a31 • g1 + T.a32 • g2 = (T.a31 + T.a32) • g1 + T.a32 • (g2 - g1) := by module
    have q : aN lap (T.a31 • g1 + T.a32 • g2) ≤ ((T.a31 + T.a32) + T.a32 * (dt * K * T.a21)) * aN lap g1 := by
      rw [e]
      refine (aN_add_le hsym hneg _ _).trans ?_
      rw [aN_smul hsym hneg, aN_smul hsym hneg, abs_of_nonneg (add_nonneg T.h31 T.h32), abs_of_nonneg T.h32]
      have := mul_le_mul_of_nonneg_left l2 T.h32
      linarith
    refine this.trans ?_
    have := mul_le_mul_of_nonneg_left q (mul_nonneg hK0 hdt)
    calc K * (dt * aN lap (T.a31 • g1 + T.a32 • g2)) = K * dt * aN lap (T.a31 • g1 + T.a32 • g2) := by ring
      _ ≤ _ := this
      _ = _ := by ring
  -- the step
  obtain ⟨h, hh⟩ : ∃ h, h = T.b1 • g1 + T.b2 • g2 + T.b3 • g3 := ⟨_, rfl⟩
  have ye : T.step F dt u = u + lap (dt • h) := by
    rw [RK3c.step, ← hy2, ← hy3, f1, f2, f3, hh, map_smul, map_add, map_add, map_smul, map_smul, map_smul]
  have ys : ∀ i, |T.step F dt u i| ≤ 3 * R := by
    intro i
    have e : T.step F dt u i = u i + (dt * (T.b1 * F u i) + dt * (T.b2 * F y2 i) + dt * (T.b3 * F y3 i)) := by
      rw [RK3c.step, ← hy2, ← hy3]
      simp only [Pi.add_apply, Pi.smul_apply, smul_eq_mul]
      ring
    rw [e]
    refine (addb (hu i) (addb (addb (mulb T.k1 (s1 i)) (mulb T.k2 (s2 i))) (mulb T.k3 (s3 i)))).trans ?_
    have : R + (T.b1 * R + T.b2 * ((1 + T.a21) * R) + T.b3 * ((1 + (T.a31 + T.a32) + T.a32 * T.a21) * R)) =
        (1 + (T.b1 + T.b2 + T.b3) + (T.b2 * T.a21 + T.b3 * (T.a31 + T.a32)) + T.b3 * T.a32 * T.a21) * R := by ring
    rw [this, T.sum, o2, o3]
    linarith
  obtain ⟨q, hq⟩ : ∃ q, q = T.b2 • (g2 - g1) + T.b3 • (g3 - g1) := ⟨_, rfl⟩
  have hhq : h = g1 + q := by
    have : T.b1 = 1 - T.b2 - T.b3 := by linarith [T.sum]
    rw [hh, hq, this]; module
  obtain ⟨κ, hκd⟩ : ∃ κ, κ = dt * K := ⟨_, rfl⟩
  obtain ⟨r0, r1, r2⟩ := rate_le (κ := κ) (by rw [hκd]; positivity) (by rw [hκd]; exact hκ')
  obtain ⟨η, hη⟩ : ∃ η, η = κ / 2 + κ ^ 2 / 6 := ⟨_, rfl⟩
  rw [← hη] at r0 r1 r2
  have qn : aN lap q ≤ η * aN lap g1 := by
    rw [hq]
    refine (aN_add_le hsym hneg _ _).trans ?_
    rw [aN_smul hsym hneg, aN_smul hsym hneg, abs_of_nonneg T.k2, abs_of_nonneg T.k3]
    refine (add_le_add (mul_le_mul_of_nonneg_left l2 T.k2) (mul_le_mul_of_nonneg_left l3 T.k3)).trans (le_of_eq ?_)
    rw [← hκd, hη]
    have : T.b2 * (κ * T.a21 * aN lap g1) + T.b3 * (κ * (T.a31 + T.a32 + T.a32 * (κ * T.a21)) * aN lap g1) =
      ((T.b2 * T.a21 + T.b3 * (T.a31 + T.a32)) * κ + T.b3 * T.a32 * T.a21 * κ ^ 2) * aN lap g1 := by ring
    rw [this, o2, o3]; ring
  have hn : aN lap h ≤ (1 + η) * aN lap g1 := by
    rw [hhq]
    exact (aN_add_le hsym hneg _ _).trans (by linarith)
  have hn2 : aF lap h h ≤ (1 + η) ^ 2 * aF lap g1 g1 := by
    rw [← aN_sq hsym hneg, ← aN_sq hsym hneg, ← mul_pow]
    exact pow_le_pow_left₀ (aN_nonneg _ _) hn 2
  have G0 := aF_nonneg hsym hneg g1
  refine ⟨h, by rw [RK3c.slope, ← hy2, ← hy3, f1, f2, f3, hh, map_add, map_add, map_smul, map_smul, map_smul], by rw [map_sub, hφ, ye]; abel, ?_, ?_⟩
  · have := gEn_descent hsym hneg hlam hbnd he hsg hK (u := u) (h := dt • h) (φ := φ)
      (fun i => (hu i).trans (by linarith)) (fun i => by rw [← ye]; exact ys i)
    rw [← ye, ← hg1, aF_smul_right hsym, aF_smul_left, aF_smul_right hsym] at this
    rw [← hg1]
    refine this.trans ?_
    have c1 : aF lap g1 g1 - η * aF lap g1 g1 ≤ aF lap g1 h := by
      rw [hhq, aF_add_right hsym]
      have a1 := aF_le hsym hneg g1 q
      have a2 := neg_abs_le (aF lap g1 q)
      have a3 : aN lap g1 * aN lap q ≤ η * aF lap g1 g1 := by
        rw [← aN_sq hsym hneg]
        calc aN lap g1 * aN lap q ≤ aN lap g1 * (η * aN lap g1) := mul_le_mul_of_nonneg_left qn N0
          _ = _ := by ring
      linarith
    have c2 : κ / 2 * aF lap h h ≤ κ / 2 * ((1 + η) ^ 2 * aF lap g1 g1) :=
      mul_le_mul_of_nonneg_left hn2 (by rw [hκd]; positivity)
    have c3 := mul_le_mul_of_nonneg_right r2 G0
    have c4 : -aF lap g1 h + κ / 2 * aF lap h h ≤ -(1 / 4) * aF lap g1 g1 := by linarith
    have c5 := mul_le_mul_of_nonneg_left c4 hdt
    have c6 : K / 2 * (dt * (dt * aF lap h h)) = dt * (κ / 2 * aF lap h h) := by rw [hκd]; ring
    rw [c6]
    linarith
  · refine (lap_sq_le hsym hneg hlam hbnd h).trans ?_
    rw [← hg1]
    calc lam * aF lap h h ≤ lam * (2 * aF lap g1 g1) :=
        mul_le_mul_of_nonneg_left (hn2.trans (mul_le_mul_of_nonneg_right r1 G0)) hlam
      _ = _ := by ring

end

/-! ### Runs -/

section
variable {ι : Type} [Fintype ι] {lap : (ι → ℝ) →ₗ[ℝ] (ι → ℝ)} (hsym : ∀ u v : ι → ℝ, ∑ i, lap u i * v i = ∑ i, u i * lap v i)
include hsym

theorem aF_indep {x y : ι → ℝ} (h : lap x = lap y) : aF lap x x = aF lap y y := by
  unfold aF
  have e : ∑ i, lap y i * x i = ∑ i, lap x i * y i := by
    rw [hsym]; exact Finset.sum_congr rfl fun i _ => mul_comm _ _
  rw [← h] at e ⊢
  exact congrArg Neg.neg (by rw [h] at e ⊢; exact e)

theorem gEn_indep {e2 sg : ℝ} (u : ι → ℝ) {φ ψ : ι → ℝ} (h : lap φ = lap ψ) : gEn lap e2 sg u φ = gEn lap e2 sg u ψ := by
  unfold gEn; rw [aF_indep hsym h]

theorem gPot_indep {e2 sg : ℝ} (u : ι → ℝ) {φ ψ : ι → ℝ} (h : lap φ = lap ψ) :
    aF lap (gPot lap e2 sg u φ) (gPot lap e2 sg u φ) = aF lap (gPot lap e2 sg u ψ) (gPot lap e2 sg u ψ) := by
  refine aF_indep hsym ?_
  unfold gPot
  rw [map_add, map_add, map_smul, map_smul, h]

variable (hneg : ∀ u : ι → ℝ, ∑ i, lap u i * u i ≤ 0) {lam : ℝ} (hlam : 0 ≤ lam)
  (hbnd : ∀ u : ι → ℝ, ∑ i, lap u i ^ 2 ≤ lam ^ 2 * ∑ i, u i ^ 2)
  (hsup : ∀ (u : ι → ℝ) (B : ℝ), (∀ i, |u i| ≤ B) → ∀ i, |lap u i| ≤ lam * B)
  {e2 sg m0 : ℝ} (he : 0 ≤ e2) (hsg : 0 ≤ sg)
include hneg he hsg

theorem gEn_nonneg (u φ : ι → ℝ) : 0 ≤ gEn lap e2 sg u φ := by
  unfold gEn
  have h1 : 0 ≤ ∑ i, (u i ^ 2 - 1) ^ 2 / 4 := Finset.sum_nonneg fun i _ => by positivity
  have h2 := mul_nonneg (by linarith : 0 ≤ e2 / 2) (aF_nonneg hsym hneg u)
  have h3 := mul_nonneg (by linarith : 0 ≤ sg / 2) (aF_nonneg hsym hneg φ)
  linarith

/-- The energy bounds the field. -/
theorem gEn_sup {u φ : ι → ℝ} {E R : ℝ} (hE : gEn lap e2 sg u φ ≤ E) (hR0 : 0 ≤ R) (hR : R ^ 2 = 1 + 2 * Real.sqrt E) (i : ι) :
    |u i| ≤ R := by
  have h1 : (u i ^ 2 - 1) ^ 2 / 4 ≤ ∑ i, (u i ^ 2 - 1) ^ 2 / 4 :=
    Finset.single_le_sum (f := fun i => (u i ^ 2 - 1) ^ 2 / 4) (fun i _ => by positivity) (Finset.mem_univ i)
  have h2 := mul_nonneg (by linarith : 0 ≤ e2 / 2) (aF_nonneg hsym hneg u)
  have h3 := mul_nonneg (by linarith : 0 ≤ sg / 2) (aF_nonneg hsym hneg φ)
  have h4 : ((u i ^ 2 - 1) / 2) ^ 2 ≤ E := by unfold gEn at hE; rw [div_pow]; norm_num; linarith
  have h5 : (u i ^ 2 - 1) / 2 ≤ Real.sqrt E := Real.le_sqrt_of_sq_le h4
  exact abs_le_of_sq_le_sq (by linarith) hR0

variable (T : RK3c) (o2 : T.b2 * T.a21 + T.b3 * (T.a31 + T.a32) = 1 / 2) (o3 : T.b3 * T.a32 * T.a21 = 1 / 6)
  {F : (ι → ℝ) → ι → ℝ} (hF : ∀ u, F u = lap (fun i => u i ^ 3 - u i) - e2 • lap (lap u) - sg • (u - fun _ => m0))
  {R E0 : ℝ} (hR0 : 0 ≤ R) (hR : R ^ 2 = 1 + 2 * Real.sqrt E0) (hm0 : |m0| ≤ R) {n : Nat} {u : Nat → ι → ℝ} {d : Nat → ℝ}
  (hd : ∀ k, k < n → 0 ≤ d k ∧ d k * (lam * (27 * R ^ 2 + 1 + e2 * lam) + sg) ≤ 1 / 2)
  (hu : ∀ k, k < n → u (k + 1) = T.step F (d k) (u k)) (h0 : ∃ φ, lap φ = (fun _ => m0) - u 0 ∧ gEn lap e2 sg (u 0) φ ≤ E0)
include hlam hbnd hsup o2 o3 hF hR0 hR hm0 hd hu h0

theorem energy_run_pot (k : Nat) (hk : k ≤ n) : ∃ φ, lap φ = (fun _ => m0) - u k ∧ gEn lap e2 sg (u k) φ ≤ E0 := by
  induction k with
  | zero => exact h0
  | succ k ih =>
    obtain ⟨φ, p, e⟩ := ih (by omega)
    obtain ⟨h, -, q, dec, -⟩ := energy_step hsym hneg hlam hbnd hsup he hsg T o2 o3 hR0 hm0 (hd k (by omega)).1 (hd k (by omega)).2 hF
      (gEn_sup hsym hneg he hsg e hR0 hR) p
    rw [← hu k (by omega)] at q dec
    refine ⟨_, q, dec.trans ?_⟩
    have := mul_nonneg (by linarith [(hd k (by omega)).1] : 0 ≤ d k / 4) (aF_nonneg hsym hneg (gPot lap e2 sg (u k) φ))
    linarith

theorem energy_run_sup (k : Nat) (hk : k ≤ n) (i : ι) : |u k i| ≤ R := by
  obtain ⟨φ, -, e⟩ := energy_run_pot hsym hneg hlam hbnd hsup he hsg T o2 o3 hF hR0 hR hm0 hd hu h0 k hk
  exact gEn_sup hsym hneg he hsg e hR0 hR i

theorem energy_run_step (k : Nat) (hk : k < n) {φ ψ : ι → ℝ} (hφ : lap φ = (fun _ => m0) - u k)
    (hψ : lap ψ = (fun _ => m0) - u (k + 1)) :
    gEn lap e2 sg (u (k + 1)) ψ ≤
        gEn lap e2 sg (u k) φ - d k / 4 * aF lap (gPot lap e2 sg (u k) φ) (gPot lap e2 sg (u k) φ) ∧
    ∑ i, T.slope F (d k) (u k) i ^ 2 ≤ 2 * lam * aF lap (gPot lap e2 sg (u k) φ) (gPot lap e2 sg (u k) φ) := by
  obtain ⟨h, hs, q, dec, sl⟩ := energy_step hsym hneg hlam hbnd hsup he hsg T o2 o3 hR0 hm0 (hd k hk).1 (hd k hk).2 hF
    (energy_run_sup hsym hneg hlam hbnd hsup he hsg T o2 o3 hF hR0 hR hm0 hd hu h0 k hk.le) hφ
  rw [← hu k hk] at q dec
  rw [hs] at sl
  refine ⟨?_, sl⟩
  rw [gEn_indep hsym _ (hψ.trans q.symm)]
  exact dec

/-- The slopes are square summable. -/
theorem energy_run_sum : ∀ k, k ≤ n → ∀ φ, lap φ = (fun _ => m0) - u k →
    ∑ j ∈ Finset.range k, d j * ∑ i, T.slope F (d j) (u j) i ^ 2 ≤ 8 * lam * (E0 - gEn lap e2 sg (u k) φ) := by
  intro k
  induction k with
  | zero =>
    intro _ φ hφ
    obtain ⟨ψ, p, e⟩ := h0
    rw [gEn_indep hsym _ (hφ.trans p.symm), Finset.sum_range_zero]
    exact mul_nonneg (by linarith) (by linarith)
  | succ k ih =>
    intro hk ψ hψ
    obtain ⟨φ, p, e⟩ := energy_run_pot hsym hneg hlam hbnd hsup he hsg T o2 o3 hF hR0 hR hm0 hd hu h0 k (by omega)
    obtain ⟨a, b⟩ := energy_run_step hsym hneg hlam hbnd hsup he hsg T o2 o3 hF hR0 hR hm0 hd hu h0 k hk p hψ
    have c := ih (by omega) φ p
    rw [Finset.sum_range_succ]
    have b' := mul_le_mul_of_nonneg_left b (hd k hk).1
    have a' := mul_le_mul_of_nonneg_left a (by linarith : 0 ≤ 8 * lam)
    nlinarith

end

/-! ### Solvability -/

/-- A symmetric operator whose kernel consists of the constants reaches every function of sum zero. -/
theorem pot_exists {ι : Type} [Fintype ι] [Nonempty ι] {lap : (ι → ℝ) →ₗ[ℝ] (ι → ℝ)}
    (hsum : ∀ u, ∑ i, lap u i = 0) (hker : ∀ u, lap u = 0 → ∀ i j, u i = u j) {w : ι → ℝ} (hw : ∑ i, w i = 0) :
    ∃ φ, lap φ = w := by
  let S : (ι → ℝ) →ₗ[ℝ] ℝ := ∑ i, LinearMap.proj i
  have hS : ∀ u, S u = ∑ i, u i := fun u => by simp [S]
  let B : (ι → ℝ) →ₗ[ℝ] (ι → ℝ) := lap - S.smulRight (fun _ => 1)
  have hB : ∀ u i, B u i = lap u i - ∑ i, u i := fun u i => by simp [B, hS]
  have hc : (Fintype.card ι : ℝ) ≠ 0 := by exact_mod_cast Fintype.card_ne_zero
  have hBs : ∀ u, ∑ i, B u i = -((Fintype.card ι : ℝ) * ∑ i, u i) := fun u => by
    simp only [hB, Finset.sum_sub_distrib, hsum, Finset.sum_const, Finset.card_univ, nsmul_eq_mul]; ring
  have inj : Function.Injective B := by
    rw [injective_iff_map_eq_zero]
    intro u hu
    have s0 : ∑ i, u i = 0 := by
      have := hBs u
      rw [hu] at this
      simp only [Pi.zero_apply, Finset.sum_const_zero] at this
      have := neg_eq_zero.1 this.symm
      exact (mul_eq_zero.1 this).resolve_left hc
    have l0 : lap u = 0 := by
      funext i
      have := congrFun hu i
      rw [hB, s0, sub_zero] at this
      exact this
    have cst := hker u l0
    funext i
    have : ∑ j, u j = (Fintype.card ι : ℝ) * u i := by
      rw [Finset.sum_congr rfl fun j _ => cst j i, Finset.sum_const, Finset.card_univ, nsmul_eq_mul]
    rw [s0] at this
    exact (mul_eq_zero.1 this.symm).resolve_left hc
  obtain ⟨φ, hφ⟩ := LinearMap.injective_iff_surjective.1 inj w
  have s0 : ∑ i, φ i = 0 := by
    have := hBs φ
    rw [hφ, hw] at this
    exact (mul_eq_zero.1 (neg_eq_zero.1 this.symm)).resolve_left hc
  refine ⟨φ, funext fun i => ?_⟩
  have := hB φ i
  rw [s0, sub_zero, hφ] at this
  exact this.symm

end Madg
