/-
Existence for all times of the solution of the semi-discrete Cahn–Hilliard equations.
-/
import Verif.Proofs.RKField
import Mathlib.Analysis.ODE.ExistUnique
import Mathlib.Analysis.Calculus.Deriv.MeanValue
import Mathlib.Analysis.SpecialFunctions.ExpDeriv

set_option linter.unusedVariables false

namespace Madg
open Spec

/-- Cut-off to `[-R, R]`. -/
noncomputable def cut (R x : ℝ) : ℝ := max (-R) (min R x)

theorem cut_mono (R : ℝ) : Monotone (cut R) := fun a b h => max_le_max le_rfl (min_le_min le_rfl h)

theorem cut_abs {R : ℝ} (hR : 0 ≤ R) (x : ℝ) : |cut R x| ≤ R :=
  abs_le.2 ⟨le_max_left _ _, max_le (by linarith) (min_le_left _ _)⟩

theorem cut_eq {R x : ℝ} (h : |x| ≤ R) : cut R x = x := by
  have := abs_le.1 h
  rw [cut, min_eq_right this.2, max_eq_right this.1]

theorem cut_lip (R x z : ℝ) : |cut R x - cut R z| ≤ |x - z| := by
  unfold cut
  rw [max_comm (-R), max_comm (-R) (min R z), min_comm R, min_comm R z]
  refine (abs_max_sub_max_le_abs _ _ _).trans ?_
  have := abs_min_sub_min_le_max x R z R
  rwa [sub_self, abs_zero, max_eq_left (abs_nonneg _)] at this

theorem cut_le_abs {R : ℝ} (hR : 0 ≤ R) (x : ℝ) : |cut R x| ≤ |x| := by
  have := cut_lip R x 0
  rwa [cut_eq (x := 0) (by simpa using hR), sub_zero, sub_zero] at this

section
variable {ι : Type} [Fintype ι]

theorem sq_norm_le (u : ι → ℝ) : ‖u‖ ^ 2 ≤ ∑ i, u i ^ 2 := by
  have h : ‖u‖ ≤ Real.sqrt (∑ i, u i ^ 2) := by
    rw [pi_norm_le_iff_of_nonneg (Real.sqrt_nonneg _)]
    intro i
    rw [Real.norm_eq_abs, ← Real.sqrt_sq_eq_abs]
    exact Real.sqrt_le_sqrt (Finset.single_le_sum (f := fun i => u i ^ 2) (fun i _ => sq_nonneg _) (Finset.mem_univ i))
  have := pow_le_pow_left₀ (norm_nonneg _) h 2
  rwa [Real.sq_sqrt (Finset.sum_nonneg fun i _ => sq_nonneg _)] at this

/-- Growth of the sum of squares. -/
theorem growth (M : (ι → ℝ) →ₗ[ℝ] (ι → ℝ)) (k : ι → ℝ) : ∃ K, 0 ≤ K ∧ ∀ u w q : ι → ℝ, (∀ i, |w i| ≤ |u i|) → ∑ i, q i * u i ≤ 0 →
    ∑ i, 2 * (u i * (q i + M w i + k i)) ≤ K * (∑ i, u i ^ 2 + 1) := by
  obtain ⟨r, r0, hr⟩ := lin_bound M
  refine ⟨2 * (Fintype.card ι * r) + ∑ i, k i ^ 2 + 1, by positivity, fun u w q hw hq => ?_⟩
  have nw : ‖w‖ ≤ ‖u‖ := by
    rw [pi_norm_le_iff_of_nonneg (norm_nonneg _)]
    exact fun i => (hw i).trans (norm_le_pi_norm u i)
  have s0 : 0 ≤ ∑ i, u i ^ 2 := Finset.sum_nonneg fun i _ => sq_nonneg _
  have k0 : 0 ≤ ∑ i, k i ^ 2 := Finset.sum_nonneg fun i _ => sq_nonneg _
  have h1 : ∑ i, u i * M w i ≤ Fintype.card ι * r * ∑ i, u i ^ 2 := by
    have : ∀ i ∈ Finset.univ, u i * M w i ≤ r * ‖u‖ ^ 2 := fun i _ => by
      calc u i * M w i ≤ |u i * M w i| := le_abs_self _
        _ = |u i| * |M w i| := abs_mul _ _
        _ ≤ ‖u‖ * (r * ‖u‖) := mul_le_mul (norm_le_pi_norm u i) ((norm_le_pi_norm (M w) i).trans ((hr w).trans
            (mul_le_mul_of_nonneg_left nw r0))) (abs_nonneg _) (norm_nonneg _)
        _ = r * ‖u‖ ^ 2 := by ring
    refine (Finset.sum_le_sum this).trans ?_
    rw [Finset.sum_const, nsmul_eq_mul, Finset.card_univ, ← mul_assoc]
    exact mul_le_mul_of_nonneg_left (sq_norm_le u) (by positivity)
  have h2 : ∑ i, 2 * (u i * k i) ≤ ∑ i, u i ^ 2 + ∑ i, k i ^ 2 := by
    rw [← Finset.sum_add_distrib]
    exact Finset.sum_le_sum fun i _ => by nlinarith [sq_nonneg (u i - k i)]
  have e : ∑ i, 2 * (u i * (q i + M w i + k i)) = 2 * ∑ i, q i * u i + 2 * ∑ i, u i * M w i + ∑ i, 2 * (u i * k i) := by
    rw [Finset.mul_sum, Finset.mul_sum, ← Finset.sum_add_distrib, ← Finset.sum_add_distrib]
    exact Finset.sum_congr rfl fun i _ => by ring
  rw [e]
  have h3 : 0 ≤ Fintype.card ι * r := by positivity
  nlinarith

/-- Solutions exist on every time interval when `Q` of a monotone function of the state dissipates. -/
theorem cubic_exists (Q M : (ι → ℝ) →ₗ[ℝ] (ι → ℝ)) (k : ι → ℝ)
    (diss : ∀ φ : ℝ → ℝ, Monotone φ → ∀ u : ι → ℝ, ∑ i, Q (fun i => φ (u i)) i * u i ≤ 0) (T : ℝ) (x0 : ι → ℝ) :
    ∃ y : ℝ → ι → ℝ, y 0 = x0 ∧ ∀ t ∈ Set.Icc 0 T, HasDerivWithinAt y (Q (y t ^ 3) + M (y t) + k) (Set.Icc 0 T) t := by
  rcases lt_or_ge T 0 with hT | hT
  · exact ⟨fun _ => x0, rfl, fun t ht => absurd (ht.1.trans ht.2) (not_le.2 hT)⟩
  obtain ⟨K, K0, hK⟩ := growth M k
  obtain ⟨R, hR⟩ : ∃ R, R = (∑ i, x0 i ^ 2 + 1) * Real.exp (K * T) := ⟨_, rfl⟩
  have s0 : 0 ≤ ∑ i, x0 i ^ 2 := Finset.sum_nonneg fun i _ => sq_nonneg _
  have R1 : 1 ≤ R := by
    rw [hR]
    have := Real.one_le_exp (mul_nonneg K0 hT)
    nlinarith
  have R0 : 0 ≤ R := by linarith
  have hF := cubic_field Q M k
  obtain ⟨L, L0, hL⟩ := hF.lip R R0
  obtain ⟨N, N0, hN⟩ := hF.bnd R
  let P : (ι → ℝ) → ι → ℝ := fun u i => cut R (u i)
  have Pn : ∀ u, ‖P u‖ ≤ R := fun u => by
    rw [pi_norm_le_iff_of_nonneg R0]
    exact fun i => cut_abs R0 _
  have Pl : ∀ u v, ‖P u - P v‖ ≤ ‖u - v‖ := fun u v => by
    rw [pi_norm_le_iff_of_nonneg (norm_nonneg _)]
    exact fun i => (cut_lip R _ _).trans (norm_le_pi_norm (u - v) i)
  have pl : IsPicardLindelof (fun _ u => Q (P u ^ 3) + M (P u) + k) (tmin := 0) (tmax := T) ⟨0, le_rfl, hT⟩ x0
      ⟨N * T, by positivity⟩ 0 ⟨N, N0⟩ ⟨L, L0⟩ := by
    refine IsPicardLindelof.of_time_independent (fun u _ => (hN _ (Pn u)).1) (LipschitzOnWith.of_dist_le_mul fun u _ v _ => ?_) ?_
    · rw [dist_eq_norm, dist_eq_norm]
      exact (hL _ _ (Pn u) (Pn v)).trans (mul_le_mul_of_nonneg_left (Pl u v) L0)
    · simp [hT]
      exact le_rfl
  obtain ⟨y, y0, hy⟩ := pl.exists_eq_forall_mem_Icc_hasDerivWithinAt₀
  dsimp only at y0 hy
  have hyi : ∀ i, ∀ t ∈ Set.Icc 0 T, HasDerivWithinAt (fun t => y t i) ((Q (P (y t) ^ 3) + M (P (y t)) + k) i) (Set.Icc 0 T) t :=
    fun i t ht => (hasDerivWithinAt_pi.1 (hy t ht)) i
  -- the sum of squares
  have hs : ∀ t ∈ Set.Icc 0 T, HasDerivWithinAt (fun t => (∑ i, y t i ^ 2 + 1) * Real.exp (-(K * t)))
      ((∑ i, 2 * (y t i * (Q (P (y t) ^ 3) + M (P (y t)) + k) i)) * Real.exp (-(K * t)) +
        (∑ i, y t i ^ 2 + 1) * (Real.exp (-(K * t)) * -(K * 1))) (Set.Icc 0 T) t := fun t ht => by
    have h1 : HasDerivWithinAt (fun t => ∑ i, y t i ^ 2) (∑ i, 2 * (y t i * (Q (P (y t) ^ 3) + M (P (y t)) + k) i)) (Set.Icc 0 T) t := by
      refine HasDerivWithinAt.fun_sum fun i _ => ?_
      refine ((hyi i t ht).fun_pow 2).congr_deriv ?_
      push_cast
      ring
    have h2 : HasDerivWithinAt (fun t => Real.exp (-(K * t))) (Real.exp (-(K * t)) * -(K * 1)) (Set.Icc 0 T) t :=
      ((((hasDerivAt_id t).const_mul K).fun_neg).exp).hasDerivWithinAt
    exact (h1.add_const 1).fun_mul h2
  have anti : AntitoneOn (fun t => (∑ i, y t i ^ 2 + 1) * Real.exp (-(K * t))) (Set.Icc 0 T) := by
    refine antitoneOn_of_deriv_nonpos (convex_Icc 0 T) (fun t ht => (hs t ht).continuousWithinAt) ?_ ?_
    · intro t ht
      exact ((hs t (interior_subset ht)).mono interior_subset).differentiableWithinAt
    · intro t ht
      rw [interior_Icc] at ht
      have hd := (hs t ⟨ht.1.le, ht.2.le⟩).hasDerivAt (Icc_mem_nhds ht.1 ht.2)
      rw [hd.deriv]
      have e : (P (y t) ^ 3 : ι → ℝ) = fun i => cut R (y t i) ^ 3 := rfl
      have d := diss (fun x => cut R x ^ 3) (fun a b h => (Odd.pow_le_pow (by decide : Odd 3)).2 (cut_mono R h)) (y t)
      have := hK (y t) (P (y t)) (Q (P (y t) ^ 3)) (fun i => cut_le_abs R0 _) d
      have h2 := mul_le_mul_of_nonneg_right this (Real.exp_pos (-(K * t))).le
      simp only [Pi.add_apply]
      linarith
  have bnd : ∀ t ∈ Set.Icc 0 T, ∀ i, |y t i| ≤ R := by
    intro t ht i
    have h1 := anti ⟨le_rfl, hT⟩ ht ht.1
    dsimp only at h1
    rw [y0, mul_zero, neg_zero, Real.exp_zero, mul_one] at h1
    have h2 : ∑ i, y t i ^ 2 + 1 ≤ R := by
      rw [hR]
      have e : (∑ i, y t i ^ 2 + 1) = (∑ i, y t i ^ 2 + 1) * Real.exp (-(K * t)) * Real.exp (K * t) := by
        rw [mul_assoc, ← Real.exp_add]; simp
      rw [e]
      exact mul_le_mul h1 (Real.exp_le_exp.2 (mul_le_mul_of_nonneg_left ht.2 K0)) (Real.exp_pos _).le (by linarith)
    have h3 : y t i ^ 2 ≤ ∑ i, y t i ^ 2 :=
      Finset.single_le_sum (f := fun i => y t i ^ 2) (fun i _ => sq_nonneg _) (Finset.mem_univ i)
    exact abs_le_of_sq_le_sq (by nlinarith) R0
  refine ⟨y, y0, fun t ht => ?_⟩
  have e : P (y t) = y t := funext fun i => cut_eq (bnd t ht i)
  have := hy t ht
  rwa [e] at this

end

section
variable (bx bY bz : BCType) {ni nj nk : Int} (hi : 1 ≤ ni) (hj : 1 ≤ nj) (hk : 1 ≤ nk)

theorem lapR3_diss (dx : ℝ) (φ : ℝ → ℝ) (hφ : Monotone φ) (u : cells3 ni nj nk → ℝ) :
    ∑ c, lapR3 bx bY bz hi hj hk dx (fun c => φ (u c)) c * u c ≤ 0 := by
  let v : Int → Int → Int → ℝ := fun i j k => xt3 bx bY bz hi hj hk u i j k
  have hv : ∀ i j k, (0 ≤ i ∧ i < ni) → (0 ≤ j ∧ j < nj) → (0 ≤ k ∧ k < nk) → ext3 bx bY bz ni nj nk v i j k = v i j k := by
    intro i j k h1 h2 h3
    simp only [ext3, extIdx_of_int h1.1 h1.2, extIdx_of_int h2.1 h2.2, extIdx_of_int h3.1 h3.2]
  have xv : xt3 bx bY bz hi hj hk u = ext3 bx bY bz ni nj nk v := by
    funext i j k
    obtain ⟨a1, a2⟩ := extIdx_range (bc := bx) i hi
    obtain ⟨b1, b2⟩ := extIdx_range (bc := bY) j hj
    obtain ⟨c1, c2⟩ := extIdx_range (bc := bz) k hk
    simp only [ext3, v, xt3, LinearMap.coe_mk, AddHom.coe_mk, extIdx_of_int a1 a2, extIdx_of_int b1 b2, extIdx_of_int c1 c2]
  have xw : (xt3 bx bY bz hi hj hk fun c => φ (u c)) = ext3 bx bY bz ni nj nk fun i j k => φ (v i j k) := by
    have : (xt3 bx bY bz hi hj hk fun c => φ (u c)) = fun i j k => φ (xt3 bx bY bz hi hj hk u i j k) := rfl
    rw [this, xv]; rfl
  have hu : ∀ c : cells3 ni nj nk, u c = ext3 bx bY bz ni nj nk v c.1.1 c.1.2.1 c.1.2.2 := by
    rintro ⟨⟨i, j, k⟩, hc⟩
    obtain ⟨h1, h2, h3⟩ := (mem_cells3 ni nj nk _).1 hc
    rw [← xv]
    simp only [xt3, LinearMap.coe_mk, AddHom.coe_mk, extIdx_of_int h1.1 h1.2, extIdx_of_int h2.1 h2.2, extIdx_of_int h3.1 h3.2]
  have e : ∑ c, lapR3 bx bY bz hi hj hk dx (fun c => φ (u c)) c * u c =
      sum3 ni nj nk fun i j k => ext3 bx bY bz ni nj nk v i j k * lap3 dx (ext3 bx bY bz ni nj nk fun i j k => φ (v i j k)) i j k := by
    rw [← sum_cells3 ni nj nk fun c => ext3 bx bY bz ni nj nk v c.1 c.2.1 c.2.2 *
      lap3 dx (ext3 bx bY bz ni nj nk fun i j k => φ (v i j k)) c.1 c.2.1 c.2.2, ← Finset.sum_coe_sort (cells3 ni nj nk)]
    refine Finset.sum_congr rfl fun c _ => ?_
    rw [mul_comm, ← hu c, ← xw]; rfl
  rw [e, green3 dx hi hj hk]
  have : 0 ≤ grad3 ni nj nk (ext3 bx bY bz ni nj nk v) (ext3 bx bY bz ni nj nk fun i j k => φ (v i j k)) := by
    unfold grad3
    have m : ∀ a b : ℝ, 0 ≤ (a - b) * (φ a - φ b) := fun a b => by
      rcases le_total a b with h | h
      · exact mul_nonneg_of_nonpos_of_nonpos (by linarith) (by linarith [hφ h])
      · exact mul_nonneg (by linarith) (by linarith [hφ h])
    unfold sum3
    refine Finset.sum_nonneg fun i _ => Finset.sum_nonneg fun j _ => Finset.sum_nonneg fun k _ => ?_
    exact add_nonneg (add_nonneg (m _ _) (m _ _)) (m _ _)
  have h2 := div_nonneg this (sq_nonneg dx)
  linarith

end

section
variable {n : Int} (hn : 1 ≤ n)

theorem lapR2_diss (dx : ℝ) (φ : ℝ → ℝ) (hφ : Monotone φ) (u : cells2 n → ℝ) :
    ∑ c, lapR2 hn dx (fun c => φ (u c)) c * u c ≤ 0 := by
  let v : Int → Int → ℝ := fun i j => xt2 hn u i j
  have xv : xt2 hn u = ext2 n v := by
    funext i j
    obtain ⟨a1, a2⟩ := wrapIdx_range i hn
    obtain ⟨b1, b2⟩ := wrapIdx_range j hn
    simp only [ext2, v, xt2, LinearMap.coe_mk, AddHom.coe_mk, wrapIdx_of_int a1 a2, wrapIdx_of_int b1 b2]
  have xw : (xt2 hn fun c => φ (u c)) = ext2 n fun i j => φ (v i j) := by
    have : (xt2 hn fun c => φ (u c)) = fun i j => φ (xt2 hn u i j) := rfl
    rw [this, xv]; rfl
  have hu : ∀ c : cells2 n, u c = ext2 n v c.1.1 c.1.2 := by
    rintro ⟨⟨i, j⟩, hc⟩
    obtain ⟨h1, h2⟩ := (mem_cells2 n _).1 hc
    rw [← xv]
    simp only [xt2, LinearMap.coe_mk, AddHom.coe_mk, wrapIdx_of_int h1.1 h1.2, wrapIdx_of_int h2.1 h2.2]
  have e : ∑ c, lapR2 hn dx (fun c => φ (u c)) c * u c =
      sum2 n n fun i j => ext2 n v i j * lap2 dx (ext2 n fun i j => φ (v i j)) i j := by
    rw [← sum_cells2 n fun c => ext2 n v c.1 c.2 * lap2 dx (ext2 n fun i j => φ (v i j)) c.1 c.2, ← Finset.sum_coe_sort (cells2 n)]
    refine Finset.sum_congr rfl fun c _ => ?_
    rw [mul_comm, ← hu c, ← xw]; rfl
  rw [e, green2 dx hn]
  have : 0 ≤ grad2 n n (ext2 n v) (ext2 n fun i j => φ (v i j)) := by
    unfold grad2
    have m : ∀ a b : ℝ, 0 ≤ (a - b) * (φ a - φ b) := fun a b => by
      rcases le_total a b with h | h
      · exact mul_nonneg_of_nonpos_of_nonpos (by linarith) (by linarith [hφ h])
      · exact mul_nonneg (by linarith) (by linarith [hφ h])
    unfold sum2
    refine Finset.sum_nonneg fun i _ => Finset.sum_nonneg fun j _ => ?_
    exact add_nonneg (m _ _) (m _ _)
  have h2 := div_nonneg this (sq_nonneg dx)
  linarith

end

/-- Solutions on the cells of a grid as curves of fields. -/
theorem cells_exists {C : Type} (S : Finset C) (G : (C → ℝ) → C → ℝ) (Q M : (S → ℝ) →ₗ[ℝ] (S → ℝ)) (k : S → ℝ)
    (hG : ∀ u (c : S), G u c = (Q (fun c => u c ^ 3) + M (fun c => u c) + k : S → ℝ) c)
    (diss : ∀ φ : ℝ → ℝ, Monotone φ → ∀ u : S → ℝ, ∑ i, Q (fun i => φ (u i)) i * u i ≤ 0) (T : ℝ) (x0 : C → ℝ) :
    ∃ y : ℝ → C → ℝ, y 0 = x0 ∧ ∀ t ∈ Set.Icc 0 T, ∀ c ∈ S, HasDerivWithinAt (fun t => y t c) (G (y t) c) (Set.Icc 0 T) t := by
  classical
  obtain ⟨y, y0, hy⟩ := cubic_exists Q M k diss T fun c => x0 c
  refine ⟨fun t c => if h : c ∈ S then y t ⟨c, h⟩ else x0 c, ?_, fun t ht c hc => ?_⟩
  · funext c
    dsimp only
    split
    · rw [y0]
    · rfl
  · have := hasDerivWithinAt_pi.1 (hy t ht) ⟨c, hc⟩
    have e := hG (fun c => if h : c ∈ S then y t ⟨c, h⟩ else x0 c) ⟨c, hc⟩
    simp only [Subtype.coe_eta, Finset.coe_mem, dite_true] at e
    simp only [hc, dite_true]
    rw [e]
    exact this

end Madg
