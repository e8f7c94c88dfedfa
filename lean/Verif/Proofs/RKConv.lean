/-
Convergence of order three of the Runge–Kutta runs for cubic right-hand sides.
-/
import Verif.Proofs.RKOrder
import Verif.Proofs.CHConv

set_option linter.unusedVariables false
set_option linter.unusedSectionVars false

namespace Madg
namespace Cubic
variable {E : Type} [NormedAddCommGroup E] [NormedSpace ℝ E]
  {F : E → E} {A : E → E →ₗ[ℝ] E} {B : E → E →ₗ[ℝ] E →ₗ[ℝ] E} (hF : Cubic F A B)
include hF

omit hF in
theorem norm_comb2 {x y : E} {a b X : ℝ} (ha : 0 ≤ a) (hb : 0 ≤ b) (hab : a + b ≤ 1) (hX : 0 ≤ X) (hx : ‖x‖ ≤ X) (hy : ‖y‖ ≤ X) :
    ‖a • x + b • y‖ ≤ X := by
  refine (norm_add_le _ _).trans ?_
  rw [norm_smul, norm_smul, Real.norm_of_nonneg ha, Real.norm_of_nonneg hb]
  calc a * ‖x‖ + b * ‖y‖ ≤ a * X + b * X := add_le_add (mul_le_mul_of_nonneg_left hx ha) (mul_le_mul_of_nonneg_left hy hb)
    _ = (a + b) * X := by ring
    _ ≤ 1 * X := mul_le_mul_of_nonneg_right hab hX
    _ = X := one_mul X

/-- Lipschitz on balls. -/
theorem lip (b : ℝ) (hb : 0 ≤ b) : ∃ L, 0 ≤ L ∧ ∀ x z, ‖x‖ ≤ b → ‖z‖ ≤ b → ‖F x - F z‖ ≤ L * ‖x - z‖ := by
  obtain ⟨K, K0, hK⟩ := hF.bnd b
  refine ⟨K * (1 + 2 * b + (2 * b) ^ 2), by positivity, fun x z hx hz => ?_⟩
  obtain ⟨-, q1, q2, q3⟩ := hK z hz
  have e : F x - F z = (F (z + (x - z)) - F z - A z (x - z) - B z (x - z) (x - z)) + A z (x - z) + B z (x - z) (x - z) := by
    rw [add_sub_cancel]; abel
  have n1 := q1 (x - z)
  have n2 := q2 (x - z) (x - z)
  have n3 := q3 (x - z)
  have nd : ‖x - z‖ ≤ 2 * b := (norm_sub_le _ _).trans (by linarith)
  rw [e]
  refine (norm_add_le _ _).trans ((add_le_add_left (norm_add_le _ _) _).trans ?_)
  have d0 := norm_nonneg (x - z)
  generalize ‖x - z‖ = d at *
  have k1 : K * d * d ≤ K * (2 * b) * d := by
    have := mul_le_mul_of_nonneg_left nd (mul_nonneg K0 d0)
    linarith
  have k2 : K * d ^ 3 ≤ K * (2 * b) ^ 2 * d := by
    have := mul_le_mul_of_nonneg_left (pow_le_pow_left₀ d0 nd 2) (mul_nonneg K0 d0)
    linarith
  linarith

/-- One step amplifies differences by at most `1 + c h`. -/
theorem step_stable (T : RK3c) (b : ℝ) (hb : 0 ≤ b) : ∃ c δ, 0 ≤ c ∧ 0 < δ ∧ δ ≤ 1 ∧ ∀ h, 0 ≤ h → h ≤ δ → ∀ x z, ‖x‖ ≤ b → ‖z‖ ≤ b →
    ‖T.step F h x - T.step F h z‖ ≤ (1 + c * h) * ‖x - z‖ := by
  obtain ⟨K, K0, hK⟩ := hF.bnd (b + 1)
  obtain ⟨L, L0, hL⟩ := hF.lip (b + 1) (by linarith)
  refine ⟨L * (1 + L) ^ 2, 1 / (K + 1), by positivity, by positivity, by
    rw [div_le_one (by linarith)]; linarith, fun h h0 hd => ?_⟩
  have h1 : h ≤ 1 := hd.trans (by rw [div_le_one (by linarith)]; linarith)
  have hK1 : h * K ≤ 1 := by
    rw [le_div_iff₀ (by linarith)] at hd
    nlinarith
  have n1 : ∀ x, ‖x‖ ≤ b + 1 → ‖F x‖ ≤ K := fun x hx => (hK x hx).1
  have m2 : ∀ x, ‖x‖ ≤ b → ‖T.y2 F h x‖ ≤ b + 1 := fun x hx => by
    refine (norm_add_le _ _).trans (add_le_add hx ?_)
    rw [norm_smul, norm_smul, Real.norm_of_nonneg h0, Real.norm_of_nonneg T.h21]
    have := n1 x (by linarith)
    calc h * (T.a21 * ‖F x‖) ≤ h * (1 * K) :=
          mul_le_mul_of_nonneg_left (mul_le_mul T.c2 this (norm_nonneg _) (by norm_num)) h0
      _ ≤ 1 := by rw [one_mul]; exact hK1
  have m3 : ∀ x, ‖x‖ ≤ b → ‖T.y3 F h x‖ ≤ b + 1 := fun x hx => by
    refine (norm_add_le _ _).trans (add_le_add hx ?_)
    rw [norm_smul, Real.norm_of_nonneg h0]
    have := norm_comb2 T.h31 T.h32 T.c3 K0 (n1 x (by linarith)) (n1 _ (m2 x hx))
    exact (mul_le_mul_of_nonneg_left this h0).trans hK1
  intro x z hx hz
  have hx1 : ‖x‖ ≤ b + 1 := by linarith
  have hz1 : ‖z‖ ≤ b + 1 := by linarith
  obtain ⟨e, he⟩ : ∃ e, e = ‖x - z‖ := ⟨_, rfl⟩
  have e0 : 0 ≤ e := he ▸ norm_nonneg _
  have f1 : ‖F x - F z‖ ≤ L * e := he ▸ hL x z hx1 hz1
  have d2 : ‖T.y2 F h x - T.y2 F h z‖ ≤ (1 + L) * e := by
    have q : T.y2 F h x - T.y2 F h z = (x - z) + h • (T.a21 • (F x - F z)) := by simp only [RK3c.y2]; module
    rw [q]
    refine (norm_add_le _ _).trans ?_
    rw [norm_smul, norm_smul, Real.norm_of_nonneg h0, Real.norm_of_nonneg T.h21, ← he]
    have : h * (T.a21 * ‖F x - F z‖) ≤ 1 * (1 * (L * e)) :=
      mul_le_mul h1 (mul_le_mul T.c2 f1 (norm_nonneg _) (by norm_num)) (mul_nonneg T.h21 (norm_nonneg _)) (by norm_num)
    linarith
  have f2 : ‖F (T.y2 F h x) - F (T.y2 F h z)‖ ≤ L * ((1 + L) * e) :=
    (hL _ _ (m2 x hx) (m2 z hz)).trans (mul_le_mul_of_nonneg_left d2 L0)
  have f1' : ‖F x - F z‖ ≤ L * ((1 + L) * e) := f1.trans (mul_le_mul_of_nonneg_left (by nlinarith) L0)
  have d3 : ‖T.y3 F h x - T.y3 F h z‖ ≤ (1 + L) ^ 2 * e := by
    have q : T.y3 F h x - T.y3 F h z = (x - z) + h • (T.a31 • (F x - F z) + T.a32 • (F (T.y2 F h x) - F (T.y2 F h z))) := by
      simp only [RK3c.y3]; module
    rw [q]
    refine (norm_add_le _ _).trans ?_
    rw [norm_smul, Real.norm_of_nonneg h0, ← he]
    have := norm_comb2 T.h31 T.h32 T.c3 (by positivity) f1' f2
    have := mul_le_mul h1 this (norm_nonneg _) (by norm_num)
    have hL2 : 0 ≤ L * e := by positivity
    linarith
  have f3 : ‖F (T.y3 F h x) - F (T.y3 F h z)‖ ≤ L * ((1 + L) ^ 2 * e) :=
    (hL _ _ (m3 x hx) (m3 z hz)).trans (mul_le_mul_of_nonneg_left d3 L0)
  have mono1 : (1 + L) * e ≤ (1 + L) ^ 2 * e := mul_le_mul_of_nonneg_right (by nlinarith) e0
  have f2' := f2.trans (mul_le_mul_of_nonneg_left mono1 L0)
  have f1'' := f1'.trans (mul_le_mul_of_nonneg_left mono1 L0)
  have q : T.step F h x - T.step F h z = (x - z) + h • (T.b1 • (F x - F z) + T.b2 • (F (T.y2 F h x) - F (T.y2 F h z)) +
      T.b3 • (F (T.y3 F h x) - F (T.y3 F h z))) := by simp only [RK3c.step]; module
  rw [q, ← he]
  refine (norm_add_le _ _).trans ?_
  rw [norm_smul, Real.norm_of_nonneg h0, ← he]
  have s : ‖T.b1 • (F x - F z) + T.b2 • (F (T.y2 F h x) - F (T.y2 F h z)) + T.b3 • (F (T.y3 F h x) - F (T.y3 F h z))‖ ≤
      L * ((1 + L) ^ 2 * e) := by
    refine (norm_add_le _ _).trans ((add_le_add_left (norm_add_le _ _) _).trans ?_)
    rw [norm_smul, norm_smul, norm_smul, Real.norm_of_nonneg T.k1, Real.norm_of_nonneg T.k2, Real.norm_of_nonneg T.k3]
    calc T.b1 * ‖F x - F z‖ + T.b2 * ‖F (T.y2 F h x) - F (T.y2 F h z)‖ + T.b3 * ‖F (T.y3 F h x) - F (T.y3 F h z)‖
        ≤ T.b1 * (L * ((1 + L) ^ 2 * e)) + T.b2 * (L * ((1 + L) ^ 2 * e)) + T.b3 * (L * ((1 + L) ^ 2 * e)) :=
          add_le_add (add_le_add (mul_le_mul_of_nonneg_left f1'' T.k1) (mul_le_mul_of_nonneg_left f2' T.k2))
            (mul_le_mul_of_nonneg_left f3 T.k3)
      _ = L * ((1 + L) ^ 2 * e) := by rw [← add_mul, ← add_mul, T.sum, one_mul]
  have := mul_le_mul_of_nonneg_left s h0
  linarith

/-- Order three: every run with steps at most `δ` started within `a δ³` of the solution stays within a constant times `δ³`. -/
theorem converges (T : RK3c) (o2 : T.b2 * T.a21 + T.b3 * (T.a31 + T.a32) = 1 / 2)
    (o3 : T.b2 * T.a21 ^ 2 + T.b3 * (T.a31 + T.a32) ^ 2 = 1 / 3) (o4 : T.b3 * T.a32 * T.a21 = 1 / 6)
    {Tm : ℝ} {y : ℝ → E} (hy : ∀ t ∈ Set.Icc 0 Tm, HasDerivWithinAt y (F (y t)) (Set.Icc 0 Tm) t) (a : ℝ) (ha : 0 ≤ a) :
    ∃ C δ0, 0 ≤ C ∧ 0 < δ0 ∧ ∀ δ, 0 ≤ δ → δ ≤ δ0 → ∀ dts : List ℝ, (∀ d ∈ dts, 0 ≤ d ∧ d ≤ δ) → dts.sum ≤ Tm → ∀ u,
      ‖u - y 0‖ ≤ a * δ ^ 3 → ‖T.run F dts u - y dts.sum‖ ≤ C * δ ^ 3 := by
  obtain ⟨b, hb⟩ : ∃ b, ∀ t ∈ Set.Icc 0 Tm, ‖y t‖ ≤ b :=
    isCompact_Icc.exists_bound_of_continuousOn fun t ht => (hy t ht).continuousWithinAt
  obtain ⟨C, C0, hC⟩ := (hF.step_expand (S := Steps Tm) (h := fun q => q.2) (fun q hq => hq.2.1) (fun q hq => hq.2.2.1)
    (y := fun q => y q.1) (b := b) (fun q hq => hb _ ⟨hq.1, by linarith [hq.2.1, hq.2.2.2]⟩) T o2 o3 o4).sub (hF.sol_expand hb hy)
  obtain ⟨c, δ1, c0, δ1p, δ11, hst⟩ := hF.step_stable T (|b| + 1) (by positivity)
  have loc : ∀ t h, 0 ≤ t → 0 ≤ h → h ≤ 1 → t + h ≤ Tm → ‖T.step F h (y t) - y (t + h)‖ ≤ C * h ^ 4 := by
    intro t h t0 h0 h1 hT
    have := hC (t, h) ⟨t0, h0, h1, hT⟩
    dsimp only at this
    rwa [sub_sub_sub_cancel_right] at this
  -- propagation
  have prop : ∀ δ, 0 ≤ δ → δ ≤ δ1 → ∀ dts : List ℝ, ∀ t u, (∀ d ∈ dts, 0 ≤ d ∧ d ≤ δ) → 0 ≤ t → t + dts.sum ≤ Tm →
      Real.exp (c * dts.sum) * (‖u - y t‖ + C * δ ^ 3 * dts.sum) ≤ 1 →
      ‖T.run F dts u - y (t + dts.sum)‖ ≤ Real.exp (c * dts.sum) * (‖u - y t‖ + C * δ ^ 3 * dts.sum) := by
    intro δ δ0 hδ dts
    induction dts with
    | nil => intro t u _ _ _ _; simp [RK3c.run]
    | cons d ds ih =>
      intro t u hd t0 hT hs
      have d0 := hd d List.mem_cons_self
      have sn : 0 ≤ ds.sum := List.sum_nonneg fun x hx => (hd x (List.mem_cons_of_mem _ hx)).1
      rw [List.sum_cons] at hT hs ⊢
      have d1 : d ≤ 1 := by linarith
      have e0 : 0 ≤ ‖u - y t‖ + C * δ ^ 3 * (d + ds.sum) := by
        have := norm_nonneg (u - y t)
        have : 0 ≤ C * δ ^ 3 * (d + ds.sum) := mul_nonneg (by positivity) (by linarith)
        linarith
      have small : ‖u - y t‖ ≤ 1 := by
        have h1 : 1 ≤ Real.exp (c * (d + ds.sum)) := Real.one_le_exp (mul_nonneg c0 (by linarith))
        have h2 : 0 ≤ C * δ ^ 3 * (d + ds.sum) := mul_nonneg (by positivity) (by linarith)
        nlinarith
      have yt : ‖y t‖ ≤ |b| := (hb t ⟨t0, by linarith⟩).trans (le_abs_self _)
      have ut : ‖u‖ ≤ |b| + 1 := by
        have := norm_add_le (u - y t) (y t)
        rw [sub_add_cancel] at this
        linarith
      have s1 := hst d d0.1 (d0.2.trans hδ) u (y t) ut (by linarith)
      have s2 := loc t d t0 d0.1 d1 (by linarith)
      have tri : ‖T.step F d u - y (t + d)‖ ≤ (1 + c * d) * ‖u - y t‖ + C * d ^ 4 := by
        have := norm_add_le (T.step F d u - T.step F d (y t)) (T.step F d (y t) - y (t + d))
        rw [sub_add_sub_cancel] at this
        linarith
      have d4 : C * d ^ 4 ≤ C * δ ^ 3 * d := by
        have := mul_le_mul_of_nonneg_left (pow_le_pow_left₀ d0.1 d0.2 3) (mul_nonneg C0 d0.1)
        linarith
      have ed : 1 + c * d ≤ Real.exp (c * d) := by linarith [Real.add_one_le_exp (c * d)]
      have ed1 : 1 ≤ Real.exp (c * d) := by nlinarith [mul_nonneg c0 d0.1]
      have step : ‖T.step F d u - y (t + d)‖ ≤ Real.exp (c * d) * (‖u - y t‖ + C * δ ^ 3 * d) := by
        have h1 := mul_le_mul_of_nonneg_right ed (norm_nonneg (u - y t))
        have h2 : 0 ≤ C * δ ^ 3 * d := mul_nonneg (by positivity) d0.1
        nlinarith
      have comb : Real.exp (c * ds.sum) * (‖T.step F d u - y (t + d)‖ + C * δ ^ 3 * ds.sum) ≤
          Real.exp (c * (d + ds.sum)) * (‖u - y t‖ + C * δ ^ 3 * (d + ds.sum)) := by
        rw [mul_add c, Real.exp_add, mul_comm (Real.exp (c * d)), mul_assoc (Real.exp (c * ds.sum))]
        refine mul_le_mul_of_nonneg_left ?_ (Real.exp_pos _).le
        have h3 : 0 ≤ C * δ ^ 3 * ds.sum := mul_nonneg (by positivity) sn
        have h4 := mul_le_mul_of_nonneg_right ed1 h3
        calc ‖T.step F d u - y (t + d)‖ + C * δ ^ 3 * ds.sum
            ≤ Real.exp (c * d) * (‖u - y t‖ + C * δ ^ 3 * d) + Real.exp (c * d) * (C * δ ^ 3 * ds.sum) := by linarith
          _ = _ := by ring
      have := ih (t + d) (T.step F d u) (fun x hx => hd x (List.mem_cons_of_mem _ hx)) (by linarith) (by linarith) (comb.trans hs)
      rw [add_assoc] at this
      exact this.trans comb
  refine ⟨Real.exp (c * |Tm|) * (a + C * |Tm|), min δ1 (1 / (Real.exp (c * |Tm|) * (a + C * |Tm|) + 1)), by positivity, by positivity, ?_⟩
  intro δ δ0 hδ dts hd hs u hu
  have hδ1 := hδ.trans (min_le_left _ _)
  have hδ2 := hδ.trans (min_le_right _ _)
  obtain ⟨Q, hQ⟩ : ∃ Q, Q = Real.exp (c * |Tm|) * (a + C * |Tm|) := ⟨_, rfl⟩
  have Q0 : 0 ≤ Q := by rw [hQ]; positivity
  rw [← hQ] at hδ2 ⊢
  have sn : 0 ≤ dts.sum := List.sum_nonneg fun x hx => (hd x hx).1
  have sT : dts.sum ≤ |Tm| := hs.trans (le_abs_self _)
  have bound : Real.exp (c * dts.sum) * (‖u - y 0‖ + C * δ ^ 3 * dts.sum) ≤ Q * δ ^ 3 := by
    rw [hQ, mul_assoc (Real.exp (c * |Tm|))]
    refine mul_le_mul (Real.exp_le_exp.2 (mul_le_mul_of_nonneg_left sT c0)) ?_ (by positivity) (Real.exp_pos _).le
    have := mul_le_mul_of_nonneg_left sT (by positivity : 0 ≤ C * δ ^ 3)
    linarith
  have Q1 : Q * δ ^ 3 ≤ 1 := by
    have h3 : δ ^ 3 ≤ δ := by
      calc δ ^ 3 ≤ δ ^ 1 := pow_le_pow_of_le_one δ0 (hδ1.trans δ11) (by norm_num)
        _ = δ := pow_one δ
    rw [le_div_iff₀ (by linarith)] at hδ2
    have := mul_le_mul_of_nonneg_left h3 Q0
    nlinarith
  have := prop δ δ0 hδ1 dts 0 u hd le_rfl (by rw [zero_add]; exact hs) (bound.trans Q1)
  rw [zero_add] at this
  exact this.trans bound

end Cubic
end Madg
