/-
Size of the error estimate of the embedded Bogacki–Shampine pair along a run.
-/
import Verif.Proofs.RKExist
import Verif.Spec.Semi

set_option linter.unusedVariables false
set_option linter.unusedSectionVars false

namespace Madg
open Spec

/-- The difference of the two increments of the pair. -/
noncomputable def bsEst {U : Type} [AddCommGroup U] [Module ℝ U] (F : U → U) (h : ℝ) (y : U) : U :=
  (-5 / 72 : ℝ) • F y + (1 / 12 : ℝ) • F (bs3c.y2 F h y) + (1 / 9 : ℝ) • F (bs3c.y3 F h y) - (1 / 8 : ℝ) • F (bs3c.step F h y)

theorem bsEst_map {U V : Type} [AddCommGroup U] [Module ℝ U] [AddCommGroup V] [Module ℝ V] (R : U →ₗ[ℝ] V)
    {F : U → U} {G : V → V} (h : ∀ u, R (F u) = G (R u)) (dt : ℝ) (u : U) : R (bsEst F dt u) = bsEst G dt (R u) := by
  simp only [bsEst, RK3c.step, RK3c.y3, RK3c.y2, map_add, map_sub, map_smul, h]

theorem bs23_est {C : Type} (F : ℝ → (C → ℝ) → C → ℝ) (hF : ∀ t s, F t = F s) (t dt : ℝ) (y : C → ℝ) :
    (bs23 : Tableau ℝ).slope F t dt y - (bs23 : Tableau ℝ).slopeHat F t dt y = bsEst (F 0) dt y := by
  rw [bs23_slope, bs23_slopeHat, bs23_stage3, Tableau.step, bs23_slope, bs23_stage0, bs23_stage1, bs23_stage2]
  simp only [bsEst, RK3c.step, RK3c.y3, RK3c.y2, bs3c, hF _ 0]
  have e : (dt * (1 / 2)) • F 0 y = dt • ((1 / 2 : ℝ) • F 0 y) := by rw [smul_smul]
  rw [e]
  module

namespace Cubic
variable {E : Type} [NormedAddCommGroup E] [NormedSpace ℝ E]
  {F : E → E} {A : E → E →ₗ[ℝ] E} {B : E → E →ₗ[ℝ] E →ₗ[ℝ] E} (hF : Cubic F A B)
  {ι : Type} {S : Set ι} {h : ι → ℝ} (h0 : ∀ i ∈ S, 0 ≤ h i) (h1 : ∀ i ∈ S, h i ≤ 1) {y : ι → E} {b : ℝ} (hb : ∀ i ∈ S, ‖y i‖ ≤ b)
include hF hb h0 h1

theorem first_order {d : ι → E} {c : ℝ} (hd : OS S h 2 fun i => d i - (h i * c) • F (y i)) :
    OS S h 1 d ∧ OS S h 2 fun i => F (y i + d i) - F (y i) - (h i * c) • A (y i) (F (y i)) := by
  have f0 := hF.oF hb (h := h)
  have d1 : OS S h 1 d := by
    refine ((hd.mono h0 h1 (by norm_num : 1 ≤ 2)).add ((f0.smul c).hpow h0 1)).congr fun i hi => ?_
    module
  refine ⟨d1, ?_⟩
  refine ((((hF.oR hb d1).mono h0 h1 (by norm_num : 2 ≤ 3)).add (hF.oB h0 hb d1 d1)).add (hF.oA hb hd)).congr fun i hi => ?_
  simp only [map_sub, map_smul]
  module

/-- The estimate is of second order before multiplication by the step. -/
theorem est_order : OS S h 2 fun i => bsEst F (h i) (y i) := by
  have f0 := hF.oF hb (h := h)
  have z2 : OS S h 2 fun i => (h i • (bs3c.a21 • F (y i))) - (h i * (1 / 2)) • F (y i) := by
    refine ((f0.smul 0).hpow h0 2).congr fun i hi => ?_
    simp only [bs3c]
    module
  obtain ⟨-, r2⟩ := hF.first_order h0 h1 hb z2
  have af := hF.oA hb f0
  have s2 : OS S h 1 fun i => F (bs3c.y2 F (h i) (y i)) - F (y i) := by
    refine ((r2.mono h0 h1 (by norm_num : 1 ≤ 2)).add ((af.smul (1 / 2)).hpow h0 1)).congr fun i hi => ?_
    rw [RK3c.y2]
    module
  have z3 : OS S h 2 fun i => (h i • (bs3c.a31 • F (y i) + bs3c.a32 • F (bs3c.y2 F (h i) (y i)))) - (h i * (3 / 4)) • F (y i) := by
    refine ((s2.smul (3 / 4)).hpow h0 1).congr fun i hi => ?_
    simp only [bs3c]
    module
  obtain ⟨-, r3⟩ := hF.first_order h0 h1 hb z3
  have s3 : OS S h 1 fun i => F (bs3c.y3 F (h i) (y i)) - F (y i) := by
    refine ((r3.mono h0 h1 (by norm_num : 1 ≤ 2)).add ((af.smul (3 / 4)).hpow h0 1)).congr fun i hi => ?_
    rw [RK3c.y3]
    module
  have z4 : OS S h 2 fun i => (h i • (bs3c.b1 • F (y i) + bs3c.b2 • F (bs3c.y2 F (h i) (y i)) + bs3c.b3 • F (bs3c.y3 F (h i) (y i)))) -
      (h i * 1) • F (y i) := by
    refine (((s2.smul (1 / 3)).hpow h0 1).add ((s3.smul (4 / 9)).hpow h0 1)).congr fun i hi => ?_
    have e1 : bs3c.b1 = 2 / 9 := rfl
    have e2 : bs3c.b2 = 1 / 3 := rfl
    have e3 : bs3c.b3 = 4 / 9 := rfl
    rw [e1, e2, e3]
    module
  obtain ⟨-, r4⟩ := hF.first_order h0 h1 hb z4
  refine (((r2.smul (1 / 12)).add (r3.smul (1 / 9))).sub (r4.smul (1 / 8))).congr fun i hi => ?_
  rw [bsEst, RK3c.step]
  have e2 : bs3c.y2 F (h i) (y i) = y i + h i • bs3c.a21 • F (y i) := rfl
  have e3 : bs3c.y3 F (h i) (y i) = y i + h i • (bs3c.a31 • F (y i) + bs3c.a32 • F (bs3c.y2 F (h i) (y i))) := rfl
  rw [← e3, ← e2]
  module

end Cubic

theorem runErrs_bound {C : Type} (S : Finset C) (G : ℝ → (C → ℝ) → C → ℝ) (hG : ∀ t s, G t = G s) (P : C → Prop)
    (hP : ∀ c, P c → c ∈ S) {β κ δ : ℝ} (κ0 : 0 ≤ κ)
    (hκ : ∀ u : C → ℝ, (∀ c ∈ S, |u c| ≤ β) → ∀ h, 0 ≤ h → h ≤ δ → ∀ c ∈ S, |bsEst (G 0) h u c| ≤ κ * h ^ 2) :
    ∀ (dts : List ℝ) (t : ℝ) (u : C → ℝ) (es : List ℝ), RunErrs bs23 G P t dts u es →
      (∀ n, ∀ c ∈ S, |bs3c.run (G 0) (dts.take n) u c| ≤ β) → (∀ d ∈ dts, 0 ≤ d ∧ d ≤ δ) → ∀ e ∈ es, 0 ≤ e ∧ e ≤ κ * δ ^ 3 := by
  intro dts
  induction dts with
  | nil =>
    intro t u es h _ _ e he
    rw [RunErrs] at h
    rw [h] at he
    cases he
  | cons d ds ih =>
    intro t u es h hn hd e he
    obtain ⟨E, es', hE, rfl, hr⟩ := h
    have hd0 := hd d List.mem_cons_self
    have st : (bs23 : Tableau ℝ).step G t d u = bs3c.step (G 0) d u := bs3c_run G hG [d] t u
    rcases List.mem_cons.1 he with rfl | he
    · refine ⟨le_max_left _ _, max_le (by have := hd0.1.trans hd0.2; positivity) ?_⟩
      have hE1 : E ≤ κ * d ^ 2 := by
        obtain ⟨-, -, e0 | ⟨c, hc, e0⟩⟩ := hE
        · rw [e0]; positivity
        · rw [e0, bs23_est G hG]
          exact hκ u (fun c hc => by simpa [RK3c.run] using hn 0 c hc) d hd0.1 hd0.2 c (hP c hc)
      calc d * E ≤ d * (κ * d ^ 2) := mul_le_mul_of_nonneg_left hE1 hd0.1
        _ = κ * d ^ 3 := by ring
        _ ≤ κ * δ ^ 3 := mul_le_mul_of_nonneg_left (pow_le_pow_left₀ hd0.1 hd0.2 3) κ0
    · rw [st] at hr
      refine ih (t + d) _ es' hr (fun n c hc => ?_) (fun x hx => hd x (List.mem_cons_of_mem _ hx)) e he
      have := hn (n + 1) c hc
      rwa [List.take_succ_cons, RK3c.run] at this

/-- Every reported estimate along a run close to a solution is at most a constant times `δ³`. -/
theorem cells_estimates {C : Type} (S : Finset C) (G : ℝ → (C → ℝ) → C → ℝ) (hGt : ∀ t s, G t = G s) (P : C → Prop)
    (hP : ∀ c, P c → c ∈ S) (Q M : (S → ℝ) →ₗ[ℝ] (S → ℝ)) (k : S → ℝ)
    (hG : ∀ u (c : S), G 0 u c = (Q (fun c => u c ^ 3) + M (fun c => u c) + k : S → ℝ) c)
    {Tm : ℝ} {y : ℝ → C → ℝ}
    (hy : ∀ t ∈ Set.Icc 0 Tm, ∀ c ∈ S, HasDerivWithinAt (fun t => y t c) (G 0 (y t) c) (Set.Icc 0 Tm) t) (a : ℝ) (ha : 0 ≤ a) :
    ∃ K δ0, 0 ≤ K ∧ 0 < δ0 ∧ ∀ δ, 0 ≤ δ → δ ≤ δ0 → ∀ dts : List ℝ, (∀ d ∈ dts, 0 ≤ d ∧ d ≤ δ) → dts.sum ≤ Tm → ∀ u : C → ℝ,
      (∀ c ∈ S, |u c - y 0 c| ≤ a * δ ^ 3) → ∀ t es, RunErrs bs23 G P t dts u es → ∀ e ∈ es, 0 ≤ e ∧ e ≤ K * δ ^ 3 := by
  obtain ⟨K1, δ1, K10, d1, H⟩ := cells_converges S bs3c (by simp only [bs3c]; norm_num) (by simp only [bs3c]; norm_num)
    (by simp only [bs3c]; norm_num) (G 0) Q M k hG hy a ha
  obtain ⟨b, hb⟩ : ∃ b, ∀ t ∈ Set.Icc 0 Tm, ‖fun c : S => y t c‖ ≤ b :=
    isCompact_Icc.exists_bound_of_continuousOn (f := fun t => fun c : S => y t c) fun t ht =>
      (hasDerivWithinAt_pi.2 fun c : S => hy t ht c c.2).continuousWithinAt
  obtain ⟨κ, κ0, hκ⟩ := (cubic_field Q M k).est_order (S := {q : (S → ℝ) × ℝ | ‖q.1‖ ≤ |b| + K1 ∧ 0 ≤ q.2 ∧ q.2 ≤ 1})
    (h := fun q => q.2) (fun q hq => hq.2.1) (fun q hq => hq.2.2) (y := fun q => q.1) (b := |b| + K1) (fun q hq => hq.1)
  refine ⟨κ, min δ1 1, κ0, by positivity, fun δ h0 hδ dts hd hs u hu t es he => ?_⟩
  have hδ1 := hδ.trans (min_le_left _ _)
  have hδ2 := hδ.trans (min_le_right _ _)
  refine runErrs_bound S G hGt P hP (β := |b| + K1) κ0 (fun v hv h hh0 hh1 c hc => ?_) dts t u es he (fun n c hc => ?_) hd
  · have hn : ‖fun c : S => v c‖ ≤ |b| + K1 := by
      rw [pi_norm_le_iff_of_nonneg (by positivity)]
      exact fun c => hv c c.2
    have := hκ (fun c : S => v c, h) ⟨hn, hh0, hh1.trans hδ2⟩
    dsimp only at this
    have e := bsEst_map (LinearMap.funLeft ℝ ℝ ((↑) : S → C)) (F := G 0) (G := fun u => Q (u ^ 3) + M u + k)
      (fun u => funext fun c => by exact hG u c) h v
    have e' : (fun c : S => bsEst (G 0) h v c) = bsEst (fun u => Q (u ^ 3) + M u + k) h (fun c : S => v c) := e
    rw [← e'] at this
    exact (norm_le_pi_norm (fun c : S => bsEst (G 0) h v c) ⟨c, hc⟩).trans this
  · have hsub : ∀ d ∈ dts.take n, 0 ≤ d ∧ d ≤ δ := fun d hd' => hd d (List.mem_of_mem_take hd')
    have sn : 0 ≤ (dts.take n).sum := List.sum_nonneg fun d hd' => (hsub d hd').1
    have sd : 0 ≤ (dts.drop n).sum := List.sum_nonneg fun d hd' => (hd d (List.mem_of_mem_drop hd')).1
    have st : (dts.take n).sum ≤ Tm := by
      have e := List.sum_append (l₁ := dts.take n) (l₂ := dts.drop n)
      rw [List.take_append_drop] at e
      linarith
    have h1 := H δ h0 hδ1 (dts.take n) hsub st u hu c hc
    have h2 : |y (dts.take n).sum c| ≤ |b| := ((norm_le_pi_norm (fun c : S => y (dts.take n).sum c) ⟨c, hc⟩).trans
      (hb _ ⟨sn, st⟩)).trans (le_abs_self b)
    have h3 : K1 * δ ^ 3 ≤ K1 := by
      have : δ ^ 3 ≤ 1 := pow_le_one₀ h0 hδ2
      nlinarith
    have h4 := abs_add_le (bs3c.run (G 0) (dts.take n) u c - y (dts.take n).sum c) (y (dts.take n).sum c)
    rw [sub_add_cancel] at h4
    linarith

/-- Uniqueness of solutions on the cells. -/
theorem cells_unique {C : Type} (S : Finset C) (G : (C → ℝ) → C → ℝ) (Q M : (S → ℝ) →ₗ[ℝ] (S → ℝ)) (k : S → ℝ)
    (hG : ∀ u (c : S), G u c = (Q (fun c => u c ^ 3) + M (fun c => u c) + k : S → ℝ) c)
    {Tm : ℝ} {y z : ℝ → C → ℝ}
    (hy : ∀ t ∈ Set.Icc 0 Tm, ∀ c ∈ S, HasDerivWithinAt (fun t => y t c) (G (y t) c) (Set.Icc 0 Tm) t)
    (hz : ∀ t ∈ Set.Icc 0 Tm, ∀ c ∈ S, HasDerivWithinAt (fun t => z t c) (G (z t) c) (Set.Icc 0 Tm) t)
    (h0 : ∀ c ∈ S, y 0 c = z 0 c) : ∀ t ∈ Set.Icc 0 Tm, ∀ c ∈ S, y t c = z t c := by
  have dv : ∀ {x : ℝ → C → ℝ}, (∀ t ∈ Set.Icc 0 Tm, ∀ c ∈ S, HasDerivWithinAt (fun t => x t c) (G (x t) c) (Set.Icc 0 Tm) t) →
      ∀ t ∈ Set.Icc 0 Tm, HasDerivWithinAt (fun t => fun c : S => x t c)
        (Q ((fun c : S => x t c) ^ 3) + M (fun c : S => x t c) + k) (Set.Icc 0 Tm) t := fun {x} hx t ht => by
    rw [hasDerivWithinAt_pi]
    intro c
    have := hx t ht c c.2
    rw [hG] at this
    exact this
  obtain ⟨b1, hb1⟩ : ∃ b, ∀ t ∈ Set.Icc 0 Tm, ‖fun c : S => y t c‖ ≤ b :=
    isCompact_Icc.exists_bound_of_continuousOn (f := fun t => fun c : S => y t c) fun t ht => (dv hy t ht).continuousWithinAt
  obtain ⟨b2, hb2⟩ : ∃ b, ∀ t ∈ Set.Icc 0 Tm, ‖fun c : S => z t c‖ ≤ b :=
    isCompact_Icc.exists_bound_of_continuousOn (f := fun t => fun c : S => z t c) fun t ht => (dv hz t ht).continuousWithinAt
  obtain ⟨L, L0, hL⟩ := (cubic_field Q M k).lip (|b1| + |b2|) (by positivity)
  have right : ∀ {x : ℝ → C → ℝ}, (∀ t ∈ Set.Icc 0 Tm, ∀ c ∈ S, HasDerivWithinAt (fun t => x t c) (G (x t) c) (Set.Icc 0 Tm) t) →
      ∀ t ∈ Set.Ico 0 Tm, HasDerivWithinAt (fun t => fun c : S => x t c)
        (Q ((fun c : S => x t c) ^ 3) + M (fun c : S => x t c) + k) (Set.Ici t) t := fun {x} hx t ht =>
    (dv hx t ⟨ht.1, ht.2.le⟩).mono_of_mem_nhdsWithin
      (Filter.mem_of_superset (Icc_mem_nhdsGE ht.2) (Set.Icc_subset_Icc_left ht.1))
  have key := ODE_solution_unique_of_mem_Icc_right (v := fun _ u => Q (u ^ 3) + M u + k)
    (s := fun _ => Metric.closedBall 0 (|b1| + |b2|)) (K := ⟨L, L0⟩) (a := 0) (b := Tm)
    (f := fun t => fun c : S => y t c) (g := fun t => fun c : S => z t c)
    (fun t _ => LipschitzOnWith.of_dist_le_mul fun u hu v hv => by
      rw [dist_eq_norm, dist_eq_norm]
      exact hL u v (by simpa using hu) (by simpa using hv))
    (fun t ht => (dv hy t ht).continuousWithinAt) (right hy)
    (fun t ht => by
      have := hb1 t ⟨ht.1, ht.2.le⟩
      rw [mem_closedBall_zero_iff]
      exact this.trans ((le_abs_self _).trans (by linarith [abs_nonneg b2])))
    (fun t ht => (dv hz t ht).continuousWithinAt) (right hz)
    (fun t ht => by
      have := hb2 t ⟨ht.1, ht.2.le⟩
      rw [mem_closedBall_zero_iff]
      exact this.trans ((le_abs_self _).trans (by linarith [abs_nonneg b1])))
    (funext fun c => h0 c c.2)
  exact fun t ht c hc => congrFun (key ht) ⟨c, hc⟩

end Madg
