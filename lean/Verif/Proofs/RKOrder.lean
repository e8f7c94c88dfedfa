/-
Third-order accuracy of three-stage Runge–Kutta methods for right-hand sides that are cubic polynomials.
-/
import Verif.Proofs.CHStab
import Mathlib.Analysis.Calculus.MeanValue
import Mathlib.Analysis.Calculus.Deriv.Pow

set_option linter.unusedVariables false
set_option linter.unusedSectionVars false

namespace Madg

variable {E : Type} [NormedAddCommGroup E] [NormedSpace ℝ E]

/-- `f` is uniformly of size `hⁿ` on `S`. -/
def OS {ι : Type} (S : Set ι) (h : ι → ℝ) (n : Nat) (f : ι → E) : Prop := ∃ C, 0 ≤ C ∧ ∀ i ∈ S, ‖f i‖ ≤ C * h i ^ n

namespace OS
variable {ι : Type} {S : Set ι} {h : ι → ℝ} {n k : Nat} {f g : ι → E}

theorem add (hf : OS S h n f) (hg : OS S h n g) : OS S h n fun i => f i + g i := by
  obtain ⟨a, a0, ha⟩ := hf
  obtain ⟨b, b0, hb⟩ := hg
  exact ⟨a + b, by positivity, fun i hi => (norm_add_le _ _).trans (by rw [add_mul]; exact add_le_add (ha i hi) (hb i hi))⟩

theorem smul (c : ℝ) (hf : OS S h n f) : OS S h n fun i => c • f i := by
  obtain ⟨a, a0, ha⟩ := hf
  refine ⟨|c| * a, by positivity, fun i hi => ?_⟩
  rw [norm_smul, Real.norm_eq_abs, mul_assoc]
  exact mul_le_mul_of_nonneg_left (ha i hi) (abs_nonneg _)

theorem sub (hf : OS S h n f) (hg : OS S h n g) : OS S h n fun i => f i - g i := by
  have := hf.add (hg.smul (-1))
  refine (funext fun i => ?_ : (fun i => f i - g i) = fun i => f i + (-1 : ℝ) • g i) ▸ this
  module

theorem congr (hf : OS S h n f) (e : ∀ i ∈ S, g i = f i) : OS S h n g := by
  obtain ⟨a, a0, ha⟩ := hf
  exact ⟨a, a0, fun i hi => by rw [e i hi]; exact ha i hi⟩

theorem hpow (h0 : ∀ i ∈ S, 0 ≤ h i) (k : Nat) (hf : OS S h n f) : OS S h (n + k) fun i => h i ^ k • f i := by
  obtain ⟨a, a0, ha⟩ := hf
  refine ⟨a, a0, fun i hi => ?_⟩
  rw [norm_smul, norm_pow, Real.norm_eq_abs, abs_of_nonneg (h0 i hi), pow_add]
  calc h i ^ k * ‖f i‖ ≤ h i ^ k * (a * h i ^ n) := mul_le_mul_of_nonneg_left (ha i hi) (pow_nonneg (h0 i hi) _)
    _ = _ := by ring

theorem mono (h0 : ∀ i ∈ S, 0 ≤ h i) (h1 : ∀ i ∈ S, h i ≤ 1) (hk : k ≤ n) (hf : OS S h n f) : OS S h k f := by
  obtain ⟨a, a0, ha⟩ := hf
  exact ⟨a, a0, fun i hi => (ha i hi).trans (mul_le_mul_of_nonneg_left (pow_le_pow_of_le_one (h0 i hi) (h1 i hi) hk) a0)⟩

end OS

/-- `F` has an exact expansion of third order with bounds on balls. -/
structure Cubic (F : E → E) (A : E → E →ₗ[ℝ] E) (B : E → E →ₗ[ℝ] E →ₗ[ℝ] E) : Prop where
  bnd : ∀ b, ∃ K, 0 ≤ K ∧ ∀ y, ‖y‖ ≤ b → ‖F y‖ ≤ K ∧ (∀ d, ‖A y d‖ ≤ K * ‖d‖) ∧ (∀ d e, ‖B y d e‖ ≤ K * ‖d‖ * ‖e‖) ∧
    ∀ d, ‖F (y + d) - F y - A y d - B y d d‖ ≤ K * ‖d‖ ^ 3

namespace Cubic
variable {F : E → E} {A : E → E →ₗ[ℝ] E} {B : E → E →ₗ[ℝ] E →ₗ[ℝ] E} (hF : Cubic F A B)
  {ι : Type} {S : Set ι} {h : ι → ℝ} (h0 : ∀ i ∈ S, 0 ≤ h i) (h1 : ∀ i ∈ S, h i ≤ 1) {y : ι → E} {b : ℝ} (hb : ∀ i ∈ S, ‖y i‖ ≤ b)
include hF hb

theorem oF : OS S h 0 fun i => F (y i) := by
  obtain ⟨K, K0, hK⟩ := hF.bnd b
  exact ⟨K, K0, fun i hi => by rw [pow_zero, mul_one]; exact (hK _ (hb i hi)).1⟩

theorem oA {n : Nat} {f : ι → E} (hf : OS S h n f) : OS S h n fun i => A (y i) (f i) := by
  obtain ⟨K, K0, hK⟩ := hF.bnd b
  obtain ⟨a, a0, ha⟩ := hf
  refine ⟨K * a, by positivity, fun i hi => ((hK _ (hb i hi)).2.1 _).trans ?_⟩
  rw [mul_assoc]
  exact mul_le_mul_of_nonneg_left (ha i hi) K0

include h0 in
theorem oB {n k : Nat} {f g : ι → E} (hf : OS S h n f) (hg : OS S h k g) : OS S h (n + k) fun i => B (y i) (f i) (g i) := by
  obtain ⟨K, K0, hK⟩ := hF.bnd b
  obtain ⟨a, a0, ha⟩ := hf
  obtain ⟨c, c0, hc⟩ := hg
  refine ⟨K * a * c, by positivity, fun i hi => ((hK _ (hb i hi)).2.2.1 _ _).trans ?_⟩
  have e : K * a * c * h i ^ (n + k) = (K * (a * h i ^ n)) * (c * h i ^ k) := by rw [pow_add]; ring
  rw [e]
  have := h0 i hi
  exact mul_le_mul (mul_le_mul_of_nonneg_left (ha i hi) K0) (hc i hi) (norm_nonneg _) (by positivity)

theorem oR {f : ι → E} (hf : OS S h 1 f) : OS S h 3 fun i => F (y i + f i) - F (y i) - A (y i) (f i) - B (y i) (f i) (f i) := by
  obtain ⟨K, K0, hK⟩ := hF.bnd b
  obtain ⟨a, a0, ha⟩ := hf
  refine ⟨K * a ^ 3, by positivity, fun i hi => ((hK _ (hb i hi)).2.2.2 _).trans ?_⟩
  have e : K * a ^ 3 * h i ^ 3 = K * (a * h i ^ 1) ^ 3 := by ring
  rw [e]
  exact mul_le_mul_of_nonneg_left (pow_le_pow_left₀ (norm_nonneg _) (ha i hi) 3) K0

include h0 h1 in
/-- Taylor expansion of one step. -/
theorem step_expand (T : RK3c) (o2 : T.b2 * T.a21 + T.b3 * (T.a31 + T.a32) = 1 / 2)
    (o3 : T.b2 * T.a21 ^ 2 + T.b3 * (T.a31 + T.a32) ^ 2 = 1 / 3) (o4 : T.b3 * T.a32 * T.a21 = 1 / 6) :
    OS S h 4 fun i => T.step F (h i) (y i) - (y i + h i • F (y i) + (h i ^ 2 / 2) • A (y i) (F (y i)) +
      (h i ^ 3 / 6) • ((2 : ℝ) • B (y i) (F (y i)) (F (y i)) + A (y i) (A (y i) (F (y i))))) := by
  have f0 := hF.oF hb (h := h)
  have af := hF.oA hb f0
  have bff := hF.oB h0 hb f0 f0
  -- second stage
  have d2 : OS S h 1 fun i => h i • (T.a21 • F (y i)) := by
    have := (f0.smul T.a21).hpow h0 1
    simpa using this
  have r2 : OS S h 3 fun i => F (T.y2 F (h i) (y i)) - (F (y i) + (h i * T.a21) • A (y i) (F (y i)) +
      (h i * T.a21) ^ 2 • B (y i) (F (y i)) (F (y i))) := by
    refine (hF.oR hb d2).congr fun i hi => ?_
    rw [RK3c.y2]
    simp only [map_smul, LinearMap.smul_apply]
    module
  have r2' : OS S h 2 fun i => F (T.y2 F (h i) (y i)) - (F (y i) + (h i * T.a21) • A (y i) (F (y i))) := by
    refine ((r2.mono h0 h1 (by norm_num : 2 ≤ 3)).add ((bff.smul (T.a21 ^ 2)).hpow h0 2)).congr fun i hi => ?_
    module
  -- third stage
  have e3 : OS S h 3 fun i => h i • (T.a31 • F (y i) + T.a32 • F (T.y2 F (h i) (y i))) -
      ((h i * (T.a31 + T.a32)) • F (y i) + (h i ^ 2 * (T.a32 * T.a21)) • A (y i) (F (y i))) := by
    refine ((r2'.smul T.a32).hpow h0 1).congr fun i hi => ?_
    module
  have e3' : OS S h 2 fun i => h i • (T.a31 • F (y i) + T.a32 • F (T.y2 F (h i) (y i))) -
      (h i * (T.a31 + T.a32)) • F (y i) := by
    refine ((e3.mono h0 h1 (by norm_num : 2 ≤ 3)).add ((af.smul (T.a32 * T.a21)).hpow h0 2)).congr fun i hi => ?_
    module
  have g1 : OS S h 1 fun i => (h i * (T.a31 + T.a32)) • F (y i) := by
    refine ((f0.smul (T.a31 + T.a32)).hpow h0 1).congr fun i hi => ?_
    module
  have d3 : OS S h 1 fun i => h i • (T.a31 • F (y i) + T.a32 • F (T.y2 F (h i) (y i))) := by
    refine ((e3'.mono h0 h1 (by norm_num : 1 ≤ 2)).add g1).congr fun i hi => ?_
    module
  have r3 : OS S h 3 fun i => F (T.y3 F (h i) (y i)) - (F (y i) + (h i * (T.a31 + T.a32)) • A (y i) (F (y i)) +
      (h i ^ 2 * (T.a32 * T.a21)) • A (y i) (A (y i) (F (y i))) + (h i * (T.a31 + T.a32)) ^ 2 • B (y i) (F (y i)) (F (y i))) := by
    have q1 := hF.oR hb d3
    have q2 := hF.oA hb e3
    have q3 := hF.oB h0 hb e3' d3
    have q4 := hF.oB h0 hb g1 e3'
    refine (((q1.add q2).add (q3.mono h0 h1 (by norm_num : 3 ≤ 2 + 1))).add (q4.mono h0 h1 (by norm_num : 3 ≤ 1 + 2))).congr
      fun i hi => ?_
    rw [RK3c.y3]
    simp only [map_smul, map_sub, map_add, LinearMap.smul_apply, LinearMap.sub_apply, LinearMap.add_apply]
    module
  -- combination
  refine (((r2.smul T.b2).add (r3.smul T.b3)).hpow h0 1).congr fun i hi => ?_
  rw [RK3c.step]
  have sb : T.b1 = 1 - T.b2 - T.b3 := by linarith [T.sum]
  rw [sb]
  generalize F (T.y2 F (h i) (y i)) = k2
  generalize F (T.y3 F (h i) (y i)) = k3
  generalize hA1 : A (y i) (F (y i)) = u1
  generalize hB1 : B (y i) (F (y i)) (F (y i)) = u2
  generalize hA2 : A (y i) u1 = u3
  have c1 : (h i ^ 2 / 2 : ℝ) = h i ^ 2 * (T.b2 * T.a21 + T.b3 * (T.a31 + T.a32)) := by rw [o2]; ring
  have c2 : (h i ^ 3 / 6 : ℝ) • ((2 : ℝ) • u2 + u3) =
      (h i ^ 3 * (T.b2 * T.a21 ^ 2 + T.b3 * (T.a31 + T.a32) ^ 2)) • u2 + (h i ^ 3 * (T.b3 * T.a32 * T.a21)) • u3 := by
    rw [o3, o4]; module
  rw [c1, c2]
  module

end Cubic

/-- Start times and steps that stay in `[0, T]`. -/
def Steps (T : ℝ) : Set (ℝ × ℝ) := {q | 0 ≤ q.1 ∧ 0 ≤ q.2 ∧ q.2 ≤ 1 ∧ q.1 + q.2 ≤ T}

theorem os_of_deriv {T : ℝ} {f f' : ℝ × ℝ → E} {n : Nat} (f0 : ∀ t, f (t, 0) = 0)
    (hd : ∀ t h, (t, h) ∈ Steps T → ∀ s ∈ Set.Icc 0 h, HasDerivWithinAt (fun s => f (t, s)) (f' (t, s)) (Set.Icc 0 h) s)
    (hf : OS (Steps T) (fun q => q.2) n f') : OS (Steps T) (fun q => q.2) (n + 1) f := by
  obtain ⟨C, C0, hC⟩ := hf
  refine ⟨C, C0, fun q hq => ?_⟩
  obtain ⟨t, h⟩ := q
  obtain ⟨q1, q2, q3, q4⟩ := hq
  dsimp only at q1 q2 q3 q4
  have key := norm_image_sub_le_of_norm_deriv_le_segment' (f := fun s => f (t, s)) (f' := fun s => f' (t, s)) (C := C * h ^ n)
    (hd t h ⟨q1, q2, q3, q4⟩) (fun s hs => ?_) h (Set.right_mem_Icc.2 q2)
  · rw [f0, sub_zero, sub_zero] at key
    dsimp only
    rw [pow_succ, ← mul_assoc]
    exact key
  · have hs1 : (t, s) ∈ Steps T := ⟨q1, hs.1, by dsimp only; linarith [hs.2], by dsimp only; linarith [hs.2]⟩
    exact (hC _ hs1).trans (mul_le_mul_of_nonneg_left (pow_le_pow_left₀ hs.1 hs.2.le n) C0)

namespace Cubic
variable {F : E → E} {A : E → E →ₗ[ℝ] E} {B : E → E →ₗ[ℝ] E →ₗ[ℝ] E} (hF : Cubic F A B)
  {T : ℝ} {y : ℝ → E} {b : ℝ} (hb : ∀ t ∈ Set.Icc 0 T, ‖y t‖ ≤ b)
  (hy : ∀ t ∈ Set.Icc 0 T, HasDerivWithinAt y (F (y t)) (Set.Icc 0 T) t)
include hF hb hy

/-- Taylor expansion of the solution. -/
theorem sol_expand : OS (Steps T) (fun q => q.2) 4 fun q => y (q.1 + q.2) - (y q.1 + q.2 • F (y q.1) +
      (q.2 ^ 2 / 2) • A (y q.1) (F (y q.1)) +
      (q.2 ^ 3 / 6) • ((2 : ℝ) • B (y q.1) (F (y q.1)) (F (y q.1)) + A (y q.1) (A (y q.1) (F (y q.1))))) := by
  have h0 : ∀ q ∈ Steps T, 0 ≤ q.2 := fun q hq => hq.2.1
  have h1 : ∀ q ∈ Steps T, q.2 ≤ 1 := fun q hq => hq.2.2.1
  have hb1 : ∀ q ∈ Steps T, ‖y q.1‖ ≤ b := fun q hq => hb _ ⟨hq.1, by linarith [hq.2.1, hq.2.2.2]⟩
  have hb2 : ∀ q ∈ Steps T, ‖y (q.1 + q.2)‖ ≤ b := fun q hq => hb _ ⟨by linarith [hq.1, hq.2.1], hq.2.2.2⟩
  have f0 : OS (Steps T) (fun q => q.2) 0 fun q => F (y q.1) := hF.oF hb1
  have g0 : OS (Steps T) (fun q => q.2) 0 fun q => F (y (q.1 + q.2)) := hF.oF hb2
  have af := hF.oA hb1 f0
  have bff := hF.oB h0 hb1 f0 f0
  have shift : ∀ t h, (t, h) ∈ Steps T → ∀ s ∈ Set.Icc 0 h, HasDerivWithinAt (fun s => y (t + s)) (F (y (t + s))) (Set.Icc 0 h) s := by
    intro t h hq s hs
    have hin : t + s ∈ Set.Icc 0 T := ⟨by linarith [hq.1, hs.1], by have := hq.2.2.2; dsimp only at this; linarith [hs.2]⟩
    have := HasDerivWithinAt.scomp s (hy _ hin) ((hasDerivWithinAt_id s (Set.Icc 0 h)).const_add t)
      (fun x hx => ⟨by have := hq.1; show (0 : ℝ) ≤ t + x; dsimp only at this; linarith [hx.1], by
        have := hq.2.2.2; show t + x ≤ T; dsimp only at this; linarith [hx.2]⟩)
    rw [one_smul] at this
    exact this
  -- first difference
  have e0 : OS (Steps T) (fun q => q.2) 1 fun q => y (q.1 + q.2) - y q.1 :=
    os_of_deriv (fun t => by simp) (fun t h hq s hs => (shift t h hq s hs).sub_const (y t)) g0
  have rem : OS (Steps T) (fun q => q.2) 3 fun q => F (y (q.1 + q.2)) - F (y q.1) - A (y q.1) (y (q.1 + q.2) - y q.1) -
      B (y q.1) (y (q.1 + q.2) - y q.1) (y (q.1 + q.2) - y q.1) := by
    refine (hF.oR hb1 e0).congr fun q hq => ?_
    rw [add_sub_cancel]
  have ae0 := hF.oA hb1 e0
  have be0 := hF.oB h0 hb1 e0 e0
  have lin : ∀ (v : E) (h s : ℝ), HasDerivWithinAt (fun s : ℝ => s • v) v (Set.Icc 0 h) s := fun v h s => by
    have := (hasDerivWithinAt_id s (Set.Icc 0 h)).smul_const v
    simpa using this
  -- second difference
  have e1 : OS (Steps T) (fun q => q.2) 2 fun q => y (q.1 + q.2) - y q.1 - q.2 • F (y q.1) := by
    refine os_of_deriv (f' := fun q => F (y (q.1 + q.2)) - F (y q.1)) (fun t => by simp)
      (fun t h hq s hs => ((shift t h hq s hs).sub_const (y t)).fun_sub (lin (F (y t)) h s)) ?_
    refine (((rem.mono h0 h1 (by norm_num : 1 ≤ 3)).add ae0).add (be0.mono h0 h1 (by norm_num : 1 ≤ 1 + 1))).congr fun q hq => ?_
    module
  have ae1 := hF.oA hb1 e1
  -- third difference
  have quad : ∀ (v : E) (h s : ℝ), HasDerivWithinAt (fun s : ℝ => (s ^ 2 / 2) • v) (s • v) (Set.Icc 0 h) s := fun v h s => by
    have := (((hasDerivAt_pow 2 s).hasDerivWithinAt (s := Set.Icc 0 h)).div_const 2).smul_const v
    refine this.congr_deriv ?_
    congr 1
    push_cast
    ring
  have e2 : OS (Steps T) (fun q => q.2) 3 fun q => y (q.1 + q.2) - y q.1 - q.2 • F (y q.1) -
      (q.2 ^ 2 / 2) • A (y q.1) (F (y q.1)) := by
    refine os_of_deriv (f' := fun q => F (y (q.1 + q.2)) - F (y q.1) - q.2 • A (y q.1) (F (y q.1))) (fun t => by simp)
      (fun t h hq s hs => (((shift t h hq s hs).sub_const (y t)).fun_sub (lin (F (y t)) h s)).fun_sub (quad (A (y t) (F (y t))) h s)) ?_
    refine (((rem.mono h0 h1 (by norm_num : 2 ≤ 3)).add ae1).add be0).congr fun q hq => ?_
    simp only [map_sub, map_smul]
    module
  -- fourth difference
  have cub : ∀ (v : E) (h s : ℝ), HasDerivWithinAt (fun s : ℝ => (s ^ 3 / 6) • v) ((s ^ 2 / 2) • v) (Set.Icc 0 h) s := fun v h s => by
    have := (((hasDerivAt_pow 3 s).hasDerivWithinAt (s := Set.Icc 0 h)).div_const 6).smul_const v
    refine this.congr_deriv ?_
    congr 1
    push_cast
    ring
  have e3 : OS (Steps T) (fun q => q.2) 4 fun q => y (q.1 + q.2) - y q.1 - q.2 • F (y q.1) -
      (q.2 ^ 2 / 2) • A (y q.1) (F (y q.1)) -
      (q.2 ^ 3 / 6) • ((2 : ℝ) • B (y q.1) (F (y q.1)) (F (y q.1)) + A (y q.1) (A (y q.1) (F (y q.1)))) := by
    refine os_of_deriv (f' := fun q => F (y (q.1 + q.2)) - F (y q.1) - q.2 • A (y q.1) (F (y q.1)) -
        (q.2 ^ 2 / 2) • ((2 : ℝ) • B (y q.1) (F (y q.1)) (F (y q.1)) + A (y q.1) (A (y q.1) (F (y q.1))))) (fun t => by simp)
      (fun t h hq s hs => ((((shift t h hq s hs).sub_const (y t)).fun_sub (lin (F (y t)) h s)).fun_sub (quad (A (y t) (F (y t))) h s)).fun_sub (cub ((2 : ℝ) • B (y t) (F (y t)) (F (y t)) + A (y t) (A (y t) (F (y t)))) h s)) ?_
    have q1 := hF.oA hb1 e2
    have q2 := hF.oB h0 hb1 e1 e0
    have l1 : OS (Steps T) (fun q => q.2) 1 fun q => q.2 • F (y q.1) := by simpa using f0.hpow h0 1
    have q3 := hF.oB h0 hb1 l1 e1
    refine (((rem.add q1).add (q2.mono h0 h1 (by norm_num : 3 ≤ 2 + 1))).add (q3.mono h0 h1 (by norm_num : 3 ≤ 1 + 2))).congr
      fun q hq => ?_
    simp only [map_smul, map_sub, LinearMap.smul_apply, LinearMap.sub_apply]
    module
  exact e3.congr fun q hq => by module

end Cubic

end Madg
