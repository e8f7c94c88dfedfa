/-
The convergence theorem on functions over a finite set of cells with the sum inner product.
-/
import Verif.Proofs.CHConv
import Verif.Spec.RK
import Verif.Proofs.RK
import Mathlib.Analysis.InnerProductSpace.Basic
import Mathlib.Algebra.Order.BigOperators.Ring.Finset

set_option linter.unusedVariables false

namespace Madg
open Spec

/-- Root of the sum of squares over a set of cells. -/
noncomputable def cellNorm {C : Type} (S : Finset C) (u : C → ℝ) : ℝ := Real.sqrt (∑ c ∈ S, u c ^ 2)

section
variable {C : Type} (S : Finset C)

/-- Sum inner product over a set of cells. -/
@[reducible] noncomputable def cellCore : PreInnerProductSpace.Core ℝ (C → ℝ) where
  inner u v := ∑ c ∈ S, u c * v c
  conj_inner_symm u v := by
    simp only [conj_trivial]
    exact Finset.sum_congr rfl fun c _ => mul_comm _ _
  re_inner_nonneg u := by
    simp only [RCLike.re_to_real]
    exact Finset.sum_nonneg fun c _ => mul_self_nonneg _
  add_left u v w := by
    rw [← Finset.sum_add_distrib]
    exact Finset.sum_congr rfl fun c _ => by simp only [Pi.add_apply]; ring
  smul_left u v r := by
    rw [Finset.mul_sum]
    exact Finset.sum_congr rfl fun c _ => by simp only [Pi.smul_apply, smul_eq_mul, conj_trivial]; ring

theorem cellNorm_le {u : C → ℝ} {b : ℝ} (hb : 0 ≤ b) (h : ∀ c ∈ S, |u c| ≤ b) : cellNorm S u ≤ Real.sqrt S.card * b := by
  unfold cellNorm
  rw [show Real.sqrt S.card * b = Real.sqrt (S.card * b ^ 2) by
    rw [Real.sqrt_mul (Nat.cast_nonneg _), Real.sqrt_sq hb]]
  refine Real.sqrt_le_sqrt ?_
  refine (Finset.sum_le_sum fun c hc => ?_).trans (le_of_eq (by rw [Finset.sum_const, nsmul_eq_mul]))
  rw [← sq_abs]
  exact pow_le_pow_left₀ (abs_nonneg _) (h c hc) 2

theorem le_cellNorm (u : C → ℝ) {c : C} (hc : c ∈ S) : |u c| ≤ cellNorm S u := by
  unfold cellNorm
  rw [← Real.sqrt_sq_eq_abs]
  exact Real.sqrt_le_sqrt (Finset.single_le_sum (f := fun c => u c ^ 2) (fun c _ => sq_nonneg _) hc)

theorem cellNorm_mono {u v : C → ℝ} {k : ℝ} (hk : 0 ≤ k) (h : ∀ c ∈ S, |u c| ≤ k * |v c|) : cellNorm S u ≤ k * cellNorm S v := by
  unfold cellNorm
  rw [show k * Real.sqrt (∑ c ∈ S, v c ^ 2) = Real.sqrt (∑ c ∈ S, (k * v c) ^ 2) by
    simp only [mul_pow]
    rw [← Finset.mul_sum, Real.sqrt_mul (sq_nonneg _), Real.sqrt_sq hk]]
  refine Real.sqrt_le_sqrt (Finset.sum_le_sum fun c hc => ?_)
  rw [← sq_abs, ← sq_abs (k * v c), abs_mul, abs_of_nonneg hk]
  exact pow_le_pow_left₀ (abs_nonneg _) (h c hc) 2

theorem cubic_lip {a b R : ℝ} (ha : |a| ≤ R) (hb : |b| ≤ R) : |(a ^ 3 - a) - (b ^ 3 - b)| ≤ (3 * R ^ 2 + 1) * |a - b| := by
  have e : (a ^ 3 - a) - (b ^ 3 - b) = (a ^ 2 + a * b + b ^ 2 - 1) * (a - b) := by ring
  rw [e, abs_mul]
  refine mul_le_mul_of_nonneg_right ?_ (abs_nonneg _)
  have ha2 : a ^ 2 ≤ R ^ 2 := sq_le_sq' (by linarith [(abs_le.1 ha).1]) (abs_le.1 ha).2
  have hb2 : b ^ 2 ≤ R ^ 2 := sq_le_sq' (by linarith [(abs_le.1 hb).1]) (abs_le.1 hb).2
  rw [abs_le]
  constructor <;> nlinarith [sq_nonneg (a + b), sq_nonneg (a - b)]

/-- Convergence of a run on functions over a set of cells. -/
theorem cell_run_error (T : RK3c) (lap : (C → ℝ) →ₗ[ℝ] (C → ℝ)) (R e2 sg m0 : ℝ) (he : 0 < e2) (hR : 0 ≤ R)
    (sym : ∀ u v : C → ℝ, ∑ c ∈ S, lap u c * v c = ∑ c ∈ S, u c * lap v c)
    (bnd : ∀ u : C → ℝ, cellNorm S (lap u) ≤ R * cellNorm S u)
    (F : (C → ℝ) → C → ℝ)
    (hFd : ∀ u, F u = lap (fun c => u c ^ 3 - u c) - e2 • lap (lap u) - sg • (u - fun _ => m0))
    {w w' : ℝ → C → ℝ} {Tm ρ0 M δ b Λ : ℝ} (hρ0 : 0 ≤ ρ0) (hM : 0 ≤ M) (hδ : 0 ≤ δ)
    (hF : ∀ t, 0 ≤ t → t ≤ Tm → ∀ c ∈ S, |F (w t) c - w' t c| ≤ ρ0)
    (hw : ∀ t s, 0 ≤ t → t ≤ s → s ≤ Tm → ∀ c ∈ S, |w s c - w t c - (s - t) * w' t c| ≤ M * (s - t) ^ 2)
    (hw' : ∀ t s, 0 ≤ t → t ≤ s → s ≤ Tm → ∀ c ∈ S, |w' s c - w' t c| ≤ M * (s - t))
    (hb : ∀ t, 0 ≤ t → t ≤ Tm → ∀ c ∈ S, |w t c| ≤ b) (hΛ : Λ = 3 * (b + 1) ^ 2 + 1)
    (hr : 3 * (δ * (Real.sqrt S.card * (ρ0 + M * δ))) ≤ 1 / 2)
    (dts : List ℝ) (t0 : ℝ) (y : C → ℝ)
    (hdts : ∀ dt ∈ dts, (0 ≤ dt ∧ dt * (e2 * R ^ 2) ≤ 1 / 32 ∧ dt * (Λ ^ 2 / e2 + |sg|) ≤ 1 / 32) ∧ dt ≤ δ)
    (ht0 : 0 ≤ t0) (hT : t0 + dts.sum ≤ Tm) (E : ℝ)
    (hE : E = Real.exp (3 / 2 * (Λ ^ 2 / e2 + |sg|) * dts.sum) *
      (cellNorm S (y - w t0) + 3 * (Real.sqrt S.card * (ρ0 + M * δ)) * dts.sum)) (hE4 : E ≤ 1 / 4) :
    cellNorm S (T.run F dts y - w (t0 + dts.sum)) ≤ E := by
  let i0 := @InnerProductSpace.Core.toSeminormedAddCommGroup ℝ (C → ℝ) _ _ _ (cellCore S)
  let i1 : InnerProductSpace ℝ (C → ℝ) := InnerProductSpace.ofCore (cellCore S)
  have nrm : ∀ u : C → ℝ, ‖u‖ = cellNorm S u := fun u => by
    have : ‖u‖ = Real.sqrt (∑ c ∈ S, u c * u c) := rfl
    rw [this]; unfold cellNorm
    congr 1
    exact Finset.sum_congr rfl fun c _ => by ring
  let O : CHOp (C → ℝ) := { lap := lap, phi := fun u c => u c ^ 3 - u c, m0 := fun _ => m0, e2 := e2, sg := sg, R := R, e2pos := he, Rnn := hR, sym := sym, bnd := fun u => by rw [nrm, nrm]; exact bnd u }
  have hFO : F = O.F := funext hFd
  have q0 : 0 ≤ Real.sqrt S.card := Real.sqrt_nonneg _
  rw [hFO] at hF ⊢
  have eρ : Real.sqrt S.card * ρ0 + Real.sqrt S.card * M * δ = Real.sqrt S.card * (ρ0 + M * δ) := by ring
  have key := T.run_error (O := O) (Λ := Λ) (w := w) (w' := w') (Tm := Tm) (ρ0 := Real.sqrt S.card * ρ0)
    (M := Real.sqrt S.card * M) (δ := δ) (r := 1) (by positivity) (by positivity) hδ
    (fun t h1 h2 => by rw [nrm]; exact cellNorm_le S hρ0 (hF t h1 h2))
    (fun t s h1 h2 h3 => by
      rw [nrm, mul_assoc]; exact cellNorm_le S (by positivity) (hw t s h1 h2 h3))
    (fun t s h1 h2 h3 => by
      rw [nrm, mul_assoc]; exact cellNorm_le S (mul_nonneg hM (by linarith)) (hw' t s h1 h2 h3))
    (fun x => ∀ c ∈ S, |x c| ≤ b + 1)
    (fun x y hx hy => by
      rw [nrm, nrm]
      refine cellNorm_mono S (by rw [hΛ]; positivity) fun c hc => ?_
      rw [hΛ]
      exact cubic_lip (hx c hc) (hy c hc))
    (fun t h1 h2 x hx c hc => by
      rw [nrm] at hx
      have h3 := (le_cellNorm S (x - w t) hc).trans hx
      have h4 := hb t h1 h2 c hc
      have : |x c| ≤ |x c - w t c| + |w t c| := by
        have := abs_add_le (x c - w t c) (w t c); rwa [sub_add_cancel] at this
      have e : (x - w t) c = x c - w t c := rfl
      rw [e] at h3
      linarith)
    (by rw [eρ]; exact hr)
    dts t0 y (fun dt h => ⟨⟨(hdts dt h).1.1, by rw [hΛ]; positivity, (hdts dt h).1.2.1, (hdts dt h).1.2.2⟩, (hdts dt h).2⟩)
    ht0 hT (by rw [nrm, eρ]; exact (le_of_eq hE.symm).trans hE4)
  rw [nrm, nrm, eρ] at key
  exact key.trans (le_of_eq hE.symm)

end

/-- The two integrators in the form of the convergence theorem. -/
noncomputable def ssp3c : RK3c where
  a21 := 1
  a31 := 1 / 4
  a32 := 1 / 4
  b1 := 1 / 6
  b2 := 1 / 6
  b3 := 2 / 3
  h21 := by norm_num
  h31 := by norm_num
  h32 := by norm_num
  k1 := by norm_num
  k2 := by norm_num
  k3 := by norm_num
  c2 := by norm_num
  c3 := by norm_num
  sum := by norm_num

/-- Bogacki–Shampine weights. -/
noncomputable def bs3c : RK3c where
  a21 := 1 / 2
  a31 := 0
  a32 := 3 / 4
  b1 := 2 / 9
  b2 := 1 / 3
  b3 := 4 / 9
  h21 := by norm_num
  h31 := by norm_num
  h32 := by norm_num
  k1 := by norm_num
  k2 := by norm_num
  k3 := by norm_num
  c2 := by norm_num
  c3 := by norm_num
  sum := by norm_num

theorem ssp3c_run {C : Type} (F : ℝ → (C → ℝ) → C → ℝ) (hF : ∀ t s, F t = F s) (dts : List ℝ) (t : ℝ) (y : C → ℝ) :
    (ssprk3 : Tableau ℝ).run F t dts y = ssp3c.run (F 0) dts y := by
  induction dts generalizing t y with
  | nil => rfl
  | cons dt dts ih =>
    rw [Tableau.run, RK3c.run, ih]
    congr 1
    rw [Tableau.step, ssprk3_slope, ssprk3_stage0, ssprk3_stage1, ssprk3_stage2]
    simp only [RK3c.step, RK3c.y2, RK3c.y3, ssp3c, hF _ 0, mul_one, one_smul]

theorem bs3c_run {C : Type} (F : ℝ → (C → ℝ) → C → ℝ) (hF : ∀ t s, F t = F s) (dts : List ℝ) (t : ℝ) (y : C → ℝ) :
    (bs23 : Tableau ℝ).run F t dts y = bs3c.run (F 0) dts y := by
  induction dts generalizing t y with
  | nil => rfl
  | cons dt dts ih =>
    rw [Tableau.run, RK3c.run, ih]
    congr 1
    rw [Tableau.step, bs23_slope, bs23_stage0, bs23_stage1, bs23_stage2]
    simp only [RK3c.step, RK3c.y2, RK3c.y3, bs3c, hF _ 0, mul_smul]

end Madg
