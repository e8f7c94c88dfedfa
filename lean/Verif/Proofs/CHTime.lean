/-
Bounds, uniform in time, for the derivatives of smooth periodic solutions; truncation error of the scheme along them.
-/
import Verif.Spec.CHSol
import Verif.Proofs.Taylor
import Mathlib.Analysis.Calculus.MeanValue
import Mathlib.Analysis.Calculus.FDeriv.Prod

set_option linter.unusedVariables false

namespace Madg
open Spec

variable {d : Nat}

/-- Partial derivative in space of a function of time and space. -/
noncomputable def pdj (a : Fin d) (U : ℝ × (Fin d → ℝ) → ℝ) (q : ℝ × (Fin d → ℝ)) : ℝ := fderiv ℝ U q (0, Pi.single a 1)

/-- Time derivative of a function of time and space. -/
noncomputable def dtj (U : ℝ × (Fin d → ℝ) → ℝ) (q : ℝ × (Fin d → ℝ)) : ℝ := fderiv ℝ U q (1, 0)

theorem pdj_contDiff {n : ℕ} {U : ℝ × (Fin d → ℝ) → ℝ} (hU : ContDiff ℝ (n + 1 : ℕ) U) (a : Fin d) : ContDiff ℝ n (pdj a U) := by
  unfold pdj
  exact (hU.fderiv_right (m := n) (by norm_cast)).clm_apply contDiff_const

theorem dtj_contDiff {n : ℕ} {U : ℝ × (Fin d → ℝ) → ℝ} (hU : ContDiff ℝ (n + 1 : ℕ) U) : ContDiff ℝ n (dtj U) := by
  unfold dtj
  exact (hU.fderiv_right (m := n) (by norm_cast)).clm_apply contDiff_const

theorem slice_contDiff {n : ℕ} {U : ℝ × (Fin d → ℝ) → ℝ} (hU : ContDiff ℝ n U) (t : ℝ) : ContDiff ℝ n fun x => U (t, x) :=
  hU.comp (contDiff_const.prodMk contDiff_id)

theorem pd_slice {n : ℕ} {U : ℝ × (Fin d → ℝ) → ℝ} (hU : ContDiff ℝ (n + 1 : ℕ) U) (a : Fin d) (t : ℝ) :
    pd a (fun x => U (t, x)) = fun x => pdj a U (t, x) := by
  funext x
  have h : HasFDerivAt (fun x : Fin d → ℝ => (t, x)) (ContinuousLinearMap.inr ℝ ℝ (Fin d → ℝ)) x := hasFDerivAt_prodMk_right t x
  have := ((hU.differentiable (by norm_cast)) (t, x)).hasFDerivAt.comp x h
  unfold pd pdj
  have e : fderiv ℝ (fun x => U (t, x)) x = _ := this.fderiv
  rw [e]
  simp

theorem dt_slice {n : ℕ} {U : ℝ × (Fin d → ℝ) → ℝ} (hU : ContDiff ℝ (n + 1 : ℕ) U) (t : ℝ) (x : Fin d → ℝ) :
    HasDerivAt (fun s => U (s, x)) (dtj U (t, x)) t := by
  have h : HasDerivAt (fun s : ℝ => (s, x)) ((1 : ℝ), (0 : Fin d → ℝ)) t := (hasDerivAt_id t).prodMk (hasDerivAt_const t x)
  exact ((hU.differentiable (by norm_cast)) (t, x)).hasFDerivAt.comp_hasDerivAt t h

/-- Every point has an equivalent point in the box. -/
theorem box_reduce {L : Fin d → ℝ} (hL : ∀ a, 0 < L a) (x : Fin d → ℝ) :
    ∃ y ∈ Set.Icc (0 : Fin d → ℝ) L, ∀ u : (Fin d → ℝ) → ℝ, BoxPeriodic L u → u x = u y := by
  refine ⟨x + fun a => ((-⌊x a / L a⌋ : ℤ) : ℝ) * L a, ⟨fun a => ?_, fun a => ?_⟩, fun u hu => ?_⟩
  · have h1 := Int.floor_le (x a / L a)
    rw [le_div_iff₀ (hL a)] at h1
    simp; linarith
  · have h1 := Int.lt_floor_add_one (x a / L a)
    rw [div_lt_iff₀ (hL a)] at h1
    simp; linarith
  · have key : ∀ (v : Fin d → ℤ) (s : Finset (Fin d)), u (x + ∑ a ∈ s, Pi.single a (v a * L a)) = u x := by
      intro v s
      induction s using Finset.induction_on with
      | empty => simp
      | insert a s ha ih => rw [Finset.sum_insert ha, add_comm (Pi.single a _), ← add_assoc, hu.int, ih]
    have e : (fun a => ((-⌊x a / L a⌋ : ℤ) : ℝ) * L a) = ∑ a, (Pi.single a (((-⌊x a / L a⌋ : ℤ) : ℝ) * L a) : Fin d → ℝ) := by
      funext b; simp [Finset.sum_apply, Pi.single_apply]
    rw [e]
    exact (key (fun a => -⌊x a / L a⌋) _).symm

/-- A continuous function of time and space is bounded on a time interval and a box. -/
theorem box_bound (L : Fin d → ℝ) (T : ℝ) {U : ℝ × (Fin d → ℝ) → ℝ} (hU : Continuous U) :
    ∃ M, 0 ≤ M ∧ ∀ t, 0 ≤ t → t ≤ T → ∀ x ∈ Set.Icc (0 : Fin d → ℝ) L, |U (t, x)| ≤ M := by
  have hK : IsCompact (Set.Icc (0 : ℝ) T ×ˢ Set.Icc (0 : Fin d → ℝ) L) := isCompact_Icc.prod isCompact_Icc
  obtain ⟨M, hM⟩ := hK.exists_bound_of_continuousOn (f := U) hU.continuousOn
  refine ⟨max M 0, le_max_right _ _, fun t h0 h1 x hx => ?_⟩
  exact (hM (t, x) ⟨⟨h0, h1⟩, hx⟩).trans (le_max_left _ _)

/-- A function of time and space that is continuous and periodic in space is bounded on a time interval. -/
theorem slab_bound {L : Fin d → ℝ} (hL : ∀ a, 0 < L a) (T : ℝ) {U : ℝ × (Fin d → ℝ) → ℝ} (hU : Continuous U)
    (hp : ∀ t, 0 ≤ t → t ≤ T → BoxPeriodic L fun x => U (t, x)) :
    ∃ M, 0 ≤ M ∧ ∀ t, 0 ≤ t → t ≤ T → ∀ x, |U (t, x)| ≤ M := by
  obtain ⟨M, h0, hM⟩ := box_bound L T hU
  refine ⟨M, h0, fun t h1 h2 x => ?_⟩
  obtain ⟨y, hy, he⟩ := box_reduce hL x
  rw [he _ (hp t h1 h2)]
  exact hM t h1 h2 y hy

/-- Space derivative bounds, uniform in time. -/
theorem pd4_bound {L : Fin d → ℝ} (hL : ∀ a, 0 < L a) (T : ℝ) {U : ℝ × (Fin d → ℝ) → ℝ} (hU : ContDiff ℝ (4 : ℕ) U)
    (hp : ∀ t, 0 ≤ t → t ≤ T → BoxPeriodic L fun x => U (t, x)) :
    ∃ M, 0 ≤ M ∧ ∀ t, 0 ≤ t → t ≤ T → ∀ a x, |pd a (pd a (pd a (pd a fun x => U (t, x)))) x| ≤ M := by
  have h1 : ∀ a : Fin d, ∃ M, 0 ≤ M ∧ ∀ t, 0 ≤ t → t ≤ T → ∀ x, |pd a (pd a (pd a (pd a fun x => U (t, x)))) x| ≤ M := by
    intro a
    have c1 := pdj_contDiff (n := 3) hU a
    have c2 := pdj_contDiff (n := 2) c1 a
    have c3 := pdj_contDiff (n := 1) c2 a
    have c4 := pdj_contDiff (n := 0) c3 a
    have e : ∀ t, (pd a (pd a (pd a (pd a fun x => U (t, x))))) = fun x => pdj a (pdj a (pdj a (pdj a U))) (t, x) := fun t => by
      rw [pd_slice (n := 3) hU, pd_slice (n := 2) c1, pd_slice (n := 1) c2, pd_slice (n := 0) c3]
    obtain ⟨M, m0, hM⟩ := slab_bound hL T c4.continuous fun t h1 h2 => by
      rw [← e]
      exact ((((hp t h1 h2).pd a).pd a).pd a).pd a
    exact ⟨M, m0, fun t h1 h2 x => by rw [e]; exact hM t h1 h2 x⟩
  choose M m0 hM using h1
  exact ⟨∑ a, M a, Finset.sum_nonneg fun a _ => m0 a, fun t h1 h2 a x =>
    (hM a t h1 h2 x).trans (Finset.single_le_sum (f := M) (fun a _ => m0 a) (Finset.mem_univ a))⟩

theorem pd6_bound {L : Fin d → ℝ} (hL : ∀ a, 0 < L a) (T : ℝ) {U : ℝ × (Fin d → ℝ) → ℝ} (hU : ContDiff ℝ (6 : ℕ) U)
    (hp : ∀ t, 0 ≤ t → t ≤ T → BoxPeriodic L fun x => U (t, x)) :
    ∃ M, 0 ≤ M ∧ ∀ t, 0 ≤ t → t ≤ T → ∀ a b x, |pd b (pd b (pd b (pd b (pd a (pd a fun x => U (t, x)))))) x| ≤ M := by
  have h1 : ∀ a : Fin d, ∃ M, 0 ≤ M ∧ ∀ t, 0 ≤ t → t ≤ T → ∀ b x,
      |pd b (pd b (pd b (pd b (pd a (pd a fun x => U (t, x)))))) x| ≤ M := by
    intro a
    have c1 := pdj_contDiff (n := 5) hU a
    have c2 := pdj_contDiff (n := 4) c1 a
    have e : ∀ t, (pd a (pd a fun x => U (t, x))) = fun x => pdj a (pdj a U) (t, x) := fun t => by
      rw [pd_slice (n := 5) hU, pd_slice (n := 4) c1]
    obtain ⟨M, m0, hM⟩ := pd4_bound hL T c2 fun t h1 h2 => by
      rw [← e]
      exact ((hp t h1 h2).pd a).pd a
    exact ⟨M, m0, fun t h1 h2 b x => by rw [e]; exact hM t h1 h2 b x⟩
  choose M m0 hM using h1
  exact ⟨∑ a, M a, Finset.sum_nonneg fun a _ => m0 a, fun t h1 h2 a b x =>
    (hM a t h1 h2 b x).trans (Finset.single_le_sum (f := M) (fun a _ => m0 a) (Finset.mem_univ a))⟩

section
variable {p : CHParams ℝ} {L : Fin d → ℝ} (hL : ∀ a, 0 < L a) {T : ℝ} {u : ℝ → (Fin d → ℝ) → ℝ} (hu : CHSolution p L T u)
include hL hu

/-- A solution is bounded. -/
theorem sol_bound : ∃ b, 0 ≤ b ∧ ∀ t, 0 ≤ t → t ≤ T → ∀ x, |u t x| ≤ b :=
  slab_bound hL T hu.smooth.continuous hu.periodic

/-- Truncation error of the scheme along a solution. -/
theorem sol_trunc : ∃ C, 0 ≤ C ∧ ∀ t, 0 ≤ t → t ≤ T → ∀ h, 0 < h → ∀ x,
    |(-p.eps2 * dlap h (dlap h (u t)) x + dlap h (fun y => u t y ^ 3 - u t y) x - p.sigma * (u t x - p.m)) - chCont p (u t) x| ≤
      C * h ^ 2 := by
  obtain ⟨A, a0, hA⟩ := pd6_bound hL T hu.smooth hu.periodic
  have hw : ContDiff ℝ (4 : ℕ) fun q : ℝ × (Fin d → ℝ) => u q.1 q.2 ^ 3 - u q.1 q.2 :=
    ((hu.smooth.pow 3).sub hu.smooth).of_le (by norm_cast)
  obtain ⟨B, b0, hB⟩ := pd4_bound hL T hw fun t h1 h2 a x => by
    simp only [hu.periodic t h1 h2 a x]
  refine ⟨|p.eps2| * ((d : ℝ) ^ 2 * (A / 6)) + d * (B / 12), by positivity, fun t h1 h2 h hh x => ?_⟩
  exact scheme_error_of p (slice_contDiff hu.smooth t) (hA t h1 h2) (hB t h1 h2) hh x

/-- The time derivative of a solution is Lipschitz in time. -/
theorem sol_time : ∃ M, 0 ≤ M ∧ (∀ t s, 0 ≤ t → t ≤ s → s ≤ T → ∀ x, |chCont p (u s) x - chCont p (u t) x| ≤ M * (s - t)) ∧
    ∀ t s, 0 ≤ t → t ≤ s → s ≤ T → ∀ x, |u s x - u t x - (s - t) * chCont p (u t) x| ≤ M * (s - t) ^ 2 := by
  set U : ℝ × (Fin d → ℝ) → ℝ := fun q => u q.1 q.2 with hUdef
  have hU : ContDiff ℝ (6 : ℕ) U := hu.smooth
  have c1 := dtj_contDiff (n := 5) hU
  have c2 := dtj_contDiff (n := 4) c1
  obtain ⟨M, m0, hM⟩ := box_bound L T c2.continuous
  have e1 : ∀ t, 0 ≤ t → t ≤ T → ∀ x, dtj U (t, x) = chCont p (u t) x := fun t h1 h2 x =>
    (dt_slice (n := 5) hU t x).unique (hu.eqn t h1 h2 x)
  have lapP : ∀ {w : (Fin d → ℝ) → ℝ}, BoxPeriodic L w → BoxPeriodic L (laplace w) := fun hw b x => by
    unfold laplace
    exact Finset.sum_congr rfl fun a _ => ((hw.pd a).pd a) b x
  have per : ∀ t, 0 ≤ t → t ≤ T → BoxPeriodic L (chCont p (u t)) := fun t h1 h2 a x => by
    have h := hu.periodic t h1 h2
    have h3 : BoxPeriodic L fun y => u t y ^ 3 - u t y := fun a x => by simp only [h a x]
    unfold chCont
    rw [lapP (lapP h) a x, lapP h3 a x, h a x]
  have lipB : ∀ t s, 0 ≤ t → t ≤ s → s ≤ T → ∀ x ∈ Set.Icc (0 : Fin d → ℝ) L, |dtj U (s, x) - dtj U (t, x)| ≤ M * (s - t) := by
    intro t s h1 h2 h3 x hx
    have := (convex_Icc t s).norm_image_sub_le_of_norm_hasDerivWithin_le (f := fun r => dtj U (r, x))
      (f' := fun r => dtj (dtj U) (r, x)) (C := M) (fun r _ => (dt_slice (n := 4) c1 r x).hasDerivWithinAt)
      (fun r hr => hM r (h1.trans hr.1) (hr.2.trans h3) x hx) (Set.left_mem_Icc.2 h2) (Set.right_mem_Icc.2 h2)
    rwa [Real.norm_eq_abs, Real.norm_eq_abs, abs_of_nonneg (by linarith : 0 ≤ s - t)] at this
  have lip : ∀ t s, 0 ≤ t → t ≤ s → s ≤ T → ∀ x, |chCont p (u s) x - chCont p (u t) x| ≤ M * (s - t) := by
    intro t s h1 h2 h3 x
    obtain ⟨y, hy, he⟩ := box_reduce hL x
    rw [he _ (per s (h1.trans h2) h3), he _ (per t h1 (h2.trans h3)), ← e1 s (h1.trans h2) h3, ← e1 t h1 (h2.trans h3)]
    exact lipB t s h1 h2 h3 y hy
  refine ⟨M, m0, lip, fun t s h1 h2 h3 x => ?_⟩
  have := (convex_Icc t s).norm_image_sub_le_of_norm_hasDerivWithin_le (f := fun r => u r x - r * chCont p (u t) x)
    (f' := fun r => chCont p (u r) x - chCont p (u t) x) (C := M * (s - t))
    (fun r hr => by
      have k1 := hu.eqn r (h1.trans hr.1) (hr.2.trans h3) x
      have k2 := (hasDerivAt_id r).mul_const (chCont p (u t) x)
      have := k1.fun_sub k2
      simp only [one_mul] at this
      exact this.hasDerivWithinAt)
    (fun r hr => by
      rw [Real.norm_eq_abs]
      refine (lip t r h1 hr.1 (hr.2.trans h3) x).trans ?_
      exact mul_le_mul_of_nonneg_left (by linarith [hr.2]) m0)
    (Set.left_mem_Icc.2 h2) (Set.right_mem_Icc.2 h2)
  rw [Real.norm_eq_abs, Real.norm_eq_abs, abs_of_nonneg (by linarith : 0 ≤ s - t)] at this
  have e : u s x - u t x - (s - t) * chCont p (u t) x = u s x - s * chCont p (u t) x - (u t x - t * chCont p (u t) x) := by ring
  rw [e]
  exact this.trans (le_of_eq (by ring))

end
end Madg
