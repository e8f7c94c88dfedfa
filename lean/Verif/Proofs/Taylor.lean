/-
Truncation error of the second difference and of the discrete Laplacian and biharmonic operators.
-/
import Verif.Spec.Taylor
import Mathlib.Analysis.Calculus.MeanValue
import Mathlib.Analysis.Calculus.Deriv.Pow
import Mathlib.Analysis.Calculus.Deriv.Shift
import Mathlib.Analysis.Calculus.Deriv.Add
import Mathlib.Analysis.Calculus.Deriv.Mul
import Mathlib.Analysis.Calculus.Deriv.Prod
import Mathlib.Topology.MetricSpace.ProperSpace.Real

set_option linter.unusedSectionVars false

namespace Madg
open Spec

/-! ### One variable -/

/-- Integrating a bound on the derivative. -/
theorem int_bound {g g' : ℝ → ℝ} {n : ℕ} {C : ℝ} (hg : ∀ t, HasDerivAt g (g' t) t) (h0 : g 0 = 0)
    (hb : ∀ t, 0 ≤ t → |g' t| ≤ C * t ^ n) {t : ℝ} (ht : 0 ≤ t) : |g t| ≤ C / (n + 1) * t ^ (n + 1) := by
  have h := image_norm_le_of_norm_deriv_right_le_deriv_boundary (f := g) (f' := g') (a := 0) (b := t)
    (B := fun t => C / (n + 1) * t ^ (n + 1)) (B' := fun t => C * t ^ n)
    (fun x _ => (hg x).continuousAt.continuousWithinAt) (fun x _ => (hg x).hasDerivWithinAt) (by simp [h0])
    (fun x => by
      have h := ((hasDerivAt_pow (n + 1) x).const_mul (C / (n + 1)))
      have e : C / (n + 1) * (((n + 1 : ℕ) : ℝ) * x ^ (n + 1 - 1)) = C * x ^ n := by
        have : ((n : ℝ) + 1) ≠ 0 := by positivity
        push_cast; field_simp
      rw [e] at h; exact h)
    (fun x hx => by rw [Real.norm_eq_abs]; exact hb x hx.1)
  simpa [Real.norm_eq_abs] using h (x := t) ⟨ht, le_rfl⟩

theorem hasDeriv_even {f f' : ℝ → ℝ} (h : ∀ t, HasDerivAt f (f' t) t) (x t : ℝ) :
    HasDerivAt (fun t => f (x + t) + f (x - t)) (f' (x + t) - f' (x - t)) t := by
  have a := (h (x + t)).comp_const_add x t
  have b := (h (x - t)).comp_const_sub x t
  simpa [sub_eq_add_neg] using a.fun_add b

theorem hasDeriv_odd {f f' : ℝ → ℝ} (h : ∀ t, HasDerivAt f (f' t) t) (x t : ℝ) :
    HasDerivAt (fun t => f (x + t) - f (x - t)) (f' (x + t) + f' (x - t)) t := by
  have a := (h (x + t)).comp_const_add x t
  have b := (h (x - t)).comp_const_sub x t
  simpa using a.fun_sub b

section
variable {f f1 f2 f3 f4 : ℝ → ℝ} (h1 : ∀ t, HasDerivAt f (f1 t) t) (h2 : ∀ t, HasDerivAt f1 (f2 t) t)
include h1 h2

/-- The second difference is at most `h²` times the largest second derivative. -/
theorem second_diff_le {M : ℝ} (hM : ∀ t, |f2 t| ≤ M) (x : ℝ) {h : ℝ} (hh : 0 ≤ h) :
    |f (x + h) - 2 * f x + f (x - h)| ≤ M * h ^ 2 := by
  have a1 : ∀ t, HasDerivAt (fun t => f (x + t) + f (x - t) - 2 * f x) (f1 (x + t) - f1 (x - t)) t := fun t =>
    (hasDeriv_even h1 x t).sub_const _
  have a2 : ∀ t, HasDerivAt (fun t => f1 (x + t) - f1 (x - t)) (f2 (x + t) + f2 (x - t)) t := hasDeriv_odd h2 x
  have b2 : ∀ t, 0 ≤ t → |f2 (x + t) + f2 (x - t)| ≤ 2 * M * t ^ 0 := fun t _ => by
    refine (abs_add_le _ _).trans ?_
    have := hM (x + t); have := hM (x - t)
    rw [pow_zero]; linarith
  have b1 : ∀ t, 0 ≤ t → |f1 (x + t) - f1 (x - t)| ≤ _ := fun t ht => int_bound a2 (by simp) b2 ht
  have b0 := int_bound a1 (by simp; ring) b1 hh
  rw [show f (x + h) - 2 * f x + f (x - h) = f (x + h) + f (x - h) - 2 * f x by ring]
  refine b0.trans (le_of_eq ?_)
  push_cast; ring

/-- Truncation error of the second difference. -/
theorem second_diff_error (h3 : ∀ t, HasDerivAt f2 (f3 t) t) (h4 : ∀ t, HasDerivAt f3 (f4 t) t) {M : ℝ}
    (hM : ∀ t, |f4 t| ≤ M) (x : ℝ) {h : ℝ} (hh : 0 ≤ h) :
    |f (x + h) - 2 * f x + f (x - h) - h ^ 2 * f2 x| ≤ M / 12 * h ^ 4 := by
  have a1 : ∀ t, HasDerivAt (fun t => f (x + t) + f (x - t) - 2 * f x - t ^ 2 * f2 x)
      (f1 (x + t) - f1 (x - t) - 2 * t * f2 x) t := fun t => by
    have q := (hasDerivAt_pow 2 t).mul_const (f2 x)
    have := ((hasDeriv_even h1 x t).sub_const (2 * f x)).fun_sub q
    simpa using this
  have a2 : ∀ t, HasDerivAt (fun t => f1 (x + t) - f1 (x - t) - 2 * t * f2 x) (f2 (x + t) + f2 (x - t) - 2 * f2 x) t :=
    fun t => by
      have q := (((hasDerivAt_id t).const_mul 2).mul_const (f2 x))
      have := (hasDeriv_odd h2 x t).fun_sub q
      simpa using this
  have a3 : ∀ t, HasDerivAt (fun t => f2 (x + t) + f2 (x - t) - 2 * f2 x) (f3 (x + t) - f3 (x - t)) t := fun t =>
    (hasDeriv_even h3 x t).sub_const _
  have a4 : ∀ t, HasDerivAt (fun t => f3 (x + t) - f3 (x - t)) (f4 (x + t) + f4 (x - t)) t := hasDeriv_odd h4 x
  have b4 : ∀ t, 0 ≤ t → |f4 (x + t) + f4 (x - t)| ≤ 2 * M * t ^ 0 := fun t _ => by
    refine (abs_add_le _ _).trans ?_
    have := hM (x + t); have := hM (x - t)
    rw [pow_zero]; linarith
  have b3 : ∀ t, 0 ≤ t → |f3 (x + t) - f3 (x - t)| ≤ _ := fun t ht => int_bound a4 (by simp) b4 ht
  have b2 : ∀ t, 0 ≤ t → |f2 (x + t) + f2 (x - t) - 2 * f2 x| ≤ _ := fun t ht => int_bound a3 (by simp; ring) b3 ht
  have b1 : ∀ t, 0 ≤ t → |f1 (x + t) - f1 (x - t) - 2 * t * f2 x| ≤ _ := fun t ht => int_bound a2 (by simp) b2 ht
  have b0 := int_bound a1 (by simp; ring) b1 hh
  rw [show f (x + h) - 2 * f x + f (x - h) - h ^ 2 * f2 x = f (x + h) + f (x - h) - 2 * f x - h ^ 2 * f2 x by ring]
  refine b0.trans (le_of_eq ?_)
  push_cast; ring

end

/-! ### Several variables -/

section
variable {d : Nat}

/-- Discrete Laplacian of a function on `ℝ^d` with spacing `h`. -/
noncomputable def dlap (h : ℝ) (u : (Fin d → ℝ) → ℝ) (x : Fin d → ℝ) : ℝ :=
  (∑ a, (u (x + Pi.single a h) - 2 * u x + u (x - Pi.single a h))) / h ^ 2

theorem pd_contDiff {n : ℕ} {u : (Fin d → ℝ) → ℝ} (hu : ContDiff ℝ (n + 1 : ℕ) u) (a : Fin d) : ContDiff ℝ n (pd a u) := by
  unfold pd
  exact (hu.fderiv_right (m := n) (by norm_cast)).clm_apply contDiff_const

theorem pd_line {u : (Fin d → ℝ) → ℝ} (hu : Differentiable ℝ u) (a : Fin d) (x : Fin d → ℝ) (t : ℝ) :
    HasDerivAt (fun t => u (x + Pi.single a t)) (pd a u (x + Pi.single a t)) t := by
  have h1 : HasDerivAt (fun t : ℝ => x + (Pi.single a t : Fin d → ℝ)) (Pi.single a 1) t := by
    have h : HasDerivAt (fun t : ℝ => (Pi.single a t : Fin d → ℝ)) (Pi.single a 1) t := by
      rw [hasDerivAt_pi]
      intro i
      by_cases hi : i = a
      · subst hi; simpa using hasDerivAt_id' t
      · simpa [Pi.single_eq_of_ne hi] using hasDerivAt_const t (0 : ℝ)
    exact h.const_add x
  exact (hu _).hasFDerivAt.comp_hasDerivAt t h1

theorem contDiff_diff {n : ℕ} {u : (Fin d → ℝ) → ℝ} (hu : ContDiff ℝ (n + 1 : ℕ) u) : Differentiable ℝ u :=
  hu.differentiable (by norm_cast)

theorem pd_comm {u : (Fin d → ℝ) → ℝ} (hu : ContDiff ℝ (2 : ℕ) u) (a b : Fin d) : pd a (pd b u) = pd b (pd a u) := by
  funext x
  have hs := hu.contDiffAt.isSymmSndFDerivAt (x := x) (by simp)
  have hd : DifferentiableAt ℝ (fderiv ℝ u) x :=
    ((hu.fderiv_right (m := 1) (by norm_cast)).differentiable (by norm_num)) x
  have key : ∀ a b : Fin d, pd a (pd b u) x = fderiv ℝ (fderiv ℝ u) x (Pi.single a 1) (Pi.single b 1) := by
    intro a b
    unfold pd
    rw [fderiv_clm_apply hd (differentiableAt_const _)]
    simp
  rw [key, key]
  exact hs _ _

theorem pd_shift {u : (Fin d → ℝ) → ℝ} (a : Fin d) (v x : Fin d → ℝ) : pd a (fun y => u (y + v)) x = pd a u (x + v) := by
  unfold pd
  rw [fderiv_comp_add_right]

theorem pd_add {u w : (Fin d → ℝ) → ℝ} (hu : Differentiable ℝ u) (hw : Differentiable ℝ w) (a : Fin d) (x : Fin d → ℝ) :
    pd a (fun y => u y + w y) x = pd a u x + pd a w x := by
  unfold pd; rw [fderiv_fun_add (hu x) (hw x)]; rfl

theorem pd_sub {u w : (Fin d → ℝ) → ℝ} (hu : Differentiable ℝ u) (hw : Differentiable ℝ w) (a : Fin d) (x : Fin d → ℝ) :
    pd a (fun y => u y - w y) x = pd a u x - pd a w x := by
  unfold pd; rw [fderiv_fun_sub (hu x) (hw x)]; rfl

theorem pd_const_mul {u : (Fin d → ℝ) → ℝ} (hu : Differentiable ℝ u) (c : ℝ) (a : Fin d) (x : Fin d → ℝ) :
    pd a (fun y => c * u y) x = c * pd a u x := by
  unfold pd; rw [fderiv_const_mul (hu x)]; rfl

theorem pd_sum {ι : Type} (s : Finset ι) {u : ι → (Fin d → ℝ) → ℝ} (hu : ∀ i ∈ s, Differentiable ℝ (u i)) (a : Fin d)
    (x : Fin d → ℝ) : pd a (fun y => ∑ i ∈ s, u i y) x = ∑ i ∈ s, pd a (u i) x := by
  unfold pd; rw [fderiv_fun_sum (fun i hi => hu i hi x)]; simp

theorem dlap_contDiff {n : ℕ} {u : (Fin d → ℝ) → ℝ} (hu : ContDiff ℝ n u) (h : ℝ) : ContDiff ℝ n (dlap h u) := by
  unfold dlap
  refine ContDiff.div_const ?_ _
  refine ContDiff.sum fun a _ => ?_
  refine ContDiff.add (ContDiff.sub ?_ (contDiff_const.mul hu)) ?_
  · exact hu.comp (contDiff_id.add contDiff_const)
  · exact hu.comp (contDiff_id.sub contDiff_const)

theorem laplace_contDiff {n : ℕ} {u : (Fin d → ℝ) → ℝ} (hu : ContDiff ℝ (n + 2 : ℕ) u) : ContDiff ℝ n (laplace u) := by
  unfold laplace
  exact ContDiff.sum fun a _ => pd_contDiff (pd_contDiff hu a) a

theorem pd_dlap {u : (Fin d → ℝ) → ℝ} (hu : Differentiable ℝ u) (h : ℝ) (a : Fin d) :
    pd a (dlap h u) = dlap h (pd a u) := by
  funext x
  have s1 : ∀ v : Fin d → ℝ, Differentiable ℝ (fun y => u (y + v)) := fun v => hu.comp (differentiable_id.add_const v)
  have s2 : ∀ v : Fin d → ℝ, Differentiable ℝ (fun y => u (y - v)) := fun v => hu.comp (differentiable_id.sub_const v)
  have m2 : Differentiable ℝ fun y => 2 * u y := hu.const_mul 2
  have e : dlap h u = fun x => (h ^ 2)⁻¹ * ∑ b, ((u (x + Pi.single b h) - 2 * u x) + u (x - Pi.single b h)) := by
    funext x; unfold dlap; rw [div_eq_inv_mul]
  rw [e, pd_const_mul (Differentiable.fun_sum fun b _ => ((s1 _).fun_sub m2).fun_add (s2 _)),
    pd_sum _ (fun b _ => ((s1 _).fun_sub m2).fun_add (s2 _))]
  unfold dlap
  rw [div_eq_inv_mul]
  congr 1
  refine Finset.sum_congr rfl fun b _ => ?_
  rw [pd_add ((s1 _).fun_sub m2) (s2 _), pd_sub (s1 _) m2, pd_const_mul hu, pd_shift]
  congr 1
  have := pd_shift (u := u) a (-Pi.single b h) x
  simpa [sub_eq_add_neg] using this

theorem pd_laplace {u : (Fin d → ℝ) → ℝ} (hu : ContDiff ℝ (3 : ℕ) u) (a : Fin d) :
    pd a (laplace u) = laplace (pd a u) := by
  funext x
  unfold laplace
  rw [pd_sum _ fun b _ => contDiff_diff (n := 0) (pd_contDiff (n := 1) (pd_contDiff (n := 2) hu b) b)]
  refine Finset.sum_congr rfl fun b _ => ?_
  rw [pd_comm (pd_contDiff (n := 2) hu b) a b, pd_comm (hu.of_le (by norm_cast)) a b]

/-- Truncation error of the discrete Laplacian. -/
theorem dlap_error {u : (Fin d → ℝ) → ℝ} (hu : ContDiff ℝ (4 : ℕ) u) {M : ℝ}
    (hM : ∀ a x, |pd a (pd a (pd a (pd a u))) x| ≤ M) {h : ℝ} (hh : 0 < h) (x : Fin d → ℝ) :
    |dlap h u x - laplace u x| ≤ d * (M / 12) * h ^ 2 := by
  have key : ∀ a : Fin d, |(u (x + Pi.single a h) - 2 * u x + u (x - Pi.single a h)) - h ^ 2 * pd a (pd a u) x| ≤ M / 12 * h ^ 4 := by
    intro a
    have c1 := pd_contDiff (n := 3) hu a
    have c2 := pd_contDiff (n := 2) c1 a
    have c3 := pd_contDiff (n := 1) c2 a
    have := second_diff_error (f := fun t => u (x + Pi.single a t)) (pd_line (contDiff_diff (n := 3) hu) a x)
      (pd_line (contDiff_diff (n := 2) c1) a x) (pd_line (contDiff_diff (n := 1) c2) a x)
      (pd_line (contDiff_diff (n := 0) c3) a x) (fun t => hM a _) 0 hh.le
    simpa [sub_eq_add_neg, Pi.single_neg] using this
  have e : dlap h u x - laplace u x =
      (∑ a, ((u (x + Pi.single a h) - 2 * u x + u (x - Pi.single a h)) - h ^ 2 * pd a (pd a u) x)) / h ^ 2 := by
    unfold dlap laplace
    rw [Finset.sum_sub_distrib, ← Finset.mul_sum]
    field_simp
  rw [e, abs_div, abs_of_pos (by positivity : 0 < h ^ 2), div_le_iff₀ (by positivity)]
  refine (Finset.abs_sum_le_sum_abs _ _).trans ((Finset.sum_le_sum fun a _ => key a).trans (le_of_eq ?_))
  simp; ring

/-- The discrete Laplacian is bounded by the second derivatives. -/
theorem dlap_le {u : (Fin d → ℝ) → ℝ} (hu : ContDiff ℝ (2 : ℕ) u) {M : ℝ} (hM : ∀ a x, |pd a (pd a u) x| ≤ M) {h : ℝ}
    (hh : 0 < h) (x : Fin d → ℝ) : |dlap h u x| ≤ d * M := by
  have key : ∀ a : Fin d, |u (x + Pi.single a h) - 2 * u x + u (x - Pi.single a h)| ≤ M * h ^ 2 := by
    intro a
    have := second_diff_le (f := fun t => u (x + Pi.single a t)) (pd_line (contDiff_diff (n := 1) hu) a x)
      (pd_line (contDiff_diff (n := 0) (pd_contDiff (n := 1) hu a)) a x) (fun t => hM a _) 0 hh.le
    simpa [sub_eq_add_neg, Pi.single_neg] using this
  unfold dlap
  rw [abs_div, abs_of_pos (by positivity : 0 < h ^ 2), div_le_iff₀ (by positivity)]
  refine (Finset.abs_sum_le_sum_abs _ _).trans ((Finset.sum_le_sum fun a _ => key a).trans (le_of_eq ?_))
  simp; ring

theorem dlap_sub (h : ℝ) (u w : (Fin d → ℝ) → ℝ) (x : Fin d → ℝ) :
    dlap h (fun y => u y - w y) x = dlap h u x - dlap h w x := by
  unfold dlap
  rw [← sub_div, ← Finset.sum_sub_distrib]
  congr 1
  exact Finset.sum_congr rfl fun a _ => by ring

/-- Truncation error of the discrete biharmonic operator. -/
theorem dbih_error {u : (Fin d → ℝ) → ℝ} (hu : ContDiff ℝ (6 : ℕ) u) {M : ℝ}
    (hM : ∀ a b x, |pd b (pd b (pd b (pd b (pd a (pd a u))))) x| ≤ M) {h : ℝ} (hh : 0 < h) (x : Fin d → ℝ) :
    |dlap h (dlap h u) x - laplace (laplace u) x| ≤ (d : ℝ) ^ 2 * (M / 6) * h ^ 2 := by
  have hu4 : ContDiff ℝ (4 : ℕ) u := hu.of_le (by norm_cast)
  have hu2 : ContDiff ℝ (2 : ℕ) u := hu.of_le (by norm_cast)
  have hu3 : ContDiff ℝ (3 : ℕ) u := hu.of_le (by norm_cast)
  -- error of the inner operator
  have s1 : |dlap h (dlap h u) x - dlap h (laplace u) x| ≤ d * (d * (M / 12) * h ^ 2) := by
    rw [← dlap_sub]
    refine dlap_le ((dlap_contDiff hu2 h).sub (laplace_contDiff (n := 2) hu4)) (fun a y => ?_) hh x
    have c1 := pd_contDiff (n := 5) hu a
    have c1' : ContDiff ℝ (3 : ℕ) (pd a u) := c1.of_le (by norm_cast)
    have e1 : pd a (fun y => dlap h u y - laplace u y) = fun y => dlap h (pd a u) y - laplace (pd a u) y := by
      funext y
      rw [pd_sub (contDiff_diff (n := 1) (dlap_contDiff hu2 h)) (contDiff_diff (n := 1) (laplace_contDiff (n := 2) hu4)),
        pd_dlap (contDiff_diff (n := 1) hu2), pd_laplace hu3]
    have e2 : pd a (fun y => dlap h (pd a u) y - laplace (pd a u) y) =
        fun y => dlap h (pd a (pd a u)) y - laplace (pd a (pd a u)) y := by
      funext y
      rw [pd_sub (contDiff_diff (n := 2) (dlap_contDiff c1' h)) (contDiff_diff (n := 0) (laplace_contDiff (n := 1) c1')),
        pd_dlap (contDiff_diff (n := 2) c1'), pd_laplace c1']
    rw [e1, e2]
    exact dlap_error (pd_contDiff (n := 4) c1 a) (fun b z => hM a b z) hh y
  -- error of the outer operator
  have s2 : |dlap h (laplace u) x - laplace (laplace u) x| ≤ d * ((d * M) / 12) * h ^ 2 := by
    refine dlap_error (laplace_contDiff (n := 4) hu) (fun b z => ?_) hh x
    have hp : ∀ {w : (Fin d → ℝ) → ℝ} {n : ℕ}, ContDiff ℝ (n + 3 : ℕ) w → pd b (laplace w) = laplace (pd b w) := fun hw =>
      pd_laplace (hw.of_le (by norm_cast; omega)) b
    have c1 := pd_contDiff (n := 5) hu b
    have c2 := pd_contDiff (n := 4) c1 b
    have c3 := pd_contDiff (n := 3) c2 b
    rw [hp (n := 3) hu, hp (n := 2) c1, hp (n := 1) c2, hp (n := 0) c3]
    unfold laplace
    refine (Finset.abs_sum_le_sum_abs _ _).trans ?_
    have : ∀ a ∈ Finset.univ, |pd a (pd a (pd b (pd b (pd b (pd b u))))) z| ≤ M := by
      intro a _
      have cm : ∀ {w : (Fin d → ℝ) → ℝ} {n : ℕ}, ContDiff ℝ (n + 2 : ℕ) w → pd a (pd b w) = pd b (pd a w) := fun hw =>
        pd_comm (hw.of_le (by norm_cast; omega)) a b
      have k1 : ∀ {w : (Fin d → ℝ) → ℝ} {n : ℕ}, ContDiff ℝ (n + 3 : ℕ) w → pd a (pd a (pd b w)) = pd b (pd a (pd a w)) := by
        intro w n hw
        rw [cm (n := n + 1) hw, cm (n := n) (pd_contDiff (n := n + 2) hw a)]
      rw [k1 (n := 0) c3, k1 (n := 1) c2, k1 (n := 2) c1, k1 (n := 3) hu]
      exact hM a b z
    refine (Finset.sum_le_sum this).trans ?_
    simp
  have := abs_add_le (dlap h (dlap h u) x - dlap h (laplace u) x) (dlap h (laplace u) x - laplace (laplace u) x)
  rw [sub_add_sub_cancel] at this
  refine this.trans ((add_le_add s1 s2).trans (le_of_eq (by ring)))

/-! ### Periodic functions -/

theorem Spec.BoxPeriodic.pd {L : Fin d → ℝ} {u : (Fin d → ℝ) → ℝ} (hu : BoxPeriodic L u) (a : Fin d) : BoxPeriodic L (Spec.pd a u) := by
  intro b x
  rw [← pd_shift]
  congr 1
  funext y
  exact hu b y

theorem Spec.BoxPeriodic.int {L : Fin d → ℝ} {u : (Fin d → ℝ) → ℝ} (hu : BoxPeriodic L u) (a : Fin d) (n : ℤ) (x : Fin d → ℝ) :
    u (x + Pi.single a (n * L a)) = u x := by
  induction n using Int.induction_on generalizing x with
  | zero => simp
  | succ n ih =>
    have := hu a (x + Pi.single a ((n : ℤ) * L a))
    rw [ih] at this
    rw [← this]; congr 1
    rw [add_assoc, ← Pi.single_add]; congr 2; push_cast; ring
  | pred n ih =>
    have := hu a (x + Pi.single a (((-n - 1 : ℤ) : ℝ) * L a))
    rw [← this]
    rw [add_assoc, ← Pi.single_add, ← ih x]; congr 3; push_cast; ring

theorem Spec.BoxPeriodic.bound {L : Fin d → ℝ} (hL : ∀ a, 0 < L a) {u : (Fin d → ℝ) → ℝ} (hu : BoxPeriodic L u) (hc : Continuous u) :
    ∃ M, 0 ≤ M ∧ ∀ x, |u x| ≤ M := by
  have hK : IsCompact (Set.Icc (0 : Fin d → ℝ) L) := isCompact_Icc
  obtain ⟨M, hM⟩ := hK.exists_bound_of_continuousOn (f := u) hc.continuousOn
  have hall : ∀ (v : Fin d → ℤ) (x : Fin d → ℝ), u (x + fun a => v a * L a) = u x := by
    intro v x
    have key : ∀ s : Finset (Fin d), u (x + ∑ a ∈ s, Pi.single a (v a * L a)) = u x := by
      intro s
      induction s using Finset.induction_on with
      | empty => simp
      | insert a s ha ih => rw [Finset.sum_insert ha, add_comm (Pi.single a _), ← add_assoc, hu.int, ih]
    have e : (fun a => v a * L a) = ∑ a, (Pi.single a (v a * L a) : Fin d → ℝ) := by
      funext b; simp [Finset.sum_apply, Pi.single_apply]
    rw [e]; exact key _
  have hb : ∀ x, |u x| ≤ M := by
    intro x
    have := hall (fun a => -⌊x a / L a⌋) x
    rw [← this, ← Real.norm_eq_abs]
    refine hM _ ⟨fun a => ?_, fun a => ?_⟩
    · have h1 := Int.floor_le (x a / L a)
      rw [le_div_iff₀ (hL a)] at h1
      simp; linarith
    · have h1 := Int.lt_floor_add_one (x a / L a)
      rw [div_lt_iff₀ (hL a)] at h1
      simp; linarith
  exact ⟨M, (abs_nonneg _).trans (hb 0), hb⟩

/-- Truncation error of the scheme in terms of bounds for the derivatives. -/
theorem scheme_error_of (p : CHParams ℝ) {u : (Fin d → ℝ) → ℝ} (hu : ContDiff ℝ (6 : ℕ) u) {A B : ℝ}
    (q6 : ∀ a b x, |pd b (pd b (pd b (pd b (pd a (pd a u))))) x| ≤ A)
    (q4 : ∀ a x, |pd a (pd a (pd a (pd a fun y => u y ^ 3 - u y))) x| ≤ B) {h : ℝ} (hh : 0 < h) (x : Fin d → ℝ) :
    |(-p.eps2 * dlap h (dlap h u) x + dlap h (fun y => u y ^ 3 - u y) x - p.sigma * (u x - p.m)) - chCont p u x| ≤
      (|p.eps2| * ((d : ℝ) ^ 2 * (A / 6)) + d * (B / 12)) * h ^ 2 := by
  have hw : ContDiff ℝ (6 : ℕ) fun y => u y ^ 3 - u y := (hu.pow 3).sub hu
  have hw4 : ContDiff ℝ (4 : ℕ) fun y => u y ^ 3 - u y := hw.of_le (by norm_cast)
  have e6 := dbih_error hu q6 hh x
  have e4 := dlap_error hw4 q4 hh x
  unfold chCont
  have e : (-p.eps2 * dlap h (dlap h u) x + dlap h (fun y => u y ^ 3 - u y) x - p.sigma * (u x - p.m)) -
      (-p.eps2 * laplace (laplace u) x + laplace (fun y => u y ^ 3 - u y) x - p.sigma * (u x - p.m)) =
      -(p.eps2 * (dlap h (dlap h u) x - laplace (laplace u) x)) +
        (dlap h (fun y => u y ^ 3 - u y) x - laplace (fun y => u y ^ 3 - u y) x) := by ring
  rw [e]
  refine (abs_add_le _ _).trans ?_
  rw [abs_neg, abs_mul]
  have := mul_le_mul_of_nonneg_left e6 (abs_nonneg p.eps2)
  nlinarith

/-- Second-order consistency of the scheme for smooth periodic functions. -/
theorem scheme_error (p : CHParams ℝ) {L : Fin d → ℝ} (hL : ∀ a, 0 < L a) {u : (Fin d → ℝ) → ℝ} (hu : ContDiff ℝ (6 : ℕ) u)
    (hp : BoxPeriodic L u) : ∃ C, 0 ≤ C ∧ ∀ h, 0 < h → ∀ x,
      |(-p.eps2 * dlap h (dlap h u) x + dlap h (fun y => u y ^ 3 - u y) x - p.sigma * (u x - p.m)) - chCont p u x| ≤ C * h ^ 2 := by
  have hw : ContDiff ℝ (6 : ℕ) fun y => u y ^ 3 - u y := (hu.pow 3).sub hu
  have pw : BoxPeriodic L fun y => u y ^ 3 - u y := fun a x => by simp only [hp a x]
  have b6 : ∀ a b : Fin d, ∃ M, 0 ≤ M ∧ ∀ x, |pd b (pd b (pd b (pd b (pd a (pd a u))))) x| ≤ M := fun a b =>
    BoxPeriodic.bound hL ((((((hp.pd a).pd a).pd b).pd b).pd b).pd b)
      (pd_contDiff (n := 0) (pd_contDiff (n := 1) (pd_contDiff (n := 2) (pd_contDiff (n := 3) (pd_contDiff (n := 4) (pd_contDiff (n := 5) hu a) a) b) b) b) b).continuous
  have hw4 : ContDiff ℝ (4 : ℕ) fun y => u y ^ 3 - u y := hw.of_le (by norm_cast)
  have b4 : ∀ a : Fin d, ∃ M, 0 ≤ M ∧ ∀ x, |pd a (pd a (pd a (pd a fun y => u y ^ 3 - u y))) x| ≤ M := fun a =>
    BoxPeriodic.bound hL ((((pw.pd a).pd a).pd a).pd a)
      (pd_contDiff (n := 0) (pd_contDiff (n := 1) (pd_contDiff (n := 2) (pd_contDiff (n := 3) hw4 a) a) a) a).continuous
  choose M6 p6 h6 using b6
  choose M4 p4 h4 using b4
  have q6 : ∀ a b x, |pd b (pd b (pd b (pd b (pd a (pd a u))))) x| ≤ ∑ a, ∑ b, M6 a b := fun a b x =>
    (h6 a b x).trans ((Finset.single_le_sum (f := fun b => M6 a b) (fun b _ => p6 a b) (Finset.mem_univ b)).trans
      (Finset.single_le_sum (f := fun a => ∑ b, M6 a b) (fun a _ => Finset.sum_nonneg fun b _ => p6 a b) (Finset.mem_univ a)))
  have q4 : ∀ a x, |pd a (pd a (pd a (pd a fun y => u y ^ 3 - u y))) x| ≤ ∑ a, M4 a := fun a x =>
    (h4 a x).trans (Finset.single_le_sum (f := M4) (fun a _ => p4 a) (Finset.mem_univ a))
  have n6 : 0 ≤ ∑ a, ∑ b, M6 a b := Finset.sum_nonneg fun a _ => Finset.sum_nonneg fun b _ => p6 a b
  have n4 : 0 ≤ ∑ a, M4 a := Finset.sum_nonneg fun a _ => p4 a
  generalize (∑ a, ∑ b, M6 a b) = A at *
  generalize (∑ a, M4 a) = B at *
  exact ⟨|p.eps2| * ((d : ℝ) ^ 2 * (A / 6)) + d * (B / 12), by positivity, fun h hh x => scheme_error_of p hu q6 q4 hh x⟩

end

end Madg
