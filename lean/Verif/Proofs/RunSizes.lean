/-
Step sizes of an explicit run in rounded arithmetic, including the last one.
-/
import Verif.Spec.RunEach
import Verif.Spec.Round
import Verif.Model.Rounded
import Mathlib.Tactic.Linarith
import Mathlib.Tactic.Ring
import Mathlib.Tactic.NormNum

namespace Madg
open Spec
variable {K : Type} [Field K] [LinearOrder K] [IsStrictOrderedRing K] {rnd : K → K} {u τ : K}

/-- A step that is cut so as to end at `T` is not much longer than the proposed one. -/
theorem cut_size (hr : Rounds rnd u τ) {T t p hi : K} (hT : 0 ≤ T) (htT : t ≤ T) (hp : p ≤ hi) (h : T ≤ rnd (t + p)) (hh : 0 ≤ hi) :
    rnd (T - t) ≤ (1 + u) * (hi + u * (T + hi + τ)) + u * τ := by
  have hu := hr.unit.1
  have hτ := hr.tiny.1
  have e1 := abs_le.1 (hr.err (t + p))
  have e2 := abs_le.1 (hr.err (T - t))
  have key : T - t ≤ hi + u * (T + hi + τ) := by
    rcases le_total 0 (t + p) with h0 | h0
    · rw [abs_of_nonneg h0] at e1
      have m : max (t + p) τ ≤ T + hi + τ := max_le (by linarith) (by linarith)
      have := mul_le_mul_of_nonneg_left m hu
      linarith
    · rw [abs_of_nonpos h0] at e1
      rcases le_total (-(t + p)) τ with h1 | h1
      · rw [max_eq_right h1] at e1
        have := mul_nonneg hu (add_nonneg hT hh)
        have e : u * (T + hi + τ) = u * (T + hi) + u * τ := by ring
        linarith
      · rw [max_eq_left h1] at e1
        have := mul_le_mul_of_nonneg_right hr.unit.2 (show 0 ≤ -(t + p) by linarith)
        have := mul_nonneg hu (show 0 ≤ T + hi + τ by linarith)
        linarith
  have h0 : 0 ≤ T - t := by linarith
  rw [abs_of_nonneg h0] at e2
  have m : u * max (T - t) τ ≤ u * (T - t) + u * τ := by
    rw [← mul_add]
    exact mul_le_mul_of_nonneg_left (max_le (by linarith) (by linarith)) hu
  have : (1 + u) * (T - t) ≤ (1 + u) * (hi + u * (T + hi + τ)) := mul_le_mul_of_nonneg_left key (by linarith)
  linarith

/-- All steps of a run but the last have sizes within the limits of the proposals; the last one may be shorter and is hardly longer. -/
theorem run_sizes (hr : Rounds rnd u τ) (hs : ∀ x, 0 ≤ x → 0 ≤ rnd x) {T t0 dt0 : Fl rnd} {t d p : Nat → Fl rnd}
    (hm : Marching T t0 dt0 t d p) {N : Nat} (hN : 1 ≤ N) (hne : ∀ k, k + 1 < N → ¬ LastStep T t p k) {lo hi : K} (hl : 0 ≤ lo)
    (h0 : lo ≤ dt0.val ∧ dt0.val ≤ hi) (hT : 0 ≤ T.val) (h1 : t0 + dt0 ≤ T)
    (hp : ∀ k, k + 1 < N → (∀ i, i ≤ k → lo ≤ (d i).val ∧ (d i).val ≤ hi) → lo ≤ (p (k + 1)).val ∧ (p (k + 1)).val ≤ hi) :
    (∀ i, i + 1 < N → lo ≤ (d i).val ∧ (d i).val ≤ hi) ∧
    0 ≤ (d (N - 1)).val ∧ (d (N - 1)).val ≤ (1 + u) * (hi + u * (T.val + hi + τ)) + u * τ := by
  have hu := hr.unit.1
  have hτ := hr.tiny.1
  have hh : 0 ≤ hi := hl.trans (h0.1.trans h0.2)
  obtain ⟨mt, md, mtn, mdn⟩ := hm
  have all : ∀ i, i + 1 < N → lo ≤ (d i).val ∧ (d i).val ≤ hi := by
    intro i
    induction i using Nat.strong_induction_on with
    | _ i ih =>
      intro hi'
      cases i with
      | zero => rw [md]; exact h0
      | succ i =>
        have n1 := hne (i + 1) hi'
        rw [mdn, if_neg (fun h => n1 ⟨by omega, h⟩)]
        exact hp i (by omega) fun j hj => ih j (by omega) (by omega)
  refine ⟨all, ?_⟩
  have hiup : hi ≤ (1 + u) * (hi + u * (T.val + hi + τ)) + u * τ := by
    have a : 0 ≤ u * (T.val + hi + τ) := mul_nonneg hu (by linarith)
    have b : 0 ≤ u * (hi + u * (T.val + hi + τ)) := mul_nonneg hu (by linarith)
    have c := mul_nonneg hu hτ
    linarith
  obtain ⟨n, rfl⟩ : ∃ n, N = n + 1 := ⟨N - 1, by omega⟩
  rw [Nat.add_sub_cancel]
  cases n with
  | zero => rw [md]; exact ⟨hl.trans h0.1, h0.2.trans hiup⟩
  | succ k =>
    have pk := hp k (by omega) fun i hi' => all i (by omega)
    by_cases hc : T ≤ t (k + 1) + p (k + 1)
    · have tT : t (k + 1) ≤ T := by
        cases k with
        | zero => rw [mtn, mt, md]; exact h1
        | succ j =>
          have n1 := hne (j + 1) (by omega)
          have : ¬ T ≤ t (j + 1) + p (j + 1) := fun h => n1 ⟨by omega, h⟩
          rw [mtn, mdn, if_neg this]
          exact (not_le.1 this).le
      have tv : (t (k + 1)).val ≤ T.val := tT
      rw [mdn, if_pos hc]
      exact ⟨hs _ (sub_nonneg.2 tv), cut_size hr hT tv pk.2 hc hh⟩
    · rw [mdn, if_neg hc]
      exact ⟨hl.trans pk.1, pk.2.trans hiup⟩

/-- The limit on the last step, from the limits on the others. -/
theorem last_step_ok (hr : Rounds rnd u τ) {T D : K} (hT : 0 ≤ T) (hD : 0 ≤ D) (hD1 : D ≤ 1) (h : u * (T + 1) ≤ D / 64) :
    (1 + u) * (D / 8 + u * (T + D / 8 + τ)) + u * τ ≤ D / 6 := by
  have hu := hr.unit.1
  have hτ := hr.tiny
  have a : u * (T + D / 8 + τ) ≤ D / 64 := (mul_le_mul_of_nonneg_left (by linarith) hu).trans h
  have b : u ≤ 1 / 64 := by nlinarith
  have c : u * τ ≤ D / 64 * (1 / 20) := by
    have : u * τ ≤ u * (1 / 20) := mul_le_mul_of_nonneg_left hτ.2 hu
    have : u ≤ D / 64 := by nlinarith
    linarith
  have e : (1 + u) * (D / 8 + u * (T + D / 8 + τ)) ≤ (1 + 1 / 64) * (D / 8 + D / 64) :=
    mul_le_mul (by linarith) (by linarith) (by have := mul_nonneg hu (show 0 ≤ T + D / 8 + τ by linarith); linarith) (by norm_num)
  linarith

end Madg
