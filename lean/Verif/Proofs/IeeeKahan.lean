/-
Compensated summation and the random initial condition in floating-point arithmetic with overflow.
-/
import Verif.Proofs.IeeeFl
import Verif.Proofs.KahanFl

set_option linter.unusedSectionVars false

namespace Madg
open Spec
variable {F : IeeeFmt} {u τ : ℚ}

/-- Compensated sums of ordinary numbers of size at most `M` do not overflow and are those of rounded arithmetic. -/
theorem Same.kahan (hp : 1 ≤ F.prec) (hr : Rounds F.toFloatFmt.round u τ) {n : Nat} {M : ℚ} (hM : τ ≤ M)
    (hnu : (n : ℚ) * u ≤ 1 / 16) (a : Nat → Ieee F) (x : Nat → Fl F.toFloatFmt.round) (h : ∀ i, i < n → Same (a i) (x i) M)
    (hX : 64 * (n * M) < (2 : ℚ) ^ F.emax) :
    Same (Spec.kahan ((List.range n).map a)) (Spec.kahan ((List.range n).map x)) (2 * (n * M)) := by
  have u0 := hr.unit.1
  have M0 : 0 ≤ M := hr.tiny.1.trans hM
  have huM0 : 0 ≤ u * M := mul_nonneg u0 M0
  have hnuM : (n : ℚ) * (u * M) ≤ 1 / 16 * M := by
    have := mul_le_mul_of_nonneg_right hnu M0
    linarith
  have key : ∀ k, k ≤ n → ∃ X : ℚ, |X| ≤ k * M ∧
      Same (((List.range k).map a).foldl kahanStep (0, 0)).1 (((List.range k).map x).foldl kahanStep (0, 0)).1 (2 * (n * M)) ∧
      Same (((List.range k).map a).foldl kahanStep (0, 0)).2 (((List.range k).map x).foldl kahanStep (0, 0)).2 M ∧
      |(((List.range k).map x).foldl kahanStep (0, 0)).1.val - (((List.range k).map x).foldl kahanStep (0, 0)).2.val - X| ≤ 4 * k * (u * M) ∧
      |(((List.range k).map x).foldl kahanStep (0, 0)).2.val| ≤ 5 * n * (u * M) := by
    intro k
    induction k with
    | zero =>
      intro _
      refine ⟨0, by simp, Same.zero.mono (by positivity), Same.zero.mono M0, ?_, ?_⟩
      · show |(0 : ℚ) - 0 - 0| ≤ _
        simp
      · show |(0 : ℚ)| ≤ _
        rw [abs_zero]
        positivity
    | succ k ih =>
      intro hk
      obtain ⟨X, hXk, h1, h2, h3, h4⟩ := ih (by omega)
      rw [List.range_succ, List.map_append, List.map_append, List.foldl_append, List.foldl_append]
      obtain ⟨st, hst⟩ : ∃ st, st = ((List.range k).map a).foldl kahanStep (0, 0) := ⟨_, rfl⟩
      obtain ⟨st', hst'⟩ : ∃ st', st' = ((List.range k).map x).foldl kahanStep (0, 0) := ⟨_, rfl⟩
      rw [← hst, ← hst'] at h1 h2
      rw [← hst'] at h3 h4
      rw [← hst, ← hst']
      show ∃ X : ℚ, _ ∧ Same (kahanStep st (a k)).1 (kahanStep st' (x k)).1 _ ∧ Same (kahanStep st (a k)).2 (kahanStep st' (x k)).2 _ ∧
        |(kahanStep st' (x k)).1.val - (kahanStep st' (x k)).2.val - X| ≤ _ ∧ |(kahanStep st' (x k)).2.val| ≤ _
      have hx := h k (by omega)
      obtain ⟨q1, q2⟩ := kahan_step hr hM hnu (k := k) (n := n) (by omega) hx.le hXk h3 h4 rfl rfl rfl rfl
      have n1 : (1 : ℚ) ≤ n := by exact_mod_cast (by omega : 1 ≤ n)
      have hkn : ((k + 1 : Nat) : ℚ) ≤ n := by exact_mod_cast hk
      have nM : M ≤ n * M := by nlinarith
      have hX' : |X + (x k).val| ≤ ((k + 1 : Nat) : ℚ) * M := by
        have := abs_add_le X (x k).val
        have := hx.le
        push_cast
        linarith
      have sy := hx.sub hp h2 (by linarith)
      have stt := h1.add hp sy (by linarith)
      have sz := stt.sub hp h1 (by linarith)
      have sc := sz.sub hp sy (by linarith)
      refine ⟨X + (x k).val, hX', stt.bound ?_, sc.bound ?_, q1, q2⟩
      · change |(kahanStep st' (x k)).1.val - (kahanStep st' (x k)).2.val - (X + (x k).val)| ≤ _ at q1
        change |(kahanStep st' (x k)).2.val| ≤ _ at q2
        show |(kahanStep st' (x k)).1.val| ≤ _
        have a1 := abs_add_le ((kahanStep st' (x k)).1.val - (kahanStep st' (x k)).2.val - (X + (x k).val)) (X + (x k).val)
        have a2 := abs_add_le ((kahanStep st' (x k)).1.val - (kahanStep st' (x k)).2.val - (X + (x k).val) + (X + (x k).val))
          (kahanStep st' (x k)).2.val
        rw [show (kahanStep st' (x k)).1.val - (kahanStep st' (x k)).2.val - (X + (x k).val) + (X + (x k).val) + (kahanStep st' (x k)).2.val =
          (kahanStep st' (x k)).1.val by ring] at a2
        have b1 : 4 * ((k + 1 : Nat) : ℚ) * (u * M) ≤ 4 * (n * (u * M)) := by
          have := mul_le_mul_of_nonneg_right hkn huM0
          linarith
        have b2 : ((k + 1 : Nat) : ℚ) * M ≤ n * M := mul_le_mul_of_nonneg_right hkn M0
        linarith
      · exact (show |(kahanStep st' (x k)).2.val| ≤ _ from q2).trans (by linarith)
  obtain ⟨-, -, h1, -⟩ := key n le_rfl
  exact h1

/-- A cell of the random initial field. -/
theorem Same.field (hp : 1 ≤ F.prec) (hr : Rounds F.toFloatFmt.round u τ) {n : Nat} {B : ℚ} (hB : τ ≤ B)
    (hnu : (n : ℚ) * u ≤ 1 / 16) (hlen : F.toFloatFmt.round (n : ℚ) = n) {mean : Ieee F} {mean' : Fl F.toFloatFmt.round}
    (hm : Same mean mean' B) {draw : Nat → Ieee F} {draw' : Nat → Fl F.toFloatFmt.round} (hd : ∀ i, i < n → Same (draw i) (draw' i) B)
    (hX : 256 * (n * B) < (2 : ℚ) ^ F.emax) (hn : 2 * (n : ℚ) < (2 : ℚ) ^ F.emax) {i : Nat} (hi : i < n) :
    Same (mean + draw i - (Spec.kahan ((List.range n).map fun ii => mean + draw ii) / (n : Ieee F) - mean))
      (mean' + draw' i - (Spec.kahan ((List.range n).map fun ii => mean' + draw' ii) / (n : Fl F.toFloatFmt.round) - mean')) (76 * (n * B)) := by
  have B0 : 0 ≤ B := hr.tiny.1.trans hB
  have n1 : (1 : ℚ) ≤ n := by exact_mod_cast (by omega : 1 ≤ n)
  have nB : B ≤ n * B := by nlinarith
  have s1 : ∀ i, i < n → Same (mean + draw i) (mean' + draw' i) (4 * B) := fun i hi =>
    (hm.add hp (hd i hi) (by linarith)).mono (by linarith)
  have e : (n : ℚ) * (4 * B) = 4 * (n * B) := by ring
  have s2 := Same.kahan hp hr (M := 4 * B) (by linarith) hnu _ _ s1 (by rw [e]; linarith)
  rw [e] at s2
  have s3 := s2.div hp (Same.nat hp n hn) one_pos
    (by show 1 ≤ |F.toFloatFmt.round (n : ℚ)|; rw [hlen, abs_of_nonneg (by linarith)]; exact n1) (by rw [div_one]; linarith)
  rw [div_one] at s3
  exact ((s1 i hi).sub hp (s3.sub hp hm (by linarith)) (by linarith)).mono (by linarith)

end Madg
