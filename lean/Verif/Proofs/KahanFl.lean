/-
Errors of compensated summation and of the random initial condition.
-/
import Verif.Spec.Kahan
import Verif.Spec.Round
import Verif.Model.Rounded
import Mathlib.Algebra.Order.BigOperators.Group.List
import Mathlib.Tactic.Linarith
import Mathlib.Tactic.Ring
import Mathlib.Tactic.NormNum
import Mathlib.Tactic.Positivity
import Mathlib.Tactic.FieldSimp

namespace Madg
open Spec
variable {K : Type} [Field K] [LinearOrder K] [IsStrictOrderedRing K] {rnd : K → K} {u τ : K}

theorem Spec.Rounds.errM (hr : Rounds rnd u τ) {x B M : K} (hx : |x| ≤ B) (hB : τ ≤ B) (h : B ≤ M) : |rnd x - x| ≤ u * M :=
  (hr.err x).trans (mul_le_mul_of_nonneg_left ((max_le hx hB).trans h) hr.unit.1)

/-- One step: state `(s, c)` before, numbers of size at most `M`, `n` of them in all; `k` have been added, with exact sum `X`. -/
theorem kahan_step (hr : Rounds rnd u τ) {n : Nat} {M : K} (hM : τ ≤ M) (hnu : (n : K) * u ≤ 1 / 16) {k : Nat} (hk : k < n)
    {s c x X : K} (hx : |x| ≤ M) (hX : |X| ≤ k * M) (hT : |s - c - X| ≤ 4 * k * (u * M)) (hc : |c| ≤ 5 * n * (u * M))
    {y t z c' : K} (hy : y = rnd (x - c)) (ht : t = rnd (s + y)) (hz : z = rnd (t - s)) (hc' : c' = rnd (z - y)) :
    |t - c' - (X + x)| ≤ 4 * (k + 1 : Nat) * (u * M) ∧ |c'| ≤ 5 * n * (u * M) := by
  have u0 := hr.unit.1
  have τ0 := hr.tiny.1
  have M0 : 0 ≤ M := τ0.trans hM
  have hn1 : (1 : K) ≤ n := by exact_mod_cast (by omega : 1 ≤ n)
  have hkn : (k : K) + 1 ≤ n := by exact_mod_cast hk
  have k0 : (0 : K) ≤ k := by positivity
  have huM0 : 0 ≤ u * M := mul_nonneg u0 M0
  have hu16 : u ≤ 1 / 16 := by nlinarith
  have hnuM : (n : K) * (u * M) ≤ 1 / 16 * M := by
    have := mul_le_mul_of_nonneg_right hnu M0
    linarith
  have hkuM : (k : K) * (u * M) ≤ 1 / 16 * M := by
    have : (k : K) * (u * M) ≤ n * (u * M) := mul_le_mul_of_nonneg_right (by linarith) huM0
    linarith
  have huM : u * M ≤ n * (u * M) := by nlinarith
  have hc2 : |c| ≤ 5 / 16 * M := by linarith
  -- y
  have hxc : |x - c| ≤ 21 / 16 * M := by
    have := abs_sub x c
    linarith
  have ey : |y - (x - c)| ≤ u * (21 / 16 * M) := hy ▸ hr.errM hxc (by linarith) le_rfl
  have eu : ∀ q : K, u * (q * M) = q * (u * M) := fun q => by ring
  have huM16 : u * M ≤ 1 / 16 * M := mul_le_mul_of_nonneg_right hu16 M0
  rw [eu] at ey
  have hy2 : |y| ≤ 7 / 5 * M := by
    have h1 : |y| ≤ |y - (x - c)| + |x - c| := by
      have := abs_add_le (y - (x - c)) (x - c)
      rwa [sub_add_cancel] at this
    linarith
  -- t
  have hs : |s| ≤ k * M + 9 / 16 * M := by
    have h1 : |s| ≤ |s - c - X| + |X| + |c| := by
      have a1 := abs_add_le (s - c - X + X) c
      have a2 := abs_add_le (s - c - X) X
      have : s - c - X + X + c = s := by ring
      rw [this] at a1
      linarith
    linarith
  have hsy : |s + y| ≤ 2 * n * M := by
    have := abs_add_le s y
    have h2 : (k : K) * M + 2 * M ≤ 2 * n * M := by nlinarith
    linarith
  have hnM : M ≤ n * M := by nlinarith
  have ea : |t - (s + y)| ≤ u * (2 * n * M) := ht ▸ hr.errM hsy (by linarith) le_rfl
  have ea2 : u * (2 * n * M) = 2 * (n * (u * M)) := by ring
  rw [ea2] at ea
  -- z
  have hts : |t - s| ≤ 61 / 40 * M := by
    have a1 := abs_add_le (t - (s + y)) y
    have : t - (s + y) + y = t - s := by ring
    rw [this] at a1
    linarith
  have ez : |z - (t - s)| ≤ u * (61 / 40 * M) := hz ▸ hr.errM hts (by linarith) le_rfl
  rw [eu] at ez
  -- c'
  have hzy : |z - y| ≤ 2 * (n * (u * M)) + 61 / 40 * (u * M) := by
    have a1 := abs_add_le (z - (t - s)) (t - (s + y))
    have : z - (t - s) + (t - (s + y)) = z - y := by ring
    rw [this] at a1
    linarith
  have hzy2 : |z - y| ≤ M := by linarith
  have ec : |c' - (z - y)| ≤ u * M := hc' ▸ hr.errM hzy2 hM le_rfl
  constructor
  · have e : t - c' - (X + x) = (s - c - X) + (y - (x - c)) - (z - (t - s)) - (c' - (z - y)) := by ring
    rw [e]
    have b1 := abs_sub (s - c - X + (y - (x - c)) - (z - (t - s))) (c' - (z - y))
    have b2 := abs_sub (s - c - X + (y - (x - c))) (z - (t - s))
    have b3 := abs_add_le (s - c - X) (y - (x - c))
    have e4 : 4 * ((k + 1 : Nat) : K) * (u * M) = 4 * k * (u * M) + 4 * (u * M) := by push_cast; ring
    rw [e4]
    linarith
  · have b := abs_add_le (c' - (z - y)) (z - y)
    rw [sub_add_cancel] at b
    linarith

/-- Compensated summation of numbers of size at most `M`: the error is at most `9 n u M`. -/
theorem kahan_error (hr : Rounds rnd u τ) {xs : List (Fl rnd)} {M : K} (hM : τ ≤ M) (hnu : (xs.length : K) * u ≤ 1 / 16)
    (hx : ∀ x ∈ xs, |x.val| ≤ M) : |(kahan xs).val - (xs.map Fl.val).sum| ≤ 9 * (xs.length * (u * M)) := by
  obtain ⟨n, hn⟩ : ∃ n, n = xs.length := ⟨_, rfl⟩
  have M0 : 0 ≤ M := hr.tiny.1.trans hM
  have key : ∀ (l : List (Fl rnd)) (k : Nat) (st : Fl rnd × Fl rnd) (X : K), k + l.length ≤ n → (∀ x ∈ l, |x.val| ≤ M) →
      |X| ≤ k * M → |st.1.val - st.2.val - X| ≤ 4 * k * (u * M) → |st.2.val| ≤ 5 * n * (u * M) →
      |(l.foldl kahanStep st).1.val - (l.foldl kahanStep st).2.val - (X + (l.map Fl.val).sum)| ≤ 4 * (k + l.length : Nat) * (u * M) ∧
      |(l.foldl kahanStep st).2.val| ≤ 5 * n * (u * M) := by
    intro l
    induction l with
    | nil => intro k st X _ _ _ h1 h2; simpa using ⟨h1, h2⟩
    | cons x l ih =>
      intro k st X hk hl hX h1 h2
      rw [List.length_cons] at hk
      have hx := hl x (by simp)
      obtain ⟨q1, q2⟩ := kahan_step hr hM (hn ▸ hnu) (k := k) (n := n) (by omega) hx hX h1 h2 rfl rfl rfl rfl
      have hX' : |X + x.val| ≤ ((k + 1 : Nat) : K) * M := by
        have := abs_add_le X x.val
        push_cast
        linarith
      have := ih (k + 1) (kahanStep st x) (X + x.val) (by omega) (fun y hy => hl y (by simp [hy])) hX' q1 q2
      rw [List.foldl_cons, List.map_cons, List.sum_cons, List.length_cons, ← add_assoc, show k + (l.length + 1) = k + 1 + l.length by omega]
      exact this
  have huM0 : 0 ≤ u * M := mul_nonneg hr.unit.1 M0
  obtain ⟨h1, h2⟩ := key xs 0 (0, 0) 0 (by omega) hx (by simp)
    (by
      show |(0 : K) - 0 - 0| ≤ _
      simp)
    (by
      show |(0 : K)| ≤ _
      rw [abs_zero]
      positivity)
  rw [zero_add, zero_add, ← hn] at h1
  rw [← hn]
  unfold kahan
  have b := abs_add_le ((xs.foldl kahanStep (0, 0)).1.val - (xs.foldl kahanStep (0, 0)).2.val - (xs.map Fl.val).sum) ((xs.foldl kahanStep (0, 0)).2.val)
  have e : (xs.foldl kahanStep (0, 0)).1.val - (xs.foldl kahanStep (0, 0)).2.val - (xs.map Fl.val).sum + (xs.foldl kahanStep (0, 0)).2.val =
    (xs.foldl kahanStep (0, 0)).1.val - (xs.map Fl.val).sum := by ring
  rw [e] at b
  linarith

end Madg
