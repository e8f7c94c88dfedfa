/-
Sums of transferred fields.
-/
import Verif.Spec.Transfer
import Verif.Proofs.Sums
import Mathlib.Algebra.Order.Field.Basic
import Mathlib.Tactic.Linarith
import Mathlib.Tactic.LinearCombination

namespace Madg
open Spec Finset
variable {K : Type} [Field K]

/-- A sum over `2 n` cells, pair by pair. -/
theorem sum_pairs {n : Int} (hn : 0 ≤ n) (f : Int → K) :
    ∑ x ∈ Ico 0 (2 * n), f x = ∑ i ∈ Ico 0 n, (f (2 * i) + f (2 * i + 1)) := by
  obtain ⟨N, rfl⟩ := Int.eq_ofNat_of_zero_le hn
  induction N with
  | zero => simp
  | succ N ih =>
    have e : (2 * ((N + 1 : Nat) : Int)) = ((2 * N + 1 : Nat) : Int) + 1 := by push_cast; ring
    have e' : ((2 * N + 1 : Nat) : Int) = ((2 * N : Nat) : Int) + 1 := by push_cast; ring
    have e'' : ((2 * N : Nat) : Int) = 2 * (N : Int) := by push_cast; ring
    rw [e, Ico_succ_int, sum_insert (by simp), e', Ico_succ_int, sum_insert (by simp), e'', ih (by omega), Nat.cast_succ,
      Ico_succ_int, sum_insert (by simp)]
    ring

/-- Shifting a sum over a period. -/
theorem sum_shift {n : Int} (hn : 0 ≤ n) (f : Int → K) (h : f n = f 0) :
    ∑ i ∈ Ico 0 n, f (i + 1) = ∑ i ∈ Ico 0 n, f i := by
  have := sum_tele hn f
  rw [sum_sub_distrib, h, sub_self] at this
  exact sub_eq_zero.1 this

theorem sum3_pairs {ni nj nk : Int} (hi : 0 ≤ ni) (hj : 0 ≤ nj) (hk : 0 ≤ nk) [CharZero K] (f : Int → Int → Int → K) :
    sum3 ni nj nk (avg8 f) = sum3 (2 * ni) (2 * nj) (2 * nk) f / 8 := by
  unfold sum3
  rw [sum_pairs hi, sum_div]
  refine sum_congr rfl fun i _ => ?_
  rw [sum_pairs hj, sum_pairs hj, ← sum_add_distrib, sum_div]
  refine sum_congr rfl fun j _ => ?_
  rw [sum_pairs hk, sum_pairs hk, sum_pairs hk, sum_pairs hk, ← sum_add_distrib, ← sum_add_distrib, ← sum_add_distrib, sum_div]
  refine sum_congr rfl fun k _ => ?_
  unfold avg8
  ring

/-- One-dimensional interpolation of periodic data keeps the mean, in either order of the neighbours. -/
theorem lin1_sum [CharZero K] {n : Int} (hn : 0 ≤ n) (w : Int → K) (hw : ∀ i, w (i + n) = w i) :
    ∑ x ∈ Ico 0 (2 * n), lin1 w x = 2 * ∑ i ∈ Ico 0 n, w i ∧ ∑ x ∈ Ico 0 (2 * n), lin1r w x = 2 * ∑ i ∈ Ico 0 n, w i := by
  have e1 : ∀ i : Int, (2 * i + 1 - 1) % 2 = 0 ∧ (2 * i + 1 - 1) / 2 = i := by intro i; omega
  have e2 : ∀ i : Int, (2 * i - 1) % 2 = 1 ∧ (2 * i - 1) / 2 = i - 1 := by intro i; omega
  have s1 : ∑ i ∈ Ico 0 n, w (i + 1) = ∑ i ∈ Ico 0 n, w i := sum_shift hn w (by simpa using hw 0)
  have s2 : ∑ i ∈ Ico 0 n, w (i - 1) = ∑ i ∈ Ico 0 n, w i := by
    have := sum_shift hn (fun i => w (i - 1)) (by have := hw (-1); rw [show (-1 : Int) + n = n - 1 by ring] at this; simpa using this)
    simpa using this.symm
  constructor <;> rw [sum_pairs hn]
  · have : ∀ i, lin1 w (2 * i) + lin1 w (2 * i + 1) = 1 / 4 * w (i - 1) + 3 / 2 * w i + 1 / 4 * w (i + 1) := by
      intro i
      simp only [lin1, (e1 i).1, (e1 i).2, (e2 i).1, (e2 i).2, if_true, one_ne_zero, if_false, sub_add_cancel]
      ring
    simp only [this, sum_add_distrib, ← mul_sum, s1, s2]
    ring
  · have : ∀ i, lin1r w (2 * i) + lin1r w (2 * i + 1) = 3 / 4 * w (i - 1) + 1 / 2 * w i + 3 / 4 * w (i + 1) := by
      intro i
      simp only [lin1r, (e1 i).1, (e1 i).2, (e2 i).1, (e2 i).2, if_true, one_ne_zero, if_false, sub_add_cancel]
      ring
    simp only [this, sum_add_distrib, ← mul_sum, s1, s2]
    ring

theorem lin1_add_sum {ι : Type} (s : Finset ι) (w : ι → Int → K) (x : Int) : ∑ t ∈ s, lin1 (w t) x = lin1 (fun a => ∑ t ∈ s, w t a) x := by
  unfold lin1
  split <;> simp only [sum_add_distrib, mul_sum]

/-- The code's interpolation of triply periodic data keeps the mean. -/
theorem swapped_sum [CharZero K] {ni nj nk : Int} (hi : 0 ≤ ni) (hj : 0 ≤ nj) (hk : 0 ≤ nk) (u : Int → Int → Int → K)
    (px : ∀ a b c, u (a + ni) b c = u a b c) (py : ∀ a b c, u a (b + nj) c = u a b c) (pz : ∀ a b c, u a b (c + nk) = u a b c) :
    sum3 (2 * ni) (2 * nj) (2 * nk) (trilinSwapped u) = 8 * sum3 ni nj nk u := by
  have hx : ∀ y z, ∑ x ∈ Ico 0 (2 * ni), trilinSwapped u x y z =
      lin1 (fun c => lin1 (fun b => 2 * ∑ a ∈ Ico 0 ni, u a b c) y) z := by
    intro y z
    unfold trilinSwapped
    rw [lin1_add_sum]
    congr 1; funext c
    rw [lin1_add_sum]
    congr 1; funext b
    by_cases h : b = (y - 1) / 2
    · simp only [if_pos h]; exact (lin1_sum hi (fun a => u a b c) fun a => px a b c).1
    · simp only [if_neg h]; exact (lin1_sum hi (fun a => u a b c) fun a => px a b c).2
  have hy : ∀ z, ∑ y ∈ Ico 0 (2 * nj), ∑ x ∈ Ico 0 (2 * ni), trilinSwapped u x y z =
      lin1 (fun c => 2 * ∑ b ∈ Ico 0 nj, 2 * ∑ a ∈ Ico 0 ni, u a b c) z := by
    intro z
    simp only [hx]
    rw [lin1_add_sum]
    congr 1; funext c
    exact (lin1_sum hj (fun b => 2 * ∑ a ∈ Ico 0 ni, u a b c) fun b => by simp only [py]).1
  have hz : ∑ z ∈ Ico 0 (2 * nk), ∑ y ∈ Ico 0 (2 * nj), ∑ x ∈ Ico 0 (2 * ni), trilinSwapped u x y z =
      2 * ∑ c ∈ Ico 0 nk, 2 * ∑ b ∈ Ico 0 nj, 2 * ∑ a ∈ Ico 0 ni, u a b c := by
    simp only [hy]
    exact (lin1_sum hk (fun c => 2 * ∑ b ∈ Ico 0 nj, 2 * ∑ a ∈ Ico 0 ni, u a b c) fun c => by simp only [pz]).1
  have reorder : ∀ (a b c : Int) (f : Int → Int → Int → K), sum3 a b c f = ∑ z ∈ Ico 0 c, ∑ y ∈ Ico 0 b, ∑ x ∈ Ico 0 a, f x y z := by
    intro a b c f
    unfold sum3
    rw [sum_comm]
    simp only [fun y => sum_comm (s := Ico 0 a) (t := Ico 0 c) (f := fun x z => f x y z)]
    rw [sum_comm]
  rw [reorder, hz, reorder]
  simp only [← mul_sum]
  ring

/-- `lin1` and `lin1r` are convex combinations of the two neighbours. -/
theorem lin1_mem [LinearOrder K] [IsStrictOrderedRing K] {w : Int → K} {x : Int} {lo hi : K}
    (h0 : lo ≤ w ((x - 1) / 2) ∧ w ((x - 1) / 2) ≤ hi) (h1 : lo ≤ w ((x - 1) / 2 + 1) ∧ w ((x - 1) / 2 + 1) ≤ hi) :
    (lo ≤ lin1 w x ∧ lin1 w x ≤ hi) ∧ (lo ≤ lin1r w x ∧ lin1r w x ≤ hi) := by
  unfold lin1 lin1r
  obtain ⟨a, b⟩ := h0
  obtain ⟨c, d⟩ := h1
  split <;> refine ⟨⟨?_, ?_⟩, ⟨?_, ?_⟩⟩ <;> linarith

theorem swapped_mem [LinearOrder K] [IsStrictOrderedRing K] {u : Int → Int → Int → K} {x y z : Int} {lo hi : K}
    (h : ∀ a b c, (0 ≤ a ∧ a ≤ 1) → (0 ≤ b ∧ b ≤ 1) → (0 ≤ c ∧ c ≤ 1) →
      lo ≤ u ((x - 1) / 2 + a) ((y - 1) / 2 + b) ((z - 1) / 2 + c) ∧ u ((x - 1) / 2 + a) ((y - 1) / 2 + b) ((z - 1) / 2 + c) ≤ hi) :
    lo ≤ trilinSwapped u x y z ∧ trilinSwapped u x y z ≤ hi := by
  have hx : ∀ b c, (0 ≤ b ∧ b ≤ 1) → (0 ≤ c ∧ c ≤ 1) → ∀ Y, Y = (y - 1) / 2 + b → ∀ Z, Z = (z - 1) / 2 + c →
      lo ≤ (if Y = (y - 1) / 2 then lin1 (fun a => u a Y Z) x else lin1r (fun a => u a Y Z) x) ∧
        (if Y = (y - 1) / 2 then lin1 (fun a => u a Y Z) x else lin1r (fun a => u a Y Z) x) ≤ hi := by
    rintro b c hb hc Y rfl Z rfl
    have := lin1_mem (w := fun a => u a ((y - 1) / 2 + b) ((z - 1) / 2 + c)) (x := x)
      (by have := h 0 b c (by omega) hb hc; simpa using this) (h 1 b c (by omega) hb hc)
    split
    · exact this.1
    · exact this.2
  have hy : ∀ c, (0 ≤ c ∧ c ≤ 1) → ∀ Z, Z = (z - 1) / 2 + c →
      lo ≤ lin1 (fun b => if b = (y - 1) / 2 then lin1 (fun a => u a b Z) x else lin1r (fun a => u a b Z) x) y ∧
      lin1 (fun b => if b = (y - 1) / 2 then lin1 (fun a => u a b Z) x else lin1r (fun a => u a b Z) x) y ≤ hi := fun c hc Z hZ =>
    (lin1_mem (hx 0 c (by omega) hc _ (by omega) Z hZ) (hx 1 c (by omega) hc _ (by omega) Z hZ)).1
  exact (lin1_mem (hy 0 (by omega) _ (by omega)) (hy 1 (by omega) _ (by omega))).1

end Madg
