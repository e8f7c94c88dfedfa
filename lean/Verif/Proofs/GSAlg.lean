/-
Gauss-Seidel sweeps of dense systems: uniqueness, fixed points, contraction; the scaled split matrix as a matrix.
-/
import Verif.Proofs.GaussSeidel

set_option linter.unusedSectionVars false
set_option linter.unusedVariables false

namespace Madg
open Spec Finset
variable {A K : Type} [DecidableEq A] [Field K] [LinearOrder K] [IsStrictOrderedRing K]

theorem row_split (n : Int) (f : Int → K) {i : Int} (h0 : 0 ≤ i) (h1 : i < n) :
    ∑ j ∈ Ico 0 n, f j = ∑ j ∈ Ico 0 i, f j + f i + ∑ j ∈ Ico (i + 1) n, f j := by
  have e : Ico 0 n = Ico 0 i ∪ Ico i n := by
    ext j; simp only [Finset.mem_union, Finset.mem_Ico]; omega
  have hd : Disjoint (Ico 0 i) (Ico i n) := by
    rw [Finset.disjoint_left]
    intro j hj hj'
    rw [Finset.mem_Ico] at hj hj'
    omega
  rw [e, Finset.sum_union hd, Ico_cons f h1, add_assoc]

theorem erase_split (n : Int) (f : Int → K) {i : Int} (h0 : 0 ≤ i) (h1 : i < n) :
    ∑ j ∈ (Ico 0 n).erase i, f j = ∑ j ∈ Ico 0 i, f j + ∑ j ∈ Ico (i + 1) n, f j := by
  have hmem : i ∈ Ico 0 n := Finset.mem_Ico.2 ⟨h0, h1⟩
  have := row_split n f h0 h1
  rw [← Finset.add_sum_erase _ f hmem] at this
  linear_combination this

section
variable {n : Int} {a : Int → Int → K} {b : Int → K}

theorem gsForward_congr {x x' y y' : Int → K} (h : GSForward n a b x y) (hx : ∀ i, 0 ≤ i → i < n → x' i = x i)
    (hy : ∀ i, 0 ≤ i → i < n → y' i = y i) : GSForward n a b x' y' := by
  intro i h0 h1
  rw [← h i h0 h1]
  congr 1
  · refine Finset.sum_congr rfl fun j hj => ?_
    rw [Finset.mem_Ico] at hj
    rw [hy j hj.1 (by omega)]
  · refine Finset.sum_congr rfl fun j hj => ?_
    rw [Finset.mem_Ico] at hj
    rw [hx j (by omega) (by omega)]

theorem gsBackward_congr {x x' y y' : Int → K} (h : GSBackward n a b x y) (hx : ∀ i, 0 ≤ i → i < n → x' i = x i)
    (hy : ∀ i, 0 ≤ i → i < n → y' i = y i) : GSBackward n a b x' y' := by
  intro i h0 h1
  rw [← h i h0 h1]
  congr 1
  · refine Finset.sum_congr rfl fun j hj => ?_
    rw [Finset.mem_Ico] at hj
    rw [hx j hj.1 (by omega)]
  · refine Finset.sum_congr rfl fun j hj => ?_
    rw [Finset.mem_Ico] at hj
    rw [hy j (by omega) (by omega)]

theorem gsForward_self (x : Int → K) : GSForward n a b x x ↔ ∀ i, 0 ≤ i → i < n → mulVec n a x i = b i := by
  constructor
  · intro h i h0 h1
    rw [← h i h0 h1, Ico_snoc _ h0]
    exact row_split n _ h0 h1
  · intro h i h0 h1
    rw [← h i h0 h1, Ico_snoc _ h0]
    exact (row_split n _ h0 h1).symm

theorem gsBackward_self (x : Int → K) : GSBackward n a b x x ↔ ∀ i, 0 ≤ i → i < n → mulVec n a x i = b i := by
  constructor
  · intro h i h0 h1
    rw [← h i h0 h1, Ico_cons _ h1, ← add_assoc]
    exact row_split n _ h0 h1
  · intro h i h0 h1
    rw [← h i h0 h1, Ico_cons _ h1, ← add_assoc]
    exact (row_split n _ h0 h1).symm

variable (hd : ∀ i, 0 ≤ i → i < n → a i i ≠ 0)

include hd in
theorem gsForward_unique {x y y' : Int → K} (h : GSForward n a b x y) (h' : GSForward n a b x y') :
    ∀ i, 0 ≤ i → i < n → y i = y' i := by
  have key : ∀ k : Nat, ∀ i, 0 ≤ i → i < n → i < k → y i = y' i := by
    intro k
    induction k with
    | zero => intro i h0 _ h2; omega
    | succ k ih =>
      intro i h0 h1 h2
      have e := h i h0 h1
      have e' := h' i h0 h1
      rw [Ico_snoc _ h0] at e e'
      have hs : ∑ j ∈ Ico 0 i, a i j * y j = ∑ j ∈ Ico 0 i, a i j * y' j := by
        refine Finset.sum_congr rfl fun j hj => ?_
        rw [Finset.mem_Ico] at hj
        push_cast at h2
        rw [ih j hj.1 (by omega) (by omega)]
      rw [hs] at e
      have : a i i * y i = a i i * y' i := by linear_combination e - e'
      exact mul_left_cancel₀ (hd i h0 h1) this
  intro i h0 h1
  exact key (i.toNat + 1) i h0 h1 (by omega)

include hd in
theorem gsBackward_unique {x y y' : Int → K} (h : GSBackward n a b x y) (h' : GSBackward n a b x y') :
    ∀ i, 0 ≤ i → i < n → y i = y' i := by
  have key : ∀ k : Nat, ∀ i, 0 ≤ i → i < n → n - i ≤ k → y i = y' i := by
    intro k
    induction k with
    | zero => intro i h0 h1 h2; simp at h2; omega
    | succ k ih =>
      intro i h0 h1 h2
      have e := h i h0 h1
      have e' := h' i h0 h1
      rw [Ico_cons _ h1] at e e'
      have hs : ∑ j ∈ Ico (i + 1) n, a i j * y j = ∑ j ∈ Ico (i + 1) n, a i j * y' j := by
        refine Finset.sum_congr rfl fun j hj => ?_
        rw [Finset.mem_Ico] at hj
        push_cast at h2
        rw [ih j (by omega) (by omega) (by omega)]
      rw [hs] at e
      have : a i i * y i = a i i * y' i := by linear_combination e - e'
      exact mul_left_cancel₀ (hd i h0 h1) this
  intro i h0 h1
  exact key (n - i).toNat i h0 h1 (by omega)

/-- Bound on one row from bounds on the other unknowns. -/
theorem gs_row {z e1 : Int → K} {q E : K} (hE0 : 0 ≤ E)
    (hdom : ∀ i, 0 ≤ i → i < n → ∑ j ∈ (Ico 0 n).erase i, |a i j| ≤ q * |a i i|) {i : Int} (h0 : 0 ≤ i) (h1 : i < n)
    (hdi : a i i ≠ 0) (hz : a i i * e1 i = -(∑ j ∈ Ico 0 i, a i j * e1 j + ∑ j ∈ Ico (i + 1) n, a i j * e1 j))
    (hb : ∀ j, 0 ≤ j → j < n → j ≠ i → |e1 j| ≤ E) : |e1 i| ≤ q * E := by
  have hpos : 0 < |a i i| := abs_pos.2 hdi
  rw [← erase_split n (fun j => a i j * e1 j) h0 h1] at hz
  have h2 : |a i i| * |e1 i| ≤ (∑ j ∈ (Ico 0 n).erase i, |a i j|) * E := by
    rw [← abs_mul, hz, abs_neg, Finset.sum_mul]
    refine (Finset.abs_sum_le_sum_abs _ _).trans (Finset.sum_le_sum fun j hj => ?_)
    rw [Finset.mem_erase, Finset.mem_Ico] at hj
    rw [abs_mul]
    exact mul_le_mul_of_nonneg_left (hb j hj.2.1 hj.2.2 hj.1) (abs_nonneg _)
  have h3 := h2.trans (mul_le_mul_of_nonneg_right (hdom i h0 h1) hE0)
  have h4 : |a i i| * |e1 i| ≤ |a i i| * (q * E) := by linarith [h3]
  exact le_of_mul_le_mul_left h4 hpos

include hd in
theorem gsForward_contract {x y z : Int → K} {q E : K} (hq : q ≤ 1)
    (hz : ∀ i, 0 ≤ i → i < n → mulVec n a z i = b i)
    (hdom : ∀ i, 0 ≤ i → i < n → ∑ j ∈ (Ico 0 n).erase i, |a i j| ≤ q * |a i i|)
    (hE : ∀ i, 0 ≤ i → i < n → |x i - z i| ≤ E) (h : GSForward n a b x y) :
    ∀ i, 0 ≤ i → i < n → |y i - z i| ≤ q * E := by
  have key : ∀ k : Nat, ∀ i, 0 ≤ i → i < n → i < k → |y i - z i| ≤ q * E := by
    intro k
    induction k with
    | zero => intro i h0 _ h2; omega
    | succ k ih =>
      intro i h0 h1 h2
      have hE0 : 0 ≤ E := (abs_nonneg _).trans (hE i h0 h1)
      have hqE : q * E ≤ E := by nlinarith
      set e1 : Int → K := fun j => if j ≤ i then y j - z j else x j - z j with he1
      have h3 : |e1 i| ≤ q * E := by
        refine gs_row (z := z) hE0 hdom h0 h1 (hd i h0 h1) ?_ ?_
        · have e := h i h0 h1
          have e' := hz i h0 h1
          unfold mulVec at e'
          rw [row_split n _ h0 h1] at e'
          rw [Ico_snoc _ h0] at e
          have s1 : ∑ j ∈ Ico 0 i, a i j * e1 j = ∑ j ∈ Ico 0 i, a i j * y j - ∑ j ∈ Ico 0 i, a i j * z j := by
            rw [← Finset.sum_sub_distrib]
            refine Finset.sum_congr rfl fun j hj => ?_
            rw [Finset.mem_Ico] at hj
            simp only [he1]
            rw [if_pos (by omega)]
            ring
          have s2 : ∑ j ∈ Ico (i + 1) n, a i j * e1 j = ∑ j ∈ Ico (i + 1) n, a i j * x j - ∑ j ∈ Ico (i + 1) n, a i j * z j := by
            rw [← Finset.sum_sub_distrib]
            refine Finset.sum_congr rfl fun j hj => ?_
            rw [Finset.mem_Ico] at hj
            simp only [he1]
            rw [if_neg (by omega)]
            ring
          rw [s1, s2]
          simp only [he1]
          rw [if_pos le_rfl]
          linear_combination e - e'
        · intro j j0 j1 hne
          simp only [he1]
          by_cases hj : j ≤ i
          · rw [if_pos hj]
            push_cast at h2
            exact (ih j j0 j1 (by omega)).trans hqE
          · rw [if_neg hj]
            exact hE j j0 j1
      simpa [he1] using h3
  intro i h0 h1
  exact key (i.toNat + 1) i h0 h1 (by omega)

include hd in
theorem gsBackward_contract {x y z : Int → K} {q E : K} (hq : q ≤ 1)
    (hz : ∀ i, 0 ≤ i → i < n → mulVec n a z i = b i)
    (hdom : ∀ i, 0 ≤ i → i < n → ∑ j ∈ (Ico 0 n).erase i, |a i j| ≤ q * |a i i|)
    (hE : ∀ i, 0 ≤ i → i < n → |x i - z i| ≤ E) (h : GSBackward n a b x y) :
    ∀ i, 0 ≤ i → i < n → |y i - z i| ≤ q * E := by
  have key : ∀ k : Nat, ∀ i, 0 ≤ i → i < n → n - i ≤ k → |y i - z i| ≤ q * E := by
    intro k
    induction k with
    | zero => intro i h0 h1 h2; simp at h2; omega
    | succ k ih =>
      intro i h0 h1 h2
      have hE0 : 0 ≤ E := (abs_nonneg _).trans (hE i h0 h1)
      have hqE : q * E ≤ E := by nlinarith
      set e1 : Int → K := fun j => if i ≤ j then y j - z j else x j - z j with he1
      have h3 : |e1 i| ≤ q * E := by
        refine gs_row (z := z) hE0 hdom h0 h1 (hd i h0 h1) ?_ ?_
        · have e := h i h0 h1
          have e' := hz i h0 h1
          unfold mulVec at e'
          rw [row_split n _ h0 h1] at e'
          rw [Ico_cons _ h1] at e
          have s1 : ∑ j ∈ Ico 0 i, a i j * e1 j = ∑ j ∈ Ico 0 i, a i j * x j - ∑ j ∈ Ico 0 i, a i j * z j := by
            rw [← Finset.sum_sub_distrib]
            refine Finset.sum_congr rfl fun j hj => ?_
            rw [Finset.mem_Ico] at hj
            simp only [he1]
            rw [if_neg (by omega)]
            ring
          have s2 : ∑ j ∈ Ico (i + 1) n, a i j * e1 j = ∑ j ∈ Ico (i + 1) n, a i j * y j - ∑ j ∈ Ico (i + 1) n, a i j * z j := by
            rw [← Finset.sum_sub_distrib]
            refine Finset.sum_congr rfl fun j hj => ?_
            rw [Finset.mem_Ico] at hj
            simp only [he1]
            rw [if_pos (by omega)]
            ring
          rw [s1, s2]
          simp only [he1]
          rw [if_pos le_rfl]
          linear_combination e - e'
        · intro j j0 j1 hne
          simp only [he1]
          by_cases hj : i ≤ j
          · rw [if_pos hj]
            push_cast at h2
            exact (ih j j0 j1 (by omega)).trans hqE
          · rw [if_neg hj]
            exact hE j j0 j1
      simpa [he1] using h3
  intro i h0 h1
  exact key (n - i).toNat i h0 h1 (by omega)

omit [IsStrictOrderedRing K] [LinearOrder K] in
theorem relaxed_diff {w : K} {x y x' z : Int → K} (h : Relaxed n w x y x') {i : Int} (h0 : 0 ≤ i) (h1 : i < n) :
    x' i - z i = (1 - w) * (x i - z i) + w * (y i - z i) := by
  rw [h i h0 h1]; ring

theorem relaxed_contract {w q E : K} {x y x' z : Int → K} (hw0 : 0 ≤ w) (hw1 : w ≤ 1) (h : Relaxed n w x y x')
    (hE : ∀ i, 0 ≤ i → i < n → |x i - z i| ≤ E) (hy : ∀ i, 0 ≤ i → i < n → |y i - z i| ≤ q * E) :
    ∀ i, 0 ≤ i → i < n → |x' i - z i| ≤ (1 - w + w * q) * E := by
  intro i h0 h1
  rw [relaxed_diff h h0 h1]
  have a1 : |(1 - w) * (x i - z i)| ≤ (1 - w) * E := by
    rw [abs_mul, abs_of_nonneg (by linarith)]
    exact mul_le_mul_of_nonneg_left (hE i h0 h1) (by linarith)
  have a2 : |w * (y i - z i)| ≤ w * (q * E) := by
    rw [abs_mul, abs_of_nonneg hw0]
    exact mul_le_mul_of_nonneg_left (hy i h0 h1) hw0
  have a3 := abs_add_le ((1 - w) * (x i - z i)) (w * (y i - z i))
  linarith

end

end Madg
