/-
The multigrid schedule.
-/
import Verif.Model.Multigrid
import Verif.Spec.Multigrid
import Mathlib.Data.List.Count
import Mathlib.Algebra.BigOperators.Group.List.Basic
import Mathlib.Algebra.Ring.Int.Defs
import Mathlib.Tactic.IntervalCases

namespace Madg
open Spec

theorem getMGCycle_eq {L n : Int} (h1 : 1 ≤ L) (h6 : L ≤ 6) (hn : 0 ≤ n) :
    getMGCycle L n = .ok (vCycle n.toNat (L - 1).toNat) := by
  unfold getMGCycle
  rw [if_neg (by omega)]
  have hc : L = 1 ∨ L = 2 ∨ L = 3 ∨ L = 4 ∨ L = 5 ∨ L = 6 := by omega
  rcases hc with rfl | rfl | rfl | rfl | rfl | rfl <;>
    simp [vCycle, List.append_assoc]

theorem visits_append (a b : List Int) (ℓ : Int) : visits ℓ (a ++ b) = visits ℓ a ++ visits (ℓ + a.sum) b := by
  induction a generalizing ℓ with
  | nil => simp [visits]
  | cons s a ih => simp [visits, ih, add_assoc]

theorem visits_replicate (n : Nat) (ℓ : Int) : visits ℓ (List.replicate n 0) = List.replicate n (ℓ, 0) := by
  induction n with
  | zero => rfl
  | succ n ih => simp [List.replicate_succ, visits, ih]

theorem vCycle_sum (n d : Nat) : (vCycle n d).sum = 0 := by
  induction d with
  | zero => simp [vCycle]
  | succ d ih => simp [vCycle, ih]

theorem visits_vCycle_zero (n : Nat) (ℓ : Int) :
    visits ℓ (vCycle n 0) = List.replicate n (ℓ, 0) ++ List.replicate n (ℓ, 0) := by
  simp [vCycle, visits_replicate]

theorem visits_vCycle_succ (n d : Nat) (ℓ : Int) : visits ℓ (vCycle n (d + 1)) =
    List.replicate n (ℓ, 0) ++ [(ℓ, 1)] ++ visits (ℓ + 1) (vCycle n d) ++ [(ℓ + 1, -1)] ++ List.replicate n (ℓ, 0) := by
  simp [vCycle, visits_append, visits_replicate, visits, vCycle_sum]

theorem vCycle_range (n d : Nat) (ℓ : Int) : ∀ x ∈ visits ℓ (vCycle n d), ℓ ≤ x.1 ∧ x.1 ≤ ℓ + d ∧
    (x.2 = 0 ∨ (x.2 = 1 ∧ x.1 < ℓ + d) ∨ (x.2 = -1 ∧ ℓ < x.1)) := by
  induction d generalizing ℓ with
  | zero =>
    intro x hx
    rw [visits_vCycle_zero] at hx
    simp only [List.mem_append, List.mem_replicate, or_self] at hx
    obtain ⟨-, rfl⟩ := hx
    simp
  | succ d ih =>
    intro x hx
    rw [visits_vCycle_succ] at hx
    simp only [List.mem_append, List.mem_replicate, List.mem_singleton] at hx
    rcases hx with (((⟨-, rfl⟩ | rfl) | hx) | rfl) | ⟨-, rfl⟩
    · refine ⟨le_rfl, ?_, Or.inl rfl⟩; dsimp only; omega
    · refine ⟨le_rfl, ?_, Or.inr (Or.inl ⟨rfl, ?_⟩)⟩ <;> dsimp only <;> omega
    · obtain ⟨a, b, c⟩ := ih (ℓ + 1) x hx
      refine ⟨by omega, by push_cast; omega, ?_⟩
      rcases c with c | ⟨c, e⟩ | ⟨c, e⟩
      · exact Or.inl c
      · exact Or.inr (Or.inl ⟨c, by push_cast; omega⟩)
      · exact Or.inr (Or.inr ⟨c, by omega⟩)
    · refine ⟨?_, ?_, Or.inr (Or.inr ⟨rfl, ?_⟩)⟩ <;> dsimp only <;> omega
    · refine ⟨le_rfl, ?_, Or.inl rfl⟩; dsimp only; omega

theorem not_mem_of_lt (n d : Nat) (ℓ l s : Int) (h : l < ℓ ∨ ℓ + d < l) :
    (visits ℓ (vCycle n d)).count (l, s) = 0 := by
  rw [List.count_eq_zero]
  intro hm
  obtain ⟨a, b, -⟩ := vCycle_range n d ℓ _ hm
  dsimp only at a b
  omega

theorem vCycle_smooths (n d : Nat) (ℓ l : Int) (h : ℓ ≤ l ∧ l ≤ ℓ + d) :
    (visits ℓ (vCycle n d)).count (l, 0) = 2 * n := by
  induction d generalizing ℓ with
  | zero =>
    have : l = ℓ := by have := h.2; push_cast at this; omega
    subst this
    rw [visits_vCycle_zero, List.count_append, List.count_replicate_self]; omega
  | succ d ih =>
    rw [visits_vCycle_succ]
    simp only [List.count_append]
    have e1 : List.count (l, (0 : Int)) [(ℓ, 1)] = 0 := by
      rw [List.count_eq_zero]; simp
    have e2 : List.count (l, (0 : Int)) [(ℓ + 1, -1)] = 0 := by
      rw [List.count_eq_zero]; simp
    rw [e1, e2]
    by_cases hl : l = ℓ
    · subst hl
      rw [List.count_replicate_self, not_mem_of_lt n d _ l 0 (by omega)]; omega
    · have : List.count (l, (0 : Int)) (List.replicate n (ℓ, 0)) = 0 := by
        rw [List.count_eq_zero]; simp [List.mem_replicate, hl]
      rw [this, ih (ℓ + 1) (by have := h.2; push_cast at this; omega)]; omega

theorem vCycle_down (n d : Nat) (ℓ l : Int) (h : ℓ ≤ l ∧ l < ℓ + d) :
    (visits ℓ (vCycle n d)).count (l, 1) = 1 ∧ (visits ℓ (vCycle n d)).count (l + 1, -1) = 1 := by
  induction d generalizing ℓ with
  | zero => exact absurd h.2 (by push_cast; omega)
  | succ d ih =>
    rw [visits_vCycle_succ]
    simp only [List.count_append]
    have z1 : ∀ x : Int, List.count (x, (1 : Int)) (List.replicate n (ℓ, 0)) = 0 := fun x => by
      rw [List.count_eq_zero]; simp [List.mem_replicate]
    have z2 : ∀ x : Int, List.count (x, (-1 : Int)) (List.replicate n (ℓ, 0)) = 0 := fun x => by
      rw [List.count_eq_zero]; simp [List.mem_replicate]
    have z3 : List.count (l, (1 : Int)) [(ℓ + 1, -1)] = 0 := by
      rw [List.count_eq_zero]; simp
    have z4 : List.count (l + 1, (-1 : Int)) [(ℓ, 1)] = 0 := by
      rw [List.count_eq_zero]; simp
    rw [z1, z2, z3, z4]
    by_cases hl : l = ℓ
    · subst hl
      have y1 := not_mem_of_lt n d (l + 1) l 1 (by omega)
      have y2 : (visits (l + 1) (vCycle n d)).count (l + 1, -1) = 0 := by
        rw [List.count_eq_zero]
        intro hm
        obtain ⟨-, -, c⟩ := vCycle_range n d _ _ hm
        dsimp only at c
        omega
      rw [y1, y2]
      simp
    · obtain ⟨i1, i2⟩ := ih (ℓ + 1) (by have := h.2; push_cast at this; omega)
      rw [i1, i2]
      have x1 : List.count (l, (1 : Int)) [(ℓ, 1)] = 0 := by
        rw [List.count_eq_zero]; simp [hl]
      have x2 : List.count (l + 1, (-1 : Int)) [(ℓ + 1, -1)] = 0 := by
        rw [List.count_eq_zero]; simp [hl]
      rw [x1, x2]
      exact ⟨rfl, rfl⟩

/-- The schedule is descents and smoothing first, ascents and smoothing afterwards. -/
theorem vCycle_split (n d : Nat) : ∃ a b, vCycle n d = a ++ b ∧ (∀ s ∈ a, s = 0 ∨ s = 1) ∧ (∀ s ∈ b, s = 0 ∨ s = -1) := by
  induction d with
  | zero =>
    refine ⟨List.replicate n 0, List.replicate n 0, rfl, ?_, ?_⟩ <;>
    · intro s hs; exact Or.inl (List.eq_of_mem_replicate hs)
  | succ d ih =>
    obtain ⟨a, b, e, ha, hb⟩ := ih
    refine ⟨List.replicate n 0 ++ [1] ++ a, b ++ [-1] ++ List.replicate n 0, ?_, ?_, ?_⟩
    · rw [vCycle, e]; simp only [List.append_assoc]
    · intro s hs
      simp only [List.mem_append, List.mem_singleton, List.mem_replicate] at hs
      rcases hs with (⟨-, rfl⟩ | rfl) | h
      · exact Or.inl rfl
      · exact Or.inr rfl
      · exact ha s h
    · intro s hs
      simp only [List.mem_append, List.mem_singleton, List.mem_replicate] at hs
      rcases hs with (h | rfl) | ⟨-, rfl⟩
      · exact hb s h
      · exact Or.inr rfl
      · exact Or.inl rfl

end Madg
