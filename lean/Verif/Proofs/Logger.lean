/-
Lemmas about the logger.
-/
import Verif.Proofs.Text
import Verif.Spec.Logger
import Mathlib.Tactic.NormNum
import Mathlib.Tactic.Linarith
import Mathlib.Tactic.Positivity
import Mathlib.Tactic.Ring

namespace Madg
open Spec

theorem setw_leftpad (w : Nat) (t : Text) : setw w t = List.leftpad w ' ' t := rfl

theorem lines_ne (t : Text) : lines t ≠ [] := by
  cases t with
  | nil => simp [lines]
  | cons c t =>
    rw [lines]
    split
    · simp
    · split <;> simp

theorem lines_tag {tag : Text} (ht : '\n' ∉ tag) (t : Text) {l : Text} {r : List Text} (h : lines t = l :: r) :
    lines (tag ++ t) = (tag ++ l) :: r := by
  induction tag with
  | nil => exact h
  | cons c tag ih =>
    have hc : c ≠ '\n' := fun e => ht (by simp [e])
    rw [List.cons_append, lines, if_neg hc, ih fun e => ht (by simp [e])]
    rfl

theorem lines_replaceNl {tag : Text} (ht : '\n' ∉ tag) (s : Text) :
    lines (tag ++ replaceNl tag s) = (lines s).map (tag ++ ·) := by
  suffices H : ∃ l r, lines s = l :: r ∧ lines (replaceNl tag s) = l :: r.map (tag ++ ·) by
    obtain ⟨l, r, h1, h2⟩ := H
    rw [lines_tag ht _ h2, h1]; rfl
  induction s with
  | nil => exact ⟨[], [], rfl, rfl⟩
  | cons c s ih =>
    obtain ⟨l, r, h1, h2⟩ := ih
    by_cases hc : c = '\n'
    · subst hc
      refine ⟨[], l :: r, by rw [lines, if_pos rfl, h1], ?_⟩
      have : replaceNl tag ('\n' :: s) = '\n' :: (tag ++ replaceNl tag s) := by simp [replaceNl]
      rw [this, lines, if_pos rfl, lines_tag ht _ h2]
      rfl
    · refine ⟨c :: l, r, by rw [lines, if_neg hc, h1], ?_⟩
      have : replaceNl tag (c :: s) = c :: replaceNl tag s := by simp [replaceNl, hc]
      rw [this, lines, if_neg hc, h2]

/-! ### Width of a printed number -/

theorem length_sciNonneg (x : ℚ) : (sciNonneg 5 x).length =
    9 + max 2 (Nat.log 10 (if x = 0 then ((0 : Nat), (0 : Int)) else sciRound 5 x).2.natAbs + 1) := by
  unfold sciNonneg showExp
  simp only [List.length_append, List.length_cons, length_digitsN]
  omega

theorem length_exp_le {e : Int} {k : Nat} (hk : 2 ≤ k) (h : e.natAbs < 10 ^ k) : max 2 (Nat.log 10 e.natAbs + 1) ≤ k := by
  rcases Nat.eq_zero_or_pos e.natAbs with h0 | h0
  · rw [h0]; simp; omega
  · have := (Nat.log_lt_iff_lt_pow (b := 10) (by decide) (by omega)).2 h
    omega

theorem length_exp_ge {e : Int} (h : 100 ≤ e.natAbs) : 3 ≤ Nat.log 10 e.natAbs + 1 := by
  have : 2 ≤ Nat.log 10 e.natAbs := Nat.le_log_of_pow_le (by decide) (by simpa using h)
  omega

theorem sciRound_exp (p : Nat) (x : ℚ) : (sciRound p x).2 = Int.log 10 x ∨ (sciRound p x).2 = Int.log 10 x + 1 := by
  unfold sciRound
  dsimp only
  split
  · exact Or.inr rfl
  · exact Or.inl rfl

theorem log_range {x : ℚ} (hx : 0 < x) {k : Nat} (h1 : (10 : ℚ) ^ (-(k : Int)) ≤ x) (h2 : x < (10 : ℚ) ^ k) :
    -(k : Int) ≤ Int.log 10 x ∧ Int.log 10 x < k := by
  constructor
  · rw [← Int.zpow_le_iff_le_log (by decide) hx]; exact_mod_cast h1
  · rw [← Int.lt_zpow_iff_log_lt (by decide) hx]; exact_mod_cast h2

theorem length_sciNonneg_le {x : ℚ} {k : Nat} (hk : 1 < k) (h0 : 0 ≤ x)
    (h : x = 0 ∨ (10 : ℚ) ^ (-((10 ^ k - 1 : Nat) : Int)) ≤ x ∧ x < (10 : ℚ) ^ (10 ^ k - 1)) :
    (sciNonneg 5 x).length ≤ 9 + k := by
  rw [length_sciNonneg]
  have hp : 1 ≤ 10 ^ k := Nat.one_le_pow _ _ (by decide)
  have : (if x = 0 then ((0 : Nat), (0 : Int)) else sciRound 5 x).2.natAbs < 10 ^ k := by
    by_cases hx : x = 0
    · rw [if_pos hx]; simp
    · rw [if_neg hx]
      have hx' : 0 < x := lt_of_le_of_ne h0 (Ne.symm hx)
      obtain ⟨l1, l2⟩ := log_range hx' (h.resolve_left hx).1 (h.resolve_left hx).2
      rcases sciRound_exp 5 x with e | e <;> rw [e] <;> omega
  have := length_exp_le hk this
  omega

theorem length_sci_fits {v : ℚ} (h : LogFits v) : (sci 5 v).length ≤ 12 := by
  unfold sci
  split
  · rename_i hv
    have := length_sciNonneg_le (x := -v) (k := 2) (by decide) (by linarith) (by
      rcases h with h | h | h
      · exact absurd h hv.ne
      · rw [abs_of_neg hv] at h
        exact Or.inr h
      · exact absurd (h.1.trans hv.le) (not_le.2 (zpow_pos (by norm_num) _)))
    rw [List.length_cons]; omega
  · rename_i hv
    rw [not_lt] at hv
    rcases h with h | h | h
    · have := length_sciNonneg_le (x := v) (k := 2) (by decide) hv (Or.inl h)
      omega
    · rw [abs_of_nonneg hv] at h
      have := length_sciNonneg_le (x := v) (k := 2) (by decide) hv (Or.inr h)
      omega
    · have := length_sciNonneg_le (x := v) (k := 3) (by decide) hv (Or.inr h)
      omega

theorem length_sci_wide {v : ℚ} (hv : v < 0) (h : -v < (10 : ℚ) ^ (-100 : Int) ∨ (10 : ℚ) ^ 100 ≤ -v) :
    13 ≤ (sci 5 v).length := by
  unfold sci
  rw [if_pos hv, List.length_cons, length_sciNonneg, if_neg (by simpa using hv.ne)]
  have hx : 0 < -v := by linarith
  have : 100 ≤ (sciRound 5 (-v)).2.natAbs := by
    rcases h with h | h
    · have : Int.log 10 (-v) < -100 := by
        rw [← Int.lt_zpow_iff_log_lt (by decide) hx]; exact_mod_cast h
      rcases sciRound_exp 5 (-v) with e | e <;> rw [e] <;> omega
    · have : (100 : Int) ≤ Int.log 10 (-v) := by
        rw [← Int.zpow_le_iff_le_log (by decide) hx]; exact_mod_cast h
      rcases sciRound_exp 5 (-v) with e | e <;> rw [e] <;> omega
  have := length_exp_ge this
  omega

/-- A column whose number fits is a nonempty run of blanks followed by the number. -/
theorem logCol_form (v : ℚ) : logCol v = List.replicate (13 - (sci 5 v).length) ' ' ++ sci 5 v := rfl

/-- Words, each preceded by a run of separators, are recovered. -/
theorem words_led {p : Char → Bool} (l : List (Text × Text)) (hne : l ≠ [])
    (hl : ∀ x ∈ l, Word p x.2 ∧ x.1 ≠ [] ∧ ∀ c ∈ x.1, p c = true) :
    splitCompress p (trimIf p (l.flatMap fun x => x.1 ++ x.2)) = l.map Prod.snd := by
  -- regroup: lead ++ spaced ++ last word
  suffices H : ∀ (l : List (Text × Text)), l ≠ [] → (∀ x ∈ l, Word p x.2 ∧ x.1 ≠ [] ∧ ∀ c ∈ x.1, p c = true) →
      ∃ (lead : Text) (m : List (Text × Text)) (w : Text), (∀ c ∈ lead, p c = true) ∧
        (∀ x ∈ m, Word p x.1 ∧ x.2 ≠ [] ∧ ∀ c ∈ x.2, p c = true) ∧ Word p w ∧ lead ≠ [] ∧
        (l.flatMap fun x => x.1 ++ x.2) = lead ++ spaced m ++ w ∧ l.map Prod.snd = m.map Prod.fst ++ [w] by
    obtain ⟨lead, m, w, h1, h2, h3, -, h5, h6⟩ := H l hne hl
    have := words_last lead h1 m h2 w h3 [] (by simp)
    rw [List.append_nil] at this
    rw [h5, this, h6]
  intro l
  induction l with
  | nil => intro h; exact absurd rfl h
  | cons y l ih =>
    intro _ hl
    obtain ⟨y1, y2, y3⟩ := hl y (by simp)
    by_cases hl0 : l = []
    · subst hl0
      exact ⟨y.1, [], y.2, y3, by simp, y1, y2, by simp [spaced], by simp⟩
    · obtain ⟨lead, m, w, h1, h2, h3, h4, h5, h6⟩ := ih hl0 fun x hx => hl x (by simp [hx])
      refine ⟨y.1, (y.2, lead) :: m, w, y3, ?_, h3, y2, ?_, ?_⟩
      · intro x hx
        rcases List.mem_cons.1 hx with rfl | hx
        · exact ⟨y1, h4, h1⟩
        · exact h2 x hx
      · rw [List.flatMap_cons, h5]
        simp [spaced]
      · simp [h6]

theorem words_row {vs : List (Text × ℚ)} (hne : vs ≠ []) (hf : ∀ p ∈ vs, LogFits p.2) :
    splitCompress isSpaceNl (trimIf isSpaceNl (logRow vs)) = vs.map fun p => sci 5 p.2 := by
  obtain ⟨q, vs, rfl⟩ := List.exists_cons_of_ne_nil hne
  have hb : ∀ (n : Nat), ∀ c ∈ List.replicate n ' ', isSpaceNl c = true := by
    intro n c hc
    rw [(List.mem_replicate.1 hc).2]; rfl
  have e : logRow (q :: vs) = (((' ' :: List.replicate (13 - (sci 5 q.2).length) ' ', sci 5 q.2) ::
      vs.map fun p => (List.replicate (13 - (sci 5 p.2).length) ' ', sci 5 p.2)).flatMap fun x => x.1 ++ x.2) := by
    simp [logRow, List.leftpad, List.flatMap_map]
  rw [e, words_led _ (by simp)]
  · simp
  · intro x hx
    rcases List.mem_cons.1 hx with rfl | hx
    · exact ⟨word_sci 5 _, by simp, hb (_ + 1)⟩
    · obtain ⟨p, hp, rfl⟩ := List.mem_map.1 hx
      refine ⟨word_sci 5 _, ?_, hb _⟩
      have := length_sci_fits (hf p (by simp [hp]))
      intro h
      have := congrArg List.length h
      simp at this
      omega

/-- Whole numbers below a million are printed exactly. -/
theorem sciDec_nat {n : Nat} (h : n < 10 ^ 6) : sciDec 5 (n : ℚ) = n := by
  unfold sciDec
  by_cases h0 : n = 0
  · simp [h0]
  have hn : (0 : ℚ) < n := by exact_mod_cast Nat.pos_of_ne_zero h0
  rw [if_neg hn.ne', if_neg hn.le.not_gt]
  obtain ⟨-, -, h3⟩ := sciRound_spec 5 hn
  unfold sciVal at h3 ⊢
  generalize hr : sciRound 5 (n : ℚ) = r at h3 ⊢
  have hD : Int.log 10 (n : ℚ) ≤ 5 := by
    have : Int.log 10 (n : ℚ) < 6 := by
      rw [← Int.lt_zpow_iff_log_lt (by decide) hn]
      exact_mod_cast h
    omega
  have hD0 : 0 ≤ Int.log 10 (n : ℚ) := by
    rw [← Int.zpow_le_iff_le_log (by decide) hn]
    simp
    omega
  have he : Int.log 10 (n : ℚ) ≤ r.2 := by
    rcases sciRound_exp 5 (n : ℚ) with e | e <;> rw [hr] at e <;> omega
  obtain ⟨D, hDe⟩ := Int.eq_ofNat_of_zero_le hD0
  obtain ⟨j, hj⟩ : ∃ j : Nat, r.2 = D + j := ⟨(r.2 - D).toNat, by omega⟩
  rw [hDe] at h3 hD
  have hp : (0 : ℚ) < (10 : ℚ) ^ ((D : Int) - 5) := zpow_pos (by norm_num) _
  have e1 : (r.1 : ℚ) * (10 : ℚ) ^ (r.2 - (5 : Nat)) = ((r.1 * 10 ^ j : Nat) : ℚ) * (10 : ℚ) ^ ((D : Int) - 5) := by
    rw [hj]
    have : (D : Int) + j - ((5 : Nat) : Int) = j + (D - 5) := by push_cast; ring
    rw [this, zpow_add₀ (by norm_num)]
    push_cast
    rw [zpow_natCast]; ring
  have e2 : (n : ℚ) = ((n * 10 ^ (5 - D) : Nat) : ℚ) * (10 : ℚ) ^ ((D : Int) - 5) := by
    have : (D : Int) - 5 = -((5 - D : Nat) : Int) := by omega
    rw [this, zpow_neg, zpow_natCast]
    push_cast
    rw [mul_assoc, mul_inv_cancel₀ (by positivity), mul_one]
  rw [e1] at h3 ⊢
  generalize r.1 * 10 ^ j = a at h3 ⊢
  rw [e2] at h3
  generalize n * 10 ^ (5 - D) = b at h3 e2
  push_cast at h3
  rw [← sub_mul, abs_mul, abs_of_pos hp] at h3
  have h4 : |(b : ℚ) - a| ≤ 1 / 2 := le_of_mul_le_mul_right h3 hp
  have h5 : |((b : Int) - (a : Int) : Int)| < 1 := by
    have : ((|((b : Int) - (a : Int) : Int)| : Int) : ℚ) < 1 := by
      push_cast
      linarith
    exact_mod_cast this
  have h6 : b = a := by
    have := Int.abs_lt_one_iff.1 h5
    omega
  rw [e2, h6]

end Madg
