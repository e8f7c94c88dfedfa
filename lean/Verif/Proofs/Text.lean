/-
Texts: splitting, decimal integers, scientific notation, floating-point round trip.
-/
import Verif.Spec.Text
import Mathlib.Tactic.Linarith
import Mathlib.Tactic.Positivity
import Mathlib.Tactic.Ring
import Mathlib.Tactic.FieldSimp
import Mathlib.Tactic.NormNum
import Mathlib.Tactic.IntervalCases

set_option linter.unusedSectionVars false
set_option linter.unusedVariables false

namespace Madg
open Spec

/-! ### Splitting -/

section
variable {p : Char → Bool}

theorem dropWhile_all {s t : Text} (h : ∀ c ∈ s, p c = true) : (s ++ t).dropWhile p = t.dropWhile p := by
  induction s with
  | nil => rfl
  | cons c s ih =>
    rw [List.cons_append, List.dropWhile_cons, if_pos (h c (by simp))]
    exact ih fun c hc => h c (by simp [hc])

theorem dropWhile_word {s t : Text} (h : Word p s) : (s ++ t).dropWhile p = s ++ t := by
  obtain ⟨c, s, rfl⟩ := List.exists_cons_of_ne_nil h.1
  rw [List.cons_append, List.dropWhile_cons, if_neg (by simp [h.2 c])]

theorem Spec.Word.reverse {s : Text} (h : Word p s) : Word p s.reverse :=
  ⟨by simpa using h.1, fun c hc => h.2 c (by simpa using hc)⟩

theorem splitGo_word {w : Text} (hw : ∀ c ∈ w, p c = false) (b : Bool) (cur t : Text) (hne : w ≠ []) :
    splitGo p b cur (w ++ t) = splitGo p false (cur ++ w) t := by
  induction w generalizing b cur with
  | nil => exact absurd rfl hne
  | cons c w ih =>
    rw [List.cons_append, splitGo, if_neg (by simp [hw c])]
    cases w with
    | nil => rfl
    | cons d w =>
      rw [ih (fun c hc => hw c (by simp [hc])) _ _ (by simp)]
      simp

theorem splitGo_sep {s : Text} (hs : ∀ c ∈ s, p c = true) (cur t : Text) :
    splitGo p true cur (s ++ t) = splitGo p true cur t := by
  induction s with
  | nil => rfl
  | cons c s ih =>
    rw [List.cons_append, splitGo, if_pos (hs c (by simp)), if_pos rfl]
    exact ih fun c hc => hs c (by simp [hc])

theorem splitGo_sep' {s : Text} (hs : ∀ c ∈ s, p c = true) (hne : s ≠ []) (cur t : Text) :
    splitGo p false cur (s ++ t) = cur :: splitGo p true [] t := by
  obtain ⟨c, s, rfl⟩ := List.exists_cons_of_ne_nil hne
  rw [List.cons_append, splitGo, if_pos (hs c (by simp)), if_neg (by simp), splitGo_sep fun c hc => hs c (by simp [hc])]

theorem splitGo_spaced (l : List (Text × Text)) (hl : ∀ x ∈ l, Word p x.1 ∧ x.2 ≠ [] ∧ ∀ c ∈ x.2, p c = true) {w : Text}
    (hw : Word p w) (b : Bool) : splitGo p b [] (spaced l ++ w) = l.map Prod.fst ++ [w] := by
  induction l generalizing b with
  | nil =>
    show splitGo p b [] w = [w]
    have := splitGo_word hw.2 b [] [] hw.1
    rw [List.append_nil] at this
    rw [this]; rfl
  | cons x l ih =>
    obtain ⟨h1, h2, h3⟩ := hl x (by simp)
    show splitGo p b [] (x.1 ++ x.2 ++ spaced l ++ w) = _
    rw [List.append_assoc, List.append_assoc, splitGo_word h1.2 _ _ _ h1.1, splitGo_sep' h3 h2,
      ih fun y hy => hl y (by simp [hy])]
    rfl

/-- Words separated and surrounded by white space are recovered. -/
theorem words_last (lead : Text) (hlead : ∀ c ∈ lead, p c = true) (l : List (Text × Text))
    (hl : ∀ x ∈ l, Word p x.1 ∧ x.2 ≠ [] ∧ ∀ c ∈ x.2, p c = true) (w : Text) (hw : Word p w) (tail : Text)
    (htail : ∀ c ∈ tail, p c = true) :
    splitCompress p (trimIf p (lead ++ spaced l ++ w ++ tail)) = l.map Prod.fst ++ [w] := by
  have e1 : (lead ++ spaced l ++ w ++ tail).dropWhile p = spaced l ++ w ++ tail := by
    rw [List.append_assoc, List.append_assoc, dropWhile_all hlead]
    cases l with
    | nil =>
      simp only [spaced, List.nil_append]
      exact dropWhile_word hw
    | cons y l' =>
      simp only [spaced, List.append_assoc]
      exact dropWhile_word (hl y (by simp)).1
  unfold trimIf
  rw [e1]
  have e2 : (spaced l ++ w ++ tail).reverse.dropWhile p = (spaced l ++ w).reverse := by
    rw [List.reverse_append, dropWhile_all, List.reverse_append, dropWhile_word hw.reverse]
    intro c hc
    rw [List.mem_reverse] at hc
    exact htail c hc
  rw [e2, List.reverse_reverse]
  unfold splitCompress
  rw [splitGo_spaced l hl hw]

theorem spaced_append (l l' : List (Text × Text)) : spaced (l ++ l') = spaced l ++ spaced l' := by
  induction l with
  | nil => rfl
  | cons y l ih => simp [spaced, ih]

theorem words_spaced (lead : Text) (hlead : ∀ c ∈ lead, p c = true) (l : List (Text × Text)) (hne : l ≠ [])
    (hl : ∀ x ∈ l, Word p x.1 ∧ x.2 ≠ [] ∧ ∀ c ∈ x.2, p c = true) (tail : Text) (htail : ∀ c ∈ tail, p c = true) :
    splitCompress p (trimIf p (lead ++ spaced l ++ tail)) = l.map Prod.fst := by
  obtain ⟨l', x, rfl⟩ : ∃ l' x, l = l' ++ [x] := ⟨l.dropLast, l.getLast hne, (List.dropLast_append_getLast hne).symm⟩
  have hx := hl x (by simp)
  have := words_last lead hlead l' (fun y hy => hl y (by simp [hy])) x.1 hx.1 (x.2 ++ tail) (by
    intro c hc
    rw [List.mem_append] at hc
    exact hc.elim (hx.2.2 c) (htail c))
  rw [spaced_append]
  simp only [spaced, List.append_nil, List.map_append, List.map_cons, List.map_nil]
  rw [← this]
  simp only [List.append_assoc]

end

/-! ### Digits -/

theorem digitVal_digitChar {d : Nat} (h : d < 10) : digitVal (digitChar d) = some d := by
  interval_cases d <;> rfl

theorem mem_digitsN {w n : Nat} {c : Char} (h : c ∈ digitsN w n) : ∃ d, d < 10 ∧ c = digitChar d := by
  induction w generalizing n with
  | zero => simp [digitsN] at h
  | succ w ih =>
    rcases List.mem_append.1 h with h | h
    · exact ih h
    · exact ⟨n % 10, Nat.mod_lt _ (by decide), by simpa using h⟩

/-- Properties of digits that are checked one by one. -/
theorem digitsN_all {w n : Nat} (P : Char → Prop) (hP : ∀ d, d < 10 → P (digitChar d)) : ∀ c ∈ digitsN w n, P c := by
  intro c hc
  obtain ⟨d, hd, rfl⟩ := mem_digitsN hc
  exact hP d hd

theorem length_digitsN (w n : Nat) : (digitsN w n).length = w := by
  induction w generalizing n with
  | zero => rfl
  | succ w ih => simp [digitsN, ih]

theorem readDigits_append (acc : Nat) (s t : Text) :
    readDigits acc (s ++ t) = (readDigits acc s).bind fun a => readDigits a t := by
  induction s generalizing acc with
  | nil => rfl
  | cons c s ih =>
    rw [List.cons_append, readDigits, readDigits]
    cases digitVal c with
    | none => rfl
    | some d => exact ih _

theorem readDigits_digitsN (acc w n : Nat) : readDigits acc (digitsN w n) = some (acc * 10 ^ w + n % 10 ^ w) := by
  induction w generalizing n with
  | zero => simp [digitsN, readDigits, Nat.mod_one]
  | succ w ih =>
    rw [digitsN, readDigits_append, ih]
    simp only [Option.bind_some, readDigits, digitVal_digitChar (Nat.mod_lt n (by decide : 0 < 10))]
    congr 1
    have : n % 10 ^ (w + 1) = n / 10 % 10 ^ w * 10 + n % 10 := by
      rw [pow_succ', Nat.mod_mul]; ring
    rw [this]; ring

theorem readNat_showNat (n : Nat) : readNat (showNat n) = some n := by
  unfold readNat showNat
  rw [if_neg (by intro h; have := congrArg List.length h; simp [length_digitsN] at this), readDigits_digitsN,
    Nat.mod_eq_of_lt (Nat.lt_pow_succ_log_self (by decide) n)]
  simp

theorem readSign_digit {c : Char} {t : Text} (h : ∃ d, d < 10 ∧ c = digitChar d) : readSign (c :: t) = (false, c :: t) := by
  obtain ⟨d, hd, rfl⟩ := h
  interval_cases d <;> rfl

theorem digitsN_ne {w n : Nat} (h : w ≠ 0) : digitsN w n ≠ [] := by
  intro e; have := congrArg List.length e; simp [length_digitsN] at this; exact h this

theorem readSign_digitsN {w n : Nat} (t : Text) (h : w ≠ 0) : readSign (digitsN w n ++ t) = (false, digitsN w n ++ t) := by
  obtain ⟨c, s, e⟩ := List.exists_cons_of_ne_nil (digitsN_ne (n := n) h)
  rw [e]
  exact readSign_digit (mem_digitsN (w := w) (n := n) (by rw [e]; simp))

theorem readSign_showInt (i : Int) : readSign (showInt i) = (decide (i < 0), showNat i.natAbs) := by
  unfold showInt
  by_cases hi : i < 0
  · rw [if_pos hi, decide_eq_true hi]; rfl
  · rw [if_neg hi, decide_eq_false hi]
    have := readSign_digitsN (w := Nat.log 10 i.natAbs + 1) (n := i.natAbs) [] (by omega)
    rwa [List.append_nil] at this

theorem natAbs_signed (i : Int) : (if decide (i < 0) then -(i.natAbs : Int) else (i.natAbs : Int)) = i := by
  by_cases hi : i < 0
  · rw [if_pos (by simpa using hi)]; omega
  · rw [if_neg (by simpa using hi)]; omega

theorem readInt_showInt {i : Int} (h0 : -2147483648 ≤ i) (h1 : i < 2147483648) : readInt (showInt i) = some i := by
  unfold readInt
  rw [readSign_showInt]
  dsimp only
  rw [readNat_showNat, Option.bind_some, natAbs_signed, if_pos ⟨h0, h1⟩]

theorem word_digitsN {w n : Nat} (h : w ≠ 0) : Word isSpaceNl (digitsN w n) :=
  ⟨digitsN_ne h, digitsN_all _ (by intro d hd; interval_cases d <;> rfl)⟩

theorem blank_of_not_space {c : Char} (h : isSpaceNl c = false) : isBlank c = false := by
  unfold isSpaceNl at h; unfold isBlank
  simp only [Bool.or_eq_false_iff] at h ⊢
  exact h.1

theorem Spec.Word.blank {t : Text} (h : Word isSpaceNl t) : Word isBlank t := ⟨h.1, fun c hc => blank_of_not_space (h.2 c hc)⟩

theorem word_cons {c : Char} {t : Text} (hc : isSpaceNl c = false) (ht : ∀ d ∈ t, isSpaceNl d = false) :
    Word isSpaceNl (c :: t) := ⟨by simp, fun d hd => (List.mem_cons.1 hd).elim (fun e => e ▸ hc) (ht d)⟩

theorem word_showInt (i : Int) : Word isSpaceNl (showInt i) := by
  unfold showInt
  have h := word_digitsN (w := Nat.log 10 i.natAbs + 1) (n := i.natAbs) (by omega)
  split
  · exact word_cons (by rfl) h.2
  · exact h

/-! ### Rounding to integers -/

theorem roundEven_eq {x : ℚ} {n : Int} (h : |x - n| < 1 / 2) : roundEven x = n := by
  have h1 := abs_lt.1 h
  have hf := Int.floor_le x
  have hf' := Int.lt_floor_add_one x
  by_cases hn : (n : ℚ) ≤ x
  · have : ⌊x⌋ = n := by
      rw [Int.floor_eq_iff]; constructor <;> linarith
    unfold roundEven
    rw [this, if_pos (by linarith)]
  · have : ⌊x⌋ = n - 1 := by
      rw [Int.floor_eq_iff]; push_cast; constructor <;> linarith
    unfold roundEven
    rw [this]
    push_cast
    rw [if_neg (by linarith), if_pos (by linarith)]
    ring

theorem roundEven_err (x : ℚ) : |x - roundEven x| ≤ 1 / 2 := by
  have hf := Int.floor_le x
  have hf' := Int.lt_floor_add_one x
  unfold roundEven
  split
  · rw [abs_le]; constructor <;> linarith
  · split
    · push_cast; rw [abs_le]; constructor <;> linarith
    · split
      · rw [abs_le]; constructor <;> linarith
      · push_cast; rw [abs_le]; constructor <;> linarith

theorem roundEven_mono_int {x : ℚ} {n : Int} (h : (n : ℚ) ≤ x) : n ≤ roundEven x := by
  have hf := Int.floor_le x
  have hn : n ≤ ⌊x⌋ := Int.le_floor.2 h
  unfold roundEven
  split
  · exact hn
  · split
    · omega
    · split <;> omega

theorem roundEven_le_int {x : ℚ} {n : Int} (h : x ≤ (n : ℚ)) : roundEven x ≤ n := by
  have hf := Int.floor_le x
  have hf' := Int.lt_floor_add_one x
  unfold roundEven
  have hn : ⌊x⌋ ≤ n := by
    have : ((⌊x⌋ : Int) : ℚ) ≤ n := hf.trans h
    exact_mod_cast this
  split
  · exact hn
  · rename_i h0
    have hlt : ⌊x⌋ < n := by
      rcases lt_or_eq_of_le hn with h1 | h1
      · exact h1
      · exfalso
        apply h0
        rw [h1]
        linarith
    split
    · omega
    · split <;> omega

/-! ### Scientific notation -/

/-- Value denoted by a mantissa and exponent with `p` digits after the point. -/
def sciVal (p : Nat) (r : Nat × Int) : ℚ := (r.1 : ℚ) * (10 : ℚ) ^ (r.2 - p)

theorem sciRound_spec (p : Nat) {x : ℚ} (hx : 0 < x) :
    10 ^ p ≤ (sciRound p x).1 ∧ (sciRound p x).1 < 10 ^ (p + 1) ∧
      |x - sciVal p (sciRound p x)| ≤ 1 / 2 * (10 : ℚ) ^ (Int.log 10 x - p) := by
  have hD := Int.zpow_log_le_self (b := 10) (by decide) hx
  have hD' := Int.lt_zpow_succ_log_self (b := 10) (by decide) x
  push_cast at hD hD'
  have h10 : (0 : ℚ) < (10 : ℚ) ^ (Int.log 10 x - p) := zpow_pos (by norm_num) _
  have e1 : (10 : ℚ) ^ Int.log 10 x = (10 : ℚ) ^ p * (10 : ℚ) ^ (Int.log 10 x - p) := by
    rw [← zpow_natCast, ← zpow_add₀ (by norm_num)]; congr 1; ring
  have e2 : (10 : ℚ) ^ (Int.log 10 x + 1) = (10 : ℚ) ^ (p + 1) * (10 : ℚ) ^ (Int.log 10 x - p) := by
    rw [← zpow_natCast, ← zpow_add₀ (by norm_num)]; congr 1; push_cast; ring
  have l1 : ((10 ^ p : Nat) : ℚ) ≤ x / (10 : ℚ) ^ (Int.log 10 x - p) := by
    rw [le_div_iff₀ h10]; push_cast; linarith
  have l2 : x / (10 : ℚ) ^ (Int.log 10 x - p) ≤ ((10 ^ (p + 1) : Nat) : ℚ) := by
    rw [div_le_iff₀ h10]; push_cast; linarith
  have r1 := roundEven_mono_int (n := ((10 ^ p : Nat) : Int)) (by exact_mod_cast l1)
  have r2 := roundEven_le_int (n := ((10 ^ (p + 1) : Nat) : Int)) (by exact_mod_cast l2)
  have r3 := roundEven_err (x / (10 : ℚ) ^ (Int.log 10 x - p))
  have hlt : (10 : Nat) ^ p < 10 ^ (p + 1) := Nat.pow_lt_pow_right (by decide) (by omega)
  have hM : ((roundEven (x / (10 : ℚ) ^ (Int.log 10 x - p))).toNat : Int) = roundEven (x / (10 : ℚ) ^ (Int.log 10 x - p)) := by
    have : (0 : Int) ≤ ((10 ^ p : Nat) : Int) := by positivity
    omega
  have err : |x - ((roundEven (x / (10 : ℚ) ^ (Int.log 10 x - p))).toNat : ℚ) * (10 : ℚ) ^ (Int.log 10 x - p)| ≤
      1 / 2 * (10 : ℚ) ^ (Int.log 10 x - p) := by
    have h3 : ((roundEven (x / (10 : ℚ) ^ (Int.log 10 x - p))).toNat : ℚ) = ((roundEven (x / (10 : ℚ) ^ (Int.log 10 x - p)) : Int) : ℚ) := by
      exact_mod_cast congrArg (fun z : Int => (z : ℚ)) hM
    rw [h3]
    have h4 := mul_le_mul_of_nonneg_right r3 h10.le
    rw [← abs_of_pos h10, ← abs_mul, abs_of_pos h10, sub_mul, div_mul_cancel₀ _ h10.ne'] at h4
    exact h4
  unfold sciRound
  dsimp only
  split
  · rename_i hm
    refine ⟨le_refl _, hlt, ?_⟩
    rw [hm] at err
    convert err using 3
    unfold sciVal
    dsimp only
    have : Int.log 10 x + 1 - (p : Int) = 1 + (Int.log 10 x - p) := by ring
    rw [this, zpow_add₀ (by norm_num : (10 : ℚ) ≠ 0), zpow_one]
    push_cast
    rw [pow_succ]; ring
  · rename_i hm
    refine ⟨?_, ?_, err⟩
    · omega
    · have : (roundEven (x / (10 : ℚ) ^ (Int.log 10 x - p))).toNat ≤ 10 ^ (p + 1) := by omega
      omega

theorem takeWhile_digits {w n : Nat} {c : Char} {t : Text} (hc : isDigitC c = false) :
    (digitsN w n ++ c :: t).takeWhile isDigitC = digitsN w n ∧ (digitsN w n ++ c :: t).dropWhile isDigitC = c :: t := by
  have h : ∀ d ∈ digitsN w n, isDigitC d = true := digitsN_all _ (by intro d hd; interval_cases d <;> rfl)
  generalize digitsN w n = s at h
  induction s with
  | nil => simp [hc]
  | cons d s ih =>
    have := ih fun e he => h e (by simp [he])
    simp only [List.cons_append, List.takeWhile_cons, List.dropWhile_cons, h d (by simp), if_true]
    exact ⟨by rw [this.1], this.2⟩

theorem readExp_showExp (e : Int) : readExp ('e' :: showExp e) = some e := by
  unfold showExp
  rw [readExp.eq_2]
  have hr : readNat (digitsN (max 2 (Nat.log 10 e.natAbs + 1)) e.natAbs) = some e.natAbs := by
    unfold readNat
    rw [if_neg (digitsN_ne (by omega)), readDigits_digitsN]
    have h := Nat.lt_pow_succ_log_self (b := 10) (by decide) e.natAbs
    have h2 : e.natAbs < 10 ^ max 2 (Nat.log 10 e.natAbs + 1) :=
      h.trans_le (Nat.pow_le_pow_right (by decide) (le_max_right _ _))
    rw [Nat.mod_eq_of_lt h2]; simp
  rw [if_pos (Or.inl rfl)]
  by_cases he : e < 0
  · simp only [if_pos he, readSign, hr, Option.map_some, if_true]
    congr 1; omega
  · simp only [if_neg he, readSign, hr, Option.map_some, Bool.false_eq_true, if_false]
    congr 1; omega

theorem readUnsigned_sci (p M : Nat) (e : Int) (hM : M < 10 ^ (p + 1)) :
    readUnsigned (digitsN 1 (M / 10 ^ p) ++ '.' :: digitsN p M ++ 'e' :: showExp e) = some (sciVal p (M, e)) := by
  unfold readUnsigned
  have h1 := takeWhile_digits (w := 1) (n := M / 10 ^ p) (c := '.') (t := digitsN p M ++ 'e' :: showExp e) rfl
  have h2 := takeWhile_digits (w := p) (n := M) (c := 'e') (t := showExp e) rfl
  have e0 : digitsN 1 (M / 10 ^ p) ++ '.' :: digitsN p M ++ 'e' :: showExp e =
      digitsN 1 (M / 10 ^ p) ++ '.' :: (digitsN p M ++ 'e' :: showExp e) := by simp
  have h5 : readFrac ('.' :: (digitsN p M ++ 'e' :: showExp e)) = (digitsN p M, 'e' :: showExp e) := by
    rw [readFrac.eq_2, if_pos rfl, h2.1, h2.2]
  rw [e0]
  dsimp only
  rw [h1.1, h1.2, h5]
  dsimp only
  rw [readExp_showExp]
  have h3 : readNat (digitsN 1 (M / 10 ^ p) ++ digitsN p M) = some M := by
    unfold readNat
    rw [if_neg (by simp [digitsN]), readDigits_append, readDigits_digitsN]
    simp only [Option.bind_some, readDigits_digitsN]
    have h4 : M / 10 ^ p < 10 ^ 1 := by
      rw [Nat.div_lt_iff_lt_mul (by positivity)]; rw [pow_one, mul_comm, ← pow_succ]; exact hM
    rw [Nat.mod_eq_of_lt h4, Nat.zero_mul, Nat.zero_add]
    congr 1
    exact Nat.div_add_mod' M (10 ^ p)
  rw [h3]
  simp only [Option.bind_some, Option.map_some, length_digitsN, sciVal]

/-- The number denoted by the printed text. -/
def sciDec (p : Nat) (x : ℚ) : ℚ :=
  if x = 0 then 0 else if x < 0 then -sciVal p (sciRound p (-x)) else sciVal p (sciRound p x)

theorem readUnsigned_sciNonneg (p : Nat) {x : ℚ} (hx : 0 ≤ x) :
    readUnsigned (sciNonneg p x) = some (if x = 0 then 0 else sciVal p (sciRound p x)) := by
  unfold sciNonneg
  by_cases h0 : x = 0
  · rw [if_pos h0, if_pos h0]
    dsimp only
    rw [readUnsigned_sci p 0 0 (by positivity)]
    simp [sciVal]
  · rw [if_neg h0, if_neg h0]
    dsimp only
    rw [readUnsigned_sci _ _ _ (sciRound_spec p (lt_of_le_of_ne hx (Ne.symm h0))).2.1]

theorem sciNonneg_form (p : Nat) (x : ℚ) : ∃ n t, sciNonneg p x = digitsN 1 n ++ t := by
  unfold sciNonneg
  exact ⟨_, _, List.append_assoc _ _ _⟩

theorem readDec_sci (p : Nat) (x : ℚ) : readDec (sci p x) = some (sciDec p x) := by
  unfold readDec sci sciDec
  by_cases hx : x < 0
  · have h0 : x ≠ 0 := hx.ne
    rw [if_pos hx, if_neg h0, if_pos hx]
    simp only [readSign]
    rw [readUnsigned_sciNonneg p (by linarith), if_neg (by simpa using h0)]
    rfl
  · obtain ⟨n, t, e⟩ := sciNonneg_form p x
    rw [if_neg hx, if_neg hx, e, readSign_digitsN t (by decide), ← e, readUnsigned_sciNonneg p (by linarith)]
    rfl

theorem word_sciNonneg (p : Nat) (x : ℚ) : Word isSpaceNl (sciNonneg p x) := by
  unfold sciNonneg showExp
  constructor
  · simp [digitsN]
  · intro c hc
    have hd : ∀ (w n : Nat) (c : Char), c ∈ digitsN w n → isSpaceNl c = false := fun w n =>
      digitsN_all _ (by intro d hd; interval_cases d <;> rfl)
    simp only [List.mem_append, List.mem_cons] at hc
    rcases hc with (hc | hc | hc) | hc | hc | hc
    · exact hd _ _ _ hc
    · subst hc; rfl
    · exact hd _ _ _ hc
    · subst hc; rfl
    · subst hc
      generalize (if x = 0 then (0, 0) else sciRound p x).2 = e
      by_cases he : e < 0
      · rw [if_pos he]; rfl
      · rw [if_neg he]; rfl
    · exact hd _ _ _ hc

theorem word_sci (p : Nat) (x : ℚ) : Word isSpaceNl (sci p x) := by
  unfold sci
  split
  · exact word_cons (by rfl) (word_sciNonneg p (-x)).2
  · exact word_sciNonneg p x

/-! ### Floating-point round trip -/

theorem FloatFmt.round_of_close (F : FloatFmt) {r x : ℚ} (hr : r ≠ 0) (k : Int) (hk : x = k * (2 : ℚ) ^ F.ulpExp r)
    (h : |r - x| < 1 / 2 * (2 : ℚ) ^ F.ulpExp r) : F.round r = x := by
  have h2 : (0 : ℚ) < (2 : ℚ) ^ F.ulpExp r := zpow_pos (by norm_num) _
  unfold FloatFmt.round
  rw [if_neg hr, roundEven_eq (n := k), hk]
  rw [← mul_lt_mul_iff_left₀ h2, ← abs_of_pos h2, ← abs_mul, abs_of_pos h2, sub_mul, div_mul_cancel₀ _ h2.ne', ← hk]
  exact h

theorem round_near_pos (F : FloatFmt) {d : Nat} (hd : 2 ^ F.prec < d) {x V : ℚ} (hx : 0 < x) (hF : IsFloat F x)
    (hV : |V - x| * d ≤ 1 / 2 * x) : F.round V = x := by
  have hd0 : (0 : ℚ) < d := by
    have : 0 < d := lt_of_le_of_lt (Nat.zero_le _) hd
    exact_mod_cast this
  have hd1 : (2 : ℚ) ^ F.prec + 1 ≤ d := by exact_mod_cast hd
  have hp : (1 : ℚ) ≤ 2 ^ F.prec := one_le_pow₀ (by norm_num)
  have hVpos : 0 < V := by
    have h1 := (abs_le.1 (le_refl |V - x|)).1
    nlinarith [abs_nonneg (V - x)]
  set u := F.ulpExp V with hu
  have h2u : (0 : ℚ) < (2 : ℚ) ^ u := zpow_pos (by norm_num) _
  have hL := Int.zpow_log_le_self (b := 2) (by decide) (abs_pos.2 hVpos.ne')
  have hL' := Int.lt_zpow_succ_log_self (b := 2) (by decide) |V|
  rw [abs_of_pos hVpos] at hL hL'
  push_cast at hL hL'
  have huL : Int.log 2 |V| + 1 - F.prec ≤ u := le_max_left _ _
  rw [abs_of_pos hVpos] at huL
  have hVu : V < 2 ^ F.prec * (2 : ℚ) ^ u := by
    have : (2 : ℚ) ^ (Int.log 2 V + 1) ≤ 2 ^ F.prec * (2 : ℚ) ^ u := by
      rw [← zpow_natCast, ← zpow_add₀ (by norm_num)]
      exact zpow_le_zpow_right₀ (by norm_num) (by omega)
    linarith
  have hab := abs_le.1 (le_refl |V - x|)
  -- the error is less than half a unit
  have herr : |V - x| < 1 / 2 * (2 : ℚ) ^ u := by
    by_contra hc
    push Not at hc
    have h1 : 1 / 2 * (2 : ℚ) ^ u * d ≤ |V - x| * d := mul_le_mul_of_nonneg_right hc hd0.le
    have h2 : 2 ^ F.prec * (2 : ℚ) ^ u + (2 : ℚ) ^ u ≤ (2 : ℚ) ^ u * d := by nlinarith
    have h3 : x ≤ V + |V - x| := by linarith
    have h4 : |V - x| ≤ 1 / 2 * x / d := by rw [le_div_iff₀ hd0]; exact hV
    have h5 : 1 / 2 * x / d ≤ 1 / 4 * x := by
      rw [div_le_iff₀ hd0]; nlinarith
    have h6 : (2 : ℚ) ^ u * d ≤ x := by linarith
    have h7 : x * d ≤ V * d + 1 / 2 * x := by nlinarith
    have h8 : V * d < 2 ^ F.prec * (2 : ℚ) ^ u * d := mul_lt_mul_of_pos_right hVu hd0
    nlinarith
  obtain ⟨m, e, hm, he, rfl⟩ := hF
  have h2e : (0 : ℚ) < (2 : ℚ) ^ e := zpow_pos (by norm_num) _
  have hmpos : 0 < m := by
    have : (0 : ℚ) < m := by
      rcases pos_and_pos_or_neg_and_neg_of_mul_pos hx with h | h
      · exact h.1
      · linarith [h.2]
    exact_mod_cast this
  have hm1 : (m : ℚ) + 1 ≤ 2 ^ F.prec := by
    rw [abs_of_pos hmpos] at hm
    have : m + 1 ≤ 2 ^ F.prec := hm
    exact_mod_cast this
  have hue : u ≤ e := by
    by_contra hc
    push Not at hc
    have hne : u = Int.log 2 V + 1 - F.prec := by
      have : u = max (Int.log 2 |V| + 1 - F.prec) F.emin := rfl
      rw [abs_of_pos hVpos] at this
      omega
    have h1 : (2 : ℚ) ^ Int.log 2 V = 2 ^ F.prec * (2 : ℚ) ^ (u - 1) := by
      rw [← zpow_natCast, ← zpow_add₀ (by norm_num)]; congr 1; omega
    have h2 : (2 : ℚ) ^ e ≤ (2 : ℚ) ^ (u - 1) := zpow_le_zpow_right₀ (by norm_num) (by omega)
    have h3 : (0 : ℚ) < (2 : ℚ) ^ (u - 1) := zpow_pos (by norm_num) _
    have h4 : (m : ℚ) * (2 : ℚ) ^ e ≤ (2 ^ F.prec - 1) * (2 : ℚ) ^ (u - 1) := by
      have h5 : (0 : ℚ) ≤ 2 ^ F.prec - 1 := by linarith
      calc (m : ℚ) * (2 : ℚ) ^ e ≤ (2 ^ F.prec - 1) * (2 : ℚ) ^ e := mul_le_mul_of_nonneg_right (by linarith) h2e.le
        _ ≤ _ := mul_le_mul_of_nonneg_left h2 h5
    have h6 : (2 : ℚ) ^ (u - 1) ≤ |V - m * (2 : ℚ) ^ e| := by
      have : V - m * (2 : ℚ) ^ e ≤ |V - m * (2 : ℚ) ^ e| := le_abs_self _
      rw [h1] at hL
      linarith
    have h7 : (2 : ℚ) ^ (u - 1) * d ≤ 1 / 2 * ((2 ^ F.prec - 1) * (2 : ℚ) ^ (u - 1)) :=
      (mul_le_mul_of_nonneg_right h6 hd0.le).trans (hV.trans (by linarith))
    nlinarith
  refine F.round_of_close hVpos.ne' (m * 2 ^ (e - u).toNat) ?_ herr
  rw [← hu]
  push_cast
  rw [mul_assoc, ← zpow_natCast, ← zpow_add₀ (by norm_num)]
  congr 2
  omega

theorem IsFloat_neg {F : FloatFmt} {x : ℚ} (h : IsFloat F x) : IsFloat F (-x) := by
  obtain ⟨m, e, h1, h2, rfl⟩ := h
  exact ⟨-m, e, by rwa [abs_neg], h2, by push_cast; ring⟩

theorem roundEven_neg (x : ℚ) : roundEven (-x) = -roundEven x := by
  have hf := Int.floor_le x
  have hf' := Int.lt_floor_add_one x
  by_cases h1 : x - ⌊x⌋ < 1 / 2
  · have e : roundEven x = ⌊x⌋ := by unfold roundEven; rw [if_pos h1]
    rw [e]
    apply roundEven_eq
    push_cast
    rw [abs_lt]; constructor <;> linarith
  · by_cases h2 : 1 / 2 < x - ⌊x⌋
    · have e : roundEven x = ⌊x⌋ + 1 := by unfold roundEven; rw [if_neg h1, if_pos h2]
      rw [e]
      apply roundEven_eq
      push_cast
      rw [abs_lt]; constructor <;> linarith
    · have h3 : x - ⌊x⌋ = 1 / 2 := le_antisymm (not_lt.1 h2) (not_lt.1 h1)
      have h4 : ⌊-x⌋ = -⌊x⌋ - 1 := by
        rw [Int.floor_eq_iff]; push_cast; constructor <;> linarith
      unfold roundEven
      rw [h4]
      push_cast
      rw [if_neg (by linarith), if_neg (by linarith), if_neg h1, if_neg h2]
      split <;> split <;> omega

theorem FloatFmt.round_neg (F : FloatFmt) (r : ℚ) : F.round (-r) = -F.round r := by
  unfold FloatFmt.round FloatFmt.ulpExp
  rw [abs_neg]
  by_cases h : r = 0
  · simp [h]
  · rw [if_neg (by simpa using h), if_neg h, neg_div, roundEven_neg]
    push_cast; ring

/-- Printing with `p` digits after the point and parsing restores every number of the format, if `10^p` exceeds
`2^prec`. -/
theorem readFloat_sci (F : FloatFmt) (p : Nat) (hp : 2 ^ F.prec < 10 ^ p) {x : ℚ} (hx : IsFloat F x) :
    readFloat F (sci p x) = some x := by
  unfold readFloat
  rw [readDec_sci, Option.map_some]
  congr 1
  have key : ∀ y : ℚ, 0 < y → IsFloat F y → F.round (sciVal p (sciRound p y)) = y := by
    intro y hy hF
    have h1 := (sciRound_spec p hy).2.2
    have h2 := Int.zpow_log_le_self (b := 10) (by decide) hy
    refine round_near_pos F hp hy hF ?_
    rw [abs_sub_comm]
    have h3 : (0 : ℚ) < (10 : ℚ) ^ p := by positivity
    have h4 := mul_le_mul_of_nonneg_right h1 h3.le
    have h5 : (10 : ℚ) ^ (Int.log 10 y - p) * (10 : ℚ) ^ p = (10 : ℚ) ^ Int.log 10 y := by
      rw [← zpow_natCast, ← zpow_add₀ (by norm_num)]; congr 1; ring
    rw [mul_assoc, h5] at h4
    push_cast at h2 ⊢
    linarith
  unfold sciDec
  by_cases h0 : x = 0
  · rw [if_pos h0, h0]; unfold FloatFmt.round; rw [if_pos rfl]
  · rw [if_neg h0]
    by_cases hn : x < 0
    · rw [if_pos hn, F.round_neg, key (-x) (by linarith) (IsFloat_neg hx), neg_neg]
    · rw [if_neg hn, key x (lt_of_le_of_ne (not_lt.1 hn) (Ne.symm h0)) hx]

end Madg
