/-
Reading numbers printed in the default format, and how close they are.
-/
import Verif.Model.Settings
import Verif.Proofs.Text
import Mathlib.Tactic.Linarith
import Mathlib.Tactic.Ring

namespace Madg
open Spec

theorem splitWhile {p : Char → Bool} {s r : Text} (hs : ∀ c ∈ s, p c = true) (hr : ∀ c, r.head? = some c → p c = false) :
    (s ++ r).takeWhile p = s ∧ (s ++ r).dropWhile p = r := by
  induction s with
  | nil =>
    cases r with
    | nil => exact ⟨rfl, rfl⟩
    | cons c r => simp [hr c rfl]
  | cons d s ih =>
    have := ih fun e he => hs e (List.mem_cons_of_mem _ he)
    simp only [List.cons_append, List.takeWhile_cons, List.dropWhile_cons, hs d List.mem_cons_self, if_true]
    exact ⟨by rw [this.1], this.2⟩

theorem strip_eq (t : Text) : ∃ k, t = stripZeros t ++ List.replicate k '0' := by
  refine ⟨(t.reverse.takeWhile (· == '0')).length, ?_⟩
  have h : t.reverse.takeWhile (· == '0') = List.replicate (t.reverse.takeWhile (· == '0')).length '0' := by
    rw [List.eq_replicate_iff]
    have tw : ∀ l : Text, ∀ c ∈ l.takeWhile (· == '0'), c = '0' := by
      intro l
      induction l with
      | nil => intro c hc; cases hc
      | cons a l ih =>
        intro c hc
        rw [List.takeWhile_cons] at hc
        split at hc
        · rename_i ha
          rcases List.mem_cons.1 hc with h | h
          · rw [h]; simpa using ha
          · exact ih c h
        · cases hc
    refine ⟨rfl, fun c hc => ?_⟩
    exact tw _ c hc
  have h2 := congrArg List.reverse (List.takeWhile_append_dropWhile (p := (· == '0')) (l := t.reverse))
  rw [List.reverse_append, List.reverse_reverse] at h2
  unfold stripZeros
  conv_lhs => rw [← h2]
  congr 1
  conv_lhs => rw [h]
  exact List.reverse_replicate

theorem readDigits_zeros (acc : Nat) (s : Text) (k : Nat) :
    readDigits acc (s ++ List.replicate k '0') = (readDigits acc s).map fun n => n * 10 ^ k := by
  rw [readDigits_append]
  cases readDigits acc s with
  | none => rfl
  | some n =>
    simp only [Option.bind_some, Option.map_some]
    induction k generalizing n with
    | zero => simp [readDigits]
    | succ k ih =>
      rw [List.replicate_succ, readDigits.eq_2]
      show readDigits (n * 10 + 0) _ = _
      rw [ih, pow_succ]
      congr 1; ring

/-- A number with the given digits before and after the point, trailing zeros removed, and an exponent. -/
theorem readUnsigned_parts {ip fr tail : Text} (hip : ∀ c ∈ ip, isDigitC c = true) (hfr : ∀ c ∈ fr, isDigitC c = true) (hne : ip ≠ [])
    (e : Int) (ht : tail = [] ∧ e = 0 ∨ tail = 'e' :: showExp e) {N : Nat} (hN : readDigits 0 (ip ++ fr) = some N) :
    readUnsigned (ip ++ pointed (stripZeros fr) ++ tail) = some ((N : ℚ) * (10 : ℚ) ^ (e - (fr.length : Int))) := by
  obtain ⟨k, hk⟩ := strip_eq fr
  obtain ⟨g, hg⟩ : ∃ g, g = stripZeros fr := ⟨_, rfl⟩
  rw [← hg] at hk ⊢
  have hgd : ∀ c ∈ g, isDigitC c = true := fun c hc => hfr c (by rw [hk]; exact List.mem_append_left _ hc)
  have tl : ∀ c, tail.head? = some c → isDigitC c = false := by
    intro c hc
    rcases ht with ⟨h, -⟩ | h
    · rw [h] at hc; cases hc
    · rw [h] at hc
      cases hc
      rfl
  have he : readExp tail = some e := by
    rcases ht with ⟨h, h'⟩ | h
    · rw [h, h']; rfl
    · rw [h, readExp_showExp]
  -- the digits read
  have hM : ∃ M, readDigits 0 (ip ++ g) = some M ∧ N = M * 10 ^ k := by
    rw [hk, ← List.append_assoc, readDigits_zeros] at hN
    cases h : readDigits 0 (ip ++ g) with
    | none => rw [h] at hN; cases hN
    | some M =>
      rw [h] at hN
      exact ⟨M, rfl, (Option.some_inj.1 hN).symm⟩
  obtain ⟨M, hM, hNM⟩ := hM
  have hlen : (fr.length : Int) = g.length + k := by
    conv_lhs => rw [hk]
    simp
  have val : (M : ℚ) * (10 : ℚ) ^ (e - (g.length : Int)) = (N : ℚ) * (10 : ℚ) ^ (e - (fr.length : Int)) := by
    rw [hNM, hlen]
    push_cast
    rw [mul_assoc]
    congr 1
    rw [← zpow_natCast, ← zpow_add₀ (by norm_num : (10 : ℚ) ≠ 0)]
    congr 1; ring
  have hrest : readFrac (pointed g ++ tail) = (g, tail) := by
    unfold pointed
    by_cases h0 : g = []
    · rw [if_pos h0, h0, List.nil_append]
      cases htl : tail with
      | nil => rfl
      | cons c t =>
        rw [readFrac.eq_2, if_neg]
        rintro rfl
        rcases ht with ⟨h, -⟩ | h
        · rw [h] at htl; cases htl
        · rw [h] at htl; cases htl
    · rw [if_neg h0, List.cons_append, readFrac.eq_2, if_pos rfl, (splitWhile hgd tl).1, (splitWhile hgd tl).2]
  have hhead : ∀ c, (pointed g ++ tail).head? = some c → isDigitC c = false := by
    unfold pointed
    by_cases h0 : g = []
    · rw [if_pos h0, List.nil_append]; exact tl
    · rw [if_neg h0]
      intro c hc
      cases hc
      rfl
  unfold readUnsigned
  dsimp only
  rw [List.append_assoc, (splitWhile hip hhead).1, (splitWhile hip hhead).2, hrest]
  dsimp only
  unfold readNat
  rw [if_neg (by simp [hne]), hM, he]
  simp only [Option.bind_some, Option.map_some, Option.some_inj]
  exact val

theorem digitsN_digit {w n : Nat} : ∀ c ∈ digitsN w n, isDigitC c = true := digitsN_all _ (by intro d hd; interval_cases d <;> rfl)

theorem readUnsigned_general (p : Nat) {x : ℚ} (hx : 0 < x) : readUnsigned (generalPos p x) = some (sciVal p (sciRound p x)) := by
  obtain ⟨h1, h2, -⟩ := sciRound_spec p hx
  unfold generalPos
  obtain ⟨M, e, hr⟩ : ∃ M e, sciRound p x = (M, e) := ⟨_, _, rfl⟩
  rw [hr] at h1 h2 ⊢
  dsimp only at h1 h2 ⊢
  have hN : readDigits 0 (digitsN (p + 1) M) = some M := by
    rw [readDigits_digitsN, Nat.mod_eq_of_lt h2, Nat.zero_mul, Nat.zero_add]
  have cut : ∀ k, (∀ c ∈ (digitsN (p + 1) M).take k, isDigitC c = true) ∧ ∀ c ∈ (digitsN (p + 1) M).drop k, isDigitC c = true := fun k =>
    ⟨fun c hc => digitsN_digit c (List.mem_of_mem_take hc), fun c hc => digitsN_digit c (List.mem_of_mem_drop hc)⟩
  have tne : ∀ k, (digitsN (p + 1) M).take (k + 1) ≠ [] := by
    intro k h
    have := congrArg List.length h
    rw [List.length_take, length_digitsN, List.length_nil] at this
    omega
  unfold sciVal
  dsimp only
  by_cases c1 : -4 ≤ e ∧ e ≤ p
  · rw [if_pos c1]
    by_cases c2 : 0 ≤ e
    · rw [if_pos c2]
      have := readUnsigned_parts (tail := []) (cut (e.toNat + 1)).1 (cut (e.toNat + 1)).2 (tne _) 0 (.inl ⟨rfl, rfl⟩) (N := M)
        (by rw [List.take_append_drop]; exact hN)
      rw [List.append_nil] at this
      rw [this, List.length_drop, length_digitsN]
      congr 3
      omega
    · rw [if_neg c2]
      have := readUnsigned_parts (tail := []) (ip := ['0']) (fr := List.replicate (e.natAbs - 1) '0' ++ digitsN (p + 1) M)
        (by intro c hc; rw [List.mem_singleton] at hc; rw [hc]; rfl)
        (by
          intro c hc
          rcases List.mem_append.1 hc with h | h
          · rw [List.eq_of_mem_replicate h]; rfl
          · exact digitsN_digit c h)
        (by simp) 0 (.inl ⟨rfl, rfl⟩) (N := M) (by
          have z : ∀ (k : Nat) (t : Text), readDigits 0 (List.replicate k '0' ++ t) = readDigits 0 t := by
            intro k t
            induction k with
            | zero => rfl
            | succ k ih => rw [List.replicate_succ, List.cons_append, readDigits.eq_2]; exact ih
          exact ((z 1 _).trans (z _ _)).trans hN)
      rw [List.append_nil] at this
      refine this.trans ?_
      rw [ List.length_append, List.length_replicate, length_digitsN]
      congr 3
      push_cast
      omega
  · rw [if_neg c1]
    rw [readUnsigned_parts (cut 1).1 (cut 1).2 (tne 0) e (.inr rfl) (by rw [List.take_append_drop]; exact hN), List.length_drop, length_digitsN]
    congr 3

theorem generalPos_digit (p : Nat) (x : ℚ) : ∃ d t, d < 10 ∧ generalPos p x = digitChar d :: t := by
  unfold generalPos
  obtain ⟨M, e, hr⟩ : ∃ M e, sciRound p x = (M, e) := ⟨_, _, rfl⟩
  rw [hr]
  dsimp only
  have hd : ∃ d t, d < 10 ∧ digitsN (p + 1) M = digitChar d :: t := by
    cases h : digitsN (p + 1) M with
    | nil => exact absurd h (digitsN_ne (by omega))
    | cons c t =>
      obtain ⟨d, h1, h2⟩ := mem_digitsN (w := p + 1) (n := M) (c := c) (by rw [h]; exact List.mem_cons_self)
      exact ⟨d, t, h1, by rw [h2]⟩
  obtain ⟨d, t, h1, h2⟩ := hd
  split
  · split
    · exact ⟨d, _, h1, by rw [h2, List.take_succ_cons, List.cons_append]⟩
    · exact ⟨0, _, by decide, rfl⟩
  · exact ⟨d, _, h1, by rw [h2, List.take_succ_cons, List.cons_append, List.cons_append]⟩

theorem readDec_general (p : Nat) (x : ℚ) : readDec (general p x) = some (sciDec p x) := by
  unfold readDec general sciDec
  by_cases h0 : x = 0
  · rw [if_pos h0, if_pos h0]
    have : readUnsigned ['0'] = some 0 := by
      have := readUnsigned_parts (ip := ['0']) (fr := []) (tail := []) (by intro c hc; rw [List.mem_singleton] at hc; rw [hc]; rfl)
        (by simp) (by simp) 0 (.inl ⟨rfl, rfl⟩) (N := 0) rfl
      rw [Nat.cast_zero, zero_mul] at this
      exact this
    show (readUnsigned ['0']).map _ = _
    rw [this]
    rfl
  · rw [if_neg h0, if_neg h0]
    by_cases hx : x < 0
    · rw [if_pos hx, if_pos hx]
      simp only [readSign]
      rw [readUnsigned_general p (by linarith)]
      rfl
    · rw [if_neg hx, if_neg hx]
      have hp : 0 < x := lt_of_le_of_ne (not_lt.1 hx) (Ne.symm h0)
      obtain ⟨d, t, hd, e⟩ := generalPos_digit p x
      rw [e, readSign_digit ⟨d, hd, rfl⟩, ← e, readUnsigned_general p hp]
      rfl

/-- The characters of a printed number. -/
def numChar (c : Char) : Bool := isDigitC c || c == '.' || c == 'e' || c == '+' || c == '-'

theorem digit_numChar {c : Char} (h : isDigitC c = true) : numChar c = true := by
  unfold numChar; rw [h]; rfl

theorem general_chars (p : Nat) (x : ℚ) : general p x ≠ [] ∧ ∀ c ∈ general p x, numChar c = true := by
  have pos : ∀ x, ∀ c ∈ generalPos p x, numChar c = true := by
    intro x
    unfold generalPos
    obtain ⟨M, e, hr⟩ : ∃ M e, sciRound p x = (M, e) := ⟨_, _, rfl⟩
    rw [hr]
    dsimp only
    have pt : ∀ t : Text, (∀ c ∈ t, isDigitC c = true) → ∀ c ∈ pointed (stripZeros t), numChar c = true := by
      intro t ht c hc
      obtain ⟨k, hk⟩ := strip_eq t
      unfold pointed at hc
      split at hc
      · cases hc
      · rcases List.mem_cons.1 hc with h | h
        · rw [h]; rfl
        · exact digit_numChar (ht c (by rw [hk]; exact List.mem_append_left _ h))
    have dg : ∀ k, (∀ c ∈ (digitsN (p + 1) M).take k, numChar c = true) ∧ ∀ c ∈ (digitsN (p + 1) M).drop k, isDigitC c = true := fun k =>
      ⟨fun c hc => digit_numChar (digitsN_digit c (List.mem_of_mem_take hc)), fun c hc => digitsN_digit c (List.mem_of_mem_drop hc)⟩
    have ex : ∀ c ∈ 'e' :: showExp e, numChar c = true := by
      intro c hc
      unfold showExp at hc
      rcases List.mem_cons.1 hc with h | h
      · rw [h]; rfl
      · rcases List.mem_cons.1 h with h | h
        · rw [h]; split <;> rfl
        · exact digit_numChar (digitsN_digit c h)
    intro c hc
    split at hc
    · split at hc
      · rcases List.mem_append.1 hc with h | h
        · exact (dg _).1 c h
        · exact pt _ (dg _).2 c h
      · rcases List.mem_cons.1 hc with h | h
        · rw [h]; rfl
        · refine pt _ ?_ c h
          intro c hc
          rcases List.mem_append.1 hc with h | h
          · rw [List.eq_of_mem_replicate h]; rfl
          · exact digitsN_digit c h
    · rcases List.mem_append.1 hc with h | h
      · rcases List.mem_append.1 h with h | h
        · exact (dg _).1 c h
        · exact pt _ (dg _).2 c h
      · exact ex c h
  unfold general
  split
  · exact ⟨by simp, by intro c hc; rw [List.mem_singleton] at hc; rw [hc]; rfl⟩
  · split
    · refine ⟨by simp, fun c hc => ?_⟩
      rcases List.mem_cons.1 hc with h | h
      · rw [h]; rfl
      · exact pos _ c h
    · refine ⟨?_, pos x⟩
      obtain ⟨d, t, -, e⟩ := generalPos_digit p x
      rw [e]; simp

end Madg
