/-
Names of solution files (C68).
-/
import Verif.Model.FileName
import Verif.Proofs.Text

set_option linter.unusedSectionVars false
set_option linter.unusedVariables false

namespace Madg
open Spec

theorem digitsN_pad (w k n : Nat) (h : n < 10 ^ w) : digitsN (k + w) n = List.replicate k '0' ++ digitsN w n := by
  induction w generalizing n with
  | zero =>
    have hn : n = 0 := by simpa using h
    subst hn
    induction k with
    | zero => rfl
    | succ k ih =>
      have ih' : digitsN k 0 = List.replicate k '0' := by simpa [digitsN] using ih
      show digitsN k (0 / 10) ++ [digitChar (0 % 10)] = _
      rw [Nat.zero_div, ih', List.replicate_succ', show digitsN 0 0 = [] from rfl, List.append_nil]
      rfl
  | succ w ih =>
    rw [show k + (w + 1) = (k + w) + 1 by omega, digitsN, ih (n / 10) (by rw [pow_succ] at h; omega), digitsN,
      List.append_assoc]

theorem padZero_showNat (w n : Nat) : padZero w (showNat n) = digitsN (max w (Nat.log 10 n + 1)) n := by
  unfold padZero showNat
  rw [length_digitsN, ← digitsN_pad _ _ _ (Nat.lt_pow_succ_log_self (by decide) n)]
  congr 1
  omega

theorem log_nat (n : Nat) (hn : n ≠ 0) : Int.log 10 (n : ℚ) = Nat.log 10 n := by
  exact_mod_cast Int.log_natCast (R := ℚ) 10 n

/-- With at least as many significant digits as the number has, the default format prints the plain integer. -/
theorem showGen_plain (P n : Nat) (h : n < 10 ^ P) : showGen P n = showNat n := by
  unfold showGen
  by_cases hn : n = 0
  · rw [if_pos hn, hn]
  · have hl : Nat.log 10 n < P := Nat.log_lt_of_lt_pow hn h
    have hP : (P - 1 : Nat) = (P : Int) - 1 := by omega
    have e : (sciRound (P - 1) (n : ℚ)).2 < P := by
      unfold sciRound
      rw [log_nat n hn]
      have ex : roundEven ((n : ℚ) / (10 : ℚ) ^ ((Nat.log 10 n : Int) - (P - 1 : Nat))) =
          ((n * 10 ^ (P - 1 - Nat.log 10 n) : Nat) : Int) := by
        refine roundEven_eq ?_
        have : (n : ℚ) / (10 : ℚ) ^ ((Nat.log 10 n : Int) - (P - 1 : Nat)) = ((n * 10 ^ (P - 1 - Nat.log 10 n) : Nat) : Int) := by
          rw [div_eq_mul_inv, ← zpow_neg, show -((Nat.log 10 n : Int) - (P - 1 : Nat)) = ((P - 1 - Nat.log 10 n : Nat) : Int) by omega,
            zpow_natCast]
          push_cast
          rfl
        rw [this, sub_self, abs_zero]
        norm_num
      dsimp only
      rw [ex, Int.toNat_natCast, if_neg]
      · dsimp only; omega
      · have h1 : n * 10 ^ (P - 1 - Nat.log 10 n) < 10 ^ (P - 1 + 1) := by
          calc n * 10 ^ (P - 1 - Nat.log 10 n) < 10 ^ (Nat.log 10 n + 1) * 10 ^ (P - 1 - Nat.log 10 n) :=
                Nat.mul_lt_mul_of_pos_right (Nat.lt_pow_succ_log_self (by decide) n) (by positivity)
            _ = 10 ^ (P - 1 + 1) := by rw [← pow_add]; congr 1; omega
        omega
    rw [if_neg hn]
    dsimp only
    rw [if_pos e]

theorem digit_ne (d : Nat) (h : d < 10) : digitChar d ≠ '_' ∧ digitChar d ≠ ',' := by
  interval_cases d <;> decide

theorem filter_showNat (n : Nat) : (showNat n).filter (· != ',') = showNat n := by
  rw [List.filter_eq_self]
  intro c hc
  obtain ⟨d, hd, rfl⟩ := mem_digitsN hc
  simpa using (digit_ne d hd).2

/-- A base name and a digit string can be recovered from the composed name. -/
theorem name_parts {b b' s s' : Text} (hs : ∀ c ∈ s, c ≠ '_') (hs' : ∀ c ∈ s', c ≠ '_')
    (h : b ++ stepMark ++ s ++ vtsExt = b' ++ stepMark ++ s' ++ vtsExt) : b = b' ∧ s = s' := by
  have h1 := List.append_cancel_right h
  have h2 := congrArg List.reverse h1
  simp only [stepMark, List.reverse_append, List.append_assoc] at h2
  have key : ∀ u u' r r' : Text, (∀ c ∈ u, c ≠ '_') → (∀ c ∈ u', c ≠ '_') → u ++ '_' :: r = u' ++ '_' :: r' → u = u' ∧ r = r' := by
    intro u
    induction u with
    | nil =>
      intro u' r r' _ hu' e
      cases u' with
      | nil => simpa using e
      | cons c u' =>
        simp only [List.nil_append, List.cons_append, List.cons.injEq] at e
        exact absurd e.1.symm (hu' c List.mem_cons_self)
    | cons c u ih =>
      intro u' r r' hu hu' e
      cases u' with
      | nil =>
        simp only [List.nil_append, List.cons_append, List.cons.injEq] at e
        exact absurd e.1 (hu c List.mem_cons_self)
      | cons c' u' =>
        simp only [List.cons_append, List.cons.injEq] at e
        obtain ⟨a1, a2⟩ := ih u' r r' (fun x hx => hu x (List.mem_cons_of_mem _ hx))
          (fun x hx => hu' x (List.mem_cons_of_mem _ hx)) e.2
        exact ⟨by rw [e.1, a1], a2⟩
  obtain ⟨a1, a2⟩ := key s.reverse s'.reverse _ _ (fun c hc => hs c (List.mem_reverse.1 hc))
    (fun c hc => hs' c (List.mem_reverse.1 hc)) h2
  exact ⟨by simpa using a2, by simpa using a1⟩

theorem digitsN_inj {w w' n n' : Nat} (hn : n < 10 ^ w) (hn' : n' < 10 ^ w') (h : digitsN w n = digitsN w' n') : n = n' := by
  have h1 := readDigits_digitsN 0 w n
  have h2 := readDigits_digitsN 0 w' n'
  rw [h, h2, Nat.mod_eq_of_lt hn, Nat.mod_eq_of_lt hn', zero_mul, zero_mul, zero_add, zero_add] at h1
  exact (Option.some.inj h1).symm

theorem lt_pow_max (w n : Nat) : n < 10 ^ max w (Nat.log 10 n + 1) :=
  lt_of_lt_of_le (Nat.lt_pow_succ_log_self (by decide) n) (Nat.pow_le_pow_right (by decide) (le_max_right _ _))

theorem digits_no_mark {w n : Nat} : ∀ c ∈ digitsN w n, c ≠ '_' := digitsN_all _ fun d hd => (digit_ne d hd).1

/-- The number of steps must be positive: with `max_time_steps` 0 or negative the width of the step field is the
conversion of an infinite logarithm to `int`, so already the file of the final state is undefined behaviour. -/
theorem C68_needs_steps (base : Text) (maxSteps : Int) (iter : Nat) (h : maxSteps ≤ 0) :
    fileName2 base maxSteps iter = .error .badConv ∧ fileName3 base maxSteps iter = .error .badConv := by
  simp [fileName2, fileName3, iterWidth, h, bind, Except.bind]

/-- 3D names: base, mark, the step counter in decimal with zeros in front up to the width of the largest step (at least
four), extension. -/
theorem C68_name3 (base : Text) (maxSteps : Int) (h : 0 < maxSteps) (iter : Nat) (hi : iter < 10 ^ 17) :
    fileName3 base maxSteps iter = .ok (base ++ "_step_".toList ++
      digitsN (max (max (Nat.log 10 maxSteps.toNat + 1) 4) (Nat.log 10 iter + 1)) iter ++ ".vts".toList) := by
  unfold fileName3 iterWidth
  rw [if_neg (by omega), showGen_plain 17 iter hi, filter_showNat]
  simp only [bind, Except.bind, pure, Except.pure, padZero_showNat]
  rfl

/-- 2D names agree with that scheme below a million steps only. -/
theorem C68_name2 (base : Text) (maxSteps : Int) (h : 0 < maxSteps) (iter : Nat) (hi : iter < 10 ^ 6) :
    fileName2 base maxSteps iter = .ok (base ++ "_step_".toList ++
      digitsN (max (Nat.log 10 maxSteps.toNat + 1) (Nat.log 10 iter + 1)) iter ++ ".vts".toList) := by
  unfold fileName2 iterWidth
  rw [if_neg (by omega), showGen_plain 6 iter hi]
  simp only [bind, Except.bind, pure, Except.pure, padZero_showNat]
  rfl

/-- In 3D files of different steps or different base names (for instance the final file) never share a name, whatever
the base names and step limits of the runs. -/
theorem C68_distinct3 (base base' : Text) (maxSteps maxSteps' : Int) (h : 0 < maxSteps) (h' : 0 < maxSteps') (i j : Nat)
    (hi : i < 10 ^ 17) (hj : j < 10 ^ 17) :
    fileName3 base maxSteps i = fileName3 base' maxSteps' j → base = base' ∧ i = j := by
  rw [C68_name3 base maxSteps h i hi, C68_name3 base' maxSteps' h' j hj]
  intro e
  obtain ⟨e1, e2⟩ := name_parts digits_no_mark digits_no_mark (Except.ok.inj e)
  exact ⟨e1, digitsN_inj (lt_pow_max _ _) (lt_pow_max _ _) e2⟩

/-- The same in 2D below a million steps. -/
theorem C68_distinct2 (base base' : Text) (maxSteps maxSteps' : Int) (h : 0 < maxSteps) (h' : 0 < maxSteps') (i j : Nat)
    (hi : i < 10 ^ 6) (hj : j < 10 ^ 6) :
    fileName2 base maxSteps i = fileName2 base' maxSteps' j → base = base' ∧ i = j := by
  rw [C68_name2 base maxSteps h i hi, C68_name2 base' maxSteps' h' j hj]
  intro e
  obtain ⟨e1, e2⟩ := name_parts digits_no_mark digits_no_mark (Except.ok.inj e)
  exact ⟨e1, digitsN_inj (lt_pow_max _ _) (lt_pow_max _ _) e2⟩

theorem lex_append {s s' t t' : Text} (hl : s.length = s'.length) (h : s < s') : s ++ t < s' ++ t' := by
  induction s generalizing s' with
  | nil =>
    cases s' with
    | nil => exact absurd h (List.lt_irrefl _)
    | cons => simp at hl
  | cons a s ih =>
    cases s' with
    | nil => simp at hl
    | cons b s' =>
      rw [List.cons_append, List.cons_append, List.cons_lt_cons_iff]
      rw [List.cons_lt_cons_iff] at h
      rcases h with h | ⟨h1, h2⟩
      · exact Or.inl h
      · exact Or.inr ⟨h1, ih (by simpa using hl) h2⟩

theorem lex_prefix (p : Text) {s s' : Text} (h : s < s') : p ++ s < p ++ s' := by
  induction p with
  | nil => exact h
  | cons a p ih => exact List.cons_lt_cons_iff.2 (Or.inr ⟨rfl, ih⟩)

theorem digitChar_lt {d e : Nat} (h : d < e) (he : e < 10) : digitChar d < digitChar e := by
  interval_cases e <;> interval_cases d <;> decide

theorem digitsN_lt {w i j : Nat} (h : i < j) (hj : j < 10 ^ w) : digitsN w i < digitsN w j := by
  induction w generalizing i j with
  | zero => simp at hj; omega
  | succ w ih =>
    rw [pow_succ] at hj
    rw [digitsN, digitsN]
    by_cases e : i / 10 = j / 10
    · rw [e]
      refine lex_prefix _ (List.cons_lt_cons_iff.2 (Or.inl (digitChar_lt ?_ (Nat.mod_lt _ (by decide)))))
      omega
    · exact lex_append (by rw [length_digitsN, length_digitsN]) (ih (by omega) (by omega))

/-- Listing the 3D files of a run in alphabetical order is listing them in the order of the steps, up to the step limit
of the run. -/
theorem C68_order3 (base : Text) (maxSteps : Int) (i j : Nat) (hij : i < j) (hj : (j : Int) ≤ maxSteps) (hj' : j < 10 ^ 17)
    (f g : Text) (hf : fileName3 base maxSteps i = .ok f) (hg : fileName3 base maxSteps j = .ok g) : f < g := by
  have hm : 0 < maxSteps := by omega
  rw [C68_name3 base maxSteps hm i (by omega)] at hf
  rw [C68_name3 base maxSteps hm j hj'] at hg
  have hli : Nat.log 10 i ≤ Nat.log 10 maxSteps.toNat := Nat.log_mono_right (by omega)
  have hlj : Nat.log 10 j ≤ Nat.log 10 maxSteps.toNat := Nat.log_mono_right (by omega)
  rw [← Except.ok.inj hf, ← Except.ok.inj hg,
    max_eq_left (a := max (Nat.log 10 maxSteps.toNat + 1) 4) (b := Nat.log 10 i + 1) (by omega),
    max_eq_left (a := max (Nat.log 10 maxSteps.toNat + 1) 4) (b := Nat.log 10 j + 1) (by omega)]
  have hpow : j < 10 ^ max (Nat.log 10 maxSteps.toNat + 1) 4 :=
    lt_of_lt_of_le (Nat.lt_pow_succ_log_self (by decide) j) (Nat.pow_le_pow_right (by decide) (by omega))
  exact lex_append (by simp [length_digitsN]) (lex_prefix _ (digitsN_lt hij hpow))

theorem sciRound_chunk (D q r : Nat) (hD : 6 ≤ D) (hq : 10 ^ 5 ≤ q) (hq' : q < 10 ^ 6) (hr : 2 * r < 10 ^ (D - 5)) :
    sciRound 5 ((q * 10 ^ (D - 5) + r : Nat) : ℚ) = (q, (D : Int)) := by
  have hlog : Nat.log 10 (q * 10 ^ (D - 5) + r) = D := by
    rw [Nat.log_eq_iff (Or.inl (by omega))]
    constructor
    · calc 10 ^ D = 10 ^ 5 * 10 ^ (D - 5) := by rw [← pow_add]; congr 1; omega
        _ ≤ q * 10 ^ (D - 5) := Nat.mul_le_mul_right _ hq
        _ ≤ _ := by omega
    · calc q * 10 ^ (D - 5) + r < q * 10 ^ (D - 5) + 10 ^ (D - 5) := by omega
        _ = (q + 1) * 10 ^ (D - 5) := by ring
        _ ≤ 10 ^ 6 * 10 ^ (D - 5) := Nat.mul_le_mul_right _ hq'
        _ = 10 ^ (D + 1) := by rw [← pow_add]; congr 1; omega
  have hpos : (0 : ℚ) < (10 : ℚ) ^ (D - 5) := by positivity
  have hne : q * 10 ^ (D - 5) + r ≠ 0 := by
    have : 0 < q * 10 ^ (D - 5) := by positivity
    omega
  unfold sciRound
  rw [log_nat _ hne, hlog]
  have ex : roundEven (((q * 10 ^ (D - 5) + r : Nat) : ℚ) / (10 : ℚ) ^ ((D : Int) - (5 : Nat))) = (q : Int) := by
    refine roundEven_eq ?_
    rw [show (D : Int) - (5 : Nat) = ((D - 5 : Nat) : Int) by omega, zpow_natCast]
    have e : ((q * 10 ^ (D - 5) + r : Nat) : ℚ) / (10 : ℚ) ^ (D - 5) - ((q : Int) : ℚ) = (r : ℚ) / (10 : ℚ) ^ (D - 5) := by
      push_cast
      field_simp
      ring
    rw [e, abs_of_nonneg (by positivity), div_lt_iff₀ hpos]
    have : ((2 * r : Nat) : ℚ) < ((10 ^ (D - 5) : Nat) : ℚ) := by exact_mod_cast hr
    push_cast at this
    linarith
  dsimp only
  rw [ex, Int.toNat_natCast, if_neg (by omega)]

/-- From a million steps on, 2D file names keep six significant digits of the step only: all steps
`q·10^(D-5) + r` with the same six leading digits `q` and `r` below half a unit share one name, so that each of these
files overwrites the one before. -/
theorem C68_collisions2 (base : Text) (maxSteps : Int) (D q r r' : Nat) (hD : 6 ≤ D) (hq : 10 ^ 5 ≤ q) (hq' : q < 10 ^ 6)
    (hr : 2 * r < 10 ^ (D - 5)) (hr' : 2 * r' < 10 ^ (D - 5)) :
    fileName2 base maxSteps (q * 10 ^ (D - 5) + r) = fileName2 base maxSteps (q * 10 ^ (D - 5) + r') := by
  have hpos : 0 < q * 10 ^ (D - 5) := by positivity
  have e : showGen 6 (q * 10 ^ (D - 5) + r) = showGen 6 (q * 10 ^ (D - 5) + r') := by
    unfold showGen
    rw [if_neg (by omega), if_neg (by omega), show (6 - 1 : Nat) = 5 from rfl, sciRound_chunk D q r hD hq hq' hr,
      sciRound_chunk D q r' hD hq hq' hr']
    have hlt : ¬ (D : Int) < ((6 : Nat) : Int) := by omega
    simp only [if_neg hlt]
  unfold fileName2
  rw [e]

/-- Concretely: steps 1000000 to 1000004 of a run all write `c_step_1e+06.vts` (width 5). -/
theorem C68_million2 (r : Nat) (hr : r ≤ 4) :
    fileName2 "c".toList 10000 (1000000 + r) = .ok "c_step_1e+06.vts".toList := by
  have e : sciRound 5 ((1000000 + r : Nat) : ℚ) = (100000, 6) := sciRound_chunk 6 100000 r (by decide) (by decide) (by decide) (by omega)
  have e2 : showGen 6 (1000000 + r) = "1e+06".toList := by
    unfold showGen
    rw [if_neg (by omega), show (6 - 1 : Nat) = 5 from rfl, e]
    have hlt : ¬ (6 : Int) < ((6 : Nat) : Int) := by omega
    simp only [if_neg hlt]
    decide +kernel
  unfold fileName2 iterWidth
  rw [e2, if_neg (by decide)]
  have hl : Nat.log 10 (10000 : Int).toNat = 4 := by decide +kernel
  simp only [bind, Except.bind, pure, Except.pure, hl]
  decide +kernel

theorem showGen_no_mark (P n : Nat) : ∀ c ∈ showGen P n, c ≠ '_' := by
  have hd : ∀ w m, ∀ c ∈ digitsN w m, c ≠ '_' := fun w m => digits_no_mark
  intro c hc
  unfold showGen at hc
  split at hc
  · exact hd _ _ c hc
  · dsimp only at hc
    split at hc
    · exact hd _ _ c hc
    · simp only [List.mem_append, List.mem_cons] at hc
      rcases hc with (hc | hc) | hc | hc
      · exact hd _ _ c hc
      · split at hc
        · simp at hc
        · rcases List.mem_cons.1 hc with rfl | hc
          · decide
          · unfold stripZeros at hc
            rw [List.mem_reverse] at hc
            exact hd _ _ c (List.mem_reverse.1 ((List.dropWhile_sublist _).subset hc))
      · subst hc; decide
      · unfold showExp at hc
        rcases List.mem_cons.1 hc with rfl | hc
        · split <;> decide
        · exact hd _ _ c hc

theorem padZero_no_mark {w : Nat} {t : Text} (h : ∀ c ∈ t, c ≠ '_') : ∀ c ∈ padZero w t, c ≠ '_' := by
  intro c hc
  unfold padZero at hc
  rcases List.mem_append.1 hc with hc | hc
  · rw [List.eq_of_mem_replicate hc]
    decide
  · exact h c hc

/-- The file written at the end of a run never replaces one of the files written during the run, whatever the steps. -/
theorem C68_final (base : Text) (maxSteps : Int) (h : 0 < maxSteps) (i j : Nat) :
    fileName2 base maxSteps i ≠ fileName2 (finalBase base) maxSteps j ∧
    fileName3 base maxSteps i ≠ fileName3 (finalBase base) maxSteps j := by
  have hb : base ≠ finalBase base := by
    intro e
    have := congrArg List.length e
    simp [finalBase] at this
  constructor
  · intro e
    unfold fileName2 iterWidth at e
    rw [if_neg (by omega)] at e
    exact hb (name_parts (padZero_no_mark (showGen_no_mark _ _)) (padZero_no_mark (showGen_no_mark _ _)) (Except.ok.inj e)).1
  · intro e
    unfold fileName3 iterWidth at e
    rw [if_neg (by omega)] at e
    have hf : ∀ n, ∀ c ∈ (showGen 17 n).filter (· != ','), c ≠ '_' := fun n c hc =>
      showGen_no_mark _ _ c (List.mem_of_mem_filter hc)
    exact hb (name_parts (padZero_no_mark (hf _)) (padZero_no_mark (hf _)) (Except.ok.inj e)).1

/-- The hypotheses of the naming theorems hold for the default step limit. -/
example : fileName3 "c".toList 10000 42 = .ok "c_step_00042.vts".toList ∧
    fileName2 "c".toList 10000 42 = .ok "c_step_00042.vts".toList := by
  have hl : Nat.log 10 (10000 : Int).toNat = 4 := by decide +kernel
  have hl2 : Nat.log 10 42 = 1 := by decide +kernel
  constructor
  · rw [C68_name3 _ _ (by decide) _ (by norm_num), hl, hl2]; decide +kernel
  · rw [C68_name2 _ _ (by decide) _ (by norm_num), hl, hl2]; decide +kernel

end Madg
