/-
Helpers for the printed settings: nearest decimals, lines of config files, types of the parsed values.
-/
import Verif.Props.Options
import Verif.Spec.Settings
import Verif.Proofs.General
import Verif.Proofs.Options
import Mathlib.Tactic.Positivity
import Mathlib.Tactic.FieldSimp

namespace Madg
open Spec

/-! ### Nearest decimals -/

theorem roundEven_closest (x : ℚ) (k : Int) : |x - roundEven x| ≤ |x - k| := by
  by_cases h : k = roundEven x
  · rw [h]
  · have h1 := roundEven_err x
    have h2 : (1 : ℚ) ≤ |(roundEven x : ℚ) - k| := by
      have : (1 : Int) ≤ |roundEven x - k| := Int.one_le_abs (sub_ne_zero.2 (Ne.symm h))
      exact_mod_cast this
    have h3 : |(roundEven x : ℚ) - k| ≤ |x - roundEven x| + |x - k| := by
      have := abs_sub_abs_le_abs_sub (x - k) (x - roundEven x)
      have e : (roundEven x : ℚ) - k = (x - k) - (x - roundEven x) := by ring
      rw [e]
      exact (abs_sub _ _).trans (by linarith)
    linarith

theorem sciVal_form (p : Nat) {x : ℚ} (hx : 0 < x) :
    sciVal p (sciRound p x) = (roundEven (x / (10 : ℚ) ^ (Int.log 10 x - p)) : ℚ) * (10 : ℚ) ^ (Int.log 10 x - p) := by
  have h10 : (0 : ℚ) < (10 : ℚ) ^ (Int.log 10 x - p) := zpow_pos (by norm_num) _
  have hM : ((roundEven (x / (10 : ℚ) ^ (Int.log 10 x - p))).toNat : Int) = roundEven (x / (10 : ℚ) ^ (Int.log 10 x - p)) := by
    have := roundEven_mono_int (x := x / (10 : ℚ) ^ (Int.log 10 x - p)) (n := 0) (by push_cast; positivity)
    omega
  have h3 : ((roundEven (x / (10 : ℚ) ^ (Int.log 10 x - p))).toNat : ℚ) = ((roundEven (x / (10 : ℚ) ^ (Int.log 10 x - p)) : Int) : ℚ) := by
    exact_mod_cast congrArg (fun z : Int => (z : ℚ)) hM
  rw [← h3]
  unfold sciVal sciRound
  dsimp only
  split
  · rename_i hm
    rw [hm]
    dsimp only
    have : Int.log 10 x + 1 - (p : Int) = 1 + (Int.log 10 x - p) := by ring
    rw [this, zpow_add₀ (by norm_num : (10 : ℚ) ≠ 0), zpow_one]
    push_cast
    rw [pow_succ]; ring
  · rfl

theorem decimal_neg {n : Nat} {y : ℚ} (h : Decimal n y) : Decimal n (-y) := by
  obtain ⟨m, e, h1, h2⟩ := h
  exact ⟨-m, e, by rwa [abs_neg], by rw [h2]; push_cast; ring⟩

theorem sciVal_nearest (p : Nat) {x : ℚ} (hx : 0 < x) : NearestDecimal (p + 1) x (sciVal p (sciRound p x)) := by
  constructor
  · obtain ⟨-, h2, -⟩ := sciRound_spec p hx
    refine ⟨(sciRound p x).1, (sciRound p x).2 - p, ?_, by unfold sciVal; push_cast; rfl⟩
    rw [Nat.abs_cast]
    exact_mod_cast h2
  · rintro z ⟨m, e, hm, rfl⟩
    rw [sciVal_form p hx]
    obtain ⟨q, hq⟩ : ∃ q, q = (10 : ℚ) ^ (Int.log 10 x - p) := ⟨_, rfl⟩
    have q0 : 0 < q := by rw [hq]; exact zpow_pos (by norm_num) _
    have near : ∀ k : Int, |x - (roundEven (x / q) : ℚ) * q| ≤ |x - k * q| := by
      intro k
      have h := mul_le_mul_of_nonneg_right (roundEven_closest (x / q) k) q0.le
      rw [← abs_of_pos q0, ← abs_mul, ← abs_mul, abs_of_pos q0, sub_mul, sub_mul, div_mul_cancel₀ _ q0.ne'] at h
      exact h
    rw [← hq]
    by_cases he : Int.log 10 x - p ≤ e
    · obtain ⟨j, hj⟩ := Int.eq_ofNat_of_zero_le (sub_nonneg.2 he)
      have : (m : ℚ) * (10 : ℚ) ^ e = ((m * 10 ^ j : Int) : ℚ) * q := by
        rw [hq]
        push_cast
        rw [mul_assoc, ← zpow_natCast, ← zpow_add₀ (by norm_num : (10 : ℚ) ≠ 0)]
        congr 2
        omega
      rw [this]
      exact near _
    · have hlog := Int.zpow_log_le_self (b := 10) (by decide) hx
      push_cast at hlog
      have e1 : (10 : ℚ) ^ Int.log 10 x = ((10 ^ p : Int) : ℚ) * q := by
        rw [hq]
        push_cast
        rw [← zpow_natCast, ← zpow_add₀ (by norm_num : (10 : ℚ) ≠ 0)]
        congr 1
        omega
      have hz : (m : ℚ) * (10 : ℚ) ^ e ≤ (10 : ℚ) ^ Int.log 10 x := by
        have h1 : (m : ℚ) ≤ 10 ^ (p + 1) := by exact_mod_cast (le_abs_self m).trans hm.le
        calc (m : ℚ) * (10 : ℚ) ^ e ≤ 10 ^ (p + 1) * (10 : ℚ) ^ e := mul_le_mul_of_nonneg_right h1 (zpow_pos (by norm_num) _).le
          _ = (10 : ℚ) ^ ((p + 1 : Int) + e) := by rw [zpow_add₀ (by norm_num)]; norm_cast
          _ ≤ _ := zpow_le_zpow_right₀ (by norm_num) (by omega)
      have h := near (10 ^ p)
      rw [← e1, abs_of_nonneg (sub_nonneg.2 hlog)] at h
      refine h.trans ?_
      rw [abs_of_nonneg (by linarith)]
      linarith

theorem sciDec_nearest (p : Nat) (x : ℚ) : NearestDecimal (p + 1) x (sciDec p x) := by
  unfold sciDec
  split
  · rename_i h
    rw [h]
    exact ⟨⟨0, 0, by simp, by simp⟩, fun z _ => by simp⟩
  · split
    · rename_i h0 h
      obtain ⟨a, b⟩ := sciVal_nearest p (x := -x) (by linarith)
      refine ⟨decimal_neg a, fun z hz => ?_⟩
      have := b (-z) (decimal_neg hz)
      rw [show -x - sciVal p (sciRound p (-x)) = -(x - -sciVal p (sciRound p (-x))) by ring, abs_neg,
        show -x - -z = -(x - z) by ring, abs_neg] at this
      exact this
    · rename_i h0 h
      exact sciVal_nearest p (lt_of_le_of_ne (not_lt.1 h) (Ne.symm h0))

/-- Two different decimals with at most `n` digits are apart. -/
theorem decimal_gap {n : Nat} {y z : ℚ} (hy : Decimal n y) (hz : Decimal n z) (hne : y ≠ z) : |y| ≤ 10 ^ n * |y - z| := by
  obtain ⟨m, e, hm, ey⟩ := hy
  obtain ⟨k, f, hk, ez⟩ := hz
  have hm' : |(m : ℚ)| ≤ 10 ^ n := by exact_mod_cast hm.le
  have hk' : |(k : ℚ)| ≤ 10 ^ n - 1 := by
    have : |k| ≤ 10 ^ n - 1 := by omega
    exact_mod_cast this
  rcases le_total e f with h | h
  · -- `z` is a multiple of the unit of `y`
    obtain ⟨j, hj⟩ := Int.eq_ofNat_of_zero_le (sub_nonneg.2 h)
    have e1 : y - z = ((m - k * 10 ^ j : Int) : ℚ) * (10 : ℚ) ^ e := by
      rw [ey, ez, show f = (j : Int) + e by omega, zpow_add₀ (by norm_num), zpow_natCast]
      push_cast
      ring
    have h1 : (1 : ℚ) ≤ |((m - k * 10 ^ j : Int) : ℚ)| := by
      have : m - k * 10 ^ j ≠ 0 := by
        intro h0
        rw [h0, Int.cast_zero, zero_mul, sub_eq_zero] at e1
        exact hne e1
      exact_mod_cast Int.one_le_abs this
    have u0 : (0 : ℚ) < (10 : ℚ) ^ e := zpow_pos (by norm_num) _
    rw [e1, abs_mul, abs_of_pos u0, ey, abs_mul, abs_of_pos u0, ← mul_assoc]
    refine mul_le_mul_of_nonneg_right ?_ u0.le
    nlinarith [abs_nonneg (m : ℚ)]
  · -- `y` is a multiple of the unit of `z`
    obtain ⟨j, hj⟩ := Int.eq_ofNat_of_zero_le (sub_nonneg.2 h)
    have e0 : y = ((m * 10 ^ j : Int) : ℚ) * (10 : ℚ) ^ f := by
      rw [ey, show e = (j : Int) + f by omega, zpow_add₀ (by norm_num), zpow_natCast]
      push_cast
      ring
    have u0 : (0 : ℚ) < (10 : ℚ) ^ f := zpow_pos (by norm_num) _
    obtain ⟨A, hA⟩ : ∃ A : Int, A = m * 10 ^ j := ⟨_, rfl⟩
    rw [← hA] at e0
    have hAk : A ≠ k := by
      rintro rfl
      exact hne (by rw [e0, ez])
    have h1 : (1 : ℚ) ≤ |(A : ℚ) - k| := by
      have : (1 : Int) ≤ |A - k| := Int.one_le_abs (sub_ne_zero.2 hAk)
      exact_mod_cast this
    have h2 : |(A : ℚ)| ≤ |(A : ℚ) - k| + |(k : ℚ)| := by
      have := abs_add_le ((A : ℚ) - k) k
      rwa [sub_add_cancel] at this
    have e1 : y - z = ((A : ℚ) - k) * (10 : ℚ) ^ f := by rw [e0, ez]; ring
    rw [e1, abs_mul, abs_of_pos u0, e0, abs_mul, abs_of_pos u0, ← mul_assoc]
    refine mul_le_mul_of_nonneg_right ?_ u0.le
    have p1 : (1 : ℚ) ≤ 10 ^ n := one_le_pow₀ (by norm_num)
    nlinarith

/-! ### Lines of a config file -/

theorem trim_core {p : Char → Bool} {a core b : Text} (ha : ∀ c ∈ a, p c = true) (hb : ∀ c ∈ b, p c = true)
    (hh : ∀ c, core.head? = some c → p c = false) (hl : ∀ c, core.getLast? = some c → p c = false) : trimIf p (a ++ core ++ b) = core := by
  unfold trimIf
  cases core with
  | nil =>
    have : ((a ++ [] ++ b).dropWhile p) = [] := by
      have := (splitWhile (s := a ++ b) (r := []) (p := p) (by
        intro c hc
        rcases List.mem_append.1 hc with h | h
        · exact ha c h
        · exact hb c h) (by intro c hc; cases hc)).2
      rwa [List.append_nil] at this ⊢
    rw [this]; rfl
  | cons d t =>
    have h1 : (a ++ (d :: t) ++ b).dropWhile p = (d :: t) ++ b := by
      rw [List.append_assoc]
      exact (splitWhile ha (by intro c hc; exact hh c hc)).2
    rw [h1, List.reverse_append]
    rw [(splitWhile (s := b.reverse) (r := (d :: t).reverse) (p := p) (fun c hc => hb c (List.mem_reverse.1 hc))
      (by intro c hc; rw [List.head?_reverse] at hc; exact hl c hc)).2, List.reverse_reverse]

theorem linesGo_lines (ls : List Text) (h : ∀ l ∈ ls, '\n' ∉ l) : linesGo [] (ls.flatMap fun l => l ++ ['\n']) = ls := by
  have one : ∀ (l cur t : Text), '\n' ∉ l → linesGo cur (l ++ '\n' :: t) = (cur ++ l) :: linesGo [] t := by
    intro l
    induction l with
    | nil => intro cur t _; rw [List.nil_append, linesGo, if_pos rfl, List.append_nil]
    | cons c l ih =>
      intro cur t hn
      rw [List.mem_cons, not_or] at hn
      rw [List.cons_append, linesGo, if_neg (Ne.symm hn.1), ih _ _ hn.2, List.append_assoc]
      rfl
  induction ls with
  | nil => rfl
  | cons l ls ih =>
    rw [List.flatMap_cons, List.append_assoc]
    show linesGo [] (l ++ '\n' :: (ls.flatMap fun l => l ++ ['\n'])) = _
    rw [one l [] _ (h l List.mem_cons_self), List.nil_append, ih fun l' hl => h l' (List.mem_cons_of_mem _ hl)]

/-- Lines without sections and the assignments in them. -/
inductive CfgReads : List Text → List (Text × Text) → Prop
  | nil : CfgReads [] []
  | blank {l ls as} (h : cfgLine [] l = .ok ([], none)) (t : CfgReads ls as) : CfgReads (l :: ls) as
  | entry {l a ls as} (h : cfgLine [] l = .ok ([], some a)) (t : CfgReads ls as) : CfgReads (l :: ls) (a :: as)

theorem CfgReads.append {ls ls' as as'} (h : CfgReads ls as) (h' : CfgReads ls' as') : CfgReads (ls ++ ls') (as ++ as') := by
  induction h with
  | nil => exact h'
  | blank h _ ih => exact .blank h ih
  | entry h _ ih => exact .entry h ih

theorem CfgReads.lines {ls as} (h : CfgReads ls as) : cfgLines [] ls = .ok as := by
  induction h with
  | nil => rfl
  | blank h _ ih => rw [cfgLines, h]; dsimp only; rw [ih]; rfl
  | entry h _ ih => rw [cfgLines, h]; dsimp only; rw [ih]; rfl

/-- Characters of option names. -/
def nameChar (c : Char) : Bool := c != '#' && c != '=' && c != '[' && c != '\n' && !isCfgSpace c

theorem Spec.Plain.ends {t : Text} (h : Plain t) :
    (∀ c, t.head? = some c → isCfgSpace c = false) ∧ ∀ c, t.getLast? = some c → isCfgSpace c = false := by
  have key : ∀ c, c ∈ t → (c ≠ ' ' ∧ c ≠ '\t' ∧ c ≠ '\r') → isCfgSpace c = false := by
    intro c hc ⟨h1, h2, h3⟩
    have h4 : c ≠ '\n' := fun e => h.newline (e ▸ hc)
    unfold isCfgSpace
    simp [h1, h2, h3, h4]
  exact ⟨fun c hc => key c (List.mem_of_mem_head? hc) (h.first c hc), fun c hc => key c (List.mem_of_mem_getLast? hc) (h.last c hc)⟩

theorem cfgLine_setting {n t : Text} (hn : n ≠ []) (hc : ∀ c ∈ n, nameChar c = true) (ht : Plain t) :
    cfgLine [] (setw 30 n ++ " = ".toList ++ t) = .ok ([], some (n, t)) := by
  have sp : ∀ c ∈ n, c ≠ '#' ∧ c ≠ '=' ∧ c ≠ '[' ∧ isCfgSpace c = false := by
    intro c h
    have := hc c h
    unfold nameChar at this
    simp only [Bool.and_eq_true, bne_iff_ne, ne_eq, Bool.not_eq_true'] at this
    exact ⟨this.1.1.1.1, this.1.1.1.2, this.1.1.2, this.2⟩
  obtain ⟨te1, te2⟩ := ht.ends
  obtain ⟨P, hP⟩ : ∃ P, P = List.replicate (30 - n.length) ' ' := ⟨_, rfl⟩
  have hPs : ∀ c ∈ P, isCfgSpace c = true := fun c h => by rw [hP] at h; rw [List.eq_of_mem_replicate h]; rfl
  have line : setw 30 n ++ " = ".toList ++ t = P ++ n ++ [' ', '=', ' '] ++ t := by rw [hP]; rfl
  -- no comment
  have cut : (P ++ n ++ [' ', '=', ' '] ++ t).takeWhile (· != '#') = P ++ n ++ [' ', '=', ' '] ++ t := by
    have := (splitWhile (p := (· != '#')) (s := P ++ n ++ [' ', '=', ' '] ++ t) (r := []) (by
      intro c h
      rw [bne_iff_ne]
      rcases List.mem_append.1 h with h | h
      · rcases List.mem_append.1 h with h | h
        · rcases List.mem_append.1 h with h | h
          · rw [hP] at h; rw [List.eq_of_mem_replicate h]; decide
          · exact (sp c h).1
        · simp only [List.mem_cons, List.not_mem_nil, or_false] at h
          rcases h with rfl | rfl | rfl <;> decide
      · exact fun e => ht.comment (e ▸ h)) (by intro c hc; cases hc)).1
    rwa [List.append_nil] at this
  -- blanks removed
  obtain ⟨g, hg⟩ : ∃ g, g = if t = [] then [] else ' ' :: t := ⟨_, rfl⟩
  have core : trimIf isCfgSpace (P ++ n ++ [' ', '=', ' '] ++ t) = n ++ [' ', '='] ++ g := by
    have hh : ∀ c, (n ++ [' ', '='] ++ g).head? = some c → isCfgSpace c = false := by
      intro c h
      cases n with
      | nil => exact absurd rfl hn
      | cons d n => cases h; exact (sp c List.mem_cons_self).2.2.2
    by_cases h0 : t = []
    · rw [if_pos h0] at hg
      rw [hg, h0]
      rw [hg] at hh
      have := trim_core (p := isCfgSpace) (a := P) (core := n ++ [' ', '='] ++ []) (b := [' ']) hPs
        (by intro c h; rw [List.mem_singleton] at h; rw [h]; rfl) hh (by
          intro c h
          rw [List.append_nil, List.getLast?_append] at h
          cases h
          rfl)
      rw [← this]
      simp
    · rw [if_neg h0] at hg
      rw [hg] at hh ⊢
      have := trim_core (p := isCfgSpace) (a := P) (core := n ++ [' ', '='] ++ ' ' :: t) (b := []) hPs (by intro c h; cases h) hh (by
          intro c h
          rw [List.getLast?_append, List.getLast?_cons_of_ne_nil h0] at h
          cases hl : t.getLast? with
          | none => rw [List.getLast?_eq_none_iff] at hl; exact absurd hl h0
          | some d =>
            rw [hl] at h
            cases h
            exact te2 c hl)
      rw [← this]
      simp
  unfold cfgLine
  rw [line, cut, core]
  dsimp only
  have eqs : ∀ c ∈ n ++ [' '], (c != '=') = true := by
    intro c h
    rw [bne_iff_ne]
    rcases List.mem_append.1 h with h | h
    · exact (sp c h).2.1
    · rw [List.mem_singleton] at h; rw [h]; decide
  have form : n ++ [' ', '='] ++ g = (n ++ [' ']) ++ '=' :: g := by simp
  have sw := splitWhile (p := (· != '=')) (r := '=' :: g) eqs (by intro c h; cases h; rfl)
  have nlast : ∀ c, n.getLast? = some c → isCfgSpace c = false := fun c h => (sp c (List.mem_of_mem_getLast? h)).2.2.2
  have nhead : ∀ c, n.head? = some c → isCfgSpace c = false := fun c h => (sp c (List.mem_of_mem_head? h)).2.2.2
  rw [if_neg (by simp), if_neg, if_pos (by simp), form, sw.1, sw.2]
  · have t1 := trim_core (p := isCfgSpace) (a := []) (core := n) (b := [' ']) (by intro c h; cases h)
      (by intro c h; rw [List.mem_singleton] at h; rw [h]; rfl) nhead nlast
    have t2 : trimIf isCfgSpace g = t := by
      by_cases h0 : t = []
      · rw [hg, if_pos h0, h0]; rfl
      · rw [hg, if_neg h0]
        have := trim_core (p := isCfgSpace) (a := [' ']) (core := t) (b := []) (by intro c h; rw [List.mem_singleton] at h; rw [h]; rfl)
          (by intro c h; cases h) te1 te2
        rw [List.append_nil] at this
        exact this
    rw [List.nil_append] at t1
    rw [t1]
    show Except.ok ([], some ([] ++ n, trimIf isCfgSpace g)) = _
    rw [t2, List.nil_append]
  · rintro ⟨h, -⟩
    cases n with
    | nil => exact hn rfl
    | cons d n =>
      cases h
      exact (sp '[' List.mem_cons_self).2.2.1 rfl

theorem cfgReads_settings (vm : Text → Option OptVal) (rows : List OptRow)
    (hn : ∀ r ∈ rows, r.name ≠ [] ∧ ∀ c ∈ r.name, nameChar c = true) (ht : ∀ r ∈ rows, Plain (showVal (vm r.name))) :
    CfgReads (rows.map (settingLine vm)) (rows.map fun r => (r.name, showVal (vm r.name))) := by
  induction rows with
  | nil => exact .nil
  | cons r rows ih =>
    exact .entry (cfgLine_setting (hn r List.mem_cons_self).1 (hn r List.mem_cons_self).2 (ht r List.mem_cons_self))
      (ih (fun r hr => hn r (List.mem_cons_of_mem _ hr)) fun r hr => ht r (List.mem_cons_of_mem _ hr))

/-! ### Values of the options -/

section
variable {N T V F : Type} [DecidableEq N] (d : OptDecl N T V F)

theorem storeGiven_none {final : N → Bool} {l : List (N × T)} {vm vm' : N → Option (V × Bool)} {new new' : N → Bool}
    (h : storeGiven d final l vm new = .ok (vm', new')) {n : N} (hn : vm' n = none) : vm n = none := by
  induction l generalizing vm new with
  | nil => cases h; exact hn
  | cons e l ih =>
    obtain ⟨m, t⟩ := e
    rw [storeGiven] at h
    split at h
    · exact ih h
    · split at h
      · cases h
      · split at h
        · cases h
        · have := ih h
          unfold mapSet at this
          split at this
          · cases this
          · exact this

theorem store_none {given : List (N × T)} {s s' : OptState N V} (h : store d given s = .ok s') {n : N} :
    s'.vars = s.vars ∧ (s'.vm n = none → s.vm n = none ∧ (d.known n = true → d.default n = none)) := by
  unfold store at h
  split at h
  · split at h
    · cases h
    · rename_i vm new hg
      cases h
      refine ⟨rfl, fun hn => ?_⟩
      dsimp only at hn
      cases hv : vm n with
      | some x => rw [hv] at hn; cases hn
      | none =>
        rw [hv] at hn
        refine ⟨storeGiven_none d hg hv, fun hk => ?_⟩
        dsimp only at hn
        rw [if_pos hk] at hn
        cases hd : d.default n with
        | none => rfl
        | some v => rw [hd] at hn; cases hn
  · cases h

theorem parse_vm {files : F → Option (List (N × T))} {prev : N → Option V} {cmd : List (N × T)} {s : OptState N V}
    (h : parseInputOptions d files prev cmd = .ok s) (n : N) :
    (∀ x, s.vm n = some x → s.vars n = some x.1) ∧
      (s.vm n = none → s.vars n = prev n ∧ (d.known n = true → d.default n = none)) := by
  unfold parseInputOptions at h
  split at h
  · cases h
  · rename_i s0 h0
    dsimp only at h
    split at h
    · cases h
    · rename_i s2 h2
      have hs : s = notify s2 := by
        split at h
        · cases h
        · split at h
          · cases h; rfl
          · split at h
            · cases h; rfl
            · cases h
      obtain ⟨b1, b2⟩ := store_none d h0 (n := n)
      obtain ⟨a1, a2⟩ := store_none d h2 (n := n)
      rw [hs]
      refine ⟨fun x hx => ?_, fun hx => ?_⟩
      · have : s2.vm n = some x := hx
        show (match s2.vm n with | some x => some x.1 | none => s2.vars n) = _
        rw [this]
      · have hx : s2.vm n = none := hx
        obtain ⟨c1, c2⟩ := a2 hx
        have c1 : s0.vm n = none := c1
        refine ⟨?_, c2⟩
        show (match s2.vm n with | some x => some x.1 | none => s2.vars n) = _
        rw [hx, a1]
        show (match s0.vm n with | some x => some x.1 | none => s0.vars n) = _
        rw [c1, b1]

end

/-- Values of an option's type, in the range of the type. -/
def Typed : OptTy → OptVal → Prop
  | .str, .str _ => True
  | .dbl, .dbl _ => True
  | .int, .int i => -2147483648 ≤ i ∧ i < 2147483648
  | .bool, .bool _ => True
  | .uint, .uint n => n < 4294967296
  | _, _ => False

theorem readVal_typed {ty : OptTy} {t : Text} {v : OptVal} (h : readVal ty t = some v) : Typed ty v := by
  cases ty with
  | str => cases h; trivial
  | dbl => obtain ⟨x, -, rfl⟩ := Option.map_eq_some_iff.1 h; trivial
  | bool => obtain ⟨x, -, rfl⟩ := Option.map_eq_some_iff.1 h; trivial
  | int =>
    obtain ⟨x, h2, rfl⟩ := Option.map_eq_some_iff.1 h
    unfold readInt at h2
    clear h
    rename' h2 => h
    obtain ⟨n, -, h⟩ := Option.bind_eq_some_iff.1 h
    dsimp only at h
    rw [Option.ite_none_right_eq_some, Option.some.injEq] at h
    rw [← h.2]
    exact h.1
  | uint =>
    obtain ⟨x, h2, rfl⟩ := Option.map_eq_some_iff.1 h
    unfold readUInt at h2
    clear h
    rename' h2 => h
    obtain ⟨n, -, h⟩ := Option.bind_eq_some_iff.1 h
    split at h
    · rename_i hr
      cases h
      show (if _ then _ else _) < 4294967296
      split
      · exact Nat.mod_lt _ (by decide)
      · exact hr
    · cases h

theorem readUInt_showNat {n : Nat} (h : n < 4294967296) : readUInt (showNat n) = some n := by
  have hs : readSign (showNat n) = (false, showNat n) := by
    have := readSign_digitsN (w := Nat.log 10 n + 1) (n := n) [] (by omega)
    rwa [List.append_nil] at this
  unfold readUInt
  rw [hs]
  dsimp only
  rw [readNat_showNat, Option.bind_some, if_pos h]
  rfl

/-- Printing and reading a value. -/
theorem readVal_showVal {ty : OptTy} {v : OptVal} (h : Typed ty v) : ∃ v', readVal ty (showVal (some v)) = some v' ∧ Reread v v' := by
  cases ty <;> cases v <;> first | exact absurd h id | skip
  · exact ⟨_, rfl, .str _⟩
  · rename_i x
    refine ⟨.dbl (binary64.round (sciDec 5 x)), ?_, .dbl _ _ (sciDec_nearest 5 x)⟩
    show ((readDec (general 5 x)).map _).map _ = _
    rw [readDec_general]
    rfl
  · rename_i i
    refine ⟨_, ?_, .int i⟩
    show (readInt (showInt i)).map _ = _
    rw [readInt_showInt h.1 h.2]
    rfl
  · rename_i b
    refine ⟨_, ?_, .bool b⟩
    cases b <;> decide +kernel
  · rename_i n
    refine ⟨_, ?_, .uint n⟩
    show (readUInt (showNat n)).map _ = _
    rw [readUInt_showNat h]
    rfl

theorem plain_of_chars {t : Text} (h : ∀ c ∈ t, c ≠ '#' ∧ c ≠ '\n' ∧ c ≠ ' ' ∧ c ≠ '\t' ∧ c ≠ '\r') : Plain t :=
  ⟨fun hc => (h _ hc).1 rfl, fun hc => (h _ hc).2.1 rfl, fun c hc => (h c (List.mem_of_mem_head? hc)).2.2,
    fun c hc => (h c (List.mem_of_mem_getLast? hc)).2.2⟩

theorem plain_num {t : Text} (h : ∀ c ∈ t, numChar c = true) : Plain t := by
  refine plain_of_chars fun c hc => ?_
  have := h c hc
  refine ⟨?_, ?_, ?_, ?_, ?_⟩ <;> · rintro rfl; revert this; decide +kernel

theorem showVal_plain {v : Option OptVal} (h : ∀ t, v = some (.str t) → Plain t) : Plain (showVal v) := by
  have nat : ∀ n, ∀ c ∈ showNat n, numChar c = true := fun n c hc => digit_numChar (digitsN_digit c hc)
  cases v with
  | none => exact plain_of_chars (by intro c hc; cases hc)
  | some v =>
    cases v with
    | str t => exact h t rfl
    | dbl x => exact plain_num (general_chars 5 x).2
    | int i =>
      refine plain_num fun c hc => ?_
      have hc : c ∈ showInt i := hc
      unfold showInt at hc
      split at hc
      · rcases List.mem_cons.1 hc with h | h
        · rw [h]; rfl
        · exact nat _ c h
      · exact nat _ c hc
    | bool b =>
      refine plain_of_chars ?_
      cases b <;> decide +kernel
    | uint n => exact plain_num (nat n)

theorem find_name {l : List OptRow} (hn : (l.map OptRow.name).Nodup) {r : OptRow} (hr : r ∈ l) : l.find? (fun q => q.name = r.name) = some r := by
  induction l with
  | nil => cases hr
  | cons q l ih =>
    rw [List.map_cons, List.nodup_cons] at hn
    rcases List.mem_cons.1 hr with h | h
    · rw [List.find?_cons_of_pos (by rw [h]; simp), h]
    · rw [List.find?_cons_of_neg, ih hn.2 h]
      simp only [decide_eq_true_eq]
      intro e
      exact hn.1 (e ▸ List.mem_map_of_mem h)

theorem optRows_names : (optRows.map OptRow.name).Nodup := by decide +kernel

theorem rowOf_name {r : OptRow} (hr : r ∈ optRows) : rowOf r.name = some r := find_name optRows_names hr

theorem optRows_ok : ∀ r ∈ optRows, (r.name ≠ [] ∧ (∀ c ∈ r.name, nameChar c = true)) ∧ r.name ≠ helpName ∧ (r.dflt = none → r.ty = .str) ∧
    ∀ v, r.dflt = some v → Typed r.ty v := by
  intro r hr
  have h1 : ∀ n ∈ optRows.map OptRow.name, n ≠ [] ∧ (∀ c ∈ n, nameChar c = true) ∧ n ≠ helpName := by decide +kernel
  obtain ⟨a, b, c⟩ := h1 r.name (List.mem_map_of_mem hr)
  refine ⟨⟨a, b⟩, c, ?_⟩
  unfold optRows fileRows physicsRows discretizationRows multigridRows timeRows at hr
  simp only [List.cons_append, List.nil_append, List.mem_cons, List.not_mem_nil, or_false] at hr
  rcases hr with h | h | h | h | h | h | h | h | h | h | h | h | h | h | h | h | h | h | h | h | h | h | h | h | h | h | h | h | h | h | h | h | h |
    h | h | h | h | h | h | h | h | h | h | h | h <;>
  · rw [h]
    refine ⟨fun h => (by first | rfl | cases h), fun v hv => ?_⟩
    cases hv <;> first | trivial | (show (_ : Int) ≤ _ ∧ _ < _; decide) | (show (_ : Nat) < _; decide)

theorem cfgReads_group (vm : Text → Option OptVal) {title : Text} {rows : List OptRow} (hr : ∀ r ∈ rows, r ∈ optRows)
    (ht : ∀ r ∈ optRows, Plain (showVal (vm r.name))) :
    CfgReads (settingGroup vm title rows) (rows.map fun r => (r.name, showVal (vm r.name))) := by
  have e : cfgLine [] [] = .ok ([], none) := by decide +kernel
  have hd : cfgLine [] ("# ****** ".toList ++ title ++ " Options ****** #".toList) = .ok ([], none) := by
    unfold cfgLine
    rw [show (List.takeWhile _ ("# ****** ".toList ++ title ++ " Options ****** #".toList) : Text) = [] from rfl]
    decide +kernel
  exact .blank e (.blank hd (.blank e (cfgReads_settings vm rows (fun r h => (optRows_ok r (hr r h)).1) fun r h => ht r (hr r h))))

theorem group_newline (vm : Text → Option OptVal) {title : Text} {rows : List OptRow} (h : '\n' ∉ title) (hr : ∀ r ∈ rows, r ∈ optRows)
    (ht : ∀ r ∈ optRows, Plain (showVal (vm r.name))) : ∀ l ∈ settingGroup vm title rows, '\n' ∉ l := by
  intro l hl hc
  rcases List.mem_append.1 hl with hl | hl
  · simp only [List.mem_cons, List.not_mem_nil, or_false] at hl
    rcases hl with hl | hl | hl
    · rw [hl] at hc; cases hc
    · rw [hl] at hc
      simp only [List.mem_append] at hc
      rcases hc with (hc | hc) | hc
      · revert hc; decide +kernel
      · exact h hc
      · revert hc; decide +kernel
    · rw [hl] at hc; cases hc
  · obtain ⟨r, hm, rfl⟩ := List.mem_map.1 hl
    unfold settingLine at hc
    simp only [List.mem_append] at hc
    rcases hc with (hc | hc) | hc
    · unfold setw at hc
      rcases List.mem_append.1 hc with hc | hc
      · cases List.eq_of_mem_replicate hc
      · have := (optRows_ok r (hr r hm)).1.2 _ hc
        revert this; decide +kernel
    · revert hc; decide +kernel
    · exact (ht r (hr r hm)).newline hc

/-- The printed settings read as the option names with their printed values. -/
theorem configEntries_settings (vm : Text → Option OptVal) (ht : ∀ r ∈ optRows, Plain (showVal (vm r.name))) :
    configEntries (settingsText vm) = .ok (optRows.map fun r => (r.name, showVal (vm r.name))) := by
  have m1 : ∀ r ∈ fileRows, r ∈ optRows := fun r h => List.mem_append_left _ (List.mem_append_left _ (List.mem_append_left _ (List.mem_append_left _ h)))
  have m2 : ∀ r ∈ physicsRows, r ∈ optRows := fun r h => List.mem_append_left _ (List.mem_append_left _ (List.mem_append_left _ (List.mem_append_right _ h)))
  have m3 : ∀ r ∈ discretizationRows, r ∈ optRows := fun r h => List.mem_append_left _ (List.mem_append_left _ (List.mem_append_right _ h))
  have m4 : ∀ r ∈ multigridRows, r ∈ optRows := fun r h => List.mem_append_left _ (List.mem_append_right _ h)
  have m5 : ∀ r ∈ timeRows, r ∈ optRows := fun r h => List.mem_append_right _ h
  unfold configEntries settingsText
  rw [linesGo_lines]
  · refine CfgReads.lines ?_
    have e : cfgLine [] [] = .ok ([], none) := by decide +kernel
    have := (((((cfgReads_group vm (title := "File".toList) m1 ht).append (cfgReads_group vm (title := "Physics".toList) m2 ht)).append
      (cfgReads_group vm (title := "Discretization".toList) m3 ht)).append (cfgReads_group vm (title := "Multigrid".toList) m4 ht)).append
      (cfgReads_group vm (title := "Time Stepping".toList) m5 ht)).append (CfgReads.blank e .nil)
    rw [List.append_nil, ← List.map_append, ← List.map_append, ← List.map_append, ← List.map_append] at this
    exact this
  · intro l hl
    rw [settingLines, List.mem_append, List.mem_append, List.mem_append, List.mem_append, List.mem_append] at hl
    rcases hl with ((((hl | hl) | hl) | hl) | hl) | hl
    · exact group_newline vm (by decide +kernel) m1 ht l hl
    · exact group_newline vm (by decide +kernel) m2 ht l hl
    · exact group_newline vm (by decide +kernel) m3 ht l hl
    · exact group_newline vm (by decide +kernel) m4 ht l hl
    · exact group_newline vm (by decide +kernel) m5 ht l hl
    · rw [List.mem_singleton.1 hl]; exact List.not_mem_nil

theorem optTable_default_known (n : Text) (v : OptVal) (h : optTable.default n = some v) : optTable.known n = true := by
  obtain ⟨r, hr, -⟩ := Option.bind_eq_some_iff.1 h
  show ((rowOf n).isSome || _) = true
  rw [hr]; rfl

theorem optTable_help : optTable.default optTable.help = none := by
  show (rowOf helpName).bind OptRow.dflt = none
  rw [show rowOf helpName = none by
    rw [rowOf, List.find?_eq_none]
    intro r hr
    simp only [decide_eq_true_eq]
    exact (optRows_ok r hr).2.1]
  rfl

/-- The values of the options and what is printed for them after reading the options. -/
theorem settings_value {files : Text → Option (List (Text × Text))} {cmd : List (Text × Text)} {s : OptState Text OptVal}
    (h : parseInputOptions optTable files freshVars cmd = .ok s) {r : OptRow} (hr : r ∈ optRows) :
    ∃ v, s.vars r.name = some v ∧ Typed r.ty v ∧ showVal ((s.vm r.name).map Prod.fst) = showVal (some v) := by
  obtain ⟨p1, p2⟩ := parse_vm optTable h r.name
  have row := rowOf_name hr
  obtain ⟨-, -, k1, k2⟩ := optRows_ok r hr
  cases hv : s.vm r.name with
  | some x =>
    have hx := p1 x hv
    refine ⟨x.1, hx, ?_, rfl⟩
    have he := C59_precedence optTable files freshVars cmd optTable_default_known optTable_help s h r.name
    rw [hx] at he
    have conv : ∀ t, optTable.conv r.name t = readVal r.ty t := fun t => by
      show (match rowOf r.name with | some r => readVal r.ty t | none => _) = _
      rw [row]
    have fresh : ∀ v, freshVars r.name = some v → Typed r.ty v := fun v hv => by
      unfold freshVars at hv
      rw [row] at hv
      dsimp only at hv
      split at hv
      · rename_i hs
        cases hv
        rw [hs]; trivial
      · cases hv
    have dflt : optTable.default r.name = r.dflt := by
      show (rowOf r.name).bind OptRow.dflt = _
      rw [row]; rfl
    unfold effective at he
    split at he
    · rw [conv] at he; exact readVal_typed he.symm
    · split at he
      · rw [conv] at he; exact readVal_typed he.symm
      · split at he
        · rename_i v hd
          rw [dflt] at hd
          cases he
          exact k2 _ hd
        · exact fresh _ he.symm
  | none =>
    obtain ⟨q1, q2⟩ := p2 hv
    have hd : r.dflt = none := by
      have := q2 (by show ((rowOf r.name).isSome || _) = true; rw [row]; rfl)
      have e : optTable.default r.name = r.dflt := by
        show (rowOf r.name).bind OptRow.dflt = _
        rw [row]; rfl
      rwa [e] at this
    have ht := k1 hd
    refine ⟨.str [], ?_, by rw [ht]; trivial, rfl⟩
    rw [q1]
    unfold freshVars
    rw [row]
    dsimp only
    rw [if_pos ht]

theorem optRows_plain : ∀ r ∈ optRows, ∀ t, r.dflt = some (.str t) → Plain t := by
  intro r hr
  unfold optRows fileRows physicsRows discretizationRows multigridRows timeRows at hr
  simp only [List.cons_append, List.nil_append, List.mem_cons, List.not_mem_nil, or_false] at hr
  rcases hr with h | h | h | h | h | h | h | h | h | h | h | h | h | h | h | h | h | h | h | h | h | h | h | h | h | h | h | h | h | h | h | h | h |
    h | h | h | h | h | h | h | h | h | h | h | h <;>
  · rw [h]
    intro t ht
    cases ht <;> exact plain_of_chars (by decide +kernel)

theorem given_rows (f : OptRow → Text) {l : List OptRow} (hn : (l.map OptRow.name).Nodup) {r : OptRow} (hr : r ∈ l) :
    given (l.map fun r => (r.name, f r)) r.name = some (f r) := by
  unfold given
  rw [List.find?_map, show ((fun e : Text × Text => decide (e.1 = r.name)) ∘ fun r => (r.name, f r)) = fun q => decide (q.name = r.name) from rfl,
    find_name hn hr]
  rfl

/-- Printing the settings and reading them as a config file, in terms of the printed texts. -/
theorem settings_reread {files : Text → Option (List (Text × Text))} {cmd : List (Text × Text)} {s : OptState Text OptVal}
    (h : parseInputOptions optTable files freshVars cmd = .ok s) (hp : ∀ r ∈ optRows, ∀ t, s.vars r.name = some (.str t) → Plain t) :
    ∃ entries, configEntries (settingsText fun n => (s.vm n).map Prod.fst) = .ok entries ∧
      ∀ file, file ≠ [] → ∀ files' : Text → Option (List (Text × Text)), files' file = some entries →
        ∃ s', parseInputOptions optTable files' freshVars [(configName, file)] = .ok s' ∧ s'.vars configName = some (.str file) ∧
          ∀ r ∈ optRows, r.name ≠ configName →
            ∃ v, s.vars r.name = some v ∧ Typed r.ty v ∧ s'.vars r.name = readVal r.ty (showVal (some v)) := by
  have hs : ∀ r ∈ optRows, Plain (showVal ((s.vm r.name).map Prod.fst)) := fun r hr => by
    obtain ⟨v, h1, -, h2⟩ := settings_value h hr
    rw [h2]
    exact showVal_plain fun t ht => hp r hr t (by rw [h1, ht])
  refine ⟨_, configEntries_settings _ hs, fun file hf files' hfile => ?_⟩
  have conv : ∀ r ∈ optRows, ∀ t, optTable.conv r.name t = readVal r.ty t := fun r hr t => by
    show (match rowOf r.name with | some r => readVal r.ty t | none => _) = _
    rw [rowOf_name hr]
  have known : ∀ r ∈ optRows, optTable.known r.name = true := fun r hr => by
    show ((rowOf r.name).isSome || _) = true
    rw [rowOf_name hr]; rfl
  obtain ⟨rc, hrc, hname, hty⟩ : ∃ r ∈ optRows, r.name = configName ∧ r.ty = .str := ⟨_, List.mem_cons_self, rfl, rfl⟩
  have hconv : optTable.conv configName file = some (.str file) := by
    rw [← hname, conv rc hrc, hty]; rfl
  have heff : ∀ cfg, effective optTable [(configName, file)] cfg freshVars configName = some (.str file) := fun cfg => by
    unfold effective given
    rw [List.find?_cons_of_pos (by simp)]
    exact hconv
  have hpath : optTable.path (.str file) = some file := if_neg hf
  have hcfg : configOf optTable files' freshVars [(configName, file)] =
      optRows.map fun r => (r.name, showVal ((s.vm r.name).map Prod.fst)) := by
    unfold configOf
    rw [show optTable.config = configName from rfl, heff, Option.bind_some, hpath, Option.bind_some, hfile]
    rfl
  have hother : ∀ n, n ≠ configName → given [(configName, file)] n = none := fun n hn => by
    unfold given
    rw [List.find?_cons_of_neg (by simpa using fun e => hn e.symm)]
    rfl
  have hread : ∀ r ∈ optRows, ∃ v, s.vars r.name = some v ∧ Typed r.ty v ∧ showVal ((s.vm r.name).map Prod.fst) = showVal (some v) :=
    fun r hr => settings_value h hr
  have hacc : Accepted optTable files' freshVars [(configName, file)] := by
    refine ⟨?_, ?_, ?_, ?_, ?_, ?_, ?_⟩
    · rintro e (he | he)
      · rw [List.mem_singleton.1 he, ← hname]; exact known rc hrc
      · rw [hcfg] at he
        obtain ⟨r, hr, rfl⟩ := List.mem_map.1 he
        exact known r hr
    · exact List.nodup_singleton _
    · rw [hcfg]
      refine List.Nodup.sublist (List.filter_sublist.map _) ?_
      rw [List.map_map]
      exact optRows_names
    · intro e he
      rw [List.mem_singleton.1 he, hconv]; rfl
    · intro e he _
      rw [hcfg] at he
      obtain ⟨r, hr, rfl⟩ := List.mem_map.1 he
      obtain ⟨v, -, h2, h3⟩ := hread r hr
      dsimp only
      rw [conv r hr, h3]
      obtain ⟨v', h4, -⟩ := readVal_showVal h2
      rw [h4]; rfl
    · refine ⟨hother _ (by decide +kernel), ?_⟩
      rw [hcfg]
      unfold given
      rw [List.find?_eq_none.2, Option.map_none]
      intro e he
      obtain ⟨r, hr, rfl⟩ := List.mem_map.1 he
      simp only [decide_eq_true_eq]
      exact (optRows_ok r hr).2.1
    · intro f hf'
      rw [show optTable.config = configName from rfl, heff, Option.bind_some, hpath] at hf'
      cases hf'
      rw [hfile]; rfl
  obtain ⟨s', hs'⟩ := (C59_accepts optTable files' freshVars [(configName, file)] optTable_default_known optTable_help).2 hacc
  have prec := C59_precedence optTable files' freshVars [(configName, file)] optTable_default_known optTable_help s' hs'
  refine ⟨s', hs', by rw [prec, heff], fun r hr hne => ?_⟩
  obtain ⟨v, h1, h2, h3⟩ := hread r hr
  refine ⟨v, h1, h2, ?_⟩
  rw [prec, effective, hother _ hne, hcfg, given_rows (fun r => showVal ((s.vm r.name).map Prod.fst)) optRows_names hr]
  dsimp only
  rw [conv r hr, h3]

/-- If the given texts are plain, so are the values. -/
theorem settings_plain {files : Text → Option (List (Text × Text))} {cmd : List (Text × Text)} {s : OptState Text OptVal}
    (h : parseInputOptions optTable files freshVars cmd = .ok s) (hc : ∀ e ∈ cmd, Plain e.2)
    (hf : ∀ e ∈ configOf optTable files freshVars cmd, Plain e.2) : ∀ r ∈ optRows, ∀ t, s.vars r.name = some (.str t) → Plain t := by
  have prec := C59_precedence optTable files freshVars cmd optTable_default_known optTable_help s h
  have mem : ∀ (l : List (Text × Text)) n t, given l n = some t → ∃ e ∈ l, e.2 = t := fun l n t hg => by
    obtain ⟨e, he, ht⟩ := Option.map_eq_some_iff.1 hg
    exact ⟨e, List.mem_of_find?_eq_some he, ht⟩
  intro r hr t ht
  have conv : ∀ u, optTable.conv r.name u = some (.str t) → u = t := fun u hu => by
    have hu : (match rowOf r.name with | some r => readVal r.ty u | none => some (.str u)) = some (.str t) := hu
    rw [rowOf_name hr] at hu
    dsimp only at hu
    cases hty : r.ty <;> rw [hty] at hu
    · cases hu; rfl
    all_goals
      obtain ⟨x, -, hx⟩ := Option.map_eq_some_iff.1 hu
      cases hx
  rw [prec] at ht
  unfold effective at ht
  split at ht
  · rename_i u hu
    obtain ⟨e, he, rfl⟩ := mem _ _ _ hu
    rw [← conv _ ht]; exact hc e he
  · split at ht
    · rename_i u hu
      obtain ⟨e, he, rfl⟩ := mem _ _ _ hu
      rw [← conv _ ht]; exact hf e he
    · split at ht
      · rename_i v hd
        cases ht
        have hd : (rowOf r.name).bind OptRow.dflt = some (.str t) := hd
        rw [rowOf_name hr] at hd
        exact optRows_plain r hr t hd
      · unfold freshVars at ht
        rw [rowOf_name hr] at ht
        dsimp only at ht
        split at ht
        · cases ht
          exact plain_of_chars (by intro c hc; cases hc)
        · cases ht

end Madg
