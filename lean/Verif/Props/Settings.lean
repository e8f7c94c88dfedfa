/-
C109: the printed settings, read as a config file, give the same settings up to six digits.
-/
import Verif.Proofs.Settings
import Verif.Props.ReadFile

namespace Madg
open Spec

/-! ### C109: the printed settings read back -/

/-- After any accepted command line and config file, the settings printed by the program are a config file which the program
accepts; a run with that file has the same settings, real numbers being read from their six printed digits. Texts must be
without comment sign, line break and surrounding blanks. -/
theorem C109_read_back (files : Text → Option (List (Text × Text))) (cmd : List (Text × Text)) (s : OptState Text OptVal)
    (h : parseInputOptions optTable files freshVars cmd = .ok s) (hp : ∀ r ∈ optRows, ∀ t, s.vars r.name = some (.str t) → Plain t) :
    ∃ entries, configEntries (settingsText fun n => (s.vm n).map Prod.fst) = .ok entries ∧
      ∀ file, file ≠ [] → ∀ files' : Text → Option (List (Text × Text)), files' file = some entries →
        ∃ s', parseInputOptions optTable files' freshVars [(configName, file)] = .ok s' ∧ s'.vars configName = some (.str file) ∧
          ∀ r ∈ optRows, r.name ≠ configName → ∃ v v', s.vars r.name = some v ∧ s'.vars r.name = some v' ∧ Reread v v' := by
  obtain ⟨entries, h1, h2⟩ := settings_reread h hp
  refine ⟨entries, h1, fun file hf files' hfile => ?_⟩
  obtain ⟨s', h3, h4, h5⟩ := h2 file hf files' hfile
  refine ⟨s', h3, h4, fun r hr hne => ?_⟩
  obtain ⟨v, h6, h7, h8⟩ := h5 r hr hne
  obtain ⟨v', h9, h10⟩ := readVal_showVal h7
  exact ⟨v, v', h6, h8.trans h9, h10⟩

/-- The hypotheses hold, e.g., for a command line with a number and a text. -/
example : ∃ s, parseInputOptions optTable (fun _ => none) freshVars
      [("eps2".toList, "0.0123".toList), ("log_file".toList, "run 1.log".toList)] = .ok s ∧
    ∀ r ∈ optRows, ∀ t, s.vars r.name = some (.str t) → Plain t := by
  have hok : (match parseInputOptions optTable (fun _ => none) freshVars
      [("eps2".toList, "0.0123".toList), ("log_file".toList, "run 1.log".toList)] with | .ok _ => true | .error _ => false) = true := by
    decide +kernel
  cases h : parseInputOptions optTable (fun _ => none) freshVars
      [("eps2".toList, "0.0123".toList), ("log_file".toList, "run 1.log".toList)] with
  | error e => rw [h] at hok; cases hok
  | ok s =>
    refine ⟨s, rfl, settings_plain h ?_ ?_⟩
    · intro e he
      simp only [List.mem_cons, List.not_mem_nil, or_false] at he
      rcases he with rfl | rfl
      · exact plain_of_chars (by decide +kernel)
      · exact ⟨by decide +kernel, by decide +kernel, by decide +kernel, by decide +kernel⟩
    · intro e he
      rw [show configOf optTable (fun _ => none) freshVars _ = [] from by
        unfold configOf
        cases (effective optTable _ [] freshVars optTable.config).bind optTable.path <;> rfl] at he
      cases he

/-- The condition on texts is needed: a log file `run#1.log` becomes `run`. -/
theorem C109_comment_cut : ∃ s, parseInputOptions optTable (fun _ => none) freshVars [("log_file".toList, "run#1.log".toList)] = .ok s ∧
    s.vars "log_file".toList = some (.str "run#1.log".toList) ∧
    ∃ entries, configEntries (settingsText fun n => (s.vm n).map Prod.fst) = .ok entries ∧ given entries "log_file".toList = some "run".toList := by
  have hok : (match parseInputOptions optTable (fun _ => none) freshVars [("log_file".toList, "run#1.log".toList)] with
      | .ok s => decide (s.vars "log_file".toList = some (.str "run#1.log".toList)) &&
          (match configEntries (settingsText fun n => (s.vm n).map Prod.fst) with
            | .ok entries => decide (given entries "log_file".toList = some "run".toList)
            | .error _ => false)
      | .error _ => false) = true := by decide +kernel
  cases h : parseInputOptions optTable (fun _ => none) freshVars [("log_file".toList, "run#1.log".toList)] with
  | error e => rw [h] at hok; cases hok
  | ok s =>
    rw [h] at hok
    dsimp only at hok
    rw [Bool.and_eq_true, decide_eq_true_eq] at hok
    refine ⟨s, rfl, hok.1, ?_⟩
    cases hc : configEntries (settingsText fun n => (s.vm n).map Prod.fst) with
    | error e => rw [hc] at hok; cases hok.2
    | ok entries =>
      rw [hc] at hok
      exact ⟨entries, rfl, of_decide_eq_true hok.2⟩

/-- A real number survives if it was given with at most six digits (and is not tiny). -/
theorem C109_kept (y₀ y : ℚ) (h₀ : Decimal 6 y₀) (hs : y₀ = 0 ∨ (10 : ℚ) ^ (-300 : Int) ≤ |y₀|)
    (h : NearestDecimal 6 (binary64.round y₀) y) : binary64.round y = binary64.round y₀ := by
  suffices e : y = y₀ by rw [e]
  have hn := h.2 y₀ h₀
  rcases hs with hs | hs
  · rw [hs, FloatFmt.round, if_pos rfl, sub_zero, abs_zero, zero_sub, abs_neg] at hn
    rw [hs]
    exact abs_eq_zero.1 (le_antisymm hn (abs_nonneg _))
  · by_contra hne
    have hg := decimal_gap h₀ h.1 (Ne.symm hne)
    have he := binary64.round_err y₀
    have ht : (2 : ℚ) ^ binary64.emin ≤ (10 : ℚ) ^ (-300 : Int) / 10 ^ 10 := by
      show (2 : ℚ) ^ (-1074 : Int) ≤ _
      rw [zpow_neg, zpow_neg, ← one_div, ← one_div, div_div, one_div, one_div]
      apply inv_anti₀ (mul_pos (zpow_pos (by norm_num) _) (by norm_num))
      have : (10 : Nat) ^ 300 * 10 ^ 10 ≤ 2 ^ 1074 := by decide +kernel
      exact_mod_cast this
    have hb : |binary64.round y₀ - y₀| ≤ |y₀| / 10 ^ 9 := by
      refine he.trans ?_
      have e1 : |y₀| / 2 ^ binary64.prec ≤ |y₀| / 10 ^ 10 :=
        div_le_div_of_nonneg_left (abs_nonneg _) (by norm_num) (by show (10 : ℚ) ^ 10 ≤ 2 ^ 53; norm_num)
      have e2 : (10 : ℚ) ^ (-300 : Int) / 10 ^ 10 ≤ |y₀| / 10 ^ 10 := div_le_div_of_nonneg_right hs (by norm_num)
      have e3 : |y₀| / 10 ^ 9 = 10 * (|y₀| / 10 ^ 10) := by ring
      have e4 : 0 ≤ |y₀| / 10 ^ 10 := by positivity
      linarith
    have hd : |y₀ - y| ≤ 2 * (|y₀| / 10 ^ 9) := by
      have := abs_sub_le y₀ (binary64.round y₀) y
      rw [abs_sub_comm y₀ (binary64.round y₀)] at this
      linarith
    have hpos : 0 < |y₀| := lt_of_lt_of_le (zpow_pos (by norm_num) _) hs
    have : (10 : ℚ) ^ 6 * |y₀ - y| ≤ 10 ^ 6 * (2 * (|y₀| / 10 ^ 9)) := mul_le_mul_of_nonneg_left hd (by norm_num)
    have e : (10 : ℚ) ^ 6 * (2 * (|y₀| / 10 ^ 9)) = |y₀| / 500 := by ring
    rw [e] at this
    linarith

/-- An interface parameter given with three digits. -/
example : Decimal 6 (605 / 10 ^ 8) ∧ (10 : ℚ) ^ (-300 : Int) ≤ |605 / 10 ^ 8| ∧
    NearestDecimal 6 (binary64.round (605 / 10 ^ 8)) (sciDec 5 (binary64.round (605 / 10 ^ 8))) := by
  refine ⟨⟨605, -8, by norm_num, by norm_num⟩, ?_, sciDec_nearest 5 _⟩
  rw [abs_of_pos (by norm_num)]
  refine (zpow_le_zpow_right₀ (by norm_num) (show (-300 : Int) ≤ -8 by norm_num)).trans (by norm_num)

/-- Every real number changes by at most one part in 199999. -/
theorem C109_error (x y : ℚ) (h : NearestDecimal 6 x y) : |binary64.round y - x| ≤ |x| / 199999 + (2 : ℚ) ^ (-1075 : Int) := by
  have h1 : |x - y| ≤ |x| / 200000 := by
    refine (h.2 _ (sciDec_nearest 5 x).1).trans ?_
    rw [abs_sub_comm]
    refine (sciDec_err 5 x).trans (le_of_eq ?_)
    norm_num
  have h2 := binary64.round_err y
  have e1 : (2 : ℚ) ^ binary64.emin / 2 = (2 : ℚ) ^ (-1075 : Int) := by
    show (2 : ℚ) ^ (-1074 : Int) / 2 = _
    rw [show (-1075 : Int) = -1074 - 1 by norm_num, zpow_sub_one₀ (by norm_num)]
    rfl
  have e2 : (2 : ℚ) ^ binary64.prec = 9007199254740992 := by show (2 : ℚ) ^ 53 = _; norm_num
  rw [e1, e2] at h2
  have h3 : |y| ≤ |x| + |x| / 200000 := by
    have := abs_sub_abs_le_abs_sub y x
    rw [abs_sub_comm] at this
    linarith
  have h4 := abs_sub_le (binary64.round y) y x
  rw [abs_sub_comm y x] at h4
  have h5 := abs_nonneg x
  obtain ⟨t, ht⟩ : ∃ t, t = (2 : ℚ) ^ (-1075 : Int) := ⟨_, rfl⟩
  rw [← ht] at h2 ⊢
  have h6 : |y| / 9007199254740992 ≤ (|x| + |x| / 200000) / 9007199254740992 := div_le_div_of_nonneg_right h3 (by norm_num)
  have h7 : |x| / 200000 + (|x| + |x| / 200000) / 9007199254740992 ≤ |x| / 199999 := by linarith
  linarith

example : NearestDecimal 6 (1 / 3) (sciDec 5 (1 / 3)) := sciDec_nearest 5 _

/-- After one round of printing and reading, settings no longer change: the config file printed by a run that was started with a
printed config file reproduces that run's settings exactly. -/
theorem C109_stable (files : Text → Option (List (Text × Text))) (cmd : List (Text × Text)) (s s' s'' : OptState Text OptVal)
    (h : parseInputOptions optTable files freshVars cmd = .ok s) (hp : ∀ r ∈ optRows, ∀ t, s.vars r.name = some (.str t) → Plain t)
    (hx : ∀ r ∈ optRows, ∀ x, s.vars r.name = some (.dbl x) → x = 0 ∨ (10 : ℚ) ^ (-299 : Int) ≤ |x|)
    (h1 : Rerun s s') (h2 : Rerun s' s'') : ∀ r ∈ optRows, r.name ≠ configName → s''.vars r.name = s'.vars r.name := by
  obtain ⟨e1, f1, F1, a1, a2, a3, a4, a5⟩ := h1
  obtain ⟨e2, f2, F2, b1, b2, b3, b4, b5⟩ := h2
  obtain ⟨e1', a6, a7⟩ := C109_read_back files cmd s h hp
  rw [a6] at a1
  cases a1
  obtain ⟨t, a8, a9, a10⟩ := a7 f1 a2 F1 a4
  rw [a5] at a8
  cases a8
  have hp' : ∀ r ∈ optRows, ∀ t, s'.vars r.name = some (.str t) → Plain t := fun r hr t ht => by
    by_cases hc : r.name = configName
    · rw [hc, a9] at ht
      cases ht
      exact a3
    · obtain ⟨v, v', c1, c2, c3⟩ := a10 r hr hc
      rw [ht] at c2
      cases c2
      cases c3
      exact hp r hr t c1
  obtain ⟨e2', b6, b7⟩ := C109_read_back F1 _ s' a5 hp'
  rw [b6] at b1
  cases b1
  obtain ⟨t, b8, -, b10⟩ := b7 f2 b2 F2 b4
  rw [b5] at b8
  cases b8
  intro r hr hc
  obtain ⟨v, v', c1, c2, c3⟩ := a10 r hr hc
  obtain ⟨w, w', d1, d2, d3⟩ := b10 r hr hc
  rw [c2] at d1
  cases d1
  rw [d2, c2]
  cases c3 with
  | str t => cases d3; rfl
  | int t => cases d3; rfl
  | bool t => cases d3; rfl
  | uint t => cases d3; rfl
  | dbl x y hy =>
    cases d3 with
    | dbl _ z hz =>
      rw [C109_kept y z hy.1 ?_ hz]
      have hn : |x - y| ≤ |x| / 200000 := by
        refine (hy.2 _ (sciDec_nearest 5 x).1).trans ?_
        rw [abs_sub_comm]
        refine (sciDec_err 5 x).trans (le_of_eq ?_)
        norm_num
      rcases hx r hr x c1 with hx | hx
      · left
        rw [hx, zero_sub, abs_neg, abs_zero, zero_div] at hn
        exact abs_eq_zero.1 (le_antisymm hn (abs_nonneg _))
      · right
        have h3 := abs_sub_abs_le_abs_sub x y
        have h4 : (10 : ℚ) ^ (-300 : Int) * 10 = (10 : ℚ) ^ (-299 : Int) := by
          rw [show (-299 : Int) = -300 + 1 by norm_num, zpow_add_one₀ (by norm_num)]
        have h5 : (0 : ℚ) < (10 : ℚ) ^ (-300 : Int) := zpow_pos (by norm_num) _
        obtain ⟨q, hq⟩ : ∃ q, q = (10 : ℚ) ^ (-300 : Int) := ⟨_, rfl⟩
        rw [← h4, ← hq] at hx
        rw [← hq] at h5 ⊢
        linarith

/-- The hypotheses hold for a run without options and two reruns. -/
example : ∃ s s' s'', parseInputOptions optTable (fun _ => none) freshVars [] = .ok s ∧
    (∀ r ∈ optRows, ∀ t, s.vars r.name = some (.str t) → Plain t) ∧
    (∀ r ∈ optRows, ∀ x, s.vars r.name = some (.dbl x) → x = 0 ∨ (10 : ℚ) ^ (-299 : Int) ≤ |x|) ∧ Rerun s s' ∧ Rerun s' s'' := by
  have hok : (match parseInputOptions optTable (fun _ => none) freshVars [] with
      | .ok s => optRows.all fun r => match s.vars r.name with
          | some (.dbl x) => decide (x = 0 ∨ (10 : ℚ) ^ (-299 : Int) ≤ |x|)
          | _ => true
      | .error _ => false) = true := by
    decide +kernel
  cases h : parseInputOptions optTable (fun _ => none) freshVars [] with
  | error e => rw [h] at hok; cases hok
  | ok s =>
    have hp := settings_plain h (fun e he => by cases he) (fun e he => by
      rw [show configOf optTable (fun _ => none) freshVars _ = [] from by
        unfold configOf
        cases (effective optTable _ [] freshVars optTable.config).bind optTable.path <;> rfl] at he
      cases he)
    have hf : Plain "a.cfg".toList := plain_of_chars (by decide +kernel)
    obtain ⟨e1, a1, a2⟩ := C109_read_back _ _ s h hp
    obtain ⟨s', a3, a4, a5⟩ := a2 "a.cfg".toList (by decide +kernel) (fun _ => some e1) rfl
    have hp' : ∀ r ∈ optRows, ∀ t, s'.vars r.name = some (.str t) → Plain t := fun r hr t ht => by
      by_cases hc : r.name = configName
      · rw [hc, a4] at ht
        cases ht
        exact hf
      · obtain ⟨v, v', c1, c2, c3⟩ := a5 r hr hc
        rw [ht] at c2
        cases c2
        cases c3
        exact hp r hr t c1
    obtain ⟨e2, b1, b2⟩ := C109_read_back _ _ s' a3 hp'
    obtain ⟨s'', b3, -, -⟩ := b2 "a.cfg".toList (by decide +kernel) (fun _ => some e2) rfl
    refine ⟨s, s', s'', rfl, hp, fun r hr x hx => ?_, ⟨e1, _, _, a1, by decide +kernel, hf, rfl, a3⟩, ⟨e2, _, _, b1, by decide +kernel, hf, rfl, b3⟩⟩
    rw [h] at hok
    have := List.all_eq_true.1 hok r hr
    rw [hx] at this
    exact of_decide_eq_true this

/-- The program's own default settings do not survive: without any option, the interface parameter and the proportionality
coefficient that a run uses differ from those of a run with the config file it prints. -/
theorem C109_defaults_change (files : Text → Option (List (Text × Text))) (s : OptState Text OptVal)
    (h : parseInputOptions optTable files freshVars [] = .ok s) :
    ∃ entries, configEntries (settingsText fun n => (s.vm n).map Prod.fst) = .ok entries ∧
      ∀ file, file ≠ [] → ∀ files' : Text → Option (List (Text × Text)), files' file = some entries →
        ∃ s', parseInputOptions optTable files' freshVars [(configName, file)] = .ok s' ∧
          s'.vars "eps2".toList ≠ s.vars "eps2".toList ∧ s'.vars "sigma".toList ≠ s.vars "sigma".toList := by
  have prec := C59_precedence optTable files freshVars [] optTable_default_known optTable_help s h
  have hcfg : configOf optTable files freshVars [] = [] := by
    unfold configOf
    rw [show (effective optTable [] [] freshVars optTable.config).bind optTable.path = none from by decide +kernel]
    rfl
  have heff : ∀ n, effective optTable [] [] freshVars n = match (rowOf n).bind OptRow.dflt with | some v => some v | none => freshVars n := by
    intro n
    unfold effective
    rw [show given ([] : List (Text × Text)) n = none from rfl, show optTable.default n = (rowOf n).bind OptRow.dflt from rfl]
    cases (rowOf n).bind OptRow.dflt <;> rfl
  have hv : ∀ r ∈ optRows, ∀ v, r.dflt = some v → s.vars r.name = some v := fun r hr v hd => by
    rw [prec, hcfg]
    rw [heff, rowOf_name hr, Option.bind_some, hd]
  have hp := settings_plain h (fun e he => by cases he) (fun e he => by rw [hcfg] at he; cases he)
  obtain ⟨entries, h1, h2⟩ := settings_reread h hp
  refine ⟨entries, h1, fun file hf files' hfile => ?_⟩
  obtain ⟨s', h3, -, h5⟩ := h2 file hf files' hfile
  have change : ∀ n ∈ ["eps2".toList, "sigma".toList], ∃ r, rowOf n = some r ∧ r.name = n ∧ n ≠ configName ∧ ∃ v, r.dflt = some v ∧
      readVal r.ty (showVal (some v)) ≠ some v := by
    intro n hn
    simp only [List.mem_cons, List.not_mem_nil, or_false] at hn
    rcases hn with rfl | rfl
    · exact ⟨_, rfl, rfl, by decide +kernel, _, rfl, by decide +kernel⟩
    · exact ⟨_, rfl, rfl, by decide +kernel, _, rfl, by decide +kernel⟩
  have diff : ∀ n ∈ ["eps2".toList, "sigma".toList], s'.vars n ≠ s.vars n := fun n hn => by
    obtain ⟨r, hr, hname, hc, v, hd, hne⟩ := change n hn
    have hm : r ∈ optRows := List.mem_of_find?_eq_some hr
    obtain ⟨w, h6, -, h8⟩ := h5 r hm (by rw [hname]; exact hc)
    rw [hv r hm v hd] at h6
    cases h6
    rw [← hname, h8, hv r hm v hd]
    exact hne
  exact ⟨s', h3, diff _ (by simp), diff _ (by simp)⟩

/-- Without options the program accepts. -/
example : ∃ s, parseInputOptions optTable (fun _ => none) freshVars [] = .ok s := by
  have hok : (match parseInputOptions optTable (fun _ => none) freshVars [] with | .ok _ => true | .error _ => false) = true := by
    decide +kernel
  cases h : parseInputOptions optTable (fun _ => none) freshVars [] with
  | error e => rw [h] at hok; cases hok
  | ok s => exact ⟨s, rfl⟩

end Madg
