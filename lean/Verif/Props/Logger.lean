/-
The log (C78).
-/
import Verif.Proofs.Logger
import Verif.Props.ReadFile
import Verif.Props.Observer
import Mathlib.Tactic.IntervalCases

namespace Madg
open Spec

/-! ### Messages -/

/-- Every line of a logged message carries the prefix of its severity, and what follows the prefixes is the message (framed
when it is fatal). Comment readers therefore skip every line of every message. -/
theorem C78_message_lines (lvl : LogLevel) (s : Text) :
    ∃ tag : Text, tag.take 3 = "# [".toList ∧
      lines (msgText lvl s) = ((if lvl = .fatal then
        "**************************************".toList :: [] :: (lines s ++ [[], "**************************************".toList])
        else lines s).map (tag ++ ·)) := by
  have hn : '\n' ∉ tagOf lvl := by cases lvl <;> decide
  refine ⟨tagOf lvl, by cases lvl <;> rfl, ?_⟩
  unfold msgText
  dsimp only
  rw [lines_replaceNl hn]
  congr 1
  by_cases h : lvl = .fatal
  · rw [if_pos h, if_pos h]
    have hs : ∀ t : Text, lines ("**************************************\n\n".toList ++ t) =
        "**************************************".toList :: [] :: lines t := by
      intro t
      obtain ⟨l, r, e⟩ := List.exists_cons_of_ne_nil (lines_ne ('\n' :: '\n' :: t))
      have := lines_tag (tag := "**************************************".toList) (by decide) ('\n' :: '\n' :: t)
        (l := []) (r := [] :: lines t) (by simp [lines])
      exact this
    rw [List.append_assoc, hs]
    congr 2
    induction s with
    | nil => rfl
    | cons c s ih =>
      rw [List.cons_append]
      by_cases hc : c = '\n'
      · rw [lines, if_pos hc, ih, lines, if_pos hc]; rfl
      · rw [lines, if_neg hc, ih, lines, if_neg hc]
        obtain ⟨l, r, e⟩ := List.exists_cons_of_ne_nil (lines_ne s)
        rw [e]; rfl
  · rw [if_neg h, if_neg h]

/-- A message ends the program exactly when it is fatal, and is logged with its own severity. -/
theorem C78_message_outcome (lvl : LogLevel) (s : Text) :
    ((Logger.message lvl s).2 = .error .abort ↔ lvl = .fatal) ∧ ((Logger.message lvl s).2 = .ok () ↔ lvl ≠ .fatal) ∧
    (Logger.message lvl s).1.map LogRec.sev = [lvl] := by
  cases lvl <;> simp [Logger.message, LogRec.sev]

/-! ### Severity filter -/

/-- Effect of a call on the logger. -/
def levelStep (L : Logger) : LevelOp → Logger
  | .setLevel l => L.setLogLevel l
  | .openFile l => L.initLogFile l
  | .closeFile => L.closeLogFile
  | .switch b => L.setEnabled b

/-- After any sequence of calls the filter is the last level set explicitly; failing that the level given when the first log
file was opened; failing that everything passes. -/
theorem C78_level (ops : List LevelOp) :
    (ops.foldl levelStep Logger.new).filter =
      ((ops.filterMap fun o => match o with | .setLevel l => some l | _ => none).getLast?.getD
        ((ops.filterMap fun o => match o with | .openFile l => some l | _ => none).head?.getD .trace)) := by
  suffices H : (ops.foldl levelStep Logger.new).filter =
      ((ops.filterMap fun o => match o with | .setLevel l => some l | _ => none).getLast?.getD
        ((ops.filterMap fun o => match o with | .openFile l => some l | _ => none).head?.getD .trace)) ∧
      ((ops.foldl levelStep Logger.new).overridden = false ↔
        (ops.filterMap fun o => match o with | .setLevel l => some l | _ => none) = [] ∧
        (ops.filterMap fun o => match o with | .openFile l => some l | _ => none) = []) from H.1
  induction ops using List.reverseRecOn with
  | nil => exact ⟨rfl, by simp [Logger.new]⟩
  | append_singleton ops o ih =>
    rw [List.foldl_append, List.filterMap_append, List.filterMap_append]
    generalize ops.foldl levelStep Logger.new = L at ih ⊢
    generalize (ops.filterMap fun o => match o with | .setLevel l => some l | _ => none) = a at ih ⊢
    generalize (ops.filterMap fun o => match o with | .openFile l => some l | _ => none) = b at ih ⊢
    obtain ⟨h1, h2⟩ := ih
    cases o with
    | setLevel l => simp [levelStep, Logger.setLogLevel]
    | closeFile => simpa [levelStep, Logger.closeLogFile] using ⟨h1, h2⟩
    | switch b => simpa [levelStep, Logger.setEnabled] using ⟨h1, h2⟩
    | openFile l =>
      cases ho : L.overridden with
      | true =>
        have h3 : ¬(a = [] ∧ b = []) := fun h => by have := h2.2 h; simp_all
        simp only [List.foldl_cons, List.foldl_nil, levelStep, Logger.initLogFile, ho, if_true]
        refine ⟨?_, by simp⟩
        rw [h1]
        rcases a.eq_nil_or_concat with rfl | ⟨a', x, rfl⟩
        · obtain ⟨y, b', rfl⟩ := List.exists_cons_of_ne_nil (fun h => h3 ⟨rfl, h⟩)
          simp
        · simp
      | false =>
        obtain ⟨rfl, rfl⟩ := h2.1 ho
        simp [levelStep, Logger.initLogFile, ho, Logger.setLogLevel]

/-- After any sequence of calls logging is on unless it was switched off and not on again since; switching it off keeps the level and
the numbering of the rows. -/
theorem C78_switch (ops : List LevelOp) :
    (ops.foldl levelStep Logger.new).enabled =
      ((ops.filterMap fun o => match o with | .switch b => some b | _ => none).getLast?.getD true) ∧
    ∀ b, ((ops ++ [LevelOp.switch b]).foldl levelStep Logger.new).filter = (ops.foldl levelStep Logger.new).filter ∧
      ((ops ++ [LevelOp.switch b]).foldl levelStep Logger.new).calls = (ops.foldl levelStep Logger.new).calls := by
  refine ⟨?_, fun b => by rw [List.foldl_append]; exact ⟨rfl, rfl⟩⟩
  induction ops using List.reverseRecOn with
  | nil => rfl
  | append_singleton ops o ih =>
    rw [List.foldl_append, List.filterMap_append]
    generalize ops.foldl levelStep Logger.new = L at ih ⊢
    generalize (ops.filterMap fun o => match o with | .switch b => some b | _ => none) = a at ih ⊢
    cases o with
    | setLevel l => simpa [levelStep, Logger.setLogLevel] using ih
    | closeFile => simpa [levelStep, Logger.closeLogFile] using ih
    | switch b => simp [levelStep, Logger.setEnabled]
    | openFile l =>
      cases ho : L.overridden <;> simpa [levelStep, Logger.initLogFile, ho, Logger.setLogLevel] using ih

example : ([LevelOp.switch false, .openFile .trace, .switch true, .switch false, .setLevel .error].foldl levelStep Logger.new).enabled
    = false := rfl

example : ([LevelOp.openFile .trace, .setLevel .warning, .closeFile, .openFile .debug].foldl levelStep Logger.new).filter
    = .warning := rfl

/-- A record reaches the log exactly when logging is on and its severity is at least the filter. -/
theorem C78_shown (L : Logger) (rs : List LogRec) (r : LogRec) :
    r ∈ L.shown rs ↔ r ∈ rs ∧ L.enabled = true ∧ L.filter.rank ≤ r.sev.rank := by
  simp [Logger.shown]

/-! ### Rows -/

theorem row_eq (L : Logger) : L.row = logRow (L.timeS ++ L.residS ++ L.solS) := by
  simp [Logger.row, logRow, logCol, setw_leftpad]

/-- A row of numbers that fit their columns reads back, blank separated, as exactly one number per monitored value, in the
order time, residual, solution, each within half a unit of the sixth significant digit. -/
theorem C78_row_reads (L : Logger) (vs : List (Text × ℚ)) (hvs : vs = L.timeS ++ L.residS ++ L.solS) (hne : vs ≠ [])
    (hf : ∀ p ∈ vs, LogFits p.2) :
    ∃ ws : List ℚ, (splitCompress isSpaceNl (trimIf isSpaceNl L.row)).mapM readDec = some ws ∧
      List.Forall₂ (fun (p : Text × ℚ) w => |w - p.2| ≤ |p.2| / 200000) vs ws := by
  rw [row_eq, ← hvs, words_row hne hf]
  clear hvs hne hf
  refine ⟨vs.map fun p => sciDec 5 p.2, ?_, ?_⟩
  · induction vs with
    | nil => rfl
    | cons p vs ih =>
      rw [List.map_cons, List.mapM_cons, readDec_sci, ih]; rfl
  · induction vs with
    | nil => exact .nil
    | cons p vs ih =>
      refine .cons ?_ ih
      have := sciDec_err 5 p.2
      norm_num at this
      exact this

example : LogFits (-3 / 7) := Or.inr (Or.inl ⟨by norm_num [abs_of_neg], by norm_num [abs_of_neg]⟩)

/-- A column holding an iteration number below a million reads back exactly that number. -/
theorem C78_iteration (n : Nat) (h : n < 1000000) : readDec (List.dropWhile (· == ' ') (logCol (n : ℚ))) = some (n : ℚ) := by
  have : List.dropWhile (· == ' ') (logCol (n : ℚ)) = sci 5 (n : ℚ) := by
    rw [logCol_form, dropWhile_all (p := (· == ' '))]
    · have hw := word_sci 5 (n : ℚ)
      obtain ⟨c, t, e⟩ := List.exists_cons_of_ne_nil hw.1
      have hc := hw.2 c (by rw [e]; simp)
      rw [e, List.dropWhile_cons]
      rw [if_neg]
      intro h
      have : c = ' ' := by simpa using h
      rw [this] at hc
      exact absurd hc (by decide)
    · intro c hc
      rw [(List.mem_replicate.1 hc).2]; rfl
  rw [this, readDec_sci, sciDec_nat (by simpa using h)]

/-- From a million on, different iteration numbers look alike in the log. -/
theorem C78_iteration_collision : logCol 1000000 = logCol 1000001 := by
  have h1 : sciRound 5 (1000000 : ℚ) = (100000, 6) := by
    have hl : Int.log 10 (1000000 : ℚ) = 6 := by
      apply le_antisymm
      · have : Int.log 10 (1000000 : ℚ) < 7 := by
          rw [← Int.lt_zpow_iff_log_lt (by decide) (by norm_num)]; norm_num
        omega
      · rw [← Int.zpow_le_iff_le_log (by decide) (by norm_num)]; norm_num
    unfold sciRound
    dsimp only
    rw [hl, roundEven_eq (n := 100000) (by norm_num)]
    decide
  have h2 : sciRound 5 (1000001 : ℚ) = (100000, 6) := by
    have hl : Int.log 10 (1000001 : ℚ) = 6 := by
      apply le_antisymm
      · have : Int.log 10 (1000001 : ℚ) < 7 := by
          rw [← Int.lt_zpow_iff_log_lt (by decide) (by norm_num)]; norm_num
        omega
      · rw [← Int.zpow_le_iff_le_log (by decide) (by norm_num)]; norm_num
    unfold sciRound
    dsimp only
    rw [hl, roundEven_eq (n := 100000) (by norm_num [abs_of_pos])]
    decide
  unfold logCol sci sciNonneg
  rw [if_neg (by norm_num), if_neg (by norm_num), if_neg (by norm_num), if_neg (by norm_num), h1, h2]

/-- A negative value with a three-digit exponent fills its column: nothing separates it from the previous number. -/
theorem C78_run_together (L : Logger) (a b : List (Text × ℚ)) (p q : Text × ℚ)
    (h : L.timeS ++ L.residS ++ L.solS = a ++ p :: q :: b) (hq : q.2 < 0)
    (hw : -q.2 < (10 : ℚ) ^ (-100 : Int) ∨ (10 : ℚ) ^ 100 ≤ -q.2) :
    ∃ s t : Text, L.row = s ++ (sci 5 p.2 ++ sci 5 q.2) ++ t ∧ Word isSpaceNl (sci 5 p.2 ++ sci 5 q.2) := by
  have hl := length_sci_wide hq hw
  refine ⟨logRow a ++ List.replicate (13 - (sci 5 p.2).length) ' ', b.flatMap fun p => List.leftpad 13 ' ' (sci 5 p.2), ?_, ?_⟩
  · rw [row_eq, h]
    have e : List.leftpad 13 ' ' (sci 5 q.2) = sci 5 q.2 := by
      rw [List.leftpad, Nat.sub_eq_zero_of_le hl]; rfl
    simp only [logRow, List.flatMap_append, List.flatMap_cons, e]
    simp [List.leftpad]
  · refine ⟨by simp [(word_sci 5 p.2).1], fun c hc => ?_⟩
    rcases List.mem_append.1 hc with hc | hc
    · exact (word_sci 5 _).2 c hc
    · exact (word_sci 5 _).2 c hc

example : ∃ s t : Text, Logger.row { Logger.new with solS := [("a".toList, 2), ("b".toList, -(10 : ℚ) ^ 120)] } =
    s ++ (sci 5 2 ++ sci 5 (-(10 : ℚ) ^ 120)) ++ t ∧ Word isSpaceNl (sci 5 2 ++ sci 5 (-(10 : ℚ) ^ 120)) :=
  C78_run_together _ [] [] ("a".toList, 2) ("b".toList, -(10 : ℚ) ^ 120) rfl (by norm_num) (Or.inr (by norm_num))

/-- The first update with nothing to show indexes an empty heading. -/
theorem C78_no_columns (L : Logger) (h : L.timeS = [] ∧ L.residS = [] ∧ L.solS = []) (hc : L.calls = 0) :
    L.updateLog = .error .outOfBounds := by
  unfold Logger.updateLog Logger.names
  rw [if_pos]
  simp [h, hc]

/-! ### A run -/

section Run
variable {S : Type} (time resid sol : S → List (Text × ℚ))

theorem logRun_snoc (o : Observable (LogWorld S)) (l : List S) (s : S) (w : LogWorld S) :
    logRun o (l ++ [s]) w = (logRun o l w).bind fun p => p.1.notify .timeStepComplete { p.2 with sim := s } := by
  induction l generalizing o w with
  | nil =>
    show (o.notify .timeStepComplete { w with sim := s }).bind (fun p => logRun p.1 [] p.2) = _
    cases h : o.notify .timeStepComplete { w with sim := s } with
    | error e => simp [logRun, Except.bind, h]
    | ok p => simp [logRun, Except.bind, h]
  | cons a l ih =>
    show (o.notify .timeStepComplete { w with sim := a }).bind (fun p => logRun p.1 (l ++ [s]) p.2) = _
    rw [logRun]
    cases h : o.notify .timeStepComplete { w with sim := a } with
    | error e => rfl
    | ok p => exact ih p.1 p.2

theorem updateLog_ok (L : Logger) (hne : L.names ≠ []) : L.updateLog = .ok
    ({ L with calls := L.calls + 1, head := if L.calls = 0 then L.names else L.head },
      (if L.calls = 0 then logIntro (L.timeS ++ L.residS ++ L.solS) else []) ++
      (if L.calls = 0 ∨ L.calls.tmod 50 = 0 then [LogRec.heading .warning (if L.calls = 0 then L.names else L.head)] else []) ++
      [LogRec.text .warning (logRow (L.timeS ++ L.residS ++ L.solS))]) := by
  unfold Logger.updateLog
  rw [if_neg fun h => hne h.2, row_eq]
  have : (L.names.flatMap fun n => n ++ [' ']) = (L.timeS ++ L.residS ++ L.solS).flatMap fun p => p.1 ++ [' '] := by
    simp [Logger.names, List.flatMap_map]
  rw [this]
  rfl

theorem shown_warning (L : Logger) (rs : List LogRec) (h : ∀ r ∈ rs, r.sev = .warning) :
    L.shown rs = if L.enabled = true ∧ L.filter.rank ≤ LogLevel.warning.rank then rs else [] := by
  unfold Logger.shown
  split
  · rename_i hc
    rw [List.filter_eq_self]
    intro r hr
    rw [h r hr]
    simp [hc]
  · rename_i hc
    rw [List.filter_eq_nil_iff]
    intro r hr
    rw [h r hr]
    simpa using hc

theorem attachLog_obs (freq : Int) : (attachLog time resid sol freq).obs .timeStepComplete =
    some [obsResid resid, obsSol sol, obsTime time, obsUpdate] := rfl

/-- One logged notification. -/
theorem notify_log {o : Observable (LogWorld S)} (ho : o.obs .timeStepComplete =
    some [obsResid resid, obsSol sol, obsTime time, obsUpdate]) (hf : o.freq .timeStepComplete ≠ 0) (w : LogWorld S)
    (hne : time w.sim ++ resid w.sim ++ sol w.sim ≠ []) :
    ∃ o' w', o.notify .timeStepComplete w = .ok (o', w') ∧ o'.obs = o.obs ∧ o'.freq = o.freq ∧
      o'.count .timeStepComplete = o.count .timeStepComplete + 1 ∧
      w'.log.enabled = w.log.enabled ∧ w'.log.filter = w.log.filter ∧
      if o.freq .timeStepComplete ∣ o.count .timeStepComplete then
        w'.log.calls = w.log.calls + 1 ∧
        w'.log.head = (if w.log.calls = 0 then (time w.sim ++ resid w.sim ++ sol w.sim).map Prod.fst else w.log.head) ∧
        w'.out = w.out ++ if w.log.enabled = true ∧ w.log.filter.rank ≤ LogLevel.warning.rank then
          (if w.log.calls = 0 then logIntro (time w.sim ++ resid w.sim ++ sol w.sim) else []) ++
          (if w.log.calls = 0 ∨ w.log.calls.tmod 50 = 0 then [LogRec.heading .warning
            (if w.log.calls = 0 then (time w.sim ++ resid w.sim ++ sol w.sim).map Prod.fst else w.log.head)] else []) ++
          [LogRec.text .warning (logRow (time w.sim ++ resid w.sim ++ sol w.sim))] else []
      else w'.log.calls = w.log.calls ∧ w'.log.head = w.log.head ∧ w'.out = w.out := by
  unfold Observable.notify
  rw [ho]
  dsimp only
  rw [if_neg hf]
  have hdm : (o.count .timeStepComplete).tmod (o.freq .timeStepComplete) = 0 ↔
      o.freq .timeStepComplete ∣ o.count .timeStepComplete := Int.dvd_iff_tmod_eq_zero.symm
  simp only [hdm]
  by_cases hd : o.freq .timeStepComplete ∣ o.count .timeStepComplete
  · rw [if_pos hd]
    have hne' : (((w.log.setResid (resid w.sim)).setSol (sol w.sim)).setTime (time w.sim)).names ≠ [] := by
      simp only [Logger.names, Logger.setResid, Logger.setSol, Logger.setTime]
      simpa using hne
    have hu := updateLog_ok _ hne'
    have hc : Observable.callAll [obsResid resid, obsSol sol, obsTime time, obsUpdate] w =
        obsUpdate { w with log := ((w.log.setResid (resid w.sim)).setSol (sol w.sim)).setTime (time w.sim) } := by
      simp only [Observable.callAll, obsResid, obsSol, obsTime, Except.bind]
      cases obsUpdate { w with log := ((w.log.setResid (resid w.sim)).setSol (sol w.sim)).setTime (time w.sim) } <;> rfl
    rw [hc]
    unfold obsUpdate
    rw [hu]
    refine ⟨_, _, rfl, rfl, rfl, rfl, rfl, rfl, ?_⟩
    rw [if_pos hd]
    have hnm : (((w.log.setResid (resid w.sim)).setSol (sol w.sim)).setTime (time w.sim)).names =
        (time w.sim ++ resid w.sim ++ sol w.sim).map Prod.fst := by
      simp [Logger.names, Logger.setResid, Logger.setSol, Logger.setTime]
    refine ⟨rfl, ?_, ?_⟩
    · rw [← hnm]; rfl
    · dsimp only
      rw [shown_warning]
      · rw [hnm]; rfl
      · intro r hr
        simp only [List.mem_append, List.mem_singleton] at hr
        rcases hr with (hr | hr) | hr
        · split at hr
          · simp only [logIntro, List.mem_cons, List.not_mem_nil, or_false] at hr
            rcases hr with rfl | rfl <;> rfl
          · cases hr
        · split at hr
          · rw [List.mem_singleton.1 hr]; rfl
          · cases hr
        · rw [hr]; rfl
  · rw [if_neg hd]
    refine ⟨_, _, rfl, rfl, rfl, rfl, rfl, rfl, ?_⟩
    rw [if_neg hd]
    exact ⟨rfl, rfl, rfl⟩

/-- The whole log of a run: whatever the simulation does between the notifications, each logged row shows time, residual
and solution values of one and the same simulation state, one step in `freq` is logged starting with the first, the
column names appear once and the heading every fifty rows, provided warnings are shown at all. -/
theorem C78_run (freq : Int) (hf : freq ≠ 0) (sims : List S) (w : LogWorld S) (hw : w.log.calls = 0)
    (hne : ∀ s, time s ++ resid s ++ sol s ≠ []) (vs : Nat → List (Text × ℚ))
    (hvs : ∀ i (h : i < sims.length), vs i = time sims[i] ++ resid sims[i] ++ sol sims[i]) :
    ∃ o' w', logRun (attachLog time resid sol freq) sims w = .ok (o', w') ∧
      w'.out = w.out ++ (if w.log.enabled = true ∧ w.log.filter.rank ≤ LogLevel.warning.rank then
        logRecords freq vs sims.length else []) := by
  suffices H : ∃ o' w', logRun (attachLog time resid sol freq) sims w = .ok (o', w') ∧
      (o'.obs .timeStepComplete = some [obsResid resid, obsSol sol, obsTime time, obsUpdate] ∧
        o'.freq .timeStepComplete = freq ∧ o'.count .timeStepComplete = (sims.length : Int)) ∧
      (w'.log.enabled = w.log.enabled ∧ w'.log.filter = w.log.filter) ∧
      (∃ c : Nat, w'.log.calls = (c : Int) ∧ sims.length ≤ c * freq.natAbs ∧ c * freq.natAbs < sims.length + freq.natAbs) ∧
      (sims ≠ [] → w'.log.head = (vs 0).map Prod.fst) ∧
      w'.out = w.out ++ (if w.log.enabled = true ∧ w.log.filter.rank ≤ LogLevel.warning.rank then
        logRecords freq vs sims.length else []) by
    obtain ⟨o', w', h1, -, -, -, -, h2⟩ := H
    exact ⟨o', w', h1, h2⟩
  have hF : 0 < freq.natAbs := Int.natAbs_pos.2 hf
  induction sims using List.reverseRecOn with
  | nil =>
    refine ⟨_, _, rfl, ⟨attachLog_obs time resid sol freq, rfl, rfl⟩, ⟨rfl, rfl⟩, ⟨0, hw, by simp, by simpa using hF⟩,
      fun h => absurd rfl h, ?_⟩
    simp [logRecords]
  | append_singleton l s ih =>
    obtain ⟨o1, w1, r1, ⟨a1, a2, a3⟩, ⟨b1, b2⟩, ⟨c, c1, c2, c3⟩, d1, e1⟩ := ih fun i h => by
      rw [hvs i (by simp; omega), List.getElem_append_left h]
    have hv : vs l.length = time s ++ resid s ++ sol s := by
      rw [hvs l.length (by simp)]; simp
    obtain ⟨o2, w2, r2, f1, f2, f3, f4, f5, f6⟩ := notify_log time resid sol a1 (by rw [a2]; exact hf) { w1 with sim := s }
      (hne s)
    refine ⟨o2, w2, ?_, ⟨by rw [f1, a1], by rw [f2, a2], by rw [f3, a3]; simp⟩, ⟨by rw [f4]; exact b1, by rw [f5]; exact b2⟩, ?_⟩
    · rw [logRun_snoc, r1]; exact r2
    rw [a2, a3] at f6
    dsimp only at f6
    rw [← hv, c1] at f6
    have hrec : logRecords freq vs (l ++ [s]).length = logRecords freq vs l.length ++
        (if freq ∣ (l.length : Int) then
          (if l.length = 0 then logIntro (vs 0) else []) ++
            (if 50 * freq ∣ (l.length : Int) then [LogRec.heading .warning ((vs 0).map Prod.fst)] else []) ++
            [LogRec.text .warning (logRow (vs l.length))] else []) := by
      unfold logRecords
      rw [List.length_append, List.length_singleton, List.range_succ, List.flatMap_append]
      simp
    rw [List.length_append, List.length_singleton] at *
    have hnil : l.length = 0 ↔ c = 0 := by
      constructor
      · intro h
        rw [h] at c3
        by_contra h0
        have : freq.natAbs ≤ c * freq.natAbs := Nat.le_mul_of_pos_left _ (by omega)
        omega
      · intro h; rw [h] at c2; omega
    by_cases hd : freq ∣ (l.length : Int)
    · rw [if_pos hd] at f6 hrec
      obtain ⟨g1, g2, g3⟩ := f6
      have hcl : c * freq.natAbs = l.length := by
        have hd' : freq.natAbs ∣ l.length := Int.natAbs_dvd_natAbs.2 hd
        obtain ⟨k, hk⟩ := hd'
        have h1 : k ≤ c := by
          rw [hk, Nat.mul_comm] at c2
          exact Nat.le_of_mul_le_mul_right c2 hF
        have h2 : c < k + 1 := by
          have : c * freq.natAbs < (k + 1) * freq.natAbs := by
            rw [hk] at c3; nlinarith
          exact Nat.lt_of_mul_lt_mul_right this
        have : c = k := by omega
        rw [this, hk, Nat.mul_comm]
      have hhead : (if (c : Int) = 0 then (vs l.length).map Prod.fst else w1.log.head) = (vs 0).map Prod.fst := by
        split
        · rename_i h
          rw [hnil.2 (by exact_mod_cast h)]
        · rename_i h
          exact d1 fun hl => h (by rw [hnil.1 (by simp [hl])]; rfl)
      rw [hhead] at g2 g3
      refine ⟨⟨c + 1, by rw [g1]; simp, by rw [Nat.add_mul]; omega, by rw [Nat.add_mul]; omega⟩, fun _ => g2, ?_⟩
      rw [g3, e1, b1, b2, hrec, List.append_assoc]
      congr 1
      split
      · congr 1
        have p1 : ((c : Int) = 0 ↔ l.length = 0) := by rw [hnil]; simp
        have p2 : ((c : Int) = 0 ∨ (c : Int).tmod 50 = 0) ↔ 50 * freq ∣ (l.length : Int) := by
          rw [← Int.dvd_iff_tmod_eq_zero]
          have q1 : 50 * freq ∣ (l.length : Int) ↔ (50 : Int) ∣ (c : Int) := by
            have q2 : (l.length : Int) = c * (freq.natAbs : Int) := by exact_mod_cast hcl.symm
            have q3 : freq ∣ (freq.natAbs : Int) ∧ (freq.natAbs : Int) ∣ freq := ⟨by simp, by simp⟩
            rw [q2]
            have q4 : 50 * freq ∣ c * (freq.natAbs : Int) ↔ 50 * (freq.natAbs : Int) ∣ c * (freq.natAbs : Int) :=
              ⟨fun h => (Int.mul_dvd_mul_left 50 q3.2).trans h, fun h => (Int.mul_dvd_mul_left 50 q3.1).trans h⟩
            rw [q4]
            exact Int.mul_dvd_mul_iff_right (by omega)
          rw [q1]
          constructor
          · rintro (h | h)
            · rw [h]; exact dvd_zero _
            · exact h
          · exact Or.inr
        have p3 : (if l.length = 0 then logIntro (vs l.length) else []) = if l.length = 0 then logIntro (vs 0) else [] := by
          split
          · rename_i h; rw [h]
          · rfl
        rw [if_congr p2 rfl rfl, if_congr p1 rfl rfl, p3]
      · rfl
    · rw [if_neg hd] at f6 hrec
      obtain ⟨g1, g2, g3⟩ := f6
      have hl0 : l ≠ [] := fun h => hd (by simp [h])
      have hcl : c * freq.natAbs ≠ l.length := fun h => hd (by
        rw [← Int.natAbs_dvd]
        exact ⟨c, by rw [mul_comm]; exact_mod_cast h.symm⟩)
      refine ⟨⟨c, g1, by omega, by omega⟩, fun _ => by rw [g2]; exact d1 hl0, ?_⟩
      rw [g3, e1, hrec, List.append_nil]

example : ∃ o' w', logRun (attachLog (fun n : Nat => [("iter".toList, (n : ℚ))]) (fun _ => []) (fun _ => []) 2) [1, 2, 3, 4]
    ⟨0, Logger.new, []⟩ = .ok (o', w') ∧ w'.out = [] ++ (if Logger.new.enabled = true ∧
      Logger.new.filter.rank ≤ LogLevel.warning.rank then
        logRecords 2 (fun i => [("iter".toList, ((i + 1 : Nat) : ℚ))]) 4 else []) :=
  C78_run _ _ _ 2 (by decide) [1, 2, 3, 4] ⟨0, Logger.new, []⟩ rfl (by simp) _ (by
    intro i h
    have : i < 4 := h
    interval_cases i <;> rfl)

/-- Frequency zero is a division by zero at the first completed step. -/
theorem C78_zero_frequency (sims : List S) (hs : sims ≠ []) (w : LogWorld S) :
    logRun (attachLog time resid sol 0) sims w = .error .divByZero := by
  obtain ⟨s, l, rfl⟩ := List.exists_cons_of_ne_nil hs
  rfl

end Run

end Madg
