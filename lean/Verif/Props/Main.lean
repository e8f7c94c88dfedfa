/-
C110: the program from its command line to its files.
-/
import Verif.Proofs.Main
import Verif.Proofs.OptExit
import Verif.Props.Settings
import Verif.Props.RunEach2
import Verif.Proofs.IeeeFl
import Verif.Proofs.FloatGrid

namespace Madg
open Spec

/-! ### C110: from the command line to the files -/

section
variable {A K : Type} [Arith K] [LT K] [DecidableLT K] [LE K] [DecidableLE K] [DecidableEq K] [Max K] [Min K] [Pow K K]

theorem main_ok {D : ℚ → K} {files : Text → Option (List (Text × Text))} {cmd : List (Text × Text)} {s : OptState Text OptVal}
    (h : parseInputOptions optTable files freshVars cmd = .ok s) {o : RunOpts K} {f : Text} (ho : runOptsOf D s.vars = some o)
    (hf : s.vars "initial_condition_file".toList = some (.str f)) (E : Env K) (disk : Text → Option VtsFile) (w : ProgArr A) (fuel : Nat) :
    mainProgram E D files disk cmd w fuel =
      if f = "none".toList then .runs (program E o none w fuel)
      else match disk f with
        | some v => .runs (program E o (some v) w fuel)
        | none => .runs (.fail .outOfBounds) := by
  unfold mainProgram
  rw [h]
  dsimp only
  rw [ho, strSetting_eq hf]
  dsimp only
  split
  · rfl
  · cases disk f <;> rfl

/-- The program goes on to a run exactly for the accepted options (C59). -/
theorem C110_runs_iff (E : Env K) (D : ℚ → K) (files : Text → Option (List (Text × Text))) (disk : Text → Option VtsFile)
    (cmd : List (Text × Text)) (w : ProgArr A) (fuel : Nat) :
    (∃ c, mainProgram E D files disk cmd w fuel = .runs c) ↔ Accepted optTable files freshVars cmd := by
  rw [← C59_accepts optTable files freshVars cmd optTable_default_known optTable_help]
  constructor
  · rintro ⟨c, hc⟩
    cases hs : parseInputOptions optTable files freshVars cmd with
    | ok s => exact ⟨s, rfl⟩
    | error e =>
      unfold mainProgram at hc
      rw [hs] at hc
      cases e <;> cases hc
  · rintro ⟨s, h⟩
    obtain ⟨o, f, ho, hf, -⟩ := runOptsOf_ok D h
    rw [main_ok h ho hf]
    split
    · exact ⟨_, rfl⟩
    · split <;> exact ⟨_, rfl⟩

theorem main_error {files : Text → Option (List (Text × Text))} {cmd : List (Text × Text)} {e : OptErr}
    (h : parseInputOptions optTable files freshVars cmd = .error e) (E : Env K) (D : ℚ → K) (disk : Text → Option VtsFile) (w : ProgArr A)
    (fuel : Nat) : mainProgram E D files disk cmd w fuel = if e = .help then .exit 0 else if e = .noConfig then .exit 1 else .thrown := by
  unfold mainProgram
  rw [h]
  cases e <;> rfl

/-- Otherwise it ends with exit code 0 if its options can be read and ask for help, with exit code 1 if they can be read but name a
config file that cannot be opened, and with an exception in all other cases. -/
theorem C110_exit (E : Env K) (D : ℚ → K) (files : Text → Option (List (Text × Text))) (disk : Text → Option VtsFile)
    (cmd : List (Text × Text)) (w : ProgArr A) (fuel : Nat) (cfg : List (Text × Text)) (hcfg : cfg = configOf optTable files freshVars cmd)
    (help missing : Prop) (hh : help ↔ given cmd "help".toList ≠ none ∨ given cfg "help".toList ≠ none)
    (hm : missing ↔ ∃ f, effective optTable cmd cfg freshVars configName = some (.str f) ∧ f ≠ [] ∧ files f = none) :
    (mainProgram E D files disk cmd w fuel = .exit 0 ↔ Readable optTable files freshVars cmd ∧ help) ∧
    (mainProgram E D files disk cmd w fuel = .exit 1 ↔ Readable optTable files freshVars cmd ∧ ¬ help ∧ missing) ∧
    (∀ n, 2 ≤ n → mainProgram E D files disk cmd w fuel ≠ .exit n) ∧
    (mainProgram E D files disk cmd w fuel = .thrown ↔ ¬ Readable optTable files freshVars cmd) := by
  have k1 := parse_help_iff optTable files freshVars cmd optTable_default_known optTable_help
  have k2 := parse_noConfig_iff optTable files freshVars cmd optTable_default_known optTable_help
  have k3 := C59_accepts optTable files freshVars cmd optTable_default_known optTable_help
  have hm' : missing ↔ ∃ f, (effective optTable cmd cfg freshVars optTable.config).bind optTable.path = some f ∧ files f = none := by
    rw [hm]
    show (∃ f, effective optTable cmd cfg freshVars configName = some (.str f) ∧ _) ↔
      ∃ f, (effective optTable cmd cfg freshVars configName).bind optTable.path = some f ∧ files f = none
    constructor
    · rintro ⟨f, h1, h2, h3⟩
      refine ⟨f, ?_, h3⟩
      rw [h1]
      cases f with
      | nil => exact absurd rfl h2
      | cons c f => rfl
    · rintro ⟨f, h1, h2⟩
      cases hv : effective optTable cmd cfg freshVars configName with
      | none => rw [hv] at h1; cases h1
      | some v =>
        rw [hv] at h1
        cases v with
        | str t =>
          cases t with
          | nil => cases h1
          | cons c t =>
            cases h1
            exact ⟨_, rfl, by simp, h2⟩
        | _ => cases h1
  rw [← hcfg, show optTable.help = "help".toList from rfl, ← hh] at k1
  rw [← hcfg, ← hm', show optTable.help = "help".toList from rfl] at k2
  have hn : (¬ help) ↔ given cmd "help".toList = none ∧ given cfg "help".toList = none := by
    rw [hh, not_or, not_not, not_not]
  have all : Readable optTable files freshVars cmd → help ∨ missing ∨ Accepted optTable files freshVars cmd := by
    intro hr
    by_cases h1 : help
    · exact .inl h1
    by_cases h2 : missing
    · exact .inr (.inl h2)
    refine .inr (.inr ⟨hr.known, hr.once, hr.onceConfig, hr.value, hr.valueConfig, by rw [← hcfg]; exact hn.1 h1, fun f hf => ?_⟩)
    by_contra hx
    rw [← hcfg] at hf
    exact h2 (hm'.2 ⟨f, hf, by simpa using hx⟩)
  have exit1 : ∀ {a b : Nat}, (Started.exit a : Started A K) = .exit b ↔ a = b := fun {a b} => by simp
  cases hs : parseInputOptions optTable files freshVars cmd with
  | ok s =>
    have hA := k3.1 ⟨s, hs⟩
    obtain ⟨c, hc⟩ := (C110_runs_iff E D files disk cmd w fuel).2 hA
    have hr : Readable optTable files freshVars cmd := ⟨hA.known, hA.once, hA.onceConfig, hA.value, hA.valueConfig⟩
    have n1 : ¬ help := by
      have := hA.noHelp
      rw [← hcfg] at this
      exact hn.2 this
    have n2 : ¬ missing := by
      rw [hm']
      rintro ⟨f, h1, h2⟩
      have := hA.exists_ f (by rw [← hcfg]; exact h1)
      rw [h2] at this
      cases this
    rw [hc]
    refine ⟨⟨(fun q => (by cases q)), fun q => absurd q.2 n1⟩, ⟨(fun q => (by cases q)), fun q => absurd q.2.2 n2⟩,
      (fun n _ q => (by cases q)), ⟨(fun q => (by cases q)), fun q => absurd hr q⟩⟩
  | error e =>
    have hmain := main_error (A := A) hs E D disk w fuel
    rw [hs] at k1 k2 k3
    have other : e ≠ .help → e ≠ .noConfig → ¬ Readable optTable files freshVars cmd := fun h1 h2 hr => by
      rcases all hr with q | q | q
      · exact h1 (by injection k1.2 ⟨hr, q⟩)
      · by_cases h3 : help
        · exact h1 (by injection k1.2 ⟨hr, h3⟩)
        · exact h2 (by injection k2.2 ⟨hr, (hn.1 h3).1, (hn.1 h3).2, q⟩)
      · obtain ⟨s, hs⟩ := k3.2 q
        cases hs
    cases e with
    | help =>
      obtain ⟨hr, h1⟩ := k1.1 rfl
      rw [hmain]
      simp only [reduceCtorEq, if_true]
      exact ⟨⟨fun _ => ⟨hr, h1⟩, fun _ => trivial⟩, ⟨(fun q => (by cases q)), fun q => absurd h1 q.2.1⟩,
        (fun n h q => by rw [exit1] at q; omega), ⟨(fun q => (by cases q)), fun q => absurd hr q⟩⟩
    | noConfig =>
      obtain ⟨hr, h1, h2, h3⟩ := k2.1 rfl
      rw [hmain]
      simp only [reduceCtorEq, if_true, if_false]
      exact ⟨⟨(fun q => (by cases q)), fun q => absurd q.2 (hn.2 ⟨h1, h2⟩)⟩, ⟨fun _ => ⟨hr, hn.2 ⟨h1, h2⟩, h3⟩, fun _ => trivial⟩,
        (fun n h q => by rw [exit1] at q; omega), ⟨(fun q => (by cases q)), fun q => absurd hr q⟩⟩
    | _ =>
      have hr := other (by decide) (by decide)
      rw [hmain]
      simp only [reduceCtorEq, if_false]
      exact ⟨⟨(fun q => (by cases q)), fun q => absurd q.1 hr⟩, ⟨(fun q => (by cases q)), fun q => absurd q.1 hr⟩,
        (fun n h q => (by cases q)), ⟨fun _ => hr, fun _ => trivial⟩⟩

/-- For accepted options the run is the one in which every named option has its effective value: that of the command line, else
that of the config file, else the default. It starts from the given file unless that is called `none`. -/
theorem C110_configured (D : ℚ → K) (files : Text → Option (List (Text × Text))) (cmd : List (Text × Text))
    (h : Accepted optTable files freshVars cmd) (val : String → Option OptVal)
    (hval : ∀ n, val n = effective optTable cmd (configOf optTable files freshVars cmd) freshVars n.toList) :
    ∃ (o : RunOpts K) (f : Text), Configured D val o ∧ val "initial_condition_file" = some (.str f) ∧
      ∀ (E : Env K) (disk : Text → Option VtsFile) (w : ProgArr A) (fuel : Nat),
        (f = "none".toList → mainProgram E D files disk cmd w fuel = .runs (program E o none w fuel)) ∧
        (f ≠ "none".toList → ∀ v, disk f = some v → mainProgram E D files disk cmd w fuel = .runs (program E o (some v) w fuel)) := by
  obtain ⟨s, hs⟩ := (C59_accepts optTable files freshVars cmd optTable_default_known optTable_help).2 h
  have prec := C59_precedence optTable files freshVars cmd optTable_default_known optTable_help s hs
  obtain ⟨o, f, ho, hf, hc⟩ := runOptsOf_ok D hs
  have e : (fun n : String => s.vars n.toList) = val := by
    funext n
    rw [hval, prec]
  refine ⟨o, f, e ▸ hc, by rw [hval, ← prec]; exact hf, fun E disk w fuel => ⟨fun h1 => ?_, fun h1 v hv => ?_⟩⟩
  · rw [main_ok hs ho hf, if_pos h1]
  · rw [main_ok hs ho hf, if_neg h1, hv]

/-- A name of an initial condition that is neither `none` nor a solution file is not reported: the program follows a null pointer. -/
theorem C110_missing_file [DecidableEq A] (D : ℚ → K) (files : Text → Option (List (Text × Text))) (cmd : List (Text × Text)) (f : Text)
    (h : Accepted optTable files freshVars cmd)
    (hf : effective optTable cmd (configOf optTable files freshVars cmd) freshVars "initial_condition_file".toList = some (.str f))
    (hn : f ≠ "none".toList) (E : Env K) (disk : Text → Option VtsFile) (hd : disk f = none) (w : ProgArr A) (fuel : Nat) :
    ∃ c, mainProgram E D files disk cmd w fuel = .runs c ∧ ∀ (sz : A → Int) m r, CmdOut sz c m r ↔ r = .error .outOfBounds := by
  obtain ⟨s, hs⟩ := (C59_accepts optTable files freshVars cmd optTable_default_known optTable_help).2 h
  have prec := C59_precedence optTable files freshVars cmd optTable_default_known optTable_help s hs
  obtain ⟨o, f', ho, hf', -⟩ := runOptsOf_ok D hs
  rw [prec, hf] at hf'
  cases hf'
  refine ⟨.fail .outOfBounds, ?_, fun sz m r => ⟨fun hr => ?_, fun hr => ?_⟩⟩
  · rw [main_ok hs ho (by rw [prec, hf]), if_neg hn, hd]
  · cases hr; rfl
  · rw [hr]; exact .fail _ _

theorem main_congr {D : ℚ → K} {files files' : Text → Option (List (Text × Text))} {cmd cmd' : List (Text × Text)}
    {s s' : OptState Text OptVal} (h : parseInputOptions optTable files freshVars cmd = .ok s)
    (h' : parseInputOptions optTable files' freshVars cmd' = .ok s')
    (he : ∀ r ∈ optRows, r.name ≠ configName → s.vars r.name = s'.vars r.name)
    (E : Env K) (disk : Text → Option VtsFile) (w : ProgArr A) (fuel : Nat) :
    mainProgram E D files disk cmd w fuel = mainProgram E D files' disk cmd' w fuel := by
  have hn : ∀ n : String, rowOf n.toList ≠ none → n.toList ≠ configName → s.vars n.toList = s'.vars n.toList := fun n h1 h2 => by
    obtain ⟨r, hr⟩ := Option.ne_none_iff_exists'.1 h1
    have hm : r ∈ optRows := List.mem_of_find?_eq_some hr
    have hname : r.name = n.toList := by simpa using List.find?_some hr
    rw [← hname]
    exact he r hm (by rw [hname]; exact h2)
  obtain ⟨o, f, ho, hf, -⟩ := runOptsOf_ok D h
  have ho' := ho
  rw [runOptsOf_congr D hn] at ho'
  have hf' := hf
  rw [hn _ (by decide +kernel) (by decide +kernel)] at hf'
  rw [main_ok h ho hf, main_ok h' ho' hf']

/-- It does not matter where a setting comes from: two invocations with the same effective values of all options other than the
config file's name run the same program. -/
theorem C110_source (D : ℚ → K) (files files' : Text → Option (List (Text × Text))) (cmd cmd' : List (Text × Text))
    (h : Accepted optTable files freshVars cmd) (h' : Accepted optTable files' freshVars cmd')
    (he : ∀ r ∈ optRows, r.name ≠ configName → effective optTable cmd (configOf optTable files freshVars cmd) freshVars r.name =
      effective optTable cmd' (configOf optTable files' freshVars cmd') freshVars r.name)
    (E : Env K) (disk : Text → Option VtsFile) (w : ProgArr A) (fuel : Nat) :
    mainProgram E D files disk cmd w fuel = mainProgram E D files' disk cmd' w fuel := by
  obtain ⟨s, hs⟩ := (C59_accepts optTable files freshVars cmd optTable_default_known optTable_help).2 h
  obtain ⟨s', hs'⟩ := (C59_accepts optTable files' freshVars cmd' optTable_default_known optTable_help).2 h'
  refine main_congr hs hs' (fun r hr hne => ?_) E disk w fuel
  rw [C59_precedence optTable files freshVars cmd optTable_default_known optTable_help s hs,
    C59_precedence optTable files' freshVars cmd' optTable_default_known optTable_help s' hs', he r hr hne]

/-- A run can be repeated from its printed settings if its real numbers were given with at most six digits (and are not tiny): the
program started with the printed config file as its only option does the same as the original invocation. -/
theorem C110_repeat (D : ℚ → K) (files : Text → Option (List (Text × Text))) (cmd : List (Text × Text)) (s : OptState Text OptVal)
    (h : parseInputOptions optTable files freshVars cmd = .ok s) (hp : ∀ r ∈ optRows, ∀ t, s.vars r.name = some (.str t) → Plain t)
    (hx : ∀ r ∈ optRows, ∀ x, s.vars r.name = some (.dbl x) →
      ∃ y, Decimal 6 y ∧ (y = 0 ∨ (10 : ℚ) ^ (-300 : Int) ≤ |y|) ∧ x = binary64.round y) :
    ∃ entries, configEntries (settingsText fun n => (s.vm n).map Prod.fst) = .ok entries ∧
      ∀ file, file ≠ [] → ∀ files' : Text → Option (List (Text × Text)), files' file = some entries →
        ∀ (E : Env K) (disk : Text → Option VtsFile) (w : ProgArr A) (fuel : Nat),
          mainProgram E D files' disk [(configName, file)] w fuel = mainProgram E D files disk cmd w fuel := by
  obtain ⟨entries, h1, h2⟩ := C109_read_back files cmd s h hp
  refine ⟨entries, h1, fun file hf files' hfile E disk w fuel => ?_⟩
  obtain ⟨s', h3, -, h5⟩ := h2 file hf files' hfile
  refine main_congr h3 h (fun r hr hne => ?_) E disk w fuel
  obtain ⟨v, v', c1, c2, c3⟩ := h5 r hr hne
  rw [c1, c2]
  cases c3 with
  | dbl x y hy =>
    obtain ⟨z, z1, z2, z3⟩ := hx r hr x c1
    rw [z3] at hy ⊢
    rw [C109_kept z y z1 z2 hy]
  | _ => rfl

/-- A run started from a printed config file can be repeated from its own printed settings, whatever the digits of the settings. -/
theorem C110_repeat_again (D : ℚ → K) (files files1 files2 : Text → Option (List (Text × Text))) (cmd : List (Text × Text))
    (s s' : OptState Text OptVal) (h : parseInputOptions optTable files freshVars cmd = .ok s)
    (hp : ∀ r ∈ optRows, ∀ t, s.vars r.name = some (.str t) → Plain t)
    (hx : ∀ r ∈ optRows, ∀ x, s.vars r.name = some (.dbl x) → x = 0 ∨ (10 : ℚ) ^ (-299 : Int) ≤ |x|)
    (entries entries' : List (Text × Text)) (file file' : Text) (he : configEntries (settingsText fun n => (s.vm n).map Prod.fst) = .ok entries)
    (hf : file ≠ [] ∧ Plain file) (hfile : files1 file = some entries) (h' : parseInputOptions optTable files1 freshVars [(configName, file)] = .ok s')
    (he' : configEntries (settingsText fun n => (s'.vm n).map Prod.fst) = .ok entries') (hf' : file' ≠ [] ∧ Plain file')
    (hfile' : files2 file' = some entries') (E : Env K) (disk : Text → Option VtsFile) (w : ProgArr A) (fuel : Nat) :
    mainProgram E D files2 disk [(configName, file')] w fuel = mainProgram E D files1 disk [(configName, file)] w fuel := by
  have hp' : ∀ r ∈ optRows, ∀ t, s'.vars r.name = some (.str t) → Plain t := by
    obtain ⟨e, a1, a2⟩ := C109_read_back files cmd s h hp
    rw [he] at a1
    cases a1
    obtain ⟨t, a3, a4, a5⟩ := a2 file hf.1 files1 hfile
    rw [h'] at a3
    cases a3
    intro r hr t ht
    by_cases hc : r.name = configName
    · rw [hc, a4] at ht
      cases ht
      exact hf.2
    · obtain ⟨v, v', c1, c2, c3⟩ := a5 r hr hc
      rw [ht] at c2
      cases c2
      cases c3
      exact hp r hr t c1
  obtain ⟨e, b1, b2⟩ := C109_read_back files1 _ s' h' hp'
  rw [he'] at b1
  cases b1
  obtain ⟨s'', b3, -, -⟩ := b2 file' hf'.1 files2 hfile'
  exact main_congr b3 h' (C109_stable files cmd s s' s'' h hp hx ⟨_, _, _, he, hf.1, hf.2, hfile, h'⟩ ⟨_, _, _, he', hf'.1, hf'.2, hfile', b3⟩)
    E disk w fuel

/-- Without options. -/
theorem accepted_nothing (files : Text → Option (List (Text × Text))) : Accepted optTable files freshVars [] ∧
    configOf optTable files freshVars [] = [] := by
  have hb : (effective optTable [] [] freshVars optTable.config).bind optTable.path = none := by decide +kernel
  have hcfg : configOf optTable files freshVars [] = [] := by
    unfold configOf
    rw [hb]
    rfl
  refine ⟨⟨?_, List.nodup_nil, ?_, ?_, ?_, ?_, ?_⟩, hcfg⟩
  · rintro e (he | he)
    · cases he
    · rw [hcfg] at he; cases he
  · rw [hcfg]; exact List.nodup_nil
  · intro e he; cases he
  · intro e he; rw [hcfg] at he; cases he
  · rw [hcfg]; exact ⟨rfl, rfl⟩
  · intro f hf
    rw [hcfg, hb] at hf
    cases hf

/-- Without any option the program simulates the Cahn–Hilliard equation on the periodic unit square with 128 × 128 cells by the
third-order method, with at most 10000 steps of size 1e-6 up to time 1, logs every twentieth step and writes one file at the end; in
any arithmetic, every execution ends normally. -/
theorem C110_default [DecidableEq A] (E : Env K) (D : ℚ → K) (files : Text → Option (List (Text × Text))) (disk : Text → Option VtsFile)
    (sz : A → Int) (w : ProgArr A) (hw : Arrays2 sz w 128) (dx : K) (hdx : dx = (D 1 - D 0) / ((128 : Int) : K)) (m : Mem A K) :
    ∃ run : Nat → Cmd A K (RunResult K), (∀ fuel, mainProgram E D files disk [] w fuel = .runs (run fuel)) ∧
      RunsEach sz run m ⟨D 0, D 1, D (binary64.round (1 / 10 ^ 6)), false, 10000, 0, D 0, D 0⟩ 20 0
        (ssprk3Method (rhsOps2 ⟨D (binary64.round (2419753086419753 / 10 ^ 20)), D (binary64.round (2914488109293305 / 10 ^ 13)), D 0⟩ dx 128))
        (initialAny2 E.draw (D 0) 128) (Rms E.rt (pairs 128 128)) (Extremes E.big E.tiny (pairs 128 128))
        (stepName "maDGiCart".toList 5) (stepName "maDGiCart_final".toList 5) (vts2 E.io (D 0) (D 0) dx 128) := by
  obtain ⟨hacc, hcfg⟩ := accepted_nothing files
  obtain ⟨o, f, hc, hf, hrun⟩ := C110_configured (A := A) D files [] hacc (fun n => effective optTable [] [] freshVars n.toList)
    (fun n => by rw [hcfg])
  have str : ∀ {n : String} {t : String} {x : String}, effective optTable [] [] freshVars n.toList = some (.str x.toList) →
      effective optTable [] [] freshVars n.toList = some (.str t.toList) → x = t := fun h1 h2 => by
    rw [h1, Option.some.injEq, OptVal.str.injEq] at h2
    exact String.toList_inj.1 h2
  have txt : ∀ {n : String} {t x : Text}, effective optTable [] [] freshVars n.toList = some (.str x) →
      effective optTable [] [] freshVars n.toList = some (.str t) → x = t := fun h1 h2 => by
    rw [h1, Option.some.injEq, OptVal.str.injEq] at h2
    exact h2
  have int : ∀ {n : String} {t x : Int}, effective optTable [] [] freshVars n.toList = some (.int x) →
      effective optTable [] [] freshVars n.toList = some (.int t) → x = t := fun h1 h2 => by
    rw [h1, Option.some.injEq, OptVal.int.injEq] at h2
    exact h2
  have dbl : ∀ {n : String} {t : ℚ} {y : K}, (∃ x, effective optTable [] [] freshVars n.toList = some (.dbl x) ∧ y = D x) →
      effective optTable [] [] freshVars n.toList = some (.dbl t) → y = D t := fun h1 h2 => by
    obtain ⟨x, h3, h4⟩ := h1
    rw [h3, Option.some.injEq, OptVal.dbl.injEq] at h2
    rw [h4, h2]
  have f1 : f = "none".toList := txt hf (by decide +kernel)
  have d1 : o.sel.dimension = 2 := int hc.dimension (by decide +kernel)
  have d2 : o.sel.bcx = "periodic" := str hc.bc_x (by decide +kernel)
  have d3 : o.sel.bcy = "periodic" := str hc.bc_y (by decide +kernel)
  have d4 : o.sel.bcz = "periodic" := str hc.bc_z (by decide +kernel)
  have d5 : o.sel.equation = "cahn-hilliard" := str hc.equation (by decide +kernel)
  have d6 : o.sel.integrator = "rk3ssp" := str hc.integrator (by decide +kernel)
  have d7 : o.nx = 128 := int hc.resolution_x (by decide +kernel)
  have d8 : o.box.xbeg = D 0 := dbl hc.x_begin (by decide +kernel)
  have d9 : o.box.xend = D 1 := dbl hc.x_end (by decide +kernel)
  have d10 : o.box.ybeg = D 0 := dbl hc.y_begin (by decide +kernel)
  have d11 : o.par.eps2 = D (binary64.round (2419753086419753 / 10 ^ 20)) := dbl hc.eps2 (by decide +kernel)
  have d12 : o.par.sigma = D (binary64.round (2914488109293305 / 10 ^ 13)) := dbl hc.sigma (by decide +kernel)
  have d13 : o.par.m = D 0 := dbl hc.mean (by decide +kernel)
  have d14 : o.t0 = D 0 := dbl hc.initial_time (by decide +kernel)
  have d15 : o.tfinal = D 1 := dbl hc.final_time (by decide +kernel)
  have d16 : o.dt0 = D (binary64.round (1 / 10 ^ 6)) := dbl hc.step_size (by decide +kernel)
  have d17 : o.useCfl = false := by
    have h1 := hc.use_cfl
    rw [show effective optTable [] [] freshVars "use_cfl_time_step".toList = some (.bool false) by decide +kernel, Option.some.injEq,
      OptVal.bool.injEq] at h1
    exact h1.symm
  have d18 : o.maxSteps = 10000 := by
    have h1 := hc.max_steps
    rw [show effective optTable [] [] freshVars "max_time_steps".toList = some (.uint 10000) by decide +kernel, Option.some.injEq,
      OptVal.uint.injEq] at h1
    exact h1.symm
  have d19 : o.relTol = D 0 := dbl hc.rel_tol (by decide +kernel)
  have d20 : o.absTol = D 0 := dbl hc.abs_tol (by decide +kernel)
  have d21 : o.logFreq = 20 := int hc.log_every (by decide +kernel)
  have d22 : o.saveEvery = 0 := int hc.save_every (by decide +kernel)
  have d23 : o.logFile = "maDGiCart".toList := txt hc.log_file (by decide +kernel)
  have d24 : o.solFile = [] := txt hc.solution_file (by decide +kernel)
  have d25 : o.base = "maDGiCart".toList := by unfold RunOpts.base; rw [if_pos d24, d23]
  have d26 : o.par = ⟨D (binary64.round (2419753086419753 / 10 ^ 20)), D (binary64.round (2914488109293305 / 10 ^ 13)), D 0⟩ := by
    rw [← d11, ← d12, ← d13]
  refine ⟨program E o none w, fun fuel => (hrun E disk w fuel).1 f1, ?_⟩
  have h := C102_rk3ssp2 sz E o w d5 d17 (by rw [d21]; decide) (by rw [d18]; decide) (by rw [d18]; decide) (by rw [d2]; decide)
    (by rw [d3]; decide) (by rw [d4]; decide) d1 (by rw [d7]; decide) (by rw [d7]; exact hw) d6 dx (by rw [d8, d9, d7]; exact hdx) 5
    (by rw [d18]; decide +kernel) m
  rw [d7, d8, d10, d26, d14, d15, d16, d18, d19, d20, d21, d22, d25] at h
  exact h

end

/-- In double precision the final time is not reached: the default run takes 10000 steps, logs every twentieth and leaves one file. -/
theorem C110_default_steps {A : Type} [DecidableEq A] [Max (Ieee ieee64)] [Min (Ieee ieee64)] [Pow (Ieee ieee64) (Ieee ieee64)]
    (E : Env (Ieee ieee64)) (files : Text → Option (List (Text × Text)))
    (disk : Text → Option VtsFile) (sz : A → Int) (w : ProgArr A) (hw : Arrays2 sz w 128) (m : Mem A (Ieee ieee64)) :
    ∃ c, mainProgram E (Ieee.ofRat false) files disk [] w 10000 = .runs c ∧
      AllEnd sz c m fun res _ => ∃ f rows, res = .done [("maDGiCart_final_step_10000.vts".toList, f)] rows ∧ rows.length = 500 := by
  obtain ⟨run, h1, h2⟩ := C110_default E (Ieee.ofRat false) files disk sz w hw _ rfl m
  refine ⟨run 10000, h1 10000, (h2 10000 (by norm_num) (by norm_num)).mono ?_⟩
  rintro res m1 ⟨N, t, d, p, r, e, v, u, q1, q2, q3, q4, q5, rfl⟩
  let : Max (Ieee ieee64) := byLess
  obtain ⟨dt, hdt⟩ : ∃ dt, dt = (Ieee.ofRat false (binary64.round (1 / 10 ^ 6)) : Ieee ieee64) := ⟨_, rfl⟩
  obtain ⟨T, hT⟩ : ∃ T, T = (Ieee.ofRat false 1 : Ieee ieee64) := ⟨_, rfl⟩
  obtain ⟨z, hz⟩ : ∃ z, z = (Ieee.ofRat false 0 : Ieee ieee64) := ⟨_, rfl⟩
  rw [← hdt, ← hT, ← hz] at q1 q2
  simp only [← hT, ← hz] at q4 ⊢
  have prec : 1 ≤ ieee64.prec := by decide
  have dtF : Ordinary dt ∧ 0 ≤ value dt ∧ value dt ≤ 11 / 10 ^ 7 := by
    have := Ieee.ofRat_ordinary (F := ieee64) prec false (q := binary64.round (1 / 10 ^ 6)) (by decide +kernel)
    rw [← hdt] at this
    refine ⟨this.1, ?_, ?_⟩ <;> rw [this.2] <;> decide +kernel
  have TF : Ordinary T ∧ value T = 1 := by
    have := Ieee.ofRat_ordinary (F := ieee64) prec false (q := 1) (by decide +kernel)
    rw [← hT] at this
    exact ⟨this.1, this.2.trans (by decide +kernel)⟩
  have z0 : z = 0 := by rw [hz]; rfl
  have small : ∀ x : ℚ, 0 ≤ x → x ≤ 1 / 20 → |ieee64.toFloatFmt.round x - x| ≤ 1 / 10 ^ 9 := fun x h0 h1 => by
    refine (FloatFmt.round_err _ x).trans ?_
    have a : |x| / 2 ^ ieee64.prec ≤ (1 / 20) / 2 ^ 53 := by
      rw [abs_of_nonneg h0]
      exact div_le_div_of_nonneg_right h1 (by positivity)
    have b : (2 : ℚ) ^ ieee64.emin / 2 ≤ 1 / 10 ^ 10 := by
      show (2 : ℚ) ^ (-1074 : Int) / 2 ≤ 1 / 10 ^ 10
      have : (2 : ℚ) ^ (-1074 : Int) ≤ 2 ^ (-40 : Int) := zpow_le_zpow_right₀ (by norm_num) (by norm_num)
      refine (div_le_div_of_nonneg_right this (by norm_num)).trans (by norm_num)
    have c : (1 / 20 : ℚ) / 2 ^ 53 ≤ 1 / 10 ^ 10 := by norm_num
    linarith only [a, b, c]
  have sum : ∀ a b : Ieee ieee64, Ordinary a → Ordinary b → 0 ≤ value a + value b → value a + value b ≤ 1 / 20 →
      Ordinary (a + b) ∧ |value (a + b) - (value a + value b)| ≤ 1 / 10 ^ 9 := fun a b ha hb h0 h1 => by
    have hs := small _ h0 h1
    have := Ieee.add_ordinary prec ha hb (by
      have h2 := abs_le.1 hs
      have h3 : (1 : ℚ) ≤ 2 ^ ieee64.emax := one_le_zpow₀ (by norm_num) (by decide)
      rw [abs_lt]
      constructor <;> linarith only [h0, h1, h2.1, h2.2, h3])
    exact ⟨this.1, by rw [this.2]; exact hs⟩
  have hN : N ≤ 10000 := by
    have := q2.bound (by dsimp only; omega)
    dsimp only at this
    omega
  have main : ∀ k, k < N → d k = dt ∧ Ordinary (t k) ∧ 0 ≤ value (t k) ∧ value (t k) ≤ k * (2 / 10 ^ 6) ∧ ¬ LastStep T t p k := by
    intro k
    induction k with
    | zero =>
      intro _
      refine ⟨q1.d_zero, ?_, ?_, ?_, fun h => by have := h.1; omega⟩
      · rw [q1.t_zero, z0]; trivial
      · rw [q1.t_zero, z0]; exact le_rfl
      · rw [q1.t_zero, z0, Nat.cast_zero, zero_mul]; exact le_rfl
    | succ k ih =>
      intro hk
      obtain ⟨a1, a2, a3, a4, a5⟩ := ih (by omega)
      have hk' : (k : ℚ) ≤ 10000 := by exact_mod_cast (show k ≤ 10000 by omega)
      have b1 : p (k + 1) = dt := by
        rw [(q4 k (by omega)).2 a5]
        exact a1
      have b2 : value (t k) + value dt ≤ 1 / 20 - 1 / 10 ^ 3 := by linarith only [a4, hk', dtF.2.2]
      obtain ⟨b3, b4⟩ := sum (t k) dt a2 dtF.1 (add_nonneg a3 dtF.2.1) (by linarith only [b2])
      have tk : t (k + 1) = t k + dt := by rw [q1.t_succ, a1]
      rw [← tk] at b3 b4
      have b5 := abs_le.1 b4
      have b6 : 0 ≤ value (t (k + 1)) := by
        rw [q1.t_succ, a1]
        have := (Ieee.add_ordinary prec a2 dtF.1 (by
          have h2 := abs_le.1 (small _ (add_nonneg a3 dtF.2.1) (by linarith only [b2]))
          have h3 : (1 : ℚ) ≤ 2 ^ ieee64.emax := one_le_zpow₀ (by norm_num) (by decide)
          rw [abs_lt]
          constructor <;> linarith only [a3, dtF.2.1, b2, h2.1, h2.2, h3])).2
        rw [this]
        have hm := FloatFmt.round_mono ieee64.toFloatFmt (by decide) (add_nonneg a3 dtF.2.1)
        rwa [FloatFmt.round_zero] at hm
      have b7 : value (t (k + 1)) ≤ ((k + 1 : Nat) : ℚ) * (2 / 10 ^ 6) := by
        push_cast
        linarith only [b5.2, a4, dtF.2.2]
      have b8 : ¬ T ≤ t (k + 1) + p (k + 1) := by
        rw [b1]
        obtain ⟨c1, c2⟩ := sum (t (k + 1)) dt b3 dtF.1 (add_nonneg b6 dtF.2.1) (by linarith only [b5.2, b2, dtF.2.2])
        rw [Ieee.le_ordinary TF.1 c1, TF.2, not_le]
        linarith only [(abs_le.1 c2).2, b5.2, b2, dtF.2.2]
      refine ⟨?_, b3, b6, b7, fun h => b8 h.2⟩
      rw [q1.d_succ, if_neg b8, b1]
  have N1 := q2.1
  have hend := q2.2.1
  have hNe : N = 10000 := by
    rcases hend with h | h | h | h
    · exact absurd h (main (N - 1) (by omega)).2.2.2.2
    · have := h.2
      dsimp only at this
      omega
    · exact absurd z0 h.1
    · exact absurd z0 h.1
  have hname : stepName "maDGiCart_final".toList 5 (0 + (N : Int)) = "maDGiCart_final_step_10000.vts".toList := by
    rw [hNe]
    decide +kernel
  have hlen : (reportRows 0 20 t d r v N).length = 500 := by
    unfold reportRows
    rw [List.length_map, hNe]
    decide +kernel
  have hs : ∀ (name : Int → Text) (file : Nat → Status (Ieee ieee64) → VtsFile), savedFiles 0 0 t d name file N = [] := fun name file => by
    unfold savedFiles
    rw [List.filter_eq_nil_iff.2 (fun k _ => by simp), List.map_nil]
  rw [hs, hname, List.nil_append]
  exact ⟨_, _, rfl, hlen⟩

theorem accepted_dimension : Accepted optTable (fun _ => none) freshVars [("dimension".toList, "3".toList)] := by
  refine (C59_accepts optTable _ freshVars _ optTable_default_known optTable_help).1 ?_
  have hok : (match parseInputOptions optTable (fun _ => none) freshVars [("dimension".toList, "3".toList)] with
      | .ok _ => true
      | .error _ => false) = true := by decide +kernel
  cases h : parseInputOptions optTable (fun _ => none) freshVars [("dimension".toList, "3".toList)] with
  | error e => rw [h] at hok; cases hok
  | ok s => exact ⟨s, rfl⟩

theorem accepted_start : Accepted optTable (fun _ => none) freshVars [("initial_condition_file".toList, "a.vts".toList)] := by
  refine (C59_accepts optTable _ freshVars _ optTable_default_known optTable_help).1 ?_
  have hok : (match parseInputOptions optTable (fun _ => none) freshVars [("initial_condition_file".toList, "a.vts".toList)] with
      | .ok _ => true
      | .error _ => false) = true := by decide +kernel
  cases h : parseInputOptions optTable (fun _ => none) freshVars [("initial_condition_file".toList, "a.vts".toList)] with
  | error e => rw [h] at hok; cases hok
  | ok s => exact ⟨s, rfl⟩

/-- The four samples run, exit with 0, exit with 1 and throw. -/
example [Max (Ieee ieee64)] [Min (Ieee ieee64)] [Pow (Ieee ieee64) (Ieee ieee64)] (E : Env (Ieee ieee64)) (w : ProgArr Nat) :
    (∃ c, mainProgram E (Ieee.ofRat false) (fun _ => none) (fun _ => none) [("dimension".toList, "3".toList)] w 7 = .runs c) ∧
    mainProgram E (Ieee.ofRat false) (fun _ => none) (fun _ => none) [("help".toList, [])] w 7 = .exit 0 ∧
    mainProgram E (Ieee.ofRat false) (fun _ => none) (fun _ => none) [("config_file".toList, "a.dat".toList)] w 7 = .exit 1 ∧
    mainProgram E (Ieee.ofRat false) (fun _ => none) (fun _ => none) [("colour".toList, "red".toList)] w 7 = .thrown := by
  have err : ∀ cmd e, (match parseInputOptions optTable (fun _ => none) freshVars cmd with
      | .ok _ => none
      | .error e => some e) = some e → parseInputOptions optTable (fun _ => none) freshVars cmd = .error e := fun cmd e h => by
    cases hs : parseInputOptions optTable (fun _ => none) freshVars cmd with
    | ok s => rw [hs] at h; cases h
    | error e => rw [hs] at h; cases h; rfl
  refine ⟨(C110_runs_iff E _ _ _ _ w 7).2 accepted_dimension, ?_, ?_, ?_⟩
  · rw [main_error (err _ .help (by decide +kernel))]; rfl
  · rw [main_error (err _ .noConfig (by decide +kernel))]; rfl
  · rw [main_error (err _ .unknown (by decide +kernel))]; rfl

/-- A run in three dimensions, and one whose initial condition cannot be read. -/
example [Max (Ieee ieee64)] [Min (Ieee ieee64)] [Pow (Ieee ieee64) (Ieee ieee64)] (E : Env (Ieee ieee64)) (w : ProgArr Nat) :
    (∃ (o : RunOpts (Ieee ieee64)), o.sel.dimension = 3 ∧
      mainProgram E (Ieee.ofRat false) (fun _ => none) (fun _ => none) [("dimension".toList, "3".toList)] w 7 = .runs (program E o none w 7)) ∧
    ∃ c, mainProgram E (Ieee.ofRat false) (fun _ => none) (fun _ => none) [("initial_condition_file".toList, "a.vts".toList)] w 7 = .runs c ∧
      ∀ (sz : Nat → Int) m r, CmdOut sz c m r ↔ r = .error .outOfBounds := by
  constructor
  · obtain ⟨o, f, h1, h2, h3⟩ := C110_configured (A := Nat) (Ieee.ofRat (F := ieee64) false) (fun _ => none) _ accepted_dimension _
      (fun _ => rfl)
    refine ⟨o, ?_, (h3 E (fun _ => none) w 7).1 ?_⟩
    · have := h1.dimension
      rw [show effective optTable _ _ freshVars "dimension".toList = some (.int 3) by decide +kernel] at this
      injection this with this
      injection this with this
      exact this.symm
    · rw [show effective optTable _ _ freshVars "initial_condition_file".toList = some (.str "none".toList) by decide +kernel] at h2
      injection h2 with h2
      injection h2 with h2
      exact h2.symm
  · exact C110_missing_file _ _ _ "a.vts".toList accepted_start (by decide +kernel) (by decide +kernel) E _ rfl w 7

/-- The same setting on the command line and in a config file. -/
example [Max (Ieee ieee64)] [Min (Ieee ieee64)] [Pow (Ieee ieee64) (Ieee ieee64)] (E : Env (Ieee ieee64)) (w : ProgArr Nat) :
    mainProgram E (Ieee.ofRat false) (fun _ => none) (fun _ => none) [("dimension".toList, "3".toList)] w 7 =
      mainProgram E (Ieee.ofRat false) (fun _ => some [("dimension".toList, "3".toList)]) (fun _ => none)
        [("config_file".toList, "a.dat".toList)] w 7 := by
  refine C110_source _ _ _ _ _ accepted_dimension ?_ ?_ E _ w 7
  · refine (C59_accepts optTable _ freshVars _ optTable_default_known optTable_help).1 ?_
    have hok : (match parseInputOptions optTable (fun _ => some [("dimension".toList, "3".toList)]) freshVars
        [("config_file".toList, "a.dat".toList)] with
        | .ok _ => true
        | .error _ => false) = true := by decide +kernel
    cases h : parseInputOptions optTable (fun _ => some [("dimension".toList, "3".toList)]) freshVars [("config_file".toList, "a.dat".toList)] with
    | error e => rw [h] at hok; cases hok
    | ok s => exact ⟨s, rfl⟩
  · decide +kernel

/-- The arrays of the default run. -/
example : Arrays2 (demoSize 17689 17424) demoArr 128 :=
  ⟨by simp [demoArr], by simp [demoArr, demoSize], by simp [demoArr, demoSize]⟩

/-- The settings without a short default, given with few digits (test data). -/
def shortCmd : List (Text × Text) :=
  [("eps2".toList, "2.4e-5".toList), ("sigma".toList, "300".toList), ("min_time_step_size".toList, "1e-10".toList),
    ("max_time_step_size".toList, "1".toList)]

/-- The hypotheses of `C110_repeat` hold for the default settings with those four changed; those of `C110_repeat_again` are the ones
shown to hold beside `C109_stable`. -/
example : ∃ s, parseInputOptions optTable (fun _ => none) freshVars shortCmd = .ok s ∧
    (∀ r ∈ optRows, ∀ t, s.vars r.name = some (.str t) → Plain t) ∧
    ∀ r ∈ optRows, ∀ x, s.vars r.name = some (.dbl x) →
      ∃ y, Decimal 6 y ∧ (y = 0 ∨ (10 : ℚ) ^ (-300 : Int) ≤ |y|) ∧ x = binary64.round y := by
  have hok : (match parseInputOptions optTable (fun _ => none) freshVars shortCmd with
      | .ok s => optRows.all fun r => match s.vars r.name with
          | some (.dbl x) => ([(0, 0), (1, 0), (1, -2), (1, -6), (24, -6), (300, 0), (1, -10)] : List (Int × Int)).any fun y =>
              decide (x = binary64.round (y.1 * (10 : ℚ) ^ y.2))
          | some (.str t) => decide (t ∈ [[], "none".toList, "maDGiCart".toList, "cahn-hilliard".toList, "periodic".toList, "nearest".toList,
              "rk3ssp".toList])
          | _ => true
      | .error _ => false) = true := by decide +kernel
  cases h : parseInputOptions optTable (fun _ => none) freshVars shortCmd with
  | error e => rw [h] at hok; cases hok
  | ok s =>
    rw [h] at hok
    refine ⟨s, rfl, fun r hr t ht => ?_, fun r hr x hx => ?_⟩
    · have := List.all_eq_true.1 hok r hr
      rw [ht] at this
      have := of_decide_eq_true this
      simp only [List.mem_cons, List.not_mem_nil, or_false] at this
      rcases this with rfl | rfl | rfl | rfl | rfl | rfl | rfl <;> exact ⟨by decide, by decide, by decide, by decide⟩
    · have := List.all_eq_true.1 hok r hr
      rw [hx] at this
      obtain ⟨y, hy, e⟩ := List.any_eq_true.1 this
      have e := of_decide_eq_true e
      have hm : |y.1| < 10 ^ 6 ∧ (y.1 * (10 : ℚ) ^ y.2 = 0 ∨ (10 : ℚ) ^ (-300 : Int) ≤ |y.1 * (10 : ℚ) ^ y.2|) := by
        have all : ∀ y ∈ ([(0, 0), (1, 0), (1, -2), (1, -6), (24, -6), (300, 0), (1, -10)] : List (Int × Int)), |y.1| < 10 ^ 6 ∧
            (y.1 * (10 : ℚ) ^ y.2 = 0 ∨ (10 : ℚ) ^ (-300 : Int) ≤ |y.1 * (10 : ℚ) ^ y.2|) := by decide +kernel
        exact all y hy
      exact ⟨_, ⟨y.1, y.2, hm.1, rfl⟩, hm.2, e⟩

end Madg
