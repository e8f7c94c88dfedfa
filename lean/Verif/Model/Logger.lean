/-
The logger: messages, severity filter and the table of monitored values (logger/logger.hpp, logger/logger.cpp), and the
observers that feed it (initialization/puppeteer.cpp).

Values are `double` in the code and rational numbers here (infinities and NaN are not modelled). Boost.Log and the
rendering of the column headings by `tabulate` are library code: a heading row is represented by its list of names.
-/
import Verif.Model.Text
import Verif.Model.Observer

namespace Madg

/-- `LogLevel` (logger/logger.hpp:18). -/
inductive LogLevel where
  | trace | debug | info | warning | error | fatal
  deriving DecidableEq, Repr

/-- Order of the severities compared by the filter (`severity >= …`, logger/logger.cpp:66-84). -/
def LogLevel.rank : LogLevel → Nat
  | .trace => 0 | .debug => 1 | .info => 2 | .warning => 3 | .error => 4 | .fatal => 5

/-- A record handed to the logging library: text, or the table of column headings
(`BOOST_LOG_TRIVIAL(...) << ...`, logger/logger.cpp:150, 156, 179, 196, 254, 265, 272, 279, 286, 294). -/
inductive LogRec where
  | text (sev : LogLevel) (t : Text)
  | heading (sev : LogLevel) (names : List Text)
  deriving DecidableEq

/-- Severity of a record (logger/logger.cpp:150, 156, 179, 196, 254-294). -/
def LogRec.sev : LogRec → LogLevel
  | .text s _ => s
  | .heading s _ => s

/-- The mutable members of `Logger` that matter here (logger/logger.hpp:83-97): update counter, filter and on/off switch of
the logging library, whether the level was set, the three monitored lists, and the names shown in headings
(`residual_header_table`, logger/logger.cpp:31). The sinks are not modelled. -/
structure Logger where
  calls : Int
  filter : LogLevel
  enabled : Bool
  overridden : Bool
  timeS : List (Text × ℚ)
  residS : List (Text × ℚ)
  solS : List (Text × ℚ)
  head : List Text

/-- State after construction (logger/logger.cpp:34-60); Boost.Log starts without a filter. -/
def Logger.new : Logger := ⟨0, .trace, true, false, [], [], [], []⟩

/-- `boost::replace_all(str, "\n", "\n" + tag)` (logger/logger.cpp:253, 264, 271, 278, 285, 293). -/
def replaceNl (tag : Text) (s : Text) : Text := s.flatMap fun c => if c = '\n' then '\n' :: tag else [c]

/-- Prefix used for each severity (logger/logger.cpp:254, 265, 272, 279, 286, 294); error messages carry the trace prefix. -/
def tagOf : LogLevel → Text
  | .trace => "# [Trace] ".toList
  | .debug => "# [Debug] ".toList
  | .info => "# [Info] ".toList
  | .warning => "# [Warning] ".toList
  | .error => "# [Trace] ".toList
  | .fatal => "# [FATAL] ".toList

/-- The text logged by `Message` (logger/logger.cpp:220-295), that is by `FatalMessage`, …, `InfoMessage`. Fatal messages
are framed (logger/logger.cpp:252); their copy on standard output (logger/logger.cpp:250) is left out. -/
def msgText (lvl : LogLevel) (s : Text) : Text :=
  let s' := if lvl = .fatal then "**************************************\n\n".toList ++ s ++
    "\n\n**************************************".toList else s
  tagOf lvl ++ replaceNl (tagOf lvl) s'

/-- `Message` (logger/logger.cpp:220-295): the record, and whether the program goes on (`abort()`, logger/logger.cpp:258). -/
def Logger.message (lvl : LogLevel) (s : Text) : List LogRec × Except Err Unit :=
  ([.text lvl (msgText lvl s)], if lvl = .fatal then .error .abort else .ok ())

/-- `setLogLevel` (logger/logger.cpp:63-88). -/
def Logger.setLogLevel (L : Logger) (lvl : LogLevel) : Logger := { L with filter := lvl, overridden := true }

/-- `disable` and `enable` (logger/logger.cpp:90-100). -/
def Logger.setEnabled (L : Logger) (b : Bool) : Logger := { L with enabled := b }

/-- `initLogFile` (logger/logger.cpp:102-127), default level `trace` (logger/logger.hpp:32); file handling and banner left out. -/
def Logger.initLogFile (L : Logger) (lvl : LogLevel) : Logger := if L.overridden then L else L.setLogLevel lvl

/-- `closeLogFile` (logger/logger.cpp:299-316). -/
def Logger.closeLogFile (L : Logger) : Logger := { L with calls := 0 }

/-- `setTimeMonitor` (logger/logger.cpp:319-323). -/
def Logger.setTime (L : Logger) (l : List (Text × ℚ)) : Logger := { L with timeS := l }
/-- `setSolutionMonitor` (logger/logger.cpp:325-329). -/
def Logger.setSol (L : Logger) (l : List (Text × ℚ)) : Logger := { L with solS := l }
/-- `setResidualMonitor` (logger/logger.cpp:331-335). -/
def Logger.setResid (L : Logger) (l : List (Text × ℚ)) : Logger := { L with residS := l }

/-- `std::setw(w)` with the default fill and adjustment: pad with blanks on the left, never truncate
(logger/logger.cpp:185). -/
def setw (w : Nat) (t : Text) : Text := List.replicate (w - t.length) ' ' ++ t

/-- One column: `std::scientific << std::setprecision(5) << std::setw(colwidth)`, `colwidth = 13`
(logger/logger.cpp:29, 185, 189, 193). -/
def logCol (v : ℚ) : Text := setw 13 (sci 5 v)

/-- The data row (logger/logger.cpp:182-194). -/
def Logger.row (L : Logger) : Text :=
  ' ' :: ((L.timeS.flatMap fun p => logCol p.2) ++ (L.residS.flatMap fun p => logCol p.2) ++ L.solS.flatMap fun p => logCol p.2)

/-- Column names in order (logger/logger.cpp:135-147). -/
def Logger.names (L : Logger) : List Text := L.timeS.map Prod.fst ++ L.residS.map Prod.fst ++ L.solS.map Prod.fst

/-- `updateLog` (logger/logger.cpp:129-201). With no monitored value at all the first call formats column 0 of an empty
row (logger/logger.cpp:174). The counter is a mathematical integer (`int` in the code). -/
def Logger.updateLog (L : Logger) : Except Err (Logger × List LogRec) :=
  let head := if L.calls = 0 then L.names else L.head
  let first := if L.calls = 0 then
    [LogRec.text .warning "#\n# Logger outputs: ".toList, LogRec.text .warning (L.names.flatMap fun n => n ++ [' '])] else []
  let heading := if L.calls = 0 ∨ L.calls.tmod 50 = 0 then [LogRec.heading .warning head] else []
  if L.calls = 0 ∧ L.names = [] then .error .outOfBounds
  else .ok ({ L with calls := L.calls + 1, head := head }, first ++ heading ++ [LogRec.text .warning L.row])

/-- What reaches the sinks (logger/logger.cpp:66-84, 93, 99). -/
def Logger.shown (L : Logger) (r : List LogRec) : List LogRec :=
  r.filter fun x => L.enabled && decide (L.filter.rank ≤ x.sev.rank)

/-- The logger next to a simulation, with the records written so far (the singletons reached from the observers,
initialization/puppeteer.cpp:212-248). -/
structure LogWorld (S : Type) where
  sim : S
  log : Logger
  out : List LogRec

section
variable {S : Type} (time resid sol : S → List (Text × ℚ))

/-- The observer of `attachResidualObservers` (initialization/puppeteer.cpp:224-226). -/
def obsResid (w : LogWorld S) : Except Err (LogWorld S) := .ok { w with log := w.log.setResid (resid w.sim) }
/-- The first observer of `attachSolutionObservers` (initialization/puppeteer.cpp:232-248); the residual and solution values may not fail. -/
def obsSol (w : LogWorld S) : Except Err (LogWorld S) := .ok { w with log := w.log.setSol (sol w.sim) }
/-- The first observer of `attachTimeObservers` (initialization/puppeteer.cpp:215-216). -/
def obsTime (w : LogWorld S) : Except Err (LogWorld S) := .ok { w with log := w.log.setTime (time w.sim) }
/-- The second observer of `attachTimeObservers` (initialization/puppeteer.cpp:218). -/
def obsUpdate (w : LogWorld S) : Except Err (LogWorld S) :=
  w.log.updateLog.map fun p => { w with log := p.1, out := w.out ++ w.log.shown p.2 }

/-- The observers of the event `TimeStepComplete` as attached by the constructor (initialization/puppeteer.cpp:60-64), with
the logging frequency. -/
def attachLog (freq : Int) : Observable (LogWorld S) :=
  ((((Observable.new.register .timeStepComplete (obsResid resid)).register .timeStepComplete (obsSol sol)).register
    .timeStepComplete (obsTime time)).register .timeStepComplete obsUpdate).setFreq .timeStepComplete freq

end

/-- The notifications of a run that passes through the given simulation states (time_stepping/time_integrator.cpp:35-36). -/
def logRun {S : Type} : Observable (LogWorld S) → List S → LogWorld S → Except Err (Observable (LogWorld S) × LogWorld S)
  | o, [], w => .ok (o, w)
  | o, s :: l, w => (o.notify .timeStepComplete { w with sim := s }).bind fun p => logRun p.1 l p.2

end Madg
