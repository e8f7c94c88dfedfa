/-
Residual monitoring as wired up by the driver: governing_equations/residual_calculator.cpp and
initialization/puppeteer.cpp.
-/
import Verif.Model.TimeLoop

namespace Madg

section
variable {K : Type} [Arith K] [LT K] [DecidableLT K] [DecidableEq K]

/-- Second half of `residual_calculator` (governing_equations/residual_calculator.cpp:33-43) for the single equation
`c` of this code base: from the residual norm and the process-wide `max_res`, the monitor entries and the new
`max_res`. -/
def residRecord (maxRes norm : K) : List (String × K) × K :=
  let mx := stdMax maxRes norm
  if mx ≠ 0 then ([("res_c", norm), ("abs_res", norm), ("rel_res", norm / mx)], mx)
  else ([("res_c", norm), ("abs_res", 1), ("rel_res", 1)], mx)

/-- A sequence of calls of `residual_calculator` in one process
(governing_equations/residual_calculator.cpp:7-10 initial value 0): monitors after each call. -/
def residRun : K → List K → List (List (String × K))
  | _, [] => []
  | mx, r :: rs => (residRecord mx r).1 :: residRun (residRecord mx r).2 rs

end

/-- What the observers attached by the driver act on: integrator state (arrays, controller), the logger's residual
monitor (logger/logger.hpp:45), the static `max_res` (governing_equations/residual_calculator.cpp:8), and a ghost
list of the integrator states after each step. -/
structure Mon (S K : Type) where
  s : S
  mon : List (String × K)
  maxRes : K
  hist : List S

section
variable {S K : Type} [Arith K] [LT K] [DecidableLT K] [DecidableEq K]

/-- Residual observer (initialization/puppeteer.cpp:222-227). -/
def residObserver (resNorm : S → K) (v : Mon S K) : Except Err (Mon S K) :=
  let r := residRecord v.maxRes (resNorm v.s)
  .ok { v with mon := r.1, maxRes := r.2 }

/-- Observers attached by the driver in its order: residual, solution monitor, time monitor, log line, and the VTK
writer if `save_every` is non-zero (initialization/puppeteer.cpp:60-65, 212-261).  The last four do not change what
the time loop reads; they are modelled as not changing the world (file output and log text are not part of it). -/
def puppetObs (resNorm : S → K) (logFreq saveEvery : Int) : Observable (Mon S K) :=
  let o0 : Observable (Mon S K) := Observable.new
  let o1 := o0.register .timeStepComplete (residObserver resNorm)
  let o2 := o1.register .timeStepComplete .ok
  let o3 := if saveEvery ≠ 0 then o2.register .solutionUpdate .ok else o2
  let o4 := o3.register .timeStepComplete .ok
  let o5 := o4.register .timeStepComplete .ok
  (o5.setFreq .timeStepComplete logFreq).setFreq .solutionUpdate saveEvery

/-- The environment of the time loop in the driver (initialization/puppeteer.cpp:54-65,
time_stepping/time_integrator.cpp:30-43). -/
def puppetEnv (doStep : S → K → K → Except Err S) (nextDT : S → K → S × K) :
    LoopEnv (Observable (Mon S K) × Mon S K) K where
  doStep w t dt := do
    let s ← doStep w.2.s t dt
    .ok (w.1, { w.2 with s := s, hist := w.2.hist ++ [s] })
  nextDT w dt :=
    let r := nextDT w.2.s dt
    ((w.1, { w.2 with s := r.1 }), r.2)
  notify w _ _ _ := do
    let p ← w.1.notify .timeStepComplete w.2
    p.1.notify .solutionUpdate p.2
  resmon w := w.2.mon

end

end Madg
