/-
The time loop: time_stepping/time_integrator.{hpp,cpp}.
-/
import Verif.Model.Arith
import Verif.Model.Observer
import Mathlib.Algebra.Order.Field.Basic

namespace Madg

/-- `TimeIntegratorOptions` (time_stepping/time_integrator_options.hpp:15-27), the members used by the loop. -/
structure TimeOpts (K : Type) where
  t0 : K
  tfinal : K
  dt0 : K
  useCfl : Bool
  maxSteps : Int
  initialStep : Int
  relTol : K
  absTol : K

/-- Conversion of the `unsigned` option to `int_t` when the options are collected
(time_stepping/time_integrator_options.hpp:104, program_options/program_options_parser.cpp:168,
typedefs.hpp `int_t = int32_t`). -/
def maxStepsOfOption (n : Nat) : Int := (BitVec.ofNat 32 n).toInt

/-- What the loop calls: the integrator's `doTimeStep` and `computeNextDT` (virtual functions,
time_stepping/time_integrator.hpp:36, 75), `notifyObservers` for both events
(time_stepping/time_integrator.cpp:35-36), and `Logger::getResidualMonitor` (logger/logger.hpp:45).  `W` is
everything these can change (arrays, controller, monitors, log); `notify` receives iteration, time and step size,
which observers read through the integrator (time_stepping/time_integrator.hpp:38-40). -/
structure LoopEnv (W K : Type) where
  doStep : W → K → K → Except Err W
  nextDT : W → K → W × K
  notify : W → Int → K → K → Except Err W
  resmon : W → List (String × K)

/-- Record of one executed step: start time, size and the size proposed by `computeNextDT` (for the first step, the
initial size).  Ghost data for specification; the code keeps no such record (cf.
time_stepping/time_integrator.cpp:28-44). -/
structure StepRec (K : Type) where
  t : K
  dt : K
  prop : K

/-- Members `iter_`, `time_`, `dt_` (time_stepping/time_integrator.hpp:52-54) with the world and the ghost record.
`prop` is the proposal behind the current `dt`. -/
structure LoopSt (W K : Type) where
  w : W
  iter : Int
  time : K
  dt : K
  prop : K
  steps : List (StepRec K)

section
variable {W K : Type} [Arith K] [LT K] [DecidableLT K] [LE K] [DecidableLE K] [DecidableEq K] [Max K] [Min K]

/-- First entry with the given name (loop with `break`, time_stepping/time_integrator.cpp:103-112). -/
def findMon (l : List (String × K)) (name : String) : Option K := (l.find? fun kv => kv.1 = name).map (·.2)

/-- The relative tolerance test (time_stepping/time_integrator.cpp:101-113). -/
def relStop (tol : K) (mon : List (String × K)) : Bool :=
  if tol ≠ 0 then
    match findMon mon "rel_res" with
    | some v => decide (v < tol)
    | none => false
  else false

/-- `computeNextTimestep` (time_stepping/time_integrator.cpp:73-124): new world, step size, proposal, `last`, `stop`.
`resmon.front()` on an empty vector is undefined behaviour. -/
def nextTimestep (E : LoopEnv W K) (o : TimeOpts K) (l : LoopSt W K) :
    Except Err (W × K × K × Bool × Bool) :=
  let (w, prop) := E.nextDT l.w l.dt
  if o.useCfl then .error .abort
  else
    let last : Bool := decide (o.tfinal ≤ l.time + prop)
    let dt := if last then o.tfinal - l.time else prop
    let stop1 : Bool := decide (o.maxSteps ≠ 0) && decide (o.maxSteps ≤ l.iter)
    let stop2 : Bool := relStop o.relTol (E.resmon w)
    if o.absTol ≠ 0 then
      match E.resmon w with
      | [] => .error .outOfBounds
      | kv :: _ => .ok (w, dt, prop, last, stop1 || stop2 || decide (kv.2 < o.absTol))
    else .ok (w, dt, prop, last, stop1 || stop2)

/-- The `while` loop of `solve` (time_stepping/time_integrator.cpp:28-44) with a bound on the number of iterations;
`none` when the bound is exhausted. -/
def loop (E : LoopEnv W K) (o : TimeOpts K) : Nat → Bool → LoopSt W K → Option (Except Err (LoopSt W K))
  | 0, _, _ => none
  | n + 1, last, l =>
    match E.doStep l.w l.time l.dt with
    | .error e => some (.error e)
    | .ok w1 =>
      match E.notify w1 (l.iter + 1) (l.time + l.dt) l.dt with
      | .error e => some (.error e)
      | .ok w2 =>
        let l1 : LoopSt W K := { w := w2, iter := l.iter + 1, time := l.time + l.dt, dt := l.dt, prop := l.prop,
                                 steps := l.steps ++ [⟨l.time, l.dt, l.prop⟩] }
        if last then some (.ok l1)
        else
          match nextTimestep E o l1 with
          | .error e => some (.error e)
          | .ok (w3, dt, prop, last', stop) =>
            let l2 := { l1 with w := w3, dt := dt, prop := prop }
            if stop then some (.ok l2) else loop E o n last' l2

/-- `TimeIntegrator::solve` (time_stepping/time_integrator.cpp:14-45) after the initial condition has been set:
`initialTimestep` (time_stepping/time_integrator.cpp:48-64) and the loop. -/
def solve (E : LoopEnv W K) (o : TimeOpts K) (fuel : Nat) (w : W) : Option (Except Err (LoopSt W K)) :=
  if o.useCfl then some (.error .abort)
  else loop E o fuel false ⟨w, o.initialStep, o.t0, o.dt0, o.dt0, []⟩

end

end Madg
