/-
Specification vocabulary for time stepping, observers and monitors.
-/
import Verif.Model.TimeLoop

namespace Madg.Spec

/-- The steps follow one another, starting at `t` and ending at `t'`. -/
def Consecutive {K : Type} [Add K] : K → List (StepRec K) → K → Prop
  | t, [], t' => t = t'
  | t, s :: ss, t' => s.t = t ∧ Consecutive (t + s.dt) ss t'

/-- No step limit and no tolerance is set: 0 disables each of them. -/
def Unlimited {K : Type} [Zero K] (o : TimeOpts K) : Prop := o.maxSteps = 0 ∧ o.relTol = 0 ∧ o.absTol = 0

/-- The integrator keeps the step size. -/
def FixedStep {W K : Type} (E : LoopEnv W K) : Prop := ∀ w dt, (E.nextDT w dt).2 = dt

/-- What observers should do for a history of notifications: the observers of `e` run, in order, at the
notifications of `e` whose ordinal (counted from `c e`, not counting other events) is a multiple of `f e`. -/
def fireRun {W : Type} (obs : Event → List (W → Except Err W)) (f : Event → Int) :
    (Event → Int) → List Event → W → Except Err W
  | _, [], w => .ok w
  | c, e :: es, w =>
    Except.bind (ε := Err) (α := W) (if f e ∣ c e then (obs e).foldlM (fun w g => g w) w else .ok w) fun w' =>
      fireRun obs f (fun e' => c e' + if e' = e then 1 else 0) es w'

/-- Largest of `m` and the entries of the list. -/
def maxOf {K : Type} [Max K] (m : K) (l : List K) : K := l.foldl max m

/-- Steps of a run are numbered from 0; with logging every `f` steps, the last logged step among the first `k`. -/
def lastLogged (f k : Nat) : Nat := (k - 1) / f * f

/-- Largest residual logged among the first `k` steps (0 if none), when step `i` has residual `r i`. -/
def seenMax {K : Type} [Zero K] [Max K] (f : Nat) (r : Nat → K) (k : Nat) : K :=
  maxOf 0 (((List.range k).filter fun i => decide (f ∣ i)).map r)

/-- Relative residual as known after `k ≥ 1` steps. -/
def seenRel {K : Type} [Arith K] [DecidableEq K] [Max K] (f : Nat) (r : Nat → K) (k : Nat) : K :=
  if seenMax f r k ≠ 0 then r (lastLogged f k) / seenMax f r k else 1

/-- The documented stopping rule after `k` steps of a run: step limit, relative or absolute tolerance, each disabled
by 0; residuals are those of the last logged step. -/
def StopAt {K : Type} [Arith K] [LT K] [DecidableEq K] [Max K] (o : TimeOpts K) (f : Nat) (r : Nat → K) (k : Nat) : Prop :=
  (o.maxSteps ≠ 0 ∧ o.maxSteps ≤ o.initialStep + k) ∨ (o.relTol ≠ 0 ∧ seenRel f r k < o.relTol) ∨
  (o.absTol ≠ 0 ∧ r (lastLogged f k) < o.absTol)

end Madg.Spec
