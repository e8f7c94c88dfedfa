/-
What a profile should contain.
-/
import Verif.Model.Profiler

namespace Madg.Spec
variable {K : Type}

/-- How often `name` was entered. -/
def entered (name : String) : List (TimerEv K) → Nat
  | [] => 0
  | .enter n _ :: es => (if n = name then 1 else 0) + entered name es
  | .leave _ :: es => entered name es

/-- The functions being executed after some events, innermost first. -/
def active : List String → List (TimerEv K) → List String
  | st, [] => st
  | st, .enter n _ :: es => active (n :: st) es
  | st, .leave _ :: es => active st.tail es

/-- Integral over time of the number of activations of `name`: each interval between events counts as often as `name` is being
executed during it. `st` is what is being executed at the time `t`. -/
def spent [Zero K] [Add K] [Sub K] [Mul K] [NatCast K] (name : String) : List String → K → List (TimerEv K) → K
  | _, _, [] => 0
  | st, t, .enter n now :: es => (now - t) * (st.count name : K) + spent name (n :: st) now es
  | st, t, .leave now :: es => (now - t) * (st.count name : K) + spent name st.tail now es

/-- The time of the last event. -/
def lastTime : K → List (TimerEv K) → K
  | t, [] => t
  | _, .enter _ now :: es => lastTime now es
  | _, .leave now :: es => lastTime now es

/-- The clock never goes back. -/
def ClockOk [LE K] : K → List (TimerEv K) → Prop
  | _, [] => True
  | t, .enter _ now :: es => t ≤ now ∧ ClockOk now es
  | t, .leave now :: es => t ≤ now ∧ ClockOk now es

/-- `name` is never entered while it is being executed. -/
def NotRecursive (name : String) : List String → List (TimerEv K) → Prop
  | _, [] => True
  | st, .enter n _ :: es => (n = name → name ∉ st) ∧ NotRecursive name (n :: st) es
  | st, .leave _ :: es => NotRecursive name st.tail es

/-- Entry of a table of profiles. -/
def entry (ps : Profiles K) (name : String) : Option (FunctionProfile K) := (ps.find? fun p => p.1 = name).map (·.2)

end Madg.Spec
