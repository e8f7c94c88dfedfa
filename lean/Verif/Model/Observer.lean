/-
Observer notification: utils/observer.hpp.
-/
import Verif.Model.Prog

namespace Madg

/-- utils/observer.hpp:11. -/
inductive Event where
  | timeStepComplete
  | solutionUpdate
  deriving DecidableEq, Repr

/-- `Observable` (utils/observer.hpp:21-64): registered observers per event (`none`: no map entry), update
frequency and notification counter per event.  Observers act on a world `W` and may fail.  Counters are
mathematical integers (the code counts in `int`; 2^31 notifications are not considered), and observers do not
register further observers. -/
structure Observable (W : Type) where
  obs : Event → Option (List (W → Except Err W))
  freq : Event → Int
  count : Event → Int

namespace Observable
variable {W : Type}

/-- Constructor (utils/observer.hpp:23-29). -/
def new : Observable W := ⟨fun _ => none, fun _ => 1, fun _ => 0⟩

/-- `registerObserver` (utils/observer.hpp:33-37): `observers_[event].push_back(observer)`. -/
def register (o : Observable W) (e : Event) (f : W → Except Err W) : Observable W :=
  { o with obs := fun e' => if e' = e then some ((o.obs e).getD [] ++ [f]) else o.obs e' }

/-- `setNotifyFrequency` (utils/observer.hpp:58). -/
def setFreq (o : Observable W) (e : Event) (f : Int) : Observable W :=
  { o with freq := fun e' => if e' = e then f else o.freq e' }

/-- Calling the observers one after the other (utils/observer.hpp:50-52). -/
def callAll : List (W → Except Err W) → W → Except Err W
  | [], w => .ok w
  | f :: fs, w => (f w).bind (callAll fs)

/-- `notifyObservers` (utils/observer.hpp:40-56).  `%` on `int` truncates; a zero frequency is undefined
behaviour. -/
def notify (o : Observable W) (e : Event) (w : W) : Except Err (Observable W × W) :=
  match o.obs e with
  | none => .ok (o, w)
  | some fs =>
    if o.freq e = 0 then .error .divByZero
    else
      (if (o.count e).tmod (o.freq e) = 0 then callAll fs w else .ok w).bind fun w' =>
      .ok ({ o with count := fun e' => if e' = e then o.count e + 1 else o.count e' }, w')

/-- A sequence of notifications (the calls made by time_stepping/time_integrator.cpp:35-36 over a run). -/
def notifyAll (o : Observable W) : List Event → W → Except Err (Observable W × W)
  | [], w => .ok (o, w)
  | e :: es, w => (o.notify e w).bind fun p => p.1.notifyAll es p.2

end Observable

end Madg
