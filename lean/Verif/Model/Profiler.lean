/-
Model of logger/profiler.hpp and logger/profiler.cpp.
-/
import Verif.Model.Prog
import Mathlib.Algebra.Order.Field.Basic
import Mathlib.Data.List.Perm.Basic

namespace Madg
variable {K : Type}

/-- `Profiler::FunctionProfile` (logger/profiler.hpp:51-54). The 64-bit counter is modelled as an unbounded integer. -/
structure FunctionProfile (K : Type) where
  ncalls : Int
  total : K

/-- `function_profiles_` (logger/profiler.hpp:56): the entries of the hash map in some order. -/
abbrev Profiles (K : Type) := List (String × FunctionProfile K)

/-- Access to an entry by `operator[]`, which adds a zero entry when there is none (logger/profiler.cpp:74, 79). -/
def Profiles.upd [Zero K] (name : String) (f : FunctionProfile K → FunctionProfile K) : Profiles K → Profiles K
  | [] => [(name, f ⟨0, 0⟩)]
  | (n, v) :: ps => if n = name then (n, f v) :: ps else (n, v) :: upd name f ps

/-- `Profiler::tic` (logger/profiler.cpp:72-75). -/
def Profiles.tic [Zero K] (ps : Profiles K) (name : String) : Profiles K := ps.upd name fun v => { v with ncalls := v.ncalls + 1 }

/-- `Profiler::toc` (logger/profiler.cpp:77-80). -/
def Profiles.toc [Zero K] [Add K] (ps : Profiles K) (name : String) (elapsed : K) : Profiles K :=
  ps.upd name fun v => { v with total := v.total + elapsed }

/-- The profiler with the timers that are alive, innermost first: name and starting time (logger/profiler.hpp:33-43). -/
structure Timers (K : Type) where
  profiles : Profiles K
  stack : List (String × K)

/-- Events in the life of the timers of a thread (logger/profiler.hpp:11-12): a function that calls `profile()` is entered, or
the innermost such function is left, at a time shown by the clock. Timers ended before their block ends
(`profile_toc`, unused in the source) are not modelled. -/
inductive TimerEv (K : Type) where
  | enter (name : String) (now : K)
  | leave (now : K)

/-- Constructor and destructor of `Profiler::FunctionTimer` (logger/profiler.cpp:83-96). Leaving without having entered has no
counterpart in the program and is an error here. -/
def Timers.step [Zero K] [Add K] [Sub K] (s : Timers K) : TimerEv K → Except Err (Timers K)
  | .enter name now => .ok ⟨s.profiles.tic name, (name, now) :: s.stack⟩
  | .leave now => match s.stack with
    | [] => .error .abort
    | (name, start) :: st => .ok ⟨s.profiles.toc name (now - start), st⟩

/-- A sequence of events (logger/profiler.hpp:11-12). -/
def Timers.run [Zero K] [Add K] [Sub K] (s : Timers K) : List (TimerEv K) → Except Err (Timers K)
  | [] => .ok s
  | e :: es => (s.step e).bind fun s => s.run es

/-- `Profiler::finalize`'s `Report` (logger/profiler.cpp:17-22). A percentage that is not a number, obtained by dividing by a
largest time of zero, is `none`. -/
structure ProfReport (K : Type) where
  name : String
  ncalls : Int
  time : K
  percentage : Option K

/-- `max_time` (logger/profiler.cpp:25-28). -/
def Profiles.maxTime [Zero K] [Max K] (ps : Profiles K) : K := ps.foldl (fun m p => max m p.2.total) 0

/-- The rows before sorting (logger/profiler.cpp:30-36). -/
def Profiles.reports [Field K] [LinearOrder K] (ps : Profiles K) : List (ProfReport K) :=
  ps.map fun p => ⟨p.1, p.2.ncalls, p.2.total, if ps.maxTime = 0 then none else some (p.2.total / ps.maxTime * 100)⟩

/-- The comparison passed to `std::sort` (logger/profiler.cpp:38-40); comparisons with NaN are false. -/
def ProfReport.before [LinearOrder K] (a b : ProfReport K) : Bool := match a.percentage, b.percentage with
  | some x, some y => decide (y < x)
  | _, _ => false

/-- The possible tables of `Profiler::finalize` (logger/profiler.cpp:12-69): the rows in an order that `std::sort`, which is not
stable, may produce from any order of iteration over the hash map. Number formats are not modelled. -/
def Finalizes [Field K] [LinearOrder K] (ps : Profiles K) (rows : List (ProfReport K)) : Prop :=
  rows.Perm ps.reports ∧ rows.Pairwise fun a b => b.before a = false

end Madg
