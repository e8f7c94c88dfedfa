/-
Memory, loop bodies, parallel loops and host routines.

Models the execution substrate of the code: `maDGForAll` (data_structures/exec_includes.hpp:26-86),
`Span::operator[]` (data_structures/span.hpp:14-20) and the host code that issues one parallel loop
after the other.
-/
import Mathlib.Logic.Relation

namespace Madg

/-- Reasons for not finishing normally.  `outOfBounds` is undefined behaviour (unchecked pointer access,
data_structures/span.hpp:14-20); `abort` is `Logger::FatalMessage` (logger/logger.cpp:245-259);
`divByZero` is integer division by zero; `uninit` is a use of an uninitialised variable;
`thrown` is an uncaught C++ exception; `dataRace` is a data race between iterations of one parallel loop, undefined
behaviour under OpenMP and CUDA (data_structures/exec_includes.hpp:26-86); `badConv` is the conversion of an infinite,
undefined or too large floating-point number to `int`, undefined behaviour (file_io/vtk_solution_writer.cpp:41). -/
inductive Err where
  | outOfBounds
  | abort
  | divByZero
  | uninit
  | thrown
  | dataRace
  | badConv
  deriving DecidableEq, Repr

/-- Memory: for each array (name in `A`) the contents at each offset.  Offsets outside the allocation
carry arbitrary values that no program can observe or change, because access there faults.
Models the buffers handed out by data_structures/memory_manager.cpp:67-94. -/
abbrev Mem (A K : Type) := A → Int → K

/-- Overwriting one element: the assignment `span[i] = v` (data_structures/span.hpp:14-20). -/
def Mem.set {A K : Type} [DecidableEq A] (m : Mem A K) (a : A) (i : Int) (v : K) : Mem A K :=
  fun b j => if b = a ∧ j = i then v else m b j

/-- `i` is a legal offset into array `a`, whose allocated size is `sz a`
(the assertions of data_structures/span.hpp:16-17). -/
def InB {A : Type} (sz : A → Int) (a : A) (i : Int) : Prop := 0 ≤ i ∧ i < sz a

instance {A : Type} (sz : A → Int) (a : A) (i : Int) : Decidable (InB sz a i) :=
  inferInstanceAs (Decidable (_ ∧ _))

/-- The body of one loop iteration as a program of single loads and stores: the code between the braces of
a `maDGForAll` (data_structures/exec_includes.hpp:66-86).  Pure computation between accesses is Lean code. -/
inductive Prog (A K α : Type) where
  | pure (x : α)
  | load (a : A) (i : Int) (k : K → Prog A K α)
  | store (a : A) (i : Int) (v : K) (k : Prog A K α)
  | fail (e : Err)

namespace Prog
variable {A K α β : Type}

/-- Sequencing inside one iteration: `p; q` within the braces of a loop body
(data_structures/exec_includes.hpp:66-86). -/
def bind : Prog A K α → (α → Prog A K β) → Prog A K β
  | .pure x, f => f x
  | .load a i k, f => .load a i (fun v => (k v).bind f)
  | .store a i v k, f => .store a i v (k.bind f)
  | .fail e, _ => .fail e

instance : Monad (Prog A K) where
  pure := Prog.pure
  bind := Prog.bind

/-- Read `span[i]` (data_structures/span.hpp:14-20). -/
def rd (a : A) (i : Int) : Prog A K K := .load a i .pure

/-- Write `span[i] = v` (data_structures/span.hpp:14-20). -/
def wr (a : A) (i : Int) (v : K) : Prog A K Unit := .store a i v (.pure ())

/-- Checked read of a read-only index list such as `interior_indices_`
(data_structures/span.hpp:14-20; out-of-range index is undefined behaviour). -/
def idx (l : List Int) (i : Nat) : Prog A K Int :=
  match l[i]? with
  | some n => .pure n
  | none => .fail .outOfBounds

/-- A sequential inner loop `for (x : xs) f(x)` inside a loop body (for example
spatial_discretization/discretization_3d_cart.cpp:385-400). -/
def forEach {ι : Type} : List ι → (ι → Prog A K Unit) → Prog A K Unit
  | [], _ => .pure ()
  | x :: xs, f => (f x).bind (fun _ => forEach xs f)

/-- Running one iteration alone, to completion: what a serial build executes for one index
(data_structures/exec_includes.hpp:66-74). -/
def run [DecidableEq A] (sz : A → Int) : Prog A K α → Mem A K → Except Err (α × Mem A K)
  | .pure x, m => .ok (x, m)
  | .load a i k, m => if InB sz a i then (k (m a i)).run sz m else .error .outOfBounds
  | .store a i v k, m => if InB sz a i then k.run sz (m.set a i v) else .error .outOfBounds
  | .fail e, _ => .error e

/-- The next action of the program cannot be performed: it reads or writes outside an array
(data_structures/span.hpp:14-20) or stops with an error. -/
def Faults (sz : A → Int) (e : Err) : Prog A K α → Prop
  | .pure _ => False
  | .load a i _ => ¬ InB sz a i ∧ e = .outOfBounds
  | .store a i _ _ => ¬ InB sz a i ∧ e = .outOfBounds
  | .fail e' => e = e'

/-- The location the next action of the program accesses, and whether it writes (data_structures/span.hpp:14-20). -/
def access : Prog A K α → Option (A × Int × Bool)
  | .load a i _ => some (a, i, false)
  | .store a i _ _ => some (a, i, true)
  | _ => none

end Prog

/-- A parallel loop: one program per iteration index (`maDGForAll(i, 0, n, body)`,
data_structures/exec_includes.hpp:26-86). -/
abbrev Pool (A K : Type) := List (Prog A K Unit)

/-- One scheduling step of a parallel loop: some iteration performs its next load or store.
Any iteration may be chosen, so every thread assignment and order of RAJA's serial, OpenMP and GPU policies
(data_structures/exec_includes.hpp:26-86) is one path of this relation. -/
inductive Step {A K : Type} [DecidableEq A] (sz : A → Int) :
    Pool A K × Mem A K → Pool A K × Mem A K → Prop
  | load (pre post : Pool A K) (a : A) (i : Int) (k : K → Prog A K Unit) (m : Mem A K) (h : InB sz a i) :
      Step sz (pre ++ .load a i k :: post, m) (pre ++ k (m a i) :: post, m)
  | store (pre post : Pool A K) (a : A) (i : Int) (v : K) (k : Prog A K Unit) (m : Mem A K)
      (h : InB sz a i) :
      Step sz (pre ++ .store a i v k :: post, m) (pre ++ k :: post, m.set a i v)

/-- Result of executing code: a final memory, or a fault (undefined behaviour or abort).
Models process-level behaviour: normal continuation, or the failures of `Err`
(logger/logger.cpp:245-259, data_structures/span.hpp:14-20). -/
inductive Outcome (A K : Type) where
  | ok (m : Mem A K)
  | fault (e : Err)

/-- Possible outcomes of one parallel loop over all schedules: it has finished when every iteration has, it faults when
some iteration's next action is illegal, and it has a data race when two iterations are about to access the same location
and one of them to write it (nothing inside a loop orders iterations, data_structures/exec_includes.hpp:26-86). -/
inductive KernelOut {A K : Type} [DecidableEq A] (sz : A → Int) (ps : Pool A K) (m : Mem A K) :
    Outcome A K → Prop
  | done (qs : Pool A K) (m' : Mem A K) (h : Relation.ReflTransGen (Step sz) (ps, m) (qs, m'))
      (hd : ∀ q ∈ qs, q = .pure ()) : KernelOut sz ps m (.ok m')
  | fault (qs : Pool A K) (m' : Mem A K) (h : Relation.ReflTransGen (Step sz) (ps, m) (qs, m'))
      (q : Prog A K Unit) (hq : q ∈ qs) (e : Err) (hf : q.Faults sz e) : KernelOut sz ps m (.fault e)
  | race (qs : Pool A K) (m' : Mem A K) (h : Relation.ReflTransGen (Step sz) (ps, m) (qs, m')) (x y : Nat) (hxy : x ≠ y)
      (p q : Prog A K Unit) (hp : qs[x]? = some p) (hq : qs[y]? = some q) (a : A) (i : Int) (w w' : Bool)
      (hpa : p.access = some (a, i, w)) (hqa : q.access = some (a, i, w')) (hw : w = true ∨ w' = true) :
      KernelOut sz ps m (.fault .dataRace)

/-- A host routine: parallel loops executed one after the other with a barrier in between, as every function
of spatial_discretization/*.cpp and governing_equations/*/*.cpp does (RAJA `forall` returns when all
iterations are done, data_structures/exec_includes.hpp:26-86). -/
abbrev Host (A K : Type) := List (Pool A K)

/-- Possible outcomes of a host routine over all schedules of all its loops
(data_structures/exec_includes.hpp:26-86). -/
def HostOut {A K : Type} [DecidableEq A] (sz : A → Int) : Host A K → Mem A K → Outcome A K → Prop
  | [], m, o => o = .ok m
  | ps :: h, m, o =>
      (∃ m1, KernelOut sz ps m (.ok m1) ∧ HostOut sz h m1 o) ∨
      (∃ e, KernelOut sz ps m (.fault e) ∧ o = .fault e)

/-- The host routine is deterministic and safe from `m`: over all schedules the set of outcomes is exactly
the single normal outcome `m'`.  Specification predicate; models no code of its own
(cf. data_structures/exec_includes.hpp:26-86). -/
def Det {A K : Type} [DecidableEq A] (sz : A → Int) (h : Host A K) (m m' : Mem A K) : Prop :=
  ∀ o, HostOut sz h m o ↔ o = .ok m'

/-- `Logger::FatalMessage` on the host (logger/logger.cpp:245-259): a step that always stops the process. -/
def abortHost {A K : Type} : Host A K := [[.fail .abort]]

end Madg
