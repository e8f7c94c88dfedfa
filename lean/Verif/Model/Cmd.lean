/-
Host code with reductions: parallel loops, parallel reductions and host scalars.
-/
import Verif.Model.Loop
import Mathlib.Data.List.Forall2

namespace Madg

/-- Values a parallel reduction may produce from the list of contributions (initial value included): the
contributions are combined pairwise in any order and grouping (RAJA reducers `ReduceSumReal`, `ReduceMinReal`,
`ReduceMaxReal`, data_structures/exec_includes.hpp:26-62: each thread combines some contributions, the partial
results are combined afterwards). -/
inductive Comb {K : Type} (op : K → K → K) : List K → K → Prop
  | leaf (x : K) : Comb op [x] x
  | node (xs ys zs : List K) (a b : K) (hx : Comb op xs a) (hy : Comb op ys b) (hp : (xs ++ ys).Perm zs) :
      Comb op zs (op a b)

/-- Host code: issue a parallel loop, run a parallel reduction and continue with its result, read or write a single
element from the host, fail, or return.  Models functions that mix loops with host scalars, e.g.
time_stepping/ode23.cpp:17-125, governing_equations/residual_calculator.cpp:7-46; single accesses are those of sequential
host code such as file_io/vtk_solution_writer.cpp:34-191. -/
inductive Cmd (A K α : Type) where
  | ret (x : α)
  | loop (ps : Pool A K) (k : Cmd A K α)
  | reduce (op : K → K → K) (init : K) (ps : List (Prog A K K)) (k : K → Cmd A K α)
  | load (a : A) (i : Int) (k : K → Cmd A K α)
  | store (a : A) (i : Int) (v : K) (k : Cmd A K α)
  | fail (e : Err)

namespace Cmd
variable {A K α β : Type}

/-- Sequencing of host code (C++ statement order, e.g. time_stepping/ode23.cpp:17-125). -/
def bind : Cmd A K α → (α → Cmd A K β) → Cmd A K β
  | .ret x, f => f x
  | .loop ps k, f => .loop ps (k.bind f)
  | .reduce op i ps k, f => .reduce op i ps (fun v => (k v).bind f)
  | .load a i k, f => .load a i (fun v => (k v).bind f)
  | .store a i v k, f => .store a i v (k.bind f)
  | .fail e, _ => .fail e

instance : Monad (Cmd A K) where
  pure := Cmd.ret
  bind := Cmd.bind

/-- A host routine without reductions (e.g. time_stepping/rk3ssp.cpp:15-74). -/
def ofHost : Host A K → Cmd A K Unit
  | [] => .ret ()
  | ps :: h => .loop ps (ofHost h)

/-- Sequential host code that reads and writes single elements
(e.g. file_io/vtk_solution_writer.cpp:34-191, file_io/vtk_solution_reader.cpp:120-173). -/
def ofProg : Prog A K α → Cmd A K α
  | .pure x => .ret x
  | .load a i k => .load a i (fun v => ofProg (k v))
  | .store a i v k => .store a i v (ofProg k)
  | .fail e => .fail e

/-- Host code that touches no array (e.g. file_io/vtk_solution_reader.cpp:16-117). -/
def ofExcept : Except Err α → Cmd A K α
  | .ok x => .ret x
  | .error e => .fail e

/-- A reduction over contributions computed by read-only bodies
(data_structures/exec_includes.hpp:26-62). -/
def reduceOf (op : K → K → K) (init : K) (ps : List (Prog A K K)) : Cmd A K K := .reduce op init ps .ret

end Cmd

/-- Possible outcomes of host code over all schedules of its loops and all combination orders of its reductions
(data_structures/exec_includes.hpp:26-86). The bodies of reductions only read, so they are run one by one; a body
that fails makes the whole reduction fail. -/
inductive CmdOut {A K α : Type} [DecidableEq A] (sz : A → Int) :
    Cmd A K α → Mem A K → Except Err (α × Mem A K) → Prop
  | ret (x : α) (m : Mem A K) : CmdOut sz (.ret x) m (.ok (x, m))
  | fail (e : Err) (m : Mem A K) : CmdOut sz (.fail e) m (.error e)
  | loop (ps : Pool A K) (k : Cmd A K α) (m m1 : Mem A K) (o) (h : KernelOut sz ps m (.ok m1))
      (hk : CmdOut sz k m1 o) : CmdOut sz (.loop ps k) m o
  | loopFault (ps : Pool A K) (k : Cmd A K α) (m : Mem A K) (e : Err) (h : KernelOut sz ps m (.fault e)) :
      CmdOut sz (.loop ps k) m (.error e)
  | reduce (op : K → K → K) (init : K) (ps : List (Prog A K K)) (k : K → Cmd A K α) (m : Mem A K) (xs : List K)
      (r : K) (o) (hx : List.Forall₂ (fun p x => p.run sz m = .ok (x, m)) ps xs)
      (hr : Comb op (init :: xs) r) (hk : CmdOut sz (k r) m o) : CmdOut sz (.reduce op init ps k) m o
  | reduceFault (op : K → K → K) (init : K) (ps : List (Prog A K K)) (k : K → Cmd A K α) (m : Mem A K)
      (p : Prog A K K) (hp : p ∈ ps) (e : Err) (hf : p.run sz m = .error e) :
      CmdOut sz (.reduce op init ps k) m (.error e)
  | load (a : A) (i : Int) (k : K → Cmd A K α) (m : Mem A K) (o) (h : InB sz a i) (hk : CmdOut sz (k (m a i)) m o) :
      CmdOut sz (.load a i k) m o
  | loadFault (a : A) (i : Int) (k : K → Cmd A K α) (m : Mem A K) (h : ¬ InB sz a i) :
      CmdOut sz (.load a i k) m (.error .outOfBounds)
  | store (a : A) (i : Int) (v : K) (k : Cmd A K α) (m : Mem A K) (o) (h : InB sz a i)
      (hk : CmdOut sz k (m.set a i v) o) : CmdOut sz (.store a i v k) m o
  | storeFault (a : A) (i : Int) (v : K) (k : Cmd A K α) (m : Mem A K) (h : ¬ InB sz a i) :
      CmdOut sz (.store a i v k) m (.error .outOfBounds)

/-- All schedules and combination orders lead to the single normal outcome `(x, m')`.  Specification predicate
(cf. data_structures/exec_includes.hpp:26-86). -/
def CDet {A K α : Type} [DecidableEq A] (sz : A → Int) (c : Cmd A K α) (m : Mem A K) (x : α) (m' : Mem A K) :
    Prop :=
  ∀ o, CmdOut sz c m o ↔ o = .ok (x, m')

end Madg
