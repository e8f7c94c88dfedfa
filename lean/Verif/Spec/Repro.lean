/-
When two executions of the program count as the same.
-/
import Verif.Model.Program
import Verif.Spec.Run
import Verif.Spec.PoisRun

namespace Madg.Spec

/-- The columns of the log computed by adding up over all cells. -/
def summed : List String := ["res_c", "abs_res", "rel_res", "grad_c_mag"]

/-- Two log rows have the same columns in the same order and the same values, except perhaps in the summed columns. -/
def SameRow {K : Type} (r r' : List (String × K)) : Prop :=
  List.Forall₂ (fun a b => a.1 = b.1 ∧ (a.1 ∉ summed → a.2 = b.2)) r r'

/-- Two results: identical files, with identical names, in the same order, and log rows that are the same up to the summed
columns. -/
def SameResult {K : Type} : RunResult K → RunResult K → Prop
  | .done f r, .done f' r' => f = f' ∧ List.Forall₂ SameRow r r'
  | .outOfFuel, .outOfFuel => True
  | .unmodelled, .unmodelled => True
  | _, _ => False

/-- Two ends of an execution: the same failure, or the same contents of every array and the same results. -/
def SameEnd {A K : Type} : Except Err (RunResult K × Mem A K) → Except Err (RunResult K × Mem A K) → Prop
  | .ok (r, m), .ok (r', m') => SameResult r r' ∧ m = m'
  | .error e, .error e' => e = e'
  | _, _ => False

/-- The arrays are those of the domain in use, which is at least as wide as the halo. -/
structure Allocated {A K : Type} (sz : A → Int) (w : ProgArr A) (o : RunOpts K) (d : FileDomain K) : Prop where
  two : o.sel.dimension = 2 → 2 ≤ d.nx ∧ Arrays2 sz w d.nx
  three : o.sel.dimension = 3 → (2 ≤ d.nx ∧ 2 ≤ d.ny ∧ 2 ≤ d.nz) ∧ ArraysPois sz w d.nx d.ny d.nz ∧
    (o.sel.equation = "cahn-hilliard" → Arrays3 sz w d.nx d.ny d.nz)

end Madg.Spec
