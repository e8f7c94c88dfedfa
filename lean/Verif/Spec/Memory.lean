/-
What memory management and managed arrays should do: a table of live blocks, and one copy of each array.
-/
import Verif.Model.Memory

namespace Madg.Spec

/-! ### Blocks -/

/-- A live block as the user of the memory manager sees it: owned or borrowed, its addresses and length. -/
structure Blk (P : Type) where
  owned : Bool
  host : P
  dev : P
  len : Int

/-- Live blocks by handle, and the number of handles given out so far. -/
structure Blocks (P : Type) where
  count : Int
  live : Int → Option (Blk P)

/-- Requests to the memory manager; the addresses of fresh memory are part of the request. -/
inductive MMOp (P V : Type) where
  | alloc (n : Int) (hp dp : P) (jh jd : Int → V)
  | view (n : Int) (hp dp : P)
  | dealloc (h : Int)
  | deallocView (h : Int)

/-- Effect of a request: handles are numbered consecutively; `dealloc` releases owned blocks only. -/
def Blocks.step {P V : Type} (b : Blocks P) : MMOp P V → Blocks P
  | .alloc n hp dp _ _ => ⟨b.count + 1, fun i => if i = b.count + 1 then some ⟨true, hp, dp, n⟩ else b.live i⟩
  | .view n hp dp => ⟨b.count + 1, fun i => if i = b.count + 1 then some ⟨false, hp, dp, n⟩ else b.live i⟩
  | .dealloc h => ⟨b.count, fun i => if i = h ∧ (b.live h).any (fun x => x.owned) = true then none else b.live i⟩
  | .deallocView h => ⟨b.count, fun i => if i = h then none else b.live i⟩

/-- What the allocator provides: fresh memory is not in use, and every length fits. -/
def MMOp.Fresh {P V : Type} (gpu : Bool) (w : Int) (b : Blocks P) (heap dheap : P → Option (Int → V)) : MMOp P V → Prop
  | .alloc n hp dp _ _ => b.count < 2147483647 ∧ 0 ≤ n ∧ n * w ≤ 2147483647 ∧ heap hp = none ∧ (gpu = true → dheap dp = none)
  | .view n _ _ => b.count < 2147483647 ∧ 0 ≤ n ∧ n * w ≤ 2147483647
  | .dealloc _ => True
  | .deallocView _ => True

section
variable {P V : Type} [DecidableEq P]

/-- A request, answered by the manager; allocations return a handle. -/
def mmStep (gpu : Bool) (w : Int) (s : MMState P V) : MMOp P V → Except MMErr (MMState P V × Option Int)
  | .alloc n hp dp jh jd => (s.allocate gpu w n hp dp jh jd).map fun r => (r.1, some r.2)
  | .view n hp dp => (s.allocateView gpu w n hp dp).map fun r => (r.1, some r.2)
  | .dealloc h => (s.deallocate gpu h).map fun s' => (s', none)
  | .deallocView h => (s.deallocateView gpu h).map fun s' => (s', none)

/-- A history of requests and the handles it returned. -/
def mmRun (gpu : Bool) (w : Int) : MMState P V → List (MMOp P V) → Except MMErr (MMState P V × List Int)
  | s, [] => .ok (s, [])
  | s, op :: ops =>
    match mmStep gpu w s op with
    | .error e => .error e
    | .ok (s1, r) => (mmRun gpu w s1 ops).map fun q => (q.1, r.toList ++ q.2)

/-- The live blocks after a history. -/
def Blocks.run (b : Blocks P) (ops : List (MMOp P V)) : Blocks P := ops.foldl Blocks.step b

/-- Every allocation in a history gets fresh memory. Releases are unrestricted. -/
def MMGood (gpu : Bool) (w : Int) : MMState P V → Blocks P → List (MMOp P V) → Prop
  | _, _, [] => True
  | s, b, op :: ops => op.Fresh gpu w b s.heap s.dheap ∧
      ∀ s' r, mmStep gpu w s op = .ok (s', r) → MMGood gpu w s' (b.step op) ops

end

/-! ### Arrays -/

/-- One copy per array: length and contents. -/
abbrev Arrays (O V : Type) := O → Option (Int × (Int → V))

/-- Agreement of contents on the elements of an array of length `n`. -/
def Agree {V : Type} (n : Int) (c d : Int → V) : Prop := ∀ i, 0 ≤ i → i < n → c i = d i

variable {O P V : Type} [DecidableEq O] [Zero V]

/-- Effect of a program step on the single copies. -/
def arraysStep (x : Arrays O V) : ArrOp O P V → Arrays O V
  | .new o n v _ _ _ _ => fun o' => if o' = o then some (n, v) else x o'
  | .newView o n _ _ => fun o' => if o' = o then some (n, fun _ => 0) else x o'
  | .destroy o => fun o' => if o' = o then none else x o'
  | .read _ _ => x
  | .write o _ f => fun o' => if o' = o then (x o).map fun q => (q.1, f q.2) else x o'
  | .readWrite o _ f => fun o' => if o' = o then (x o).map fun q => (q.1, f q.2) else x o'
  | .swap a b => fun o' => if o' = b then x a else if o' = a then x b else x o'

/-- What a step should show: the single copy. -/
def arraysShow (x : Arrays O V) : ArrOp O P V → Option (Int × (Int → V))
  | .read o _ => x o
  | .readWrite o _ _ => x o
  | _ => none

/-- `f` is the effect of a session on an array of length `n`: it depends on nothing but the array's elements. -/
def Local (n : Int) (f : (Int → V) → Int → V) : Prop := ∀ c d, Agree n c d → Agree n (f c) (f d)

/-- `f` overwrites every element of an array of length `n`. -/
def Overwrites (n : Int) (f : (Int → V) → Int → V) : Prop := ∀ c d, Agree n (f c) (f d)

/-- Programs respect lifetimes, use the device only if there is one, and, if there is one, overwrite everything in
write-only sessions. -/
def opLegal (gpu : Bool) (w : Int) (x : Arrays O V) : ArrOp O P V → Prop
  | .new o n _ _ _ _ _ => x o = none ∧ 0 ≤ n ∧ n * w ≤ 2147483647
  | .newView o n _ _ => x o = none ∧ 0 ≤ n ∧ n * w ≤ 2147483647
  | .destroy o => x o ≠ none
  | .read o d => x o ≠ none ∧ (d = true → gpu = true)
  | .write o d f => (d = true → gpu = true) ∧ ∃ q, x o = some q ∧ Local q.1 f ∧ (gpu = true → Overwrites q.1 f)
  | .readWrite o d f => (d = true → gpu = true) ∧ ∃ q, x o = some q ∧ Local q.1 f
  | .swap a b => x a ≠ none ∧ x b ≠ none

/-- What the environment provides: unused addresses for fresh memory; for a view, memory that is allocated and neither
owned nor viewed by another array. The handle counter has not reached its maximum. -/
def opEnv (gpu : Bool) (s : ArrState O P V) : ArrOp O P V → Prop
  | .new _ _ _ hp dp _ _ => s.mem.mm.curr < 2147483647 ∧ s.mem.heap hp = none ∧ (gpu = true → s.mem.dheap dp = none)
  | .newView _ _ hp dp => s.mem.mm.curr < 2147483647 ∧ s.mem.heap hp ≠ none ∧
      (∀ h, s.mem.mm.host h ≠ some hp ∧ s.mem.mm.borrowed h ≠ some hp) ∧
      (gpu = true → s.mem.dheap dp ≠ none ∧ ∀ h, s.mem.mm.dev h ≠ some dp ∧ s.mem.mm.borrowedDev h ≠ some dp)
  | _ => True

/-- A whole program that is legal at each step in an environment that provides what it must. -/
def GoodRun [DecidableEq P] (gpu : Bool) (w : Int) : ArrState O P V → Arrays O V → List (ArrOp O P V) → Prop
  | _, _, [] => True
  | s, x, op :: ops => opLegal gpu w x op ∧ opEnv gpu s op ∧
      ∀ s' r, s.step gpu w op = .ok (s', r) → GoodRun gpu w s' (arraysStep x op) ops

/-- Everything a program should see. -/
def arraysReads (x : Arrays O V) : List (ArrOp O P V) → List (Int × (Int → V))
  | [] => []
  | op :: ops => (arraysShow x op).toList ++ arraysReads (arraysStep x op) ops

/-- The single copies after a program. -/
def arraysRun (x : Arrays O V) : List (ArrOp O P V) → Arrays O V
  | [] => x
  | op :: ops => arraysRun (arraysStep x op) ops

/-- Two things seen are the same: same length and same elements. -/
def Seen (a b : Int × (Int → V)) : Prop := a.1 = b.1 ∧ Agree a.1 a.2 b.2

end Madg.Spec
