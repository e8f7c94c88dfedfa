/-
The memory manager (data_structures/memory_manager.{hpp,cpp}) and managed arrays with their host and device copies
(data_structures/managed_array.hpp), on explicit host and device heaps.

`P` are addresses, `V` element values, `O` the array objects of the program. `gpu` is the macro `MADG_USE_GPU`, `w` is
`sizeof(BaseType)`. Addresses returned by `new[]`/`cudaMalloc` and the contents of fresh memory come from the environment.
Not modelled: messages, statistics, the debug stack traces, `handles_` (only printed), failing allocations, and spans kept
across later accesses (an access and the use of its span are one step).
-/
import Mathlib.Algebra.Group.Defs
import Mathlib.Data.Int.Basic
import Mathlib.Algebra.Notation.Defs

namespace Madg

/-- Ways in which memory management can go wrong: `delete[]` of memory that is not allocated, use of memory that is not
allocated, the `abort()` of `hostData`/`deviceData` (data_structures/memory_manager.cpp:211, 232), `std::out_of_range` from
`data_sizes_.at` (line 246), overflow of `curr_index_` (line 70), a null device pointer in a build without device (line
238), and use of an array object outside its lifetime. -/
inductive MMErr where
  | badFree | deadBlock | lookupAbort | outOfRange | overflow | noDevice | lifetime
  deriving DecidableEq

/-- Data members of `MemoryManager` (data_structures/memory_manager.hpp:58-77). -/
structure MM (P : Type) where
  curr : Int
  host : Int → Option P
  borrowed : Int → Option P
  dev : Int → Option P
  borrowedDev : Int → Option P
  sizes : Int → Option Int

/-- The manager together with the host and device heaps (data_structures/memory_manager.cpp:67-299). -/
structure MMState (P V : Type) where
  mm : MM P
  heap : P → Option (Int → V)
  dheap : P → Option (Int → V)

/-- `unordered_map::insert`: an existing entry stays (data_structures/memory_manager.cpp:74). -/
def mapInsert {α β : Type} [DecidableEq α] (m : α → Option β) (k : α) (v : β) : α → Option β :=
  fun i => if i = k then some ((m k).getD v) else m i

/-- `unordered_map::erase` (data_structures/memory_manager.cpp:126). -/
def mapErase {α β : Type} [DecidableEq α] (m : α → Option β) (k : α) : α → Option β :=
  fun i => if i = k then none else m i

/-- Assignment to an entry, or new contents of a heap block (data_structures/memory_manager.cpp:67-299). -/
def mapSet {α β : Type} [DecidableEq α] (m : α → Option β) (k : α) (v : β) : α → Option β :=
  fun i => if i = k then some v else m i

/-- Conversion of a size in bytes to `int_t` (data_structures/memory_manager.cpp:79: `int_t` in the map). -/
def wrap32 (x : Int) : Int := (x + 2147483648) % 4294967296 - 2147483648

section
variable {P V : Type} [DecidableEq P]

/-- `delete[] p` or `cudaFree(p)` (data_structures/memory_manager.cpp:125, 164, 137, 173). -/
def freeBlock (heap : P → Option (Int → V)) (p : P) : Except MMErr (P → Option (Int → V)) :=
  match heap p with
  | none => .error .badFree
  | some _ => .ok (mapErase heap p)

/-- `MemoryManager::allocate` (data_structures/memory_manager.cpp:67-94); `hp`, `dp` are the addresses and `jh`, `jd` the
contents of the fresh memory. Returns the handle's index. -/
def MMState.allocate (gpu : Bool) (w n : Int) (hp dp : P) (jh jd : Int → V) (s : MMState P V) : Except MMErr (MMState P V × Int) :=
  if s.mm.curr = 2147483647 then .error .overflow else
  let c := s.mm.curr + 1
  .ok (⟨⟨c, mapInsert s.mm.host c hp, s.mm.borrowed, if gpu then mapInsert s.mm.dev c dp else s.mm.dev, s.mm.borrowedDev,
      mapInsert s.mm.sizes c (wrap32 (n * w))⟩,
    mapSet s.heap hp jh, if gpu then mapSet s.dheap dp jd else s.dheap⟩, c)

/-- `MemoryManager::allocateView` (data_structures/memory_manager.cpp:96-118). -/
def MMState.allocateView (gpu : Bool) (w n : Int) (hp dp : P) (s : MMState P V) : Except MMErr (MMState P V × Int) :=
  if s.mm.curr = 2147483647 then .error .overflow else
  let c := s.mm.curr + 1
  .ok (⟨⟨c, s.mm.host, mapInsert s.mm.borrowed c hp, s.mm.dev,
      if gpu then mapInsert s.mm.borrowedDev c dp else s.mm.borrowedDev, mapInsert s.mm.sizes c (wrap32 (n * w))⟩,
    s.heap, s.dheap⟩, c)

/-- `MemoryManager::deallocateView` (data_structures/memory_manager.cpp:120-152). -/
def MMState.deallocateView (gpu : Bool) (h : Int) (s : MMState P V) : Except MMErr (MMState P V) :=
  let hostPart : Except MMErr ((P → Option (Int → V)) × (Int → Option P) × (Int → Option P)) :=
    match s.mm.host h with
    | some p =>
      match freeBlock s.heap p with
      | .error e => .error e
      | .ok heap => .ok (heap, mapErase s.mm.host h, s.mm.borrowed)
    | none => .ok (s.heap, s.mm.host, mapErase s.mm.borrowed h)
  match hostPart with
  | .error e => .error e
  | .ok (heap, host, borrowed) =>
    let sizes := mapErase s.mm.sizes h
    if gpu then
      match s.mm.dev h with
      | some q =>
        match freeBlock s.dheap q with
        | .error e => .error e
        | .ok dheap => .ok ⟨⟨s.mm.curr, host, borrowed, mapErase s.mm.dev h, s.mm.borrowedDev, sizes⟩, heap, dheap⟩
      | none => .ok ⟨⟨s.mm.curr, host, borrowed, s.mm.dev, mapErase s.mm.borrowedDev h, sizes⟩, heap, s.dheap⟩
    else .ok ⟨⟨s.mm.curr, host, borrowed, s.mm.dev, s.mm.borrowedDev, sizes⟩, heap, s.dheap⟩

/-- `MemoryManager::deallocate` (data_structures/memory_manager.cpp:155-192). -/
def MMState.deallocate (gpu : Bool) (h : Int) (s : MMState P V) : Except MMErr (MMState P V) :=
  match s.mm.host h with
  | none => .ok s
  | some p =>
    match freeBlock s.heap p with
    | .error e => .error e
    | .ok heap =>
      let host := mapErase s.mm.host h
      let sizes := mapErase s.mm.sizes h
      if gpu then
        match s.mm.dev h with
        | none => .ok ⟨⟨s.mm.curr, host, s.mm.borrowed, s.mm.dev, s.mm.borrowedDev, sizes⟩, heap, s.dheap⟩
        | some q =>
          match freeBlock s.dheap q with
          | .error e => .error e
          | .ok dheap => .ok ⟨⟨s.mm.curr, host, s.mm.borrowed, mapErase s.mm.dev h, s.mm.borrowedDev, sizes⟩, heap, dheap⟩
      else .ok ⟨⟨s.mm.curr, host, s.mm.borrowed, s.mm.dev, s.mm.borrowedDev, sizes⟩, heap, s.dheap⟩

/-- `MemoryManager::hostData` (data_structures/memory_manager.cpp:195-213). -/
def MM.hostData (mm : MM P) (h : Int) : Except MMErr P :=
  match mm.host h with
  | some p => .ok p
  | none =>
    match mm.borrowed h with
    | some p => .ok p
    | none => .error .lookupAbort

/-- `MemoryManager::deviceData` (data_structures/memory_manager.cpp:216-239). -/
def MM.deviceData (gpu : Bool) (mm : MM P) (h : Int) : Except MMErr P :=
  if gpu then
    match mm.dev h with
    | some p => .ok p
    | none =>
      match mm.borrowedDev h with
      | some p => .ok p
      | none => .error .lookupAbort
  else .error .noDevice

/-- `MemoryManager::size` (data_structures/memory_manager.cpp:242-247). A negative byte count is converted to an unsigned
64-bit number by the division and the quotient back to `int_t`; only non-negative counts are given the exact quotient
here, which is what the theorems use. -/
def MM.size (w : Int) (mm : MM P) (h : Int) : Except MMErr Int :=
  match mm.sizes h with
  | some b => .ok (if 0 ≤ b then b / w else wrap32 ((b + 18446744073709551616) / w))
  | none => .error .outOfRange

/-- A block's contents, which must not have been freed (data_structures/memory_manager.cpp:249-299). -/
def block (heap : P → Option (Int → V)) (p : P) : Except MMErr (Int → V) :=
  match heap p with
  | some c => .ok c
  | none => .error .deadBlock

/-- Contents `c` on `[0, n)`, `d` elsewhere: what a copy of `n` elements leaves (data_structures/memory_manager.cpp:249-299). -/
def overlay (n : Int) (c d : Int → V) : Int → V := fun i => if 0 ≤ i ∧ i < n then c i else d i

/-- `MemoryManager::copyHostToDevice` (data_structures/memory_manager.cpp:249-263): `data_sizes_` bytes; only a message
without device. -/
def MMState.copyHostToDevice (gpu : Bool) (w h : Int) (s : MMState P V) : Except MMErr (MMState P V) := do
  if gpu then
    let q ← s.mm.deviceData gpu h
    let p ← s.mm.hostData h
    let n ← s.mm.size w h
    let c ← block s.heap p
    let d ← block s.dheap q
    .ok ⟨s.mm, s.heap, mapSet s.dheap q (overlay n c d)⟩
  else .ok s

/-- `MemoryManager::copyDeviceToHost` (data_structures/memory_manager.cpp:266-299). -/
def MMState.copyDeviceToHost (gpu : Bool) (w h : Int) (s : MMState P V) : Except MMErr (MMState P V) := do
  if gpu then
    let n ← s.mm.size w h
    let p ← s.mm.hostData h
    let q ← s.mm.deviceData gpu h
    let c ← block s.heap p
    let d ← block s.dheap q
    .ok ⟨s.mm, mapSet s.heap p (overlay n d c), s.dheap⟩
  else .ok s

/-- `SyncStatus` (data_structures/managed_array.hpp:20). -/
inductive SyncStatus where
  | inSync | hostModified | deviceModified
  deriving DecidableEq

/-- Data members of `ManagedArray` (data_structures/managed_array.hpp:134-136); of the handle only its index is used. -/
structure MArr where
  handle : Int
  owning : Bool
  status : SyncStatus
  deriving DecidableEq

/-- Use of the span returned by a host access: the elements `[0, n)` become `f` of the contents; the result is what the
span showed on return (data_structures/managed_array.hpp:75, span.hpp:14-20). -/
def MMState.useHost (w : Int) (h : Int) (f : (Int → V) → Int → V) (s : MMState P V) :
    Except MMErr (MMState P V × Int × (Int → V)) := do
  let p ← s.mm.hostData h
  let n ← s.mm.size w h
  let c ← block s.heap p
  .ok (⟨s.mm, mapSet s.heap p (overlay n (f c) c), s.dheap⟩, n, c)

/-- The same on the device (data_structures/managed_array.hpp:99). -/
def MMState.useDev (gpu : Bool) (w : Int) (h : Int) (f : (Int → V) → Int → V) (s : MMState P V) :
    Except MMErr (MMState P V × Int × (Int → V)) := do
  let p ← s.mm.deviceData gpu h
  let n ← s.mm.size w h
  let c ← block s.dheap p
  .ok (⟨s.mm, s.heap, mapSet s.dheap p (overlay n (f c) c)⟩, n, c)

/-- `writeHost` (data_structures/managed_array.hpp:72-76) and use of its span. -/
def MArr.writeHost (w : Int) (f : (Int → V) → Int → V) (a : MArr) (s : MMState P V) :
    Except MMErr (MArr × MMState P V × Int × (Int → V)) := do
  let r ← s.useHost w a.handle f
  .ok ({ a with status := .hostModified }, r)

/-- `readHost` (data_structures/managed_array.hpp:78-85); the span is only read. -/
def MArr.readHost (gpu : Bool) (w : Int) (a : MArr) (s : MMState P V) : Except MMErr (MArr × MMState P V × Int × (Int → V)) := do
  if a.status = .deviceModified then
    let s' ← s.copyDeviceToHost gpu w a.handle
    let r ← s'.useHost w a.handle id
    .ok ({ a with status := .inSync }, r)
  else
    let r ← s.useHost w a.handle id
    .ok (a, r)

/-- `readWriteHost` (data_structures/managed_array.hpp:87-94) and use of its span. -/
def MArr.readWriteHost (gpu : Bool) (w : Int) (f : (Int → V) → Int → V) (a : MArr) (s : MMState P V) :
    Except MMErr (MArr × MMState P V × Int × (Int → V)) := do
  if a.status = .deviceModified then
    let s' ← s.copyDeviceToHost gpu w a.handle
    let r ← s'.useHost w a.handle f
    .ok ({ a with status := .hostModified }, r)
  else
    let r ← s.useHost w a.handle f
    .ok ({ a with status := .hostModified }, r)

/-- `writeDevice` (data_structures/managed_array.hpp:96-100) and use of its span. -/
def MArr.writeDevice (gpu : Bool) (w : Int) (f : (Int → V) → Int → V) (a : MArr) (s : MMState P V) :
    Except MMErr (MArr × MMState P V × Int × (Int → V)) := do
  let r ← s.useDev gpu w a.handle f
  .ok ({ a with status := .deviceModified }, r)

/-- `readDevice` (data_structures/managed_array.hpp:102-109); the span is only read. -/
def MArr.readDevice (gpu : Bool) (w : Int) (a : MArr) (s : MMState P V) : Except MMErr (MArr × MMState P V × Int × (Int → V)) := do
  if a.status = .hostModified then
    let s' ← s.copyHostToDevice gpu w a.handle
    let r ← s'.useDev gpu w a.handle id
    .ok ({ a with status := .inSync }, r)
  else
    let r ← s.useDev gpu w a.handle id
    .ok (a, r)

/-- `readWriteDevice` (data_structures/managed_array.hpp:111-118) and use of its span. -/
def MArr.readWriteDevice (gpu : Bool) (w : Int) (f : (Int → V) → Int → V) (a : MArr) (s : MMState P V) :
    Except MMErr (MArr × MMState P V × Int × (Int → V)) := do
  if a.status = .hostModified then
    let s' ← s.copyHostToDevice gpu w a.handle
    let r ← s'.useDev gpu w a.handle f
    .ok ({ a with status := .deviceModified }, r)
  else
    let r ← s.useDev gpu w a.handle f
    .ok ({ a with status := .deviceModified }, r)

/-- The owning constructors (data_structures/managed_array.hpp:22-47): zero, constant or copied initial contents `v`. -/
def newOwned (gpu : Bool) (w n : Int) (hp dp : P) (jh jd v : Int → V) (s : MMState P V) : Except MMErr (MArr × MMState P V) := do
  let (s1, h) ← s.allocate gpu w n hp dp jh jd
  let (a, s2, _) ← MArr.writeHost w (fun _ => v) ⟨h, true, .hostModified⟩ s1
  .ok (a, s2)

/-- The view constructor (data_structures/managed_array.hpp:50-58): zeroes the borrowed host memory. -/
def newView [Zero V] (gpu : Bool) (w n : Int) (hp dp : P) (s : MMState P V) : Except MMErr (MArr × MMState P V) := do
  let (s1, h) ← s.allocateView gpu w n hp dp
  let (a, s2, _) ← MArr.writeHost w (fun _ _ => 0) ⟨h, false, .inSync⟩ s1
  .ok (a, s2)

/-- The destructor (data_structures/managed_array.hpp:61-69). -/
def MArr.destroy (gpu : Bool) (a : MArr) (s : MMState P V) : Except MMErr (MMState P V) :=
  if a.owning then s.deallocate gpu a.handle else s.deallocateView gpu a.handle

/-- `swap` (data_structures/managed_array.hpp:123-130): the new members of both arrays. -/
def MArr.swap (a b : MArr) : MArr × MArr :=
  ({ a with handle := b.handle, owning := b.owning, status := b.status },
   { b with handle := a.handle, owning := a.owning, status := a.status })

/-- What a program does with managed arrays (data_structures/managed_array.hpp:18-143). -/
inductive ArrOp (O P V : Type) where
  | new (o : O) (n : Int) (v : Int → V) (hp dp : P) (jh jd : Int → V)
  | newView (o : O) (n : Int) (hp dp : P)
  | destroy (o : O)
  | read (o : O) (device : Bool)
  | write (o : O) (device : Bool) (f : (Int → V) → Int → V)
  | readWrite (o : O) (device : Bool) (f : (Int → V) → Int → V)
  | swap (o o' : O)

/-- The program's arrays and the memory (data_structures/managed_array.hpp:18-143). -/
structure ArrState (O P V : Type) where
  objs : O → Option MArr
  mem : MMState P V

variable {O : Type} [DecidableEq O] [Zero V]

/-- An access to a live array: update its members and the memory, keep what the span showed
(data_structures/managed_array.hpp:18-143). -/
def ArrState.access (s : ArrState O P V) (o : O)
    (acc : MArr → MMState P V → Except MMErr (MArr × MMState P V × Int × (Int → V))) (show_ : Bool) :
    Except MMErr (ArrState O P V × Option (Int × (Int → V))) :=
  match s.objs o with
  | none => .error .lifetime
  | some a =>
    match acc a s.mem with
    | .error e => .error e
    | .ok (a', mem, r) => .ok (⟨mapSet s.objs o a', mem⟩, if show_ then some r else none)

/-- One step of a program (the member functions of data_structures/managed_array.hpp:18-143). Constructing an object that
exists and using one that does not are lifetime errors. -/
def ArrState.step (gpu : Bool) (w : Int) (s : ArrState O P V) : ArrOp O P V → Except MMErr (ArrState O P V × Option (Int × (Int → V)))
  | .new o n v hp dp jh jd =>
    match s.objs o with
    | some _ => .error .lifetime
    | none =>
      match newOwned gpu w n hp dp jh jd v s.mem with
      | .error e => .error e
      | .ok (a, mem) => .ok (⟨mapSet s.objs o a, mem⟩, none)
  | .newView o n hp dp =>
    match s.objs o with
    | some _ => .error .lifetime
    | none =>
      match Madg.newView gpu w n hp dp s.mem with
      | .error e => .error e
      | .ok (a, mem) => .ok (⟨mapSet s.objs o a, mem⟩, none)
  | .destroy o =>
    match s.objs o with
    | none => .error .lifetime
    | some a =>
      match a.destroy gpu s.mem with
      | .error e => .error e
      | .ok mem => .ok (⟨mapErase s.objs o, mem⟩, none)
  | .read o false => s.access o (MArr.readHost gpu w) true
  | .read o true => s.access o (MArr.readDevice gpu w) true
  | .write o false f => s.access o (MArr.writeHost w f) false
  | .write o true f => s.access o (MArr.writeDevice gpu w f) false
  | .readWrite o false f => s.access o (MArr.readWriteHost gpu w f) true
  | .readWrite o true f => s.access o (MArr.readWriteDevice gpu w f) true
  | .swap o o' =>
    match s.objs o, s.objs o' with
    | some a, some b => .ok (⟨mapSet (mapSet s.objs o (a.swap b).1) o' (a.swap b).2, s.mem⟩, none)
    | _, _ => .error .lifetime

/-- A whole program run, with everything it read (data_structures/managed_array.hpp:18-143). -/
def ArrState.run (gpu : Bool) (w : Int) (s : ArrState O P V) : List (ArrOp O P V) →
    Except MMErr (ArrState O P V × List (Int × (Int → V)))
  | [] => .ok (s, [])
  | op :: ops =>
    match s.step gpu w op with
    | .error e => .error e
    | .ok (s1, r) =>
      match s1.run gpu w ops with
      | .error e => .error e
      | .ok (s2, rs) => .ok (s2, r.toList ++ rs)

/-- The manager at program start (data_structures/memory_manager.hpp:60-77) with the memory `heap`, `dheap` of others. -/
def MMState.init (heap dheap : P → Option (Int → V)) : MMState P V :=
  ⟨⟨0, fun _ => none, fun _ => none, fun _ => none, fun _ => none, fun _ => none⟩, heap, dheap⟩

end

end Madg
