/-
Managed arrays and the memory manager (C55, C56, C57).
-/
import Verif.Proofs.Arrays
import Verif.Proofs.MMRun

set_option linter.unusedSectionVars false
set_option linter.unusedVariables false

namespace Madg
open Spec

variable {O P V : Type} [DecidableEq P] [DecidableEq O] [Zero V]

/-! ### C55 -/

/-- Every program that respects lifetimes and overwrites whatever it opens for writing only sees, in every read, exactly
the latest contents, on host and device alike, and never runs into an error. With a device or without. -/
theorem C55_refines_single_copy (gpu : Bool) (w : Int) (hw : 1 ≤ w) (heap dheap : P → Option (Int → V))
    (ops : List (ArrOp O P V)) (h : GoodRun gpu w ⟨fun _ => none, MMState.init heap dheap⟩ (fun _ => none) ops) :
    ∃ s' rs, ArrState.run gpu w ⟨fun _ => none, MMState.init heap dheap⟩ ops = .ok (s', rs) ∧
      List.Forall₂ Seen rs (arraysReads (fun _ => none) ops) := by
  obtain ⟨b, s', rs, e, -, f⟩ := run_inv hw ops _ _ _ (ArrInv.start (O := O) gpu w heap dheap) h
  exact ⟨s', rs, e, f⟩

/-- Once every array is destroyed, exactly the memory that was there at the start is left. -/
theorem C55_no_leak (gpu : Bool) (w : Int) (hw : 1 ≤ w) (heap dheap : P → Option (Int → V))
    (ops : List (ArrOp O P V)) (h : GoodRun gpu w ⟨fun _ => none, MMState.init heap dheap⟩ (fun _ => none) ops)
    (hd : ∀ o, arraysRun (fun _ => none) ops o = none) :
    ∃ s' rs, ArrState.run gpu w ⟨fun _ => none, MMState.init heap dheap⟩ ops = .ok (s', rs) ∧
      (∀ p, s'.mem.heap p ≠ none ↔ heap p ≠ none) ∧ (∀ p, s'.mem.dheap p ≠ none ↔ dheap p ≠ none) := by
  obtain ⟨b, s', rs, e, i, -⟩ := run_inv hw ops _ _ _ (ArrInv.start (O := O) gpu w heap dheap) h
  have nl : ∀ k x, ¬ b.live k = some x := by
    intro k x q
    obtain ⟨o, a, ho, -⟩ := i.used k x q
    exact (i.live_iff o).1 (by rw [ho]; exact Option.some_ne_none _) (hd o)
  refine ⟨s', rs, e, fun p => ⟨fun q => ?_, i.inv.foreign p⟩, fun p => ⟨fun q => ?_, i.inv.foreignDev p⟩⟩
  · rcases i.inv.noLeak p q with r | ⟨k, x, r, -⟩
    · exact r
    · exact absurd r (nl k x)
  · rcases i.inv.noLeakDev p q with r | ⟨-, k, x, r, -⟩
    · exact r
    · exact absurd r (nl k x)

/-- A program that fills an array on the host, updates it on the device, changes one element on the host and reads it
back meets the hypotheses; it sees the sum of all updates. -/
def goodProgram : List (ArrOp Nat Nat Int) :=
  [.new 0 2 (fun _ => 5) 100 200 (fun _ => 77) (fun _ => 88), .readWrite 0 true (fun c i => c i + 1),
   .readWrite 0 false (fun c i => if i = 0 then c i * 10 else c i), .write 0 true (fun _ i => i), .read 0 false, .destroy 0]

theorem goodProgram_good : GoodRun true 8 ⟨fun _ => none, MMState.init (fun _ => none) (fun _ => none)⟩ (fun _ => none)
    goodProgram := by
  have l1 : Local 2 (fun (c : Int → Int) i => c i + 1) := fun c d h i h0 h1 => by simp only [h i h0 h1]
  have l2 : Local 2 (fun (c : Int → Int) i => if i = 0 then c i * 10 else c i) := fun c d h i h0 h1 => by simp only [h i h0 h1]
  refine ⟨⟨rfl, by decide, by decide⟩, ⟨by decide, rfl, fun _ => rfl⟩, fun s1 r1 e1 => ?_⟩
  cases (show Except.ok (_, _) = Except.ok (s1, r1) from e1)
  refine ⟨⟨fun _ => rfl, _, rfl, l1⟩, trivial, fun s2 r2 e2 => ?_⟩
  cases (show Except.ok (_, _) = Except.ok (s2, r2) from e2)
  refine ⟨⟨fun _ => rfl, _, rfl, l2⟩, trivial, fun s3 r3 e3 => ?_⟩
  cases (show Except.ok (_, _) = Except.ok (s3, r3) from e3)
  refine ⟨⟨fun _ => rfl, _, rfl, fun c d _ i _ _ => rfl, fun _ c d i _ _ => rfl⟩, trivial, fun s4 r4 e4 => ?_⟩
  cases (show Except.ok (_, _) = Except.ok (s4, r4) from e4)
  refine ⟨⟨by decide, fun h => (by cases h)⟩, trivial, fun s5 r5 e5 => ?_⟩
  cases (show Except.ok (_, _) = Except.ok (s5, r5) from e5)
  exact ⟨(by intro h; cases h), trivial, fun s6 r6 e6 => trivial⟩

example : (arraysReads (fun _ => none) goodProgram).map (fun r => (r.1, r.2 0, r.2 1)) = [(2, 5, 5), (2, 6, 6), (2, 0, 1)] := rfl

example (o : Nat) : arraysRun (fun _ => none) goodProgram o = none := by
  by_cases h : o = 0
  · subst h; rfl
  · simp [goodProgram, arraysRun, arraysStep, h]

/-- A write-only session that overwrites only some elements exposes old ones: the array holds 5 everywhere on both sides,
then 7 everywhere; a device session for writing only sets element 0 to 9, and the host then reads 5 in element 1. -/
theorem C55_partial_write_stale :
    ∃ s' rs, ArrState.run (O := Nat) (P := Nat) (V := Int) true 8
        ⟨fun _ => none, MMState.init (fun _ => none) (fun _ => none)⟩
        [.new 0 2 (fun _ => 5) 100 200 (fun _ => 77) (fun _ => 88), .read 0 true, .write 0 false (fun _ _ => 7),
         .write 0 true (fun c i => if i = 0 then 9 else c i), .read 0 false] = .ok (s', rs) ∧
      rs.map (fun r => (r.1, r.2 0, r.2 1)) = [(2, 5, 5), (2, 9, 5)] := ⟨_, _, rfl, rfl⟩

/-- The same on a fresh array (what interior-only kernels do) exposes uninitialised device memory: 88 in element 1. -/
theorem C55_partial_write_uninitialised :
    ∃ s' rs, ArrState.run (O := Nat) (P := Nat) (V := Int) true 8
        ⟨fun _ => none, MMState.init (fun _ => none) (fun _ => none)⟩
        [.new 0 2 (fun _ => 0) 100 200 (fun _ => 77) (fun _ => 88),
         .write 0 true (fun c i => if i = 0 then 9 else c i), .read 0 false] = .ok (s', rs) ∧
      rs.map (fun r => (r.1, r.2 0, r.2 1)) = [(2, 9, 88)] := ⟨_, _, rfl, rfl⟩

/-! ### C56 -/

/-- What a step shows. -/
def shown {α β : Type} (r : Except MMErr (α × β)) : Except MMErr β := r.map Prod.snd

/-- Swapping exchanges two arrays and nothing else, whatever their statuses and whatever the memory: every access to
either one afterwards shows what the same access to the other would have shown before, other arrays are as before, and
swapping again restores everything. -/
theorem C56_swap (gpu : Bool) (w : Int) (s : ArrState O P V) (o o' : O) (hne : o ≠ o') (h : s.objs o ≠ none) (h' : s.objs o' ≠ none) :
    ∃ s', s.step gpu w (.swap o o') = .ok (s', none) ∧ s'.mem = s.mem ∧
      (∀ d, shown (s'.step gpu w (.read o d)) = shown (s.step gpu w (.read o' d)) ∧
        shown (s'.step gpu w (.read o' d)) = shown (s.step gpu w (.read o d))) ∧
      (∀ d f, shown (s'.step gpu w (.readWrite o d f)) = shown (s.step gpu w (.readWrite o' d f)) ∧
        shown (s'.step gpu w (.readWrite o' d f)) = shown (s.step gpu w (.readWrite o d f))) ∧
      (∀ o'', o'' ≠ o → o'' ≠ o' → s'.objs o'' = s.objs o'') ∧
      s'.step gpu w (.swap o o') = .ok (s, none) := by
  obtain ⟨a, ha⟩ := Option.ne_none_iff_exists'.1 h
  obtain ⟨b, hb⟩ := Option.ne_none_iff_exists'.1 h'
  have sw : ∀ x y : MArr, x.swap y = (y, x) := fun x y => by cases x; cases y; rfl
  have step : ∀ (t : ArrState O P V) x y, t.objs o = some x → t.objs o' = some y →
      t.step gpu w (.swap o o') = .ok (⟨mapSet (mapSet t.objs o y) o' x, t.mem⟩, none) := by
    intro t x y hx hy
    unfold ArrState.step
    dsimp only
    rw [hx, hy]
    dsimp only
    rw [sw]
  have g1 : mapSet (mapSet s.objs o b) o' a o = some b := by
    rw [mapSet_other _ _ hne, mapSet_same]
  have g2 : mapSet (mapSet s.objs o b) o' a o' = some a := mapSet_same _ _ _
  have acc : ∀ (t : ArrState O P V) (p q : O) (x : MArr) (k : MArr → MMState P V → Except MMErr (MArr × MMState P V × Int × (Int → V))) (c : Bool),
      t.mem = s.mem → t.objs p = some x → s.objs q = some x → shown (t.access p k c) = shown (s.access q k c) := by
    intro t p q x k c hm hp hq
    unfold ArrState.access shown
    rw [hp, hq, hm]
    dsimp only
    cases k x s.mem with
    | error e => rfl
    | ok r => rfl
  refine ⟨_, step s a b ha hb, rfl, fun d => ?_, fun d f => ?_, fun o'' n n' => ?_, ?_⟩
  · cases d <;> exact ⟨acc _ _ _ b _ _ rfl g1 hb, acc _ _ _ a _ _ rfl g2 ha⟩
  · cases d <;> exact ⟨acc _ _ _ b _ _ rfl g1 hb, acc _ _ _ a _ _ rfl g2 ha⟩
  · dsimp only; rw [mapSet_other _ _ n', mapSet_other _ _ n]
  · rw [step _ b a g1 g2]
    congr 2
    cases s with
    | mk objs mem =>
      dsimp only at ha hb ⊢
      congr 1
      funext i
      unfold mapSet
      split
      · next e => rw [e, hb]
      · split
        · next e => rw [e, ha]
        · rfl

/-- In legal programs: swapping exchanges the contents the user knows, with whatever synchronisation is pending. -/
theorem C56_swap_contents (x : Arrays O V) (o o' : O) :
    arraysStep (P := P) x (.swap o o') o = x o' ∧ arraysStep (P := P) x (.swap o o') o' = x o := by
  unfold arraysStep
  dsimp only
  refine ⟨?_, by rw [if_pos rfl]⟩
  split
  · next e => rw [e]
  · rw [if_pos rfl]

/-- Swapping an array with itself changes nothing. -/
theorem C56_swap_self (gpu : Bool) (w : Int) (s : ArrState O P V) (o : O) (h : s.objs o ≠ none) :
    s.step gpu w (.swap o o) = .ok (s, none) := by
  obtain ⟨a, ha⟩ := Option.ne_none_iff_exists'.1 h
  unfold ArrState.step
  dsimp only
  rw [ha]
  dsimp only
  have sw : a.swap a = (a, a) := by cases a; rfl
  rw [sw]
  congr 2
  cases s with
  | mk objs mem =>
    dsimp only at ha ⊢
    congr 1
    funext i
    unfold mapSet
    split
    · next e => rw [e, ha]
    · rfl

/-- A pending device update moves with its array: 0 was written on the device, 1 on the host; after the swap the host
reads them the other way round. -/
example : ∃ s' rs, ArrState.run (O := Nat) (P := Nat) (V := Int) true 8
      ⟨fun _ => none, MMState.init (fun _ => none) (fun _ => none)⟩
      [.new 0 2 (fun _ => 5) 100 200 (fun _ => 77) (fun _ => 88), .new 1 3 (fun _ => 6) 101 201 (fun _ => 77) (fun _ => 88),
       .write 0 true (fun _ _ => 50), .swap 0 1, .read 0 true, .read 1 false] = .ok (s', rs) ∧
    rs.map (fun r => (r.1, r.2 0)) = [(3, 6), (2, 50)] := ⟨_, _, rfl, rfl⟩

/-! ### C57 -/

section
variable (gpu : Bool) (w : Int) (hw : 1 ≤ w) (heap dheap : P → Option (Int → V)) (ops : List (MMOp P V))
  (h : MMGood gpu w (MMState.init heap dheap) ⟨0, fun _ => none⟩ ops)
include hw h

/-- Every history of allocations, views and releases (of any handles, live or not) runs without error, so nothing is freed
twice; and the handles it returns are 1, 2, 3, …: none is ever returned twice. -/
theorem C57_no_double_free :
    ∃ s' hs, mmRun gpu w (MMState.init heap dheap) ops = .ok (s', hs) ∧ hs.Nodup ∧
      hs = (List.range hs.length).map (fun i : Nat => (i : Int) + 1) := by
  obtain ⟨s', hs, e, -, -, -, c⟩ := mmRun_inv hw ops _ _ (MMInv.init gpu w heap dheap) (fun _ _ e => e) (fun _ _ e => e) h
  have c' : hs = (List.range hs.length).map (fun i : Nat => (i : Int) + 1) :=
    c.trans (List.map_congr_left fun i _ => by dsimp only; omega)
  refine ⟨s', hs, e, ?_, c'⟩
  rw [c']
  exact List.Pairwise.map _ (fun i j (q : i ≠ j) (r : (i : Int) + 1 = j + 1) => q (by omega)) List.nodup_range

/-- After every history: a live handle gives its own block and length, owned blocks are allocated and no two of them share
memory. -/
theorem C57_lookup_live :
    ∃ s' hs, mmRun gpu w (MMState.init heap dheap) ops = .ok (s', hs) ∧
      ∀ i x, (Blocks.run ⟨0, fun _ => none⟩ ops).live i = some x →
        s'.mm.hostData i = .ok x.host ∧ s'.mm.size w i = .ok x.len ∧ (gpu = true → s'.mm.deviceData gpu i = .ok x.dev) ∧
        (x.owned = true → s'.heap x.host ≠ none ∧ (gpu = true → s'.dheap x.dev ≠ none)) ∧
        ∀ j y, (Blocks.run ⟨0, fun _ => none⟩ ops).live j = some y → x.owned = true → y.owned = true → i ≠ j →
          x.host ≠ y.host ∧ (gpu = true → x.dev ≠ y.dev) := by
  obtain ⟨s', hs, e, i, -, -, -⟩ := mmRun_inv hw ops _ _ (MMInv.init gpu w heap dheap) (fun _ _ e => e) (fun _ _ e => e) h
  refine ⟨s', hs, e, fun k x hx => ⟨hostData_live i hx, size_live i hw hx, fun g => deviceData_live i g hx,
    fun ho => ⟨(i.owned k x hx ho).1, fun g => (i.ownedDev g k x hx ho).1⟩, fun j y hy ox oy ne => ⟨fun q => ?_, fun g q => ?_⟩⟩⟩
  · exact ne (i.inj k x j y hx hy ox oy q)
  · exact ne (i.injDev g k x j y hx hy ox oy q)

omit hw h in
/-- What `size` reports of a freshly recorded byte count. -/
theorem size_recorded (he : w = 4 ∨ w = 8) {n : Int} (hn : 0 ≤ n) (hn' : n ≤ 2147483647) {mm : MM P} {k : Int}
    (hk : mm.sizes k = some (wrap32 (n * w))) : mm.size w k = .ok n ↔ n * w ≤ 2147483647 := by
  unfold MM.size
  rw [hk]
  dsimp only
  rw [Except.ok.injEq]
  unfold wrap32
  rcases he with rfl | rfl <;> constructor <;> intro q <;> split at * <;> omega

/-- After every history a further array or view of `n` elements reports the size `n` exactly when its byte count fits in
`int_t`. -/
theorem C03_manager_size (he : w = 4 ∨ w = 8) (n : Int) (hn : 0 ≤ n) (hn' : n ≤ 2147483647) (hp dp : P) (jh jd : Int → V) :
    ∃ s' hs, mmRun gpu w (MMState.init heap dheap) ops = .ok (s', hs) ∧
      (∀ s1 k, s'.allocate gpu w n hp dp jh jd = .ok (s1, k) → (s1.mm.size w k = .ok n ↔ n * w ≤ 2147483647)) ∧
      (∀ s1 k, s'.allocateView gpu w n hp dp = .ok (s1, k) → (s1.mm.size w k = .ok n ↔ n * w ≤ 2147483647)) := by
  obtain ⟨s', hs, e, i, -, -, -⟩ := mmRun_inv hw ops _ _ (MMInv.init gpu w heap dheap) (fun _ _ e => e) (fun _ _ e => e) h
  have fresh : s'.mm.sizes (s'.mm.curr + 1) = none := by
    rw [i.sizes, i.curr]
    cases hl : (Blocks.run ⟨0, fun _ => none⟩ ops).live ((Blocks.run ⟨0, fun _ => none⟩ ops).count + 1) with
    | none => rfl
    | some x => have := i.range _ x hl; omega
  refine ⟨s', hs, e, fun s1 k q => ?_, fun s1 k q => ?_⟩
  · unfold MMState.allocate at q
    split at q
    · cases q
    · cases q
      exact size_recorded w he hn hn' (by simp [mapInsert, fresh])
  · unfold MMState.allocateView at q
    split at q
    · cases q
    · cases q
      exact size_recorded w he hn hn' (by simp [mapInsert, fresh])

/-- After every history: looking up a handle that is not live aborts or throws, and releasing it changes nothing. -/
theorem C57_lookup_dead :
    ∃ s' hs, mmRun gpu w (MMState.init heap dheap) ops = .ok (s', hs) ∧
      ∀ i, (Blocks.run ⟨0, fun _ => none⟩ ops).live i = none →
        s'.mm.hostData i = .error .lookupAbort ∧ s'.mm.size w i = .error .outOfRange ∧
        (gpu = true → s'.mm.deviceData gpu i = .error .lookupAbort) ∧
        s'.deallocate gpu i = .ok s' ∧ s'.deallocateView gpu i = .ok s' := by
  obtain ⟨s', hs, e, i, -, -, -⟩ := mmRun_inv hw ops _ _ (MMInv.init gpu w heap dheap) (fun _ _ e => e) (fun _ _ e => e) h
  refine ⟨s', hs, e, fun k hk => ⟨hostData_dead i hk, size_dead i hk, fun g => deviceData_dead i g hk, ?_, ?_⟩⟩
  · obtain ⟨s2, d, -, -, -, q⟩ := dealloc_inv i k
    rw [d, q (fun x hx => by rw [hk] at hx; cases hx)]
  · obtain ⟨s2, d, -, -, -, q⟩ := deallocView_inv i k
    rw [d, q hk]

/-- After every history: memory the manager did not allocate, such as that behind views, is still allocated with the same
contents; and all other allocated memory belongs to a live owned handle. -/
theorem C57_foreign_memory :
    ∃ s' hs, mmRun gpu w (MMState.init heap dheap) ops = .ok (s', hs) ∧
      (∀ p c, heap p = some c → s'.heap p = some c) ∧ (∀ p c, dheap p = some c → s'.dheap p = some c) ∧
      (∀ p, s'.heap p ≠ none → heap p = none →
        ∃ i x, (Blocks.run ⟨0, fun _ => none⟩ ops).live i = some x ∧ x.owned = true ∧ x.host = p) ∧
      (∀ p, s'.dheap p ≠ none → dheap p = none →
        ∃ i x, (Blocks.run ⟨0, fun _ => none⟩ ops).live i = some x ∧ x.owned = true ∧ x.dev = p) := by
  obtain ⟨s', hs, e, i, k1, k2, -⟩ := mmRun_inv hw ops _ _ (MMInv.init gpu w heap dheap) (fun _ _ e => e) (fun _ _ e => e) h
  refine ⟨s', hs, e, k1, k2, fun p q r => ?_, fun p q r => ?_⟩
  · rcases i.noLeak p q with t | t
    · exact absurd r t
    · exact t
  · rcases i.noLeakDev p q with t | ⟨-, t⟩
    · exact absurd r t
    · exact t

/-- After every history: releasing a view's handle as if it were owned does nothing, so the view stays registered. -/
theorem C57_release_view_as_owned :
    ∃ s' hs, mmRun gpu w (MMState.init heap dheap) ops = .ok (s', hs) ∧
      ∀ i x, (Blocks.run ⟨0, fun _ => none⟩ ops).live i = some x → x.owned = false → s'.deallocate gpu i = .ok s' := by
  obtain ⟨s', hs, e, i, -, -, -⟩ := mmRun_inv hw ops _ _ (MMInv.init gpu w heap dheap) (fun _ _ e => e) (fun _ _ e => e) h
  refine ⟨s', hs, e, fun k x hx hv => ?_⟩
  obtain ⟨s2, d, -, -, -, q⟩ := dealloc_inv i k
  rw [d, q (fun y hy => by rw [hx] at hy; cases hy; exact hv)]

end

/-- A history with an allocation, a view of foreign memory (address 7), releases of both, and releases of unknown and
already released handles meets the hypotheses. -/
def goodHistory : List (MMOp Nat Int) :=
  [.alloc 4 100 200 (fun _ => 1) (fun _ => 2), .view 3 7 8, .dealloc 55, .dealloc 1, .dealloc 1, .deallocView 2, .deallocView 2,
   .alloc 2 100 200 (fun _ => 1) (fun _ => 2)]

example : MMGood true 8 (MMState.init (fun p => if p = 7 then some (fun _ => 3) else none)
    (fun p => if p = 8 then some (fun _ => 4) else none)) ⟨0, fun _ => none⟩ goodHistory := by
  refine ⟨⟨by decide, by decide, by decide, rfl, fun _ => rfl⟩, fun s1 r1 e1 => ?_⟩
  cases (show Except.ok (_, _) = Except.ok (s1, r1) from e1)
  refine ⟨⟨by decide, by decide, by decide⟩, fun s2 r2 e2 => ?_⟩
  cases (show Except.ok (_, _) = Except.ok (s2, r2) from e2)
  refine ⟨trivial, fun s3 r3 e3 => ?_⟩
  cases (show Except.ok (_, _) = Except.ok (s3, r3) from e3)
  refine ⟨trivial, fun s4 r4 e4 => ?_⟩
  cases (show Except.ok (_, _) = Except.ok (s4, r4) from e4)
  refine ⟨trivial, fun s5 r5 e5 => ?_⟩
  cases (show Except.ok (_, _) = Except.ok (s5, r5) from e5)
  refine ⟨trivial, fun s6 r6 e6 => ?_⟩
  cases (show Except.ok (_, _) = Except.ok (s6, r6) from e6)
  refine ⟨trivial, fun s7 r7 e7 => ?_⟩
  cases (show Except.ok (_, _) = Except.ok (s7, r7) from e7)
  exact ⟨⟨by decide, by decide, by decide, rfl, fun _ => rfl⟩, fun _ _ _ => trivial⟩

example : ((Blocks.run ⟨0, fun _ => none⟩ goodHistory).live 3).map (fun x => (x.owned, x.host, x.len)) = some (true, 100, 2) ∧
    ((Blocks.run ⟨0, fun _ => none⟩ goodHistory).live 1).isNone ∧ ((Blocks.run ⟨0, fun _ => none⟩ goodHistory).live 2).isNone :=
  ⟨rfl, rfl, rfl⟩

end Madg
