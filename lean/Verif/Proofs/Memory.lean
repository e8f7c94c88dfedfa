/-
The memory manager keeps its table of live blocks.
-/
import Verif.Spec.Memory
import Mathlib.Tactic.Ring
import Mathlib.Tactic.LinearCombination

set_option linter.unusedSectionVars false
set_option linter.unusedVariables false

namespace Madg
open Spec
variable {P V : Type} [DecidableEq P]

/-- The manager's tables represent the live blocks `b`; `heap0`, `dheap0` are the memory that is not the manager's. -/
structure MMInv (gpu : Bool) (w : Int) (heap0 dheap0 : P → Option (Int → V)) (b : Blocks P) (s : MMState P V) : Prop where
  curr : s.mm.curr = b.count
  pos : 0 ≤ b.count
  range : ∀ h x, b.live h = some x → 1 ≤ h ∧ h ≤ b.count
  host : ∀ h, s.mm.host h = (b.live h).bind fun x => if x.owned then some x.host else none
  borrowed : ∀ h, s.mm.borrowed h = (b.live h).bind fun x => if x.owned then none else some x.host
  dev : ∀ h, s.mm.dev h = if gpu then (b.live h).bind fun x => if x.owned then some x.dev else none else none
  borrowedDev : ∀ h, s.mm.borrowedDev h = if gpu then (b.live h).bind fun x => if x.owned then none else some x.dev else none
  sizes : ∀ h, s.mm.sizes h = (b.live h).map fun x => x.len * w
  len : ∀ h x, b.live h = some x → 0 ≤ x.len ∧ x.len * w ≤ 2147483647
  owned : ∀ h x, b.live h = some x → x.owned = true → s.heap x.host ≠ none ∧ heap0 x.host = none
  ownedDev : gpu = true → ∀ h x, b.live h = some x → x.owned = true → s.dheap x.dev ≠ none ∧ dheap0 x.dev = none
  inj : ∀ h x h' x', b.live h = some x → b.live h' = some x' → x.owned = true → x'.owned = true → x.host = x'.host → h = h'
  injDev : gpu = true → ∀ h x h' x', b.live h = some x → b.live h' = some x' → x.owned = true → x'.owned = true →
    x.dev = x'.dev → h = h'
  foreign : ∀ p, heap0 p ≠ none → s.heap p ≠ none
  foreignDev : ∀ p, dheap0 p ≠ none → s.dheap p ≠ none
  noLeak : ∀ p, s.heap p ≠ none → heap0 p ≠ none ∨ ∃ h x, b.live h = some x ∧ x.owned = true ∧ x.host = p
  noLeakDev : ∀ p, s.dheap p ≠ none → dheap0 p ≠ none ∨ (gpu = true ∧ ∃ h x, b.live h = some x ∧ x.owned = true ∧ x.dev = p)

theorem wrap32_of {x : Int} (h0 : 0 ≤ x) (h1 : x ≤ 2147483647) : wrap32 x = x := by
  unfold wrap32; omega

theorem mapSet_ne_none {α β : Type} [DecidableEq α] {m : α → Option β} {k : α} {v : β} {p : α} :
    mapSet m k v p ≠ none ↔ p = k ∨ m p ≠ none := by
  unfold mapSet
  split
  · next h => simp [h]
  · next h => simp [h]

theorem mapErase_ne_none {α β : Type} [DecidableEq α] {m : α → Option β} {k p : α} :
    mapErase m k p ≠ none ↔ p ≠ k ∧ m p ≠ none := by
  unfold mapErase
  split
  · next h => simp [h]
  · next h => simp [h]

theorem MMInv.init (gpu : Bool) (w : Int) (heap0 dheap0 : P → Option (Int → V)) :
    MMInv gpu w heap0 dheap0 ⟨0, fun _ => none⟩ (MMState.init heap0 dheap0) := by
  refine ⟨rfl, le_rfl, ?_, ?_, ?_, ?_, ?_, ?_, ?_, ?_, ?_, ?_, ?_, ?_, ?_, ?_, ?_⟩ <;>
    simp [MMState.init]

/-- Changing the contents of blocks keeps the tables. -/
theorem MMInv.heapCongr {gpu : Bool} {w : Int} {heap0 dheap0 : P → Option (Int → V)} {b : Blocks P} {s s' : MMState P V}
    (h : MMInv gpu w heap0 dheap0 b s) (hm : s'.mm = s.mm) (h1 : ∀ p, s'.heap p ≠ none ↔ s.heap p ≠ none)
    (h2 : ∀ p, s'.dheap p ≠ none ↔ s.dheap p ≠ none) : MMInv gpu w heap0 dheap0 b s' := by
  refine ⟨by rw [hm]; exact h.curr, h.pos, h.range, by rw [hm]; exact h.host, by rw [hm]; exact h.borrowed,
    by rw [hm]; exact h.dev, by rw [hm]; exact h.borrowedDev, by rw [hm]; exact h.sizes, h.len, ?_, ?_, h.inj, h.injDev, ?_, ?_, ?_, ?_⟩
  · intro k x e o; exact ⟨(h1 _).2 (h.owned k x e o).1, (h.owned k x e o).2⟩
  · intro g k x e o; exact ⟨(h2 _).2 (h.ownedDev g k x e o).1, (h.ownedDev g k x e o).2⟩
  · intro p hp; exact (h1 p).2 (h.foreign p hp)
  · intro p hp; exact (h2 p).2 (h.foreignDev p hp)
  · intro p hp; exact h.noLeak p ((h1 p).1 hp)
  · intro p hp; exact h.noLeakDev p ((h2 p).1 hp)

section
variable {gpu : Bool} {w : Int} {heap0 dheap0 : P → Option (Int → V)} {b : Blocks P} {s : MMState P V}
  (hI : MMInv gpu w heap0 dheap0 b s)
include hI

theorem MMInv.fresh : b.live (b.count + 1) = none := by
  cases h : b.live (b.count + 1) with
  | none => rfl
  | some x => have := hI.range _ _ h; omega

theorem MMInv.tables_fresh : s.mm.host (b.count + 1) = none ∧ s.mm.borrowed (b.count + 1) = none ∧
    s.mm.dev (b.count + 1) = none ∧ s.mm.borrowedDev (b.count + 1) = none ∧ s.mm.sizes (b.count + 1) = none := by
  have h := hI.fresh
  refine ⟨?_, ?_, ?_, ?_, ?_⟩
  · rw [hI.host, h]; rfl
  · rw [hI.borrowed, h]; rfl
  · rw [hI.dev, h]; simp
  · rw [hI.borrowedDev, h]; simp
  · rw [hI.sizes, h]; rfl

theorem alloc_inv {n : Int} {hp dp : P} (jh jd : Int → V) (hw : 0 ≤ w) (hf : (MMOp.alloc n hp dp jh jd).Fresh gpu w b s.heap s.dheap) :
    ∃ s', s.allocate gpu w n hp dp jh jd = .ok (s', b.count + 1) ∧
      MMInv gpu w heap0 dheap0 (b.step (MMOp.alloc n hp dp jh jd)) s' ∧
      s'.heap = mapSet s.heap hp jh ∧ s'.dheap = if gpu then mapSet s.dheap dp jd else s.dheap := by
  obtain ⟨hc, n0, n1, hh, hd⟩ := hf
  obtain ⟨t1, t2, t3, t4, t5⟩ := hI.tables_fresh
  have hlen : (0:Int) ≤ n * w := Int.mul_nonneg n0 hw
  refine ⟨⟨⟨b.count + 1, mapInsert s.mm.host (b.count + 1) hp, s.mm.borrowed,
      if gpu then mapInsert s.mm.dev (b.count + 1) dp else s.mm.dev, s.mm.borrowedDev,
      mapInsert s.mm.sizes (b.count + 1) (wrap32 (n * w))⟩,
    mapSet s.heap hp jh, if gpu then mapSet s.dheap dp jd else s.dheap⟩, ?_, ?_, ?_, ?_⟩
  · unfold MMState.allocate
    rw [if_neg (by rw [hI.curr]; omega), hI.curr]
  · have noth : ∀ p, s.heap p ≠ none → p ≠ hp := fun p h e => h (e ▸ hh)
    have notd : gpu = true → ∀ p, s.dheap p ≠ none → p ≠ dp := fun g p h e => h (e ▸ hd g)
    refine ⟨rfl, by change 0 ≤ b.count + 1; have := hI.pos; omega, ?_, ?_, ?_, ?_, ?_, ?_, ?_, ?_, ?_, ?_, ?_, ?_, ?_, ?_, ?_⟩
    · intro h x e
      change 1 ≤ h ∧ h ≤ b.count + 1
      have := hI.pos
      dsimp only [Blocks.step] at e
      split at e
      · omega
      · have := hI.range h x e; omega
    · intro h
      dsimp only [Blocks.step, mapInsert]
      split
      · rw [t1]; rfl
      · exact hI.host h
    · intro h
      dsimp only [Blocks.step]
      split
      · next e => rw [e, t2]; rfl
      · exact hI.borrowed h
    · intro h
      dsimp only [Blocks.step]
      cases gpu with
      | false => simp only [Bool.false_eq_true, if_false]; have := hI.dev h; simpa using this
      | true =>
        simp only [if_true, mapInsert]
        split
        · rw [t3]; rfl
        · have := hI.dev h; simpa using this
    · intro h
      dsimp only [Blocks.step]
      cases gpu with
      | false => simp only [Bool.false_eq_true, if_false]; have := hI.borrowedDev h; simpa using this
      | true =>
        simp only [if_true]
        split
        · next e => rw [e, t4]; rfl
        · have := hI.borrowedDev h; simpa using this
    · intro h
      dsimp only [Blocks.step, mapInsert]
      split
      · rw [t5, wrap32_of hlen n1]; rfl
      · exact hI.sizes h
    · intro h x e
      dsimp only [Blocks.step] at e
      split at e
      · cases e; exact ⟨n0, n1⟩
      · exact hI.len h x e
    · intro h x e o
      dsimp only [Blocks.step] at e
      split at e
      · cases e
        refine ⟨mapSet_ne_none.2 (Or.inl rfl), ?_⟩
        by_contra hne
        exact hI.foreign _ hne hh
      · exact ⟨mapSet_ne_none.2 (Or.inr (hI.owned h x e o).1), (hI.owned h x e o).2⟩
    · intro g h x e o
      dsimp only [Blocks.step] at e
      subst g
      simp only [if_true]
      split at e
      · cases e
        refine ⟨mapSet_ne_none.2 (Or.inl rfl), ?_⟩
        by_contra hne
        exact hI.foreignDev _ hne (hd rfl)
      · exact ⟨mapSet_ne_none.2 (Or.inr (hI.ownedDev rfl h x e o).1), (hI.ownedDev rfl h x e o).2⟩
    · intro h x h' x' e e' o o' heq
      dsimp only [Blocks.step] at e e'
      split at e <;> split at e'
      · omega
      · cases e; exact absurd heq.symm (noth _ (hI.owned h' x' e' o').1)
      · cases e'; exact absurd heq (noth _ (hI.owned h x e o).1)
      · exact hI.inj h x h' x' e e' o o' heq
    · intro g h x h' x' e e' o o' heq
      dsimp only [Blocks.step] at e e'
      split at e <;> split at e'
      · omega
      · cases e; exact absurd heq.symm (notd g _ (hI.ownedDev g h' x' e' o').1)
      · cases e'; exact absurd heq (notd g _ (hI.ownedDev g h x e o).1)
      · exact hI.injDev g h x h' x' e e' o o' heq
    · intro p hp'
      exact mapSet_ne_none.2 (Or.inr (hI.foreign p hp'))
    · intro p hp'
      dsimp only
      split
      · exact mapSet_ne_none.2 (Or.inr (hI.foreignDev p hp'))
      · exact hI.foreignDev p hp'
    · intro p hp'
      rcases mapSet_ne_none.1 hp' with rfl | h
      · exact Or.inr ⟨b.count + 1, _, by dsimp only [Blocks.step]; rw [if_pos rfl], rfl, rfl⟩
      · rcases hI.noLeak p h with h | ⟨k, x, e, o, rfl⟩
        · exact Or.inl h
        · refine Or.inr ⟨k, x, ?_, o, rfl⟩
          dsimp only [Blocks.step]
          rw [if_neg (by have := hI.range k x e; omega)]; exact e
    · intro p hp'
      have keep : s.dheap p ≠ none → dheap0 p ≠ none ∨ (gpu = true ∧ ∃ h x, (b.step (MMOp.alloc n hp dp jh jd)).live h = some x ∧ x.owned = true ∧ x.dev = p) := by
        intro h
        rcases hI.noLeakDev p h with h | ⟨g, k, x, e, o, rfl⟩
        · exact Or.inl h
        · refine Or.inr ⟨g, k, x, ?_, o, rfl⟩
          dsimp only [Blocks.step]
          rw [if_neg (by have := hI.range k x e; omega)]; exact e
      dsimp only at hp'
      cases hg : gpu with
      | false =>
        rw [hg] at hp'
        have := keep hp'
        rw [hg] at this; exact this
      | true =>
        rw [hg] at hp'
        simp only [if_true] at hp'
        rcases mapSet_ne_none.1 hp' with rfl | h
        · exact Or.inr ⟨rfl, b.count + 1, _, by dsimp only [Blocks.step]; rw [if_pos rfl], rfl, rfl⟩
        · have := keep h
          rw [hg] at this; exact this
  · rfl
  · rfl

theorem view_inv {n : Int} {hp dp : P} (hw : 0 ≤ w) (hf : (MMOp.view n hp dp).Fresh gpu w b s.heap s.dheap) :
    ∃ s', s.allocateView gpu w n hp dp = .ok (s', b.count + 1) ∧
      MMInv gpu w heap0 dheap0 (b.step (MMOp.view (V := V) n hp dp)) s' ∧
      s'.heap = s.heap ∧ s'.dheap = s.dheap := by
  obtain ⟨hc, n0, n1⟩ := hf
  obtain ⟨t1, t2, t3, t4, t5⟩ := hI.tables_fresh
  have hlen : (0:Int) ≤ n * w := Int.mul_nonneg n0 hw
  have keepOwned : ∀ h x, (b.step (MMOp.view (V := V) n hp dp)).live h = some x → x.owned = true → b.live h = some x := by
    intro h x e o
    dsimp only [Blocks.step] at e
    split at e
    · cases e; exact absurd o (by simp)
    · exact e
  refine ⟨⟨⟨b.count + 1, s.mm.host, mapInsert s.mm.borrowed (b.count + 1) hp, s.mm.dev,
      if gpu then mapInsert s.mm.borrowedDev (b.count + 1) dp else s.mm.borrowedDev,
      mapInsert s.mm.sizes (b.count + 1) (wrap32 (n * w))⟩, s.heap, s.dheap⟩, ?_, ?_, rfl, rfl⟩
  · unfold MMState.allocateView
    rw [if_neg (by rw [hI.curr]; omega), hI.curr]
  · refine ⟨rfl, by change 0 ≤ b.count + 1; have := hI.pos; omega, ?_, ?_, ?_, ?_, ?_, ?_, ?_, ?_, ?_, ?_, ?_, hI.foreign, hI.foreignDev, ?_, ?_⟩
    · intro h x e
      change 1 ≤ h ∧ h ≤ b.count + 1
      have := hI.pos
      dsimp only [Blocks.step] at e
      split at e
      · omega
      · have := hI.range h x e; omega
    · intro h
      dsimp only [Blocks.step]
      split
      · next e => rw [e, t1]; rfl
      · exact hI.host h
    · intro h
      dsimp only [Blocks.step, mapInsert]
      split
      · rw [t2]; rfl
      · exact hI.borrowed h
    · intro h
      dsimp only [Blocks.step]
      cases gpu with
      | false => simp only [Bool.false_eq_true, if_false]; have := hI.dev h; simpa using this
      | true =>
        simp only [if_true]
        split
        · next e => rw [e, t3]; rfl
        · have := hI.dev h; simpa using this
    · intro h
      dsimp only [Blocks.step]
      cases gpu with
      | false => simp only [Bool.false_eq_true, if_false]; have := hI.borrowedDev h; simpa using this
      | true =>
        simp only [if_true, mapInsert]
        split
        · rw [t4]; rfl
        · have := hI.borrowedDev h; simpa using this
    · intro h
      dsimp only [Blocks.step, mapInsert]
      split
      · rw [t5, wrap32_of hlen n1]; rfl
      · exact hI.sizes h
    · intro h x e
      dsimp only [Blocks.step] at e
      split at e
      · cases e; exact ⟨n0, n1⟩
      · exact hI.len h x e
    · intro h x e o; exact hI.owned h x (keepOwned h x e o) o
    · intro g h x e o; exact hI.ownedDev g h x (keepOwned h x e o) o
    · intro h x h' x' e e' o o' heq; exact hI.inj h x h' x' (keepOwned h x e o) (keepOwned h' x' e' o') o o' heq
    · intro g h x h' x' e e' o o' heq; exact hI.injDev g h x h' x' (keepOwned h x e o) (keepOwned h' x' e' o') o o' heq
    · intro p hp'
      rcases hI.noLeak p hp' with h | ⟨k, x, e, o, rfl⟩
      · exact Or.inl h
      · refine Or.inr ⟨k, x, ?_, o, rfl⟩
        dsimp only [Blocks.step]
        rw [if_neg (by have := hI.range k x e; omega)]; exact e
    · intro p hp'
      rcases hI.noLeakDev p hp' with h | ⟨g, k, x, e, o, rfl⟩
      · exact Or.inl h
      · refine Or.inr ⟨g, k, x, ?_, o, rfl⟩
        dsimp only [Blocks.step]
        rw [if_neg (by have := hI.range k x e; omega)]; exact e

/-- Removing a live block from the tables. -/
theorem MMInv.remove {h : Int} {s' : MMState P V} (hc : s'.mm.curr = s.mm.curr)
    (h1 : ∀ i, s'.mm.host i = if i = h then none else s.mm.host i)
    (h2 : ∀ i, s'.mm.borrowed i = if i = h then none else s.mm.borrowed i)
    (h3 : ∀ i, s'.mm.dev i = if i = h then none else s.mm.dev i)
    (h4 : ∀ i, s'.mm.borrowedDev i = if i = h then none else s.mm.borrowedDev i)
    (h5 : ∀ i, s'.mm.sizes i = if i = h then none else s.mm.sizes i)
    (hh : ∀ p, s'.heap p ≠ none ↔ s.heap p ≠ none ∧ ¬ ∃ x, b.live h = some x ∧ x.owned = true ∧ x.host = p)
    (hd : ∀ p, s'.dheap p ≠ none ↔ s.dheap p ≠ none ∧ ¬ (gpu = true ∧ ∃ x, b.live h = some x ∧ x.owned = true ∧ x.dev = p)) :
    MMInv gpu w heap0 dheap0 ⟨b.count, fun i => if i = h then none else b.live i⟩ s' := by
  have old : ∀ i x, (if i = h then none else b.live i) = some x → i ≠ h ∧ b.live i = some x := by
    intro i x e
    split at e
    · cases e
    · next ne => exact ⟨ne, e⟩
  refine ⟨hc.trans hI.curr, hI.pos, ?_, ?_, ?_, ?_, ?_, ?_, ?_, ?_, ?_, ?_, ?_, ?_, ?_, ?_, ?_⟩
  · intro i x e; exact hI.range i x (old i x e).2
  · intro i; rw [h1]; dsimp only; split
    · rfl
    · exact hI.host i
  · intro i; rw [h2]; dsimp only; split
    · rfl
    · exact hI.borrowed i
  · intro i; rw [h3]; dsimp only; split
    · simp
    · exact hI.dev i
  · intro i; rw [h4]; dsimp only; split
    · simp
    · exact hI.borrowedDev i
  · intro i; rw [h5]; dsimp only; split
    · rfl
    · exact hI.sizes i
  · intro i x e; exact hI.len i x (old i x e).2
  · intro i x e o
    obtain ⟨ne, e⟩ := old i x e
    refine ⟨(hh _).2 ⟨(hI.owned i x e o).1, ?_⟩, (hI.owned i x e o).2⟩
    rintro ⟨y, ey, oy, hy⟩
    exact ne (hI.inj i x h y e ey o oy hy.symm)
  · intro g i x e o
    obtain ⟨ne, e⟩ := old i x e
    refine ⟨(hd _).2 ⟨(hI.ownedDev g i x e o).1, ?_⟩, (hI.ownedDev g i x e o).2⟩
    rintro ⟨-, y, ey, oy, hy⟩
    exact ne (hI.injDev g i x h y e ey o oy hy.symm)
  · intro i x i' x' e e'; exact hI.inj i x i' x' (old i x e).2 (old i' x' e').2
  · intro g i x i' x' e e'; exact hI.injDev g i x i' x' (old i x e).2 (old i' x' e').2
  · intro p hp
    refine (hh p).2 ⟨hI.foreign p hp, ?_⟩
    rintro ⟨x, e, o, rfl⟩
    exact hp (hI.owned h x e o).2
  · intro p hp
    refine (hd p).2 ⟨hI.foreignDev p hp, ?_⟩
    rintro ⟨g, x, e, o, rfl⟩
    exact hp (hI.ownedDev g h x e o).2
  · intro p hp
    obtain ⟨hp, hn⟩ := (hh p).1 hp
    rcases hI.noLeak p hp with h' | ⟨k, x, e, o, rfl⟩
    · exact Or.inl h'
    · refine Or.inr ⟨k, x, ?_, o, rfl⟩
      dsimp only
      rw [if_neg]; · exact e
      rintro rfl; exact hn ⟨x, e, o, rfl⟩
  · intro p hp
    obtain ⟨hp, hn⟩ := (hd p).1 hp
    rcases hI.noLeakDev p hp with h' | ⟨g, k, x, e, o, rfl⟩
    · exact Or.inl h'
    · refine Or.inr ⟨g, k, x, ?_, o, rfl⟩
      dsimp only
      rw [if_neg]; · exact e
      rintro rfl; exact hn ⟨g, x, e, o, rfl⟩

theorem mapErase_of_none {α β : Type} [DecidableEq α] {m : α → Option β} {k : α} (h : m k = none) (i : α) :
    m i = if i = k then none else m i := by
  split
  · next e => rw [e, h]
  · rfl

theorem deallocView_inv (h : Int) :
    ∃ s', s.deallocateView gpu h = .ok s' ∧
      MMInv gpu w heap0 dheap0 (b.step (MMOp.deallocView (P := P) (V := V) h)) s' ∧
      (∀ p, s'.heap p = s.heap p ∨ ∃ x, b.live h = some x ∧ x.owned = true ∧ x.host = p) ∧
      (∀ p, s'.dheap p = s.dheap p ∨ ∃ x, b.live h = some x ∧ x.owned = true ∧ x.dev = p) ∧
      (b.live h = none → s' = s) := by
  have hx := hI.host h
  have hb := hI.borrowed h
  have hdv := hI.dev h
  have hbd := hI.borrowedDev h
  have hs := hI.sizes h
  cases e : b.live h with
  | none =>
    rw [e] at hx hb hdv hbd hs
    simp only [Option.bind_none, ite_self] at hx hb hdv hbd
    have ers : ∀ {α : Type} {m : Int → Option α}, m h = none → mapErase m h = m := fun hm => by
      funext i; unfold mapErase; split
      · next q => rw [q, hm]
      · rfl
    have key : s.deallocateView gpu h = .ok s := by
      unfold MMState.deallocateView
      simp only [hx, hdv, ers hb, ers hbd, ers hs]
      cases gpu <;> rfl
    refine ⟨s, key, ?_, fun _ => Or.inl rfl, fun _ => Or.inl rfl, fun _ => rfl⟩
    have : b.step (MMOp.deallocView (P := P) (V := V) h) = b := by
      cases b
      simp only [Blocks.step, Blocks.mk.injEq, true_and]
      funext i
      split
      · next q => rw [q]; exact e.symm
      · rfl
    rw [this]; exact hI
  | some x =>
    rw [e] at hx hb hdv hbd hs
    simp only [Option.bind_some] at hx hb hdv hbd
    cases ho : x.owned with
    | true =>
      rw [ho] at hx hb hdv hbd
      simp only [if_true, ite_self] at hx hb hdv hbd
      obtain ⟨c, hc⟩ := Option.ne_none_iff_exists'.1 (hI.owned h x e ho).1
      have nb : mapErase s.mm.borrowed h = s.mm.borrowed := by
        funext i; unfold mapErase; split
        · next q => rw [q, hb]
        · rfl
      cases hg : gpu with
      | false =>
        subst hg
        simp only [Bool.false_eq_true, if_false] at hdv
        refine ⟨⟨⟨s.mm.curr, mapErase s.mm.host h, s.mm.borrowed, s.mm.dev, s.mm.borrowedDev, mapErase s.mm.sizes h⟩,
          mapErase s.heap x.host, s.dheap⟩, ?_, ?_, ?_, ?_, ?_⟩
        · unfold MMState.deallocateView
          simp only [hx, freeBlock, hc, Bool.false_eq_true, if_false]
        · refine hI.remove rfl (fun i => rfl) (mapErase_of_none hI hb) (mapErase_of_none hI hdv) (mapErase_of_none hI hbd) (fun i => rfl) ?_ ?_
          · intro p
            rw [mapErase_ne_none]
            constructor
            · rintro ⟨a, q⟩
              refine ⟨q, ?_⟩
              rintro ⟨y, ey, -, rfl⟩
              rw [e] at ey; cases ey; exact a rfl
            · rintro ⟨q, a⟩
              exact ⟨fun r => a ⟨x, e, ho, r.symm⟩, q⟩
          · intro p
            simp
        · intro p
          dsimp only [mapErase]
          split
          · next q => exact Or.inr ⟨x, e ▸ rfl, ho, q.symm⟩
          · exact Or.inl rfl
        · intro p; exact Or.inl rfl
        · intro q; cases q
      | true =>
        subst hg
        simp only [if_true] at hdv
        obtain ⟨d, hd⟩ := Option.ne_none_iff_exists'.1 (hI.ownedDev rfl h x e ho).1
        refine ⟨⟨⟨s.mm.curr, mapErase s.mm.host h, s.mm.borrowed, mapErase s.mm.dev h, s.mm.borrowedDev, mapErase s.mm.sizes h⟩,
          mapErase s.heap x.host, mapErase s.dheap x.dev⟩, ?_, ?_, ?_, ?_, ?_⟩
        · unfold MMState.deallocateView
          simp only [hx, hdv, freeBlock, hc, hd, if_true]
        · refine hI.remove rfl (fun i => rfl) (mapErase_of_none hI hb) (fun i => rfl) (mapErase_of_none hI hbd) (fun i => rfl) ?_ ?_
          · intro p
            rw [mapErase_ne_none]
            constructor
            · rintro ⟨a, q⟩
              refine ⟨q, ?_⟩
              rintro ⟨y, ey, -, rfl⟩
              rw [e] at ey; cases ey; exact a rfl
            · rintro ⟨q, a⟩
              exact ⟨fun r => a ⟨x, e, ho, r.symm⟩, q⟩
          · intro p
            rw [mapErase_ne_none]
            constructor
            · rintro ⟨a, q⟩
              refine ⟨q, ?_⟩
              rintro ⟨-, y, ey, -, rfl⟩
              rw [e] at ey; cases ey; exact a rfl
            · rintro ⟨q, a⟩
              exact ⟨fun r => a ⟨rfl, x, e, ho, r.symm⟩, q⟩
        · intro p
          dsimp only [mapErase]
          split
          · next q => exact Or.inr ⟨x, e ▸ rfl, ho, q.symm⟩
          · exact Or.inl rfl
        · intro p
          dsimp only [mapErase]
          split
          · next q => exact Or.inr ⟨x, e ▸ rfl, ho, q.symm⟩
          · exact Or.inl rfl
        · intro q; cases q
    | false =>
      rw [ho] at hx hb hdv hbd
      simp only [Bool.false_eq_true, if_false, ite_self] at hx hb hdv hbd
      have nox : ∀ p, ¬ ∃ y, b.live h = some y ∧ y.owned = true ∧ y.host = p := by
        rintro p ⟨y, ey, oy, -⟩
        rw [e] at ey; cases ey; rw [ho] at oy; cases oy
      have nod : ∀ p, ¬ ∃ y, b.live h = some y ∧ y.owned = true ∧ y.dev = p := by
        rintro p ⟨y, ey, oy, -⟩
        rw [e] at ey; cases ey; rw [ho] at oy; cases oy
      refine ⟨⟨⟨s.mm.curr, s.mm.host, mapErase s.mm.borrowed h, s.mm.dev, if gpu then mapErase s.mm.borrowedDev h else s.mm.borrowedDev, mapErase s.mm.sizes h⟩,
          s.heap, s.dheap⟩, ?_, ?_, ?_, ?_, ?_⟩
      · unfold MMState.deallocateView
        simp only [hx, hdv]
        cases gpu <;> rfl
      · refine hI.remove rfl (mapErase_of_none hI hx) (fun i => rfl) (mapErase_of_none hI hdv) ?_ (fun i => rfl) ?_ ?_
        · intro i
          cases gpu with
          | true => rfl
          | false => exact mapErase_of_none hI (by simpa using hbd) i
        · intro p
          exact ⟨fun q => ⟨q, nox p⟩, fun q => q.1⟩
        · intro p
          exact ⟨fun q => ⟨q, fun r => nod p r.2⟩, fun q => q.1⟩
      · intro p; exact Or.inl rfl
      · intro p; exact Or.inl rfl
      · intro q; cases q

theorem dealloc_inv (h : Int) :
    ∃ s', s.deallocate gpu h = .ok s' ∧
      MMInv gpu w heap0 dheap0 (b.step (MMOp.dealloc (P := P) (V := V) h)) s' ∧
      (∀ p, s'.heap p = s.heap p ∨ ∃ x, b.live h = some x ∧ x.owned = true ∧ x.host = p) ∧
      (∀ p, s'.dheap p = s.dheap p ∨ ∃ x, b.live h = some x ∧ x.owned = true ∧ x.dev = p) ∧
      ((∀ x, b.live h = some x → x.owned = false) → s' = s) := by
  have hx := hI.host h
  by_cases ho : ∃ x, b.live h = some x ∧ x.owned = true
  · obtain ⟨x, e, ho⟩ := ho
    rw [e] at hx
    simp only [Option.bind_some, ho, if_true] at hx
    have eqv : s.deallocate gpu h = s.deallocateView gpu h := by
      unfold MMState.deallocate MMState.deallocateView
      simp only [hx]
      cases hf : freeBlock s.heap x.host with
      | error e => rfl
      | ok heap =>
        dsimp only
        cases hg : gpu with
        | false => rfl
        | true =>
          simp only [if_true]
          have hdv := hI.dev h
          rw [hg, e] at hdv
          simp only [if_true, Option.bind_some, ho] at hdv
          rw [hdv]
    obtain ⟨s', d, i, f1, f2, -⟩ := deallocView_inv hI h
    refine ⟨s', by rw [eqv]; exact d, ?_, f1, f2, ?_⟩
    · have : b.step (MMOp.dealloc (P := P) (V := V) h) = b.step (MMOp.deallocView (P := P) (V := V) h) := by
        simp only [Blocks.step, e, Option.any_some, ho, and_true]
      rw [this]; exact i
    · intro q; rw [q x e] at ho; cases ho
  · have hn : s.mm.host h = none := by
      rw [hx]
      cases e : b.live h with
      | none => rfl
      | some x =>
        cases hb : x.owned with
        | true => exact absurd ⟨x, e, hb⟩ ho
        | false => simp [hb]
    have d : s.deallocate gpu h = .ok s := by unfold MMState.deallocate; rw [hn]
    refine ⟨s, d, ?_, fun _ => Or.inl rfl, fun _ => Or.inl rfl, fun _ => rfl⟩
    have : b.step (MMOp.dealloc (P := P) (V := V) h) = b := by
      have na : (b.live h).any (fun x => x.owned) = false := by
        cases e : b.live h with
        | none => rfl
        | some x =>
          cases hb : x.owned with
          | true => exact absurd ⟨x, e, hb⟩ ho
          | false => simp [hb]
      cases b
      simp only [Blocks.step] at na ⊢
      simp only [na, Bool.false_eq_true, and_false, if_false]
    rw [this]; exact hI

/-- Lookups. -/
theorem hostData_live {h : Int} {x : Blk P} (e : b.live h = some x) : s.mm.hostData h = .ok x.host := by
  unfold MM.hostData
  rw [hI.host, hI.borrowed, e]
  cases hb : x.owned <;> simp [hb]

theorem hostData_dead {h : Int} (e : b.live h = none) : s.mm.hostData h = .error .lookupAbort := by
  unfold MM.hostData
  rw [hI.host, hI.borrowed, e]
  rfl

theorem deviceData_live (hg : gpu = true) {h : Int} {x : Blk P} (e : b.live h = some x) : s.mm.deviceData gpu h = .ok x.dev := by
  unfold MM.deviceData
  rw [hI.dev, hI.borrowedDev, e, hg]
  cases hb : x.owned <;> simp [hb]

theorem deviceData_dead (hg : gpu = true) {h : Int} (e : b.live h = none) : s.mm.deviceData gpu h = .error .lookupAbort := by
  unfold MM.deviceData
  rw [hI.dev, hI.borrowedDev, e, hg]
  rfl

theorem size_live (hw : 1 ≤ w) {h : Int} {x : Blk P} (e : b.live h = some x) : s.mm.size w h = .ok x.len := by
  unfold MM.size
  rw [hI.sizes, e]
  have := (hI.len h x e).1
  have h0 : 0 ≤ x.len * w := Int.mul_nonneg this (by omega)
  simp only [Option.map_some]
  rw [if_pos h0, Int.mul_ediv_cancel _ (by omega)]

theorem size_dead {h : Int} (e : b.live h = none) : s.mm.size w h = .error .outOfRange := by
  unfold MM.size
  rw [hI.sizes, e]
  rfl

end

end Madg
