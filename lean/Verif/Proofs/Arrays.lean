/-
Managed arrays refine single copies.
-/
import Verif.Proofs.Memory
import Mathlib.Data.List.Forall2

set_option linter.unusedSectionVars false
set_option linter.unusedVariables false

namespace Madg
open Spec
variable {O P V : Type} [DecidableEq P] [DecidableEq O]

/-- The host and device copies of a block, seen through an array's status, hold the contents `c`. -/
structure Cont (gpu : Bool) (s : MMState P V) (st : SyncStatus) (x : Blk P) (c : Int → V) : Prop where
  host : ∃ ch, s.heap x.host = some ch ∧ (st ≠ .deviceModified → Agree x.len ch c)
  dev : gpu = true → ∃ cd, s.dheap x.dev = some cd ∧ (st ≠ .hostModified → Agree x.len cd c)
  noDev : st = .deviceModified → gpu = true

theorem Spec.Agree.refl (n : Int) (c : Int → V) : Agree n c c := fun _ _ _ => rfl
theorem Spec.Agree.trans {n : Int} {a b c : Int → V} (h : Agree n a b) (h' : Agree n b c) : Agree n a c :=
  fun i h0 h1 => (h i h0 h1).trans (h' i h0 h1)
theorem Spec.Agree.symm {n : Int} {a b : Int → V} (h : Agree n a b) : Agree n b a := fun i h0 h1 => (h i h0 h1).symm

theorem overlay_agree (n : Int) (c d : Int → V) : Agree n (overlay n c d) c := fun i h0 h1 => by
  unfold overlay; rw [if_pos ⟨h0, h1⟩]

theorem overlay_id (n : Int) (c : Int → V) : overlay n c c = c := by
  funext i; unfold overlay; split <;> rfl

theorem mapSet_mapSet {α β : Type} [DecidableEq α] (m : α → Option β) (k : α) (u v : β) :
    mapSet (mapSet m k u) k v = mapSet m k v := by
  funext i; unfold mapSet; split <;> rfl

theorem mapSet_same {α β : Type} [DecidableEq α] (m : α → Option β) (k : α) (v : β) : mapSet m k v k = some v := by
  unfold mapSet; rw [if_pos rfl]

theorem mapSet_other {α β : Type} [DecidableEq α] (m : α → Option β) {k i : α} (v : β) (h : i ≠ k) : mapSet m k v i = m i := by
  unfold mapSet; rw [if_neg h]

/-- Effect of an access that leaves the contents `c'` and showed `v`. -/
structure AccPost (gpu : Bool) (x : Blk P) (a : MArr) (s : MMState P V) (c' : Int → V) (a' : MArr) (s' : MMState P V) : Prop where
  handle : a'.handle = a.handle
  owning : a'.owning = a.owning
  mm : s'.mm = s.mm
  heap : ∀ p, p ≠ x.host → s'.heap p = s.heap p
  dheap : ∀ p, p ≠ x.dev → s'.dheap p = s.dheap p
  live : s'.heap x.host ≠ none
  liveDev : s'.dheap x.dev ≠ none ↔ s.dheap x.dev ≠ none
  cont : Cont gpu s' a'.status x c'

section
variable {gpu : Bool} {w : Int} {heap0 dheap0 : P → Option (Int → V)} {b : Blocks P} {s : MMState P V}
  (hI : MMInv gpu w heap0 dheap0 b s) (hw : 1 ≤ w) {a : MArr} {x : Blk P} (hx : b.live a.handle = some x) {c : Int → V}
  (hc : Cont gpu s a.status x c)
include hI hw hx

theorem useHost_eq {ch : Int → V} (h : s.heap x.host = some ch) (f : (Int → V) → Int → V) :
    s.useHost w a.handle f = .ok (⟨s.mm, mapSet s.heap x.host (overlay x.len (f ch) ch), s.dheap⟩, x.len, ch) := by
  unfold MMState.useHost
  rw [hostData_live hI hx, size_live hI hw hx]
  simp only [block, h, bind, Except.bind]

theorem useDev_eq (hg : gpu = true) {cd : Int → V} (h : s.dheap x.dev = some cd) (f : (Int → V) → Int → V) :
    s.useDev gpu w a.handle f = .ok (⟨s.mm, s.heap, mapSet s.dheap x.dev (overlay x.len (f cd) cd)⟩, x.len, cd) := by
  unfold MMState.useDev
  rw [deviceData_live hI hg hx, size_live hI hw hx]
  simp only [block, h, bind, Except.bind]

theorem toHost_eq (hg : gpu = true) {ch cd : Int → V} (h : s.heap x.host = some ch) (h' : s.dheap x.dev = some cd) :
    s.copyDeviceToHost gpu w a.handle = .ok ⟨s.mm, mapSet s.heap x.host (overlay x.len cd ch), s.dheap⟩ := by
  unfold MMState.copyDeviceToHost
  rw [if_pos hg, deviceData_live hI hg hx, hostData_live hI hx, size_live hI hw hx]
  simp only [block, h, h', bind, Except.bind]

theorem toDev_eq (hg : gpu = true) {ch cd : Int → V} (h : s.heap x.host = some ch) (h' : s.dheap x.dev = some cd) :
    s.copyHostToDevice gpu w a.handle = .ok ⟨s.mm, s.heap, mapSet s.dheap x.dev (overlay x.len ch cd)⟩ := by
  unfold MMState.copyHostToDevice
  rw [if_pos hg, deviceData_live hI hg hx, hostData_live hI hx, size_live hI hw hx]
  simp only [block, h, h', bind, Except.bind]

/-- The tables also hold after a copy. -/
theorem inv_copyHost {d : Int → V} (h : s.heap x.host ≠ none) :
    MMInv gpu w heap0 dheap0 b ⟨s.mm, mapSet s.heap x.host d, s.dheap⟩ :=
  hI.heapCongr rfl (fun p => by
    rw [mapSet_ne_none]
    exact ⟨fun q => q.elim (fun e => e ▸ h) id, Or.inr⟩) (fun _ => Iff.rfl)

theorem inv_copyDev {d : Int → V} (h : s.dheap x.dev ≠ none) :
    MMInv gpu w heap0 dheap0 b ⟨s.mm, s.heap, mapSet s.dheap x.dev d⟩ :=
  hI.heapCongr rfl (fun _ => Iff.rfl) (fun p => by
    rw [mapSet_ne_none]
    exact ⟨fun q => q.elim (fun e => e ▸ h) id, Or.inr⟩)

include hc

/-- Host write: contents become `f` of whatever the host copy held. -/
theorem writeHost_ok (f : (Int → V) → Int → V) (hl : Local x.len f) (ho : gpu = true → Overwrites x.len f) :
    ∃ a' s' v, a.writeHost w f s = .ok (a', s', x.len, v) ∧ AccPost gpu x a s (f c) a' s' := by
  obtain ⟨ch, h1, h2⟩ := hc.host
  have hf : Agree x.len (f ch) (f c) := by
    cases hg : gpu with
    | true => exact ho hg ch c
    | false => exact hl _ _ (h2 fun e => by rw [hg] at hc; exact absurd (hc.noDev e) (by decide))
  unfold MArr.writeHost
  rw [useHost_eq hI hw hx h1 f]
  simp only [bind, Except.bind]
  refine ⟨_, _, _, rfl, rfl, rfl, rfl, ?_, ?_, ?_, Iff.rfl, ?_, ?_, ?_⟩
  · intro p hp; exact mapSet_other _ _ hp
  · intro p _; rfl
  · dsimp only; rw [mapSet_same]; exact Option.some_ne_none _
  · exact ⟨_, mapSet_same _ _ _, fun _ => Agree.trans (overlay_agree _ _ _) hf⟩
  · intro g
    obtain ⟨cd, e, -⟩ := hc.dev g
    exact ⟨cd, e, fun h => absurd rfl h⟩
  · intro e; cases e

theorem writeDevice_ok (hg : gpu = true) (f : (Int → V) → Int → V) (ho : Overwrites x.len f) :
    ∃ a' s' v, a.writeDevice gpu w f s = .ok (a', s', x.len, v) ∧ AccPost gpu x a s (f c) a' s' := by
  obtain ⟨cd, h1, -⟩ := hc.dev hg
  unfold MArr.writeDevice
  rw [useDev_eq hI hw hx hg h1 f]
  simp only [bind, Except.bind]
  refine ⟨_, _, _, rfl, rfl, rfl, rfl, ?_, ?_, ?_, ?_, ?_, ?_, ?_⟩
  · intro p _; rfl
  · intro p hp; exact mapSet_other _ _ hp
  · obtain ⟨ch, e, -⟩ := hc.host; dsimp only; rw [e]; exact Option.some_ne_none _
  · dsimp only; rw [mapSet_same, h1]; simp
  · obtain ⟨ch, e, -⟩ := hc.host; exact ⟨ch, e, fun h => absurd rfl h⟩
  · intro _; exact ⟨_, mapSet_same _ _ _, fun _ => Agree.trans (overlay_agree _ _ _) (ho cd c)⟩
  · intro _; exact hg

theorem readWriteHost_ok (f : (Int → V) → Int → V) (hl : Local x.len f) :
    ∃ a' s' v, a.readWriteHost gpu w f s = .ok (a', s', x.len, v) ∧ AccPost gpu x a s (f c) a' s' ∧ Agree x.len v c := by
  obtain ⟨ch, h1, h2⟩ := hc.host
  unfold MArr.readWriteHost
  by_cases hs : a.status = .deviceModified
  · have hg := hc.noDev hs
    obtain ⟨cd, d1, d2⟩ := hc.dev hg
    have dc : Agree x.len cd c := d2 (by rw [hs]; decide)
    have oc : Agree x.len (overlay x.len cd ch) c := Agree.trans (overlay_agree _ _ _) dc
    rw [if_pos hs, toHost_eq hI hw hx hg h1 d1]
    have h1' : (mapSet s.heap x.host (overlay x.len cd ch)) x.host = some (overlay x.len cd ch) := mapSet_same _ _ _
    simp only [bind, Except.bind]
    rw [useHost_eq (inv_copyHost hI hw hx (by rw [h1]; exact Option.some_ne_none _)) hw hx h1' f, mapSet_mapSet]
    refine ⟨_, _, _, rfl, ⟨rfl, rfl, rfl, ?_, ?_, ?_, Iff.rfl, ?_, ?_, ?_⟩, oc⟩
    · intro p hp; exact mapSet_other _ _ hp
    · intro p _; rfl
    · dsimp only; rw [mapSet_same]; exact Option.some_ne_none _
    · exact ⟨_, mapSet_same _ _ _, fun _ => Agree.trans (overlay_agree _ _ _) (hl _ _ oc)⟩
    · intro g; exact ⟨cd, d1, fun h => absurd rfl h⟩
    · intro e; cases e
  · rw [if_neg hs, useHost_eq hI hw hx h1 f]
    simp only [bind, Except.bind]
    refine ⟨_, _, _, rfl, ⟨rfl, rfl, rfl, ?_, ?_, ?_, Iff.rfl, ?_, ?_, ?_⟩, h2 hs⟩
    · intro p hp; exact mapSet_other _ _ hp
    · intro p _; rfl
    · dsimp only; rw [mapSet_same]; exact Option.some_ne_none _
    · exact ⟨_, mapSet_same _ _ _, fun _ => Agree.trans (overlay_agree _ _ _) (hl _ _ (h2 hs))⟩
    · intro g
      obtain ⟨cd, d1, -⟩ := hc.dev g
      exact ⟨cd, d1, fun h => absurd rfl h⟩
    · intro e; cases e

theorem readWriteDevice_ok (hg : gpu = true) (f : (Int → V) → Int → V) (hl : Local x.len f) :
    ∃ a' s' v, a.readWriteDevice gpu w f s = .ok (a', s', x.len, v) ∧ AccPost gpu x a s (f c) a' s' ∧ Agree x.len v c := by
  obtain ⟨ch, h1, h2⟩ := hc.host
  obtain ⟨cd, d1, d2⟩ := hc.dev hg
  unfold MArr.readWriteDevice
  by_cases hs : a.status = .hostModified
  · have dc : Agree x.len ch c := h2 (by rw [hs]; decide)
    have oc : Agree x.len (overlay x.len ch cd) c := Agree.trans (overlay_agree _ _ _) dc
    rw [if_pos hs, toDev_eq hI hw hx hg h1 d1]
    have h1' : (mapSet s.dheap x.dev (overlay x.len ch cd)) x.dev = some (overlay x.len ch cd) := mapSet_same _ _ _
    simp only [bind, Except.bind]
    rw [useDev_eq (inv_copyDev hI hw hx (by rw [d1]; exact Option.some_ne_none _)) hw hx hg h1' f, mapSet_mapSet]
    refine ⟨_, _, _, rfl, ⟨rfl, rfl, rfl, ?_, ?_, ?_, ?_, ?_, ?_, ?_⟩, oc⟩
    · intro p _; rfl
    · intro p hp; exact mapSet_other _ _ hp
    · dsimp only; rw [h1]; exact Option.some_ne_none _
    · dsimp only; rw [mapSet_same, d1]; simp
    · exact ⟨ch, h1, fun h => absurd rfl h⟩
    · intro _; exact ⟨_, mapSet_same _ _ _, fun _ => Agree.trans (overlay_agree _ _ _) (hl _ _ oc)⟩
    · intro _; exact hg
  · rw [if_neg hs, useDev_eq hI hw hx hg d1 f]
    simp only [bind, Except.bind]
    refine ⟨_, _, _, rfl, ⟨rfl, rfl, rfl, ?_, ?_, ?_, ?_, ?_, ?_, ?_⟩, d2 hs⟩
    · intro p _; rfl
    · intro p hp; exact mapSet_other _ _ hp
    · dsimp only; rw [h1]; exact Option.some_ne_none _
    · dsimp only; rw [mapSet_same, d1]; simp
    · exact ⟨ch, h1, fun h => absurd rfl h⟩
    · intro _; exact ⟨_, mapSet_same _ _ _, fun _ => Agree.trans (overlay_agree _ _ _) (hl _ _ (d2 hs))⟩
    · intro _; exact hg

theorem readHost_ok :
    ∃ a' s' v, a.readHost gpu w s = .ok (a', s', x.len, v) ∧ AccPost gpu x a s c a' s' ∧ Agree x.len v c := by
  obtain ⟨ch, h1, h2⟩ := hc.host
  unfold MArr.readHost
  by_cases hs : a.status = .deviceModified
  · have hg := hc.noDev hs
    obtain ⟨cd, d1, d2⟩ := hc.dev hg
    have dc : Agree x.len cd c := d2 (by rw [hs]; decide)
    have oc : Agree x.len (overlay x.len cd ch) c := Agree.trans (overlay_agree _ _ _) dc
    rw [if_pos hs, toHost_eq hI hw hx hg h1 d1]
    have h1' : (mapSet s.heap x.host (overlay x.len cd ch)) x.host = some (overlay x.len cd ch) := mapSet_same _ _ _
    simp only [bind, Except.bind]
    rw [useHost_eq (inv_copyHost hI hw hx (by rw [h1]; exact Option.some_ne_none _)) hw hx h1' id, mapSet_mapSet]
    refine ⟨_, _, _, rfl, ⟨rfl, rfl, rfl, ?_, ?_, ?_, Iff.rfl, ?_, ?_, ?_⟩, oc⟩
    · intro p hp; exact mapSet_other _ _ hp
    · intro p _; rfl
    · dsimp only; rw [mapSet_same]; exact Option.some_ne_none _
    · exact ⟨_, mapSet_same _ _ _, fun _ => Agree.trans (overlay_agree _ _ _) oc⟩
    · intro g; exact ⟨cd, d1, fun _ => dc⟩
    · intro e; cases e
  · rw [if_neg hs, useHost_eq hI hw hx h1 id]
    simp only [bind, Except.bind]
    refine ⟨_, _, _, rfl, ⟨rfl, rfl, rfl, ?_, ?_, ?_, Iff.rfl, ?_, ?_, ?_⟩, h2 hs⟩
    · intro p hp; exact mapSet_other _ _ hp
    · intro p _; rfl
    · dsimp only; rw [mapSet_same]; exact Option.some_ne_none _
    · exact ⟨_, mapSet_same _ _ _, fun _ => Agree.trans (overlay_agree _ _ _) (h2 hs)⟩
    · intro g; exact hc.dev g
    · intro e; exact absurd e hs

theorem readDevice_ok (hg : gpu = true) :
    ∃ a' s' v, a.readDevice gpu w s = .ok (a', s', x.len, v) ∧ AccPost gpu x a s c a' s' ∧ Agree x.len v c := by
  obtain ⟨ch, h1, h2⟩ := hc.host
  obtain ⟨cd, d1, d2⟩ := hc.dev hg
  unfold MArr.readDevice
  by_cases hs : a.status = .hostModified
  · have dc : Agree x.len ch c := h2 (by rw [hs]; decide)
    have oc : Agree x.len (overlay x.len ch cd) c := Agree.trans (overlay_agree _ _ _) dc
    rw [if_pos hs, toDev_eq hI hw hx hg h1 d1]
    have h1' : (mapSet s.dheap x.dev (overlay x.len ch cd)) x.dev = some (overlay x.len ch cd) := mapSet_same _ _ _
    simp only [bind, Except.bind]
    rw [useDev_eq (inv_copyDev hI hw hx (by rw [d1]; exact Option.some_ne_none _)) hw hx hg h1' id, mapSet_mapSet]
    refine ⟨_, _, _, rfl, ⟨rfl, rfl, rfl, ?_, ?_, ?_, ?_, ?_, ?_, ?_⟩, oc⟩
    · intro p _; rfl
    · intro p hp; exact mapSet_other _ _ hp
    · dsimp only; rw [h1]; exact Option.some_ne_none _
    · dsimp only; rw [mapSet_same, d1]; simp
    · exact ⟨ch, h1, fun _ => dc⟩
    · intro _; exact ⟨_, mapSet_same _ _ _, fun _ => Agree.trans (overlay_agree _ _ _) oc⟩
    · intro e; cases e
  · rw [if_neg hs, useDev_eq hI hw hx hg d1 id]
    simp only [bind, Except.bind]
    refine ⟨_, _, _, rfl, ⟨rfl, rfl, rfl, ?_, ?_, ?_, ?_, ?_, ?_, ?_⟩, d2 hs⟩
    · intro p _; rfl
    · intro p hp; exact mapSet_other _ _ hp
    · dsimp only; rw [h1]; exact Option.some_ne_none _
    · dsimp only; rw [mapSet_same, d1]; simp
    · exact ⟨ch, h1, fun h => h2 h⟩
    · intro _; exact ⟨_, mapSet_same _ _ _, fun _ => Agree.trans (overlay_agree _ _ _) (d2 hs)⟩
    · intro _; exact hg

end

/-- Objects, tables and memory represent the single copies `X`. -/
structure ArrInv (gpu : Bool) (w : Int) (heap0 dheap0 : P → Option (Int → V)) (b : Blocks P) (s : ArrState O P V)
    (X : Arrays O V) : Prop where
  inv : MMInv gpu w heap0 dheap0 b s.mem
  objs : ∀ o a, s.objs o = some a → ∃ x c, b.live a.handle = some x ∧ x.owned = a.owning ∧ X o = some (x.len, c) ∧
    Cont gpu s.mem a.status x c
  none : ∀ o, s.objs o = none → X o = none
  handles : ∀ o a o' a', s.objs o = some a → s.objs o' = some a' → a.handle = a'.handle → o = o'
  used : ∀ h x, b.live h = some x → ∃ o a, s.objs o = some a ∧ a.handle = h
  sep : ∀ h x h' x', b.live h = some x → b.live h' = some x' → x.host = x'.host → h = h'
  sepDev : gpu = true → ∀ h x h' x', b.live h = some x → b.live h' = some x' → x.dev = x'.dev → h = h'

section
variable {gpu : Bool} {w : Int} {heap0 dheap0 : P → Option (Int → V)} {b : Blocks P} {s : ArrState O P V} {X : Arrays O V}
  (hA : ArrInv gpu w heap0 dheap0 b s X) (hw : 1 ≤ w)
include hA

theorem ArrInv.live_iff (o : O) : s.objs o ≠ .none ↔ X o ≠ .none := by
  constructor
  · intro h
    obtain ⟨a, e⟩ := Option.ne_none_iff_exists'.1 h
    obtain ⟨x, c, -, -, e', -⟩ := hA.objs o a e
    rw [e']; exact Option.some_ne_none _
  · intro h e; exact h (hA.none o e)

theorem ArrInv.heapLive {h : Int} {x : Blk P} (e : b.live h = some x) : s.mem.heap x.host ≠ .none ∧
    (gpu = true → s.mem.dheap x.dev ≠ .none) := by
  obtain ⟨o, a, ho, rfl⟩ := hA.used h x e
  obtain ⟨x', c, e', -, -, hc⟩ := hA.objs o a ho
  rw [e] at e'; cases e'
  obtain ⟨ch, q, -⟩ := hc.host
  refine ⟨by rw [q]; exact Option.some_ne_none _, fun g => ?_⟩
  obtain ⟨cd, q, -⟩ := hc.dev g
  rw [q]; exact Option.some_ne_none _

theorem Cont.congr {s s' : MMState P V} {st : SyncStatus} {x : Blk P} {c : Int → V} (h : Cont gpu s st x c)
    (h1 : s'.heap x.host = s.heap x.host) (h2 : gpu = true → s'.dheap x.dev = s.dheap x.dev) : Cont gpu s' st x c := by
  refine ⟨by rw [h1]; exact h.host, fun g => by rw [h2 g]; exact h.dev g, h.noDev⟩

/-- An access keeps the invariant. -/
theorem ArrInv.access {o : O} {a : MArr} {x : Blk P} (ho : s.objs o = some a) (hx : b.live a.handle = some x)
    (hown : x.owned = a.owning) {c' : Int → V} {a' : MArr} {m' : MMState P V} (hp : AccPost gpu x a s.mem c' a' m') :
    ArrInv gpu w heap0 dheap0 b ⟨mapSet s.objs o a', m'⟩ (fun o' => if o' = o then some (x.len, c') else X o') := by
  have hne : ∀ h y, b.live h = some y → h ≠ a.handle → y.host ≠ x.host ∧ (gpu = true → y.dev ≠ x.dev) := fun h y e ne =>
    ⟨fun q => ne (hA.sep h y _ x e hx q), fun g q => ne (hA.sepDev g h y _ x e hx q)⟩
  have set : ∀ o' a'', mapSet s.objs o a' o' = some a'' → (o' = o ∧ a'' = a') ∨ (o' ≠ o ∧ s.objs o' = some a'') := by
    intro o' a'' e
    unfold mapSet at e
    split at e
    · cases e; exact Or.inl ⟨by assumption, rfl⟩
    · exact Or.inr ⟨by assumption, e⟩
  obtain ⟨hl, hld⟩ := hA.heapLive hx
  refine ⟨hA.inv.heapCongr hp.mm ?_ ?_, ?_, ?_, ?_, ?_, hA.sep, hA.sepDev⟩
  · intro p
    by_cases e : p = x.host
    · subst e; exact ⟨fun _ => hl, fun _ => hp.live⟩
    · rw [hp.heap p e]
  · intro p
    by_cases e : p = x.dev
    · subst e; exact hp.liveDev
    · rw [hp.dheap p e]
  · intro o' a'' e
    rcases set o' a'' e with ⟨rfl, rfl⟩ | ⟨ne, e⟩
    · exact ⟨x, c', by rw [hp.handle]; exact hx, by rw [hp.owning]; exact hown, by rw [if_pos rfl], hp.cont⟩
    · obtain ⟨y, c, y1, y2, y3, y4⟩ := hA.objs o' a'' e
      have nh : a''.handle ≠ a.handle := fun q => ne (hA.handles o' a'' o a e ho q)
      obtain ⟨q1, q2⟩ := hne _ y y1 nh
      exact ⟨y, c, y1, y2, by rw [if_neg ne]; exact y3, Cont.congr hA y4 (hp.heap _ q1) fun g => hp.dheap _ (q2 g)⟩
  · intro o' e
    unfold mapSet at e
    dsimp only at e ⊢
    split at e
    · cases e
    · next ne => rw [if_neg ne]; exact hA.none o' e
  · intro o1 a1 o2 a2 e1 e2 q
    rcases set o1 a1 e1 with ⟨rfl, rfl⟩ | ⟨ne1, f1⟩ <;> rcases set o2 a2 e2 with ⟨rfl, rfl⟩ | ⟨ne2, f2⟩
    · rfl
    · exact absurd (hA.handles _ _ _ _ f2 ho (by rw [← q, hp.handle])) ne2
    · exact absurd (hA.handles _ _ _ _ f1 ho (by rw [q, hp.handle])) ne1
    · exact hA.handles _ _ _ _ f1 f2 q
  · intro h y e
    obtain ⟨o', a'', ho', rfl⟩ := hA.used h y e
    by_cases q : o' = o
    · subst q
      rw [ho] at ho'; cases ho'
      exact ⟨o', a', mapSet_same _ _ _, hp.handle⟩
    · exact ⟨o', a'', (mapSet_other _ _ q).trans ho', rfl⟩

/-- A new array. -/
theorem ArrInv.add [Zero V] {o : O} (ho : s.objs o = .none) {op : MMOp P V} {x : Blk P} {m1 : MMState P V}
    (hb : ∀ i, (b.step op).live i = if i = b.count + 1 then some x else b.live i)
    (hI1 : MMInv gpu w heap0 dheap0 (b.step op) m1)
    (hh : ∀ p, s.mem.heap p ≠ .none → p ≠ x.host → m1.heap p = s.mem.heap p)
    (hd : gpu = true → ∀ p, s.mem.dheap p ≠ .none → p ≠ x.dev → m1.dheap p = s.mem.dheap p)
    (hl : m1.heap x.host ≠ .none) (hld : gpu = true → m1.dheap x.dev ≠ .none)
    (hn : ∀ h y, b.live h = some y → y.host ≠ x.host) (hnd : gpu = true → ∀ h y, b.live h = some y → y.dev ≠ x.dev)
    (hw : 1 ≤ w) (st : SyncStatus) (v : Int → V) :
    ∃ m2 r, MArr.writeHost w (fun _ => v) ⟨b.count + 1, x.owned, st⟩ m1 = .ok (⟨b.count + 1, x.owned, .hostModified⟩, m2, r) ∧
      ArrInv gpu w heap0 dheap0 (b.step op) ⟨mapSet s.objs o ⟨b.count + 1, x.owned, .hostModified⟩, m2⟩
        (fun o' => if o' = o then some (x.len, v) else X o') := by
  have hx : (b.step op).live (b.count + 1) = some x := by rw [hb, if_pos rfl]
  obtain ⟨ch, hch⟩ := Option.ne_none_iff_exists'.1 hl
  have ho' : ∀ h y, b.live h = some y → h ≠ b.count + 1 := fun h y e q => by
    have := hA.inv.range h y e; omega
  have huse := useHost_eq hI1 hw (a := ⟨b.count + 1, x.owned, st⟩) hx hch (fun _ => v)
  refine ⟨⟨m1.mm, mapSet m1.heap x.host (overlay x.len v ch), m1.dheap⟩, (x.len, ch), ?_, ?_⟩
  · unfold MArr.writeHost
    simp only at huse ⊢
    rw [huse]; rfl
  have set : ∀ o' a'', mapSet s.objs o ⟨b.count + 1, x.owned, .hostModified⟩ o' = some a'' →
      (o' = o ∧ a'' = ⟨b.count + 1, x.owned, .hostModified⟩) ∨ (o' ≠ o ∧ s.objs o' = some a'') := by
    intro o' a'' e
    unfold mapSet at e
    split at e
    · cases e; exact Or.inl ⟨by assumption, rfl⟩
    · exact Or.inr ⟨by assumption, e⟩
  have livecases : ∀ h y, (b.step op).live h = some y → (h = b.count + 1 ∧ y = x) ∨ b.live h = some y := by
    intro h y e
    rw [hb] at e
    split at e
    · cases e; exact Or.inl ⟨by assumption, rfl⟩
    · exact Or.inr e
  refine ⟨inv_copyHost hI1 hw (a := ⟨b.count + 1, x.owned, st⟩) hx hl, ?_, ?_, ?_, ?_, ?_, ?_⟩
  · intro o' a'' e
    rcases set o' a'' e with ⟨rfl, rfl⟩ | ⟨ne, e⟩
    · refine ⟨x, v, hx, rfl, by rw [if_pos rfl], ⟨?_, ?_, ?_⟩⟩
      · exact ⟨_, mapSet_same _ _ _, fun _ => overlay_agree _ _ _⟩
      · intro g
        obtain ⟨cd, q⟩ := Option.ne_none_iff_exists'.1 (hld g)
        exact ⟨cd, q, fun h => absurd rfl h⟩
      · intro e; cases e
    · obtain ⟨y, c, y1, y2, y3, y4⟩ := hA.objs o' a'' e
      obtain ⟨l1, l2⟩ := hA.heapLive y1
      refine ⟨y, c, by rw [hb, if_neg (ho' _ _ y1)]; exact y1, y2, by rw [if_neg ne]; exact y3,
        Cont.congr hA y4 ?_ ?_⟩
      · exact (mapSet_other _ _ (hn _ _ y1)).trans (hh _ l1 (hn _ _ y1))
      · intro g; exact hd g _ (l2 g) (hnd g _ _ y1)
  · intro o' e
    unfold mapSet at e
    dsimp only at e ⊢
    split at e
    · cases e
    · next ne => rw [if_neg ne]; exact hA.none o' e
  · intro o1 a1 o2 a2 e1 e2 q
    have hne : ∀ o' a'', s.objs o' = some a'' → a''.handle ≠ b.count + 1 := fun o' a'' e => by
      obtain ⟨y, c, y1, -⟩ := hA.objs o' a'' e
      exact ho' _ _ y1
    rcases set o1 a1 e1 with ⟨rfl, rfl⟩ | ⟨ne1, f1⟩ <;> rcases set o2 a2 e2 with ⟨rfl, rfl⟩ | ⟨ne2, f2⟩
    · rfl
    · exact absurd q.symm (hne _ _ f2)
    · exact absurd q (hne _ _ f1)
    · exact hA.handles _ _ _ _ f1 f2 q
  · intro h y e
    rcases livecases h y e with ⟨rfl, rfl⟩ | e
    · exact ⟨o, _, mapSet_same _ _ _, rfl⟩
    · obtain ⟨o', a'', q, rfl⟩ := hA.used h y e
      refine ⟨o', a'', (mapSet_other _ _ ?_).trans q, rfl⟩
      rintro rfl
      rw [ho] at q; cases q
  · intro h y h' y' e e' q
    rcases livecases h y e with ⟨rfl, rfl⟩ | e <;> rcases livecases h' y' e' with ⟨rfl, rfl⟩ | e'
    · rfl
    · exact absurd q.symm (hn _ _ e')
    · exact absurd q (hn _ _ e)
    · exact hA.sep h y h' y' e e' q
  · intro g h y h' y' e e' q
    rcases livecases h y e with ⟨rfl, rfl⟩ | e <;> rcases livecases h' y' e' with ⟨rfl, rfl⟩ | e'
    · rfl
    · exact absurd q.symm (hnd g _ _ e')
    · exact absurd q (hnd g _ _ e)
    · exact hA.sepDev g h y h' y' e e' q

/-- Destruction of an array. -/
theorem ArrInv.remove {o : O} {a : MArr} (ho : s.objs o = some a) :
    ∃ b' m', a.destroy gpu s.mem = .ok m' ∧
      ArrInv gpu w heap0 dheap0 b' ⟨mapErase s.objs o, m'⟩ (fun o' => if o' = o then .none else X o') := by
  obtain ⟨x, c, hx, hown, hX, hc⟩ := hA.objs o a ho
  have key : ∃ m', a.destroy gpu s.mem = .ok m' ∧
      MMInv gpu w heap0 dheap0 ⟨b.count, fun i => if i = a.handle then .none else b.live i⟩ m' ∧
      (∀ p, m'.heap p = s.mem.heap p ∨ ∃ x, b.live a.handle = some x ∧ x.owned = true ∧ x.host = p) ∧
      (∀ p, m'.dheap p = s.mem.dheap p ∨ ∃ x, b.live a.handle = some x ∧ x.owned = true ∧ x.dev = p) := by
    unfold MArr.destroy
    cases hb : a.owning with
    | true =>
      obtain ⟨m', d, i, f1, f2, -⟩ := dealloc_inv hA.inv a.handle
      refine ⟨m', by simpa using d, ?_, f1, f2⟩
      have : b.step (MMOp.dealloc (P := P) (V := V) a.handle) = ⟨b.count, fun i => if i = a.handle then .none else b.live i⟩ := by
        simp only [Blocks.step, hx, Option.any_some, hown, hb, and_true]
      rw [← this]; exact i
    | false =>
      obtain ⟨m', d, i, f1, f2, -⟩ := deallocView_inv hA.inv a.handle
      exact ⟨m', by simpa using d, i, f1, f2⟩
  obtain ⟨m', d, i, f1, f2⟩ := key
  refine ⟨_, m', d, i, ?_, ?_, ?_, ?_, ?_, ?_⟩
  · intro o' a' e
    unfold mapErase at e
    dsimp only at e
    split at e
    · cases e
    · next ne =>
      obtain ⟨y, cy, y1, y2, y3, y4⟩ := hA.objs o' a' e
      have nh : a'.handle ≠ a.handle := fun q => ne (hA.handles _ _ _ _ e ho q)
      refine ⟨y, cy, ?_, y2, by rw [if_neg ne]; exact y3, Cont.congr hA y4 ?_ ?_⟩
      · dsimp only; rw [if_neg nh]; exact y1
      · rcases f1 y.host with q | ⟨z, z1, -, z3⟩
        · exact q
        · exact absurd (hA.sep _ _ _ _ z1 y1 z3) nh.symm
      · intro g
        rcases f2 y.dev with q | ⟨z, z1, -, z3⟩
        · exact q
        · exact absurd (hA.sepDev g _ _ _ _ z1 y1 z3) nh.symm
  · intro o' e
    unfold mapErase at e
    dsimp only at e ⊢
    split at e
    · next q => rw [if_pos q]
    · next ne => rw [if_neg ne]; exact hA.none o' e
  · intro o1 a1 o2 a2 e1 e2 q
    unfold mapErase at e1 e2
    dsimp only at e1 e2
    split at e1
    · cases e1
    split at e2
    · cases e2
    exact hA.handles _ _ _ _ e1 e2 q
  · intro h y e
    dsimp only at e
    split at e
    · cases e
    · next ne =>
      obtain ⟨o', a', q, rfl⟩ := hA.used h y e
      refine ⟨o', a', ?_, rfl⟩
      dsimp only [mapErase]
      rw [if_neg]; · exact q
      rintro rfl
      rw [ho] at q; cases q; exact ne rfl
  · intro h y h' y' e e' q
    dsimp only at e e'
    split at e
    · cases e
    split at e'
    · cases e'
    exact hA.sep h y h' y' e e' q
  · intro g h y h' y' e e' q
    dsimp only at e e'
    split at e
    · cases e
    split at e'
    · cases e'
    exact hA.sepDev g h y h' y' e e' q

theorem swap_eq (a b : MArr) : a.swap b = (b, a) := by
  cases a; cases b; rfl

theorem ArrInv.swap {o1 o2 : O} {a1 a2 : MArr} (h1 : s.objs o1 = some a1) (h2 : s.objs o2 = some a2) :
    ArrInv gpu w heap0 dheap0 b ⟨mapSet (mapSet s.objs o1 (a1.swap a2).1) o2 (a1.swap a2).2, s.mem⟩
      (fun o' => if o' = o2 then X o1 else if o' = o1 then X o2 else X o') := by
  rw [swap_eq hA]
  dsimp only
  -- the permutation of objects
  let π : O → O := fun o => if o = o2 then o1 else if o = o1 then o2 else o
  have hπ : ∀ o, mapSet (mapSet s.objs o1 a2) o2 a1 o = s.objs (π o) := by
    intro o
    simp only [mapSet, π]
    split
    · rw [h1]
    · split
      · rw [h2]
      · rfl
  have hX : (fun o' => if o' = o2 then X o1 else if o' = o1 then X o2 else X o') = fun o => X (π o) := by
    funext o
    simp only [π]
    split
    · rfl
    · split <;> rfl
  have inv : ∀ o, π (π o) = o := by
    intro o
    simp only [π]
    by_cases q1 : o = o2
    · subst q1
      simp only [if_true]
      by_cases q2 : o1 = o
      · simp [q2]
      · simp [q2]
    · by_cases q2 : o = o1
      · subst q2; simp [q1]
      · simp [q1, q2]
  rw [hX]
  refine ⟨hA.inv, ?_, ?_, ?_, ?_, hA.sep, hA.sepDev⟩
  · intro o a e; dsimp only at e; rw [hπ] at e; exact hA.objs _ a e
  · intro o e; dsimp only at e; rw [hπ] at e; exact hA.none _ e
  · intro o a o' a' e e' q
    dsimp only at e e'
    rw [hπ] at e e'
    have := hA.handles _ _ _ _ e e' q
    rw [← inv o, ← inv o', this]
  · intro h x e
    obtain ⟨o, a, q, r⟩ := hA.used h x e
    refine ⟨π o, a, ?_, r⟩
    dsimp only
    rw [hπ, inv]; exact q

end

section
variable [Zero V]

/-- A step of a legal program succeeds, shows the single copy and keeps the invariant. -/
theorem step_inv {gpu : Bool} {w : Int} {heap0 dheap0 : P → Option (Int → V)} {b : Blocks P} {s : ArrState O P V} {X : Arrays O V}
    (hA : ArrInv gpu w heap0 dheap0 b s X) (hw : 1 ≤ w) (op : ArrOp O P V) (hl : opLegal gpu w X op) (he : opEnv gpu s op) :
    ∃ b' s' r, s.step gpu w op = .ok (s', r) ∧ ArrInv gpu w heap0 dheap0 b' s' (arraysStep X op) ∧
      List.Forall₂ Seen r.toList (arraysShow X op).toList := by
  have get : ∀ o, X o ≠ none → ∃ a x c, s.objs o = some a ∧ b.live a.handle = some x ∧ x.owned = a.owning ∧
      X o = some (x.len, c) ∧ Cont gpu s.mem a.status x c := by
    intro o h
    obtain ⟨a, e⟩ := Option.ne_none_iff_exists'.1 ((hA.live_iff o).2 h)
    obtain ⟨x, c, q⟩ := hA.objs o a e
    exact ⟨a, x, c, e, q⟩
  have nobj : ∀ o, X o = none → s.objs o = none := by
    intro o h
    by_contra q
    exact (hA.live_iff o).1 q h
  have same : ∀ o x c, X o = some (x, c) → (fun o' => if o' = o then some (x, c) else X o') = X := by
    intro o x c e
    funext o'
    split
    · next q => rw [q, e]
    · rfl
  cases op with
  | new o n v hp dp jh jd =>
    obtain ⟨l1, n0, n1⟩ := hl
    obtain ⟨c1, hh, hd⟩ := he
    have hf : (MMOp.alloc n hp dp jh jd).Fresh gpu w b s.mem.heap s.mem.dheap := ⟨by rw [← hA.inv.curr]; exact c1, n0, n1, hh, hd⟩
    obtain ⟨m1, d1, i1, e1, e2⟩ := alloc_inv hA.inv jh jd (by omega) hf
    obtain ⟨m2, r, w1, i2⟩ := hA.add (o := o) (nobj o l1) (op := .alloc n hp dp jh jd) (x := ⟨true, hp, dp, n⟩) (m1 := m1)
      (fun i => rfl) i1 (fun p hp' ne => by rw [e1]; exact mapSet_other _ _ ne)
      (fun g p hp' ne => by rw [e2, if_pos g]; exact mapSet_other _ _ ne)
      (by rw [e1, mapSet_same]; exact Option.some_ne_none _)
      (fun g => by rw [e2, if_pos g, mapSet_same]; exact Option.some_ne_none _)
      (fun h y e q => (hA.heapLive e).1 (by rw [q]; exact hh))
      (fun g h y e q => (hA.heapLive e).2 g (by rw [q]; exact hd g)) hw .hostModified v
    refine ⟨_, _, none, ?_, i2, List.Forall₂.nil⟩
    unfold ArrState.step
    dsimp only
    rw [nobj o l1]
    dsimp only
    unfold newOwned
    rw [d1]
    simp only [bind, Except.bind]
    rw [w1]
  | newView o n hp dp =>
    obtain ⟨l1, n0, n1⟩ := hl
    obtain ⟨c1, hh, hnh, hd⟩ := he
    have hf : (MMOp.view (V := V) n hp dp).Fresh gpu w b s.mem.heap s.mem.dheap := ⟨by rw [← hA.inv.curr]; exact c1, n0, n1⟩
    obtain ⟨m1, d1, i1, e1, e2⟩ := view_inv hA.inv (by omega) hf
    have ptr : ∀ h y, b.live h = some y → y.host ≠ hp ∧ (gpu = true → y.dev ≠ dp) := by
      intro h y e
      refine ⟨fun q => ?_, fun g q => ?_⟩
      · have a1 := hA.inv.host h
        have a2 := hA.inv.borrowed h
        rw [e] at a1 a2
        simp only [Option.bind_some] at a1 a2
        cases ho : y.owned with
        | true => rw [ho, if_pos rfl, q] at a1; exact (hnh h).1 a1
        | false => simp only [ho, Bool.false_eq_true, if_false] at a2; rw [q] at a2; exact (hnh h).2 a2
      · have a1 := hA.inv.dev h
        have a2 := hA.inv.borrowedDev h
        rw [e, if_pos g] at a1 a2
        simp only [Option.bind_some] at a1 a2
        cases ho : y.owned with
        | true => rw [ho, if_pos rfl, q] at a1; exact ((hd g).2 h).1 a1
        | false => simp only [ho, Bool.false_eq_true, if_false] at a2; rw [q] at a2; exact ((hd g).2 h).2 a2
    obtain ⟨m2, r, w1, i2⟩ := hA.add (o := o) (nobj o l1) (op := .view n hp dp) (x := ⟨false, hp, dp, n⟩) (m1 := m1)
      (fun i => rfl) i1 (fun p hp' ne => by rw [e1])
      (fun g p hp' ne => by rw [e2])
      (by rw [e1]; exact hh)
      (fun g => by rw [e2]; exact (hd g).1)
      (fun h y e => (ptr h y e).1)
      (fun g h y e => (ptr h y e).2 g) hw .inSync (fun _ => 0)
    refine ⟨_, _, none, ?_, i2, List.Forall₂.nil⟩
    unfold ArrState.step
    dsimp only
    rw [nobj o l1]
    dsimp only
    unfold Madg.newView
    rw [d1]
    simp only [bind, Except.bind]
    rw [w1]
  | destroy o =>
    obtain ⟨a, x, c, ho, -⟩ := get o hl
    obtain ⟨b', m', d, i⟩ := hA.remove ho
    refine ⟨b', _, none, ?_, i, List.Forall₂.nil⟩
    unfold ArrState.step
    dsimp only
    rw [ho]
    dsimp only
    rw [d]
  | read o dv =>
    obtain ⟨l1, l2⟩ := hl
    obtain ⟨a, x, c, ho, hx, hown, hX, hc⟩ := get o l1
    have key : ∃ a' m' v, (if dv then a.readDevice gpu w s.mem else a.readHost gpu w s.mem) = .ok (a', m', x.len, v) ∧
        AccPost gpu x a s.mem c a' m' ∧ Agree x.len v c := by
      cases dv with
      | true => exact readDevice_ok hA.inv hw hx hc (l2 rfl)
      | false => exact readHost_ok hA.inv hw hx hc
    obtain ⟨a', m', v, d, p, g⟩ := key
    have i := hA.access ho hx hown p
    rw [same o _ _ hX] at i
    refine ⟨b, ⟨mapSet s.objs o a', m'⟩, some (x.len, v), ?_, i, ?_⟩
    · cases dv <;>
      · unfold ArrState.step
        dsimp only
        unfold ArrState.access
        rw [ho]
        simp only [if_true, Bool.false_eq_true, if_false] at d ⊢
        rw [d]
    · rw [arraysShow, hX]
      exact List.Forall₂.cons ⟨rfl, g⟩ List.Forall₂.nil
  | write o dv f =>
    obtain ⟨l2, q, hq, hloc, hov⟩ := hl
    obtain ⟨a, x, c, ho, hx, hown, hX, hc⟩ := get o (by rw [hq]; exact Option.some_ne_none _)
    rw [hX] at hq; cases hq
    have key : ∃ a' m' v, (if dv then a.writeDevice gpu w f s.mem else a.writeHost w f s.mem) = .ok (a', m', x.len, v) ∧
        AccPost gpu x a s.mem (f c) a' m' := by
      cases dv with
      | true => exact writeDevice_ok hA.inv hw hx hc (l2 rfl) f (hov (l2 rfl))
      | false => exact writeHost_ok hA.inv hw hx hc f hloc hov
    obtain ⟨a', m', v, d, p⟩ := key
    have i := hA.access ho hx hown p
    refine ⟨b, ⟨mapSet s.objs o a', m'⟩, none, ?_, ?_, List.Forall₂.nil⟩
    · cases dv <;>
      · unfold ArrState.step
        dsimp only
        unfold ArrState.access
        rw [ho]
        simp only [if_true, Bool.false_eq_true, if_false] at d ⊢
        rw [d]
    · rw [arraysStep, hX]; exact i
  | readWrite o dv f =>
    obtain ⟨l2, q, hq, hloc⟩ := hl
    obtain ⟨a, x, c, ho, hx, hown, hX, hc⟩ := get o (by rw [hq]; exact Option.some_ne_none _)
    rw [hX] at hq; cases hq
    have key : ∃ a' m' v, (if dv then a.readWriteDevice gpu w f s.mem else a.readWriteHost gpu w f s.mem) = .ok (a', m', x.len, v) ∧
        AccPost gpu x a s.mem (f c) a' m' ∧ Agree x.len v c := by
      cases dv with
      | true => exact readWriteDevice_ok hA.inv hw hx hc (l2 rfl) f hloc
      | false => exact readWriteHost_ok hA.inv hw hx hc f hloc
    obtain ⟨a', m', v, d, p, g⟩ := key
    have i := hA.access ho hx hown p
    refine ⟨b, ⟨mapSet s.objs o a', m'⟩, some (x.len, v), ?_, ?_, ?_⟩
    · cases dv <;>
      · unfold ArrState.step
        dsimp only
        unfold ArrState.access
        rw [ho]
        simp only [if_true, Bool.false_eq_true, if_false] at d ⊢
        rw [d]
    · rw [arraysStep, hX]; exact i
    · rw [arraysShow, hX]
      exact List.Forall₂.cons ⟨rfl, g⟩ List.Forall₂.nil
  | swap o1 o2 =>
    obtain ⟨l1, l2⟩ := hl
    obtain ⟨a1, -, -, h1, -⟩ := get o1 l1
    obtain ⟨a2, -, -, h2, -⟩ := get o2 l2
    refine ⟨b, _, none, ?_, hA.swap h1 h2, List.Forall₂.nil⟩
    unfold ArrState.step
    dsimp only
    rw [h1, h2]

theorem ArrInv.start (gpu : Bool) (w : Int) (heap0 dheap0 : P → Option (Int → V)) :
    ArrInv (O := O) gpu w heap0 dheap0 ⟨0, fun _ => .none⟩ ⟨fun _ => .none, MMState.init heap0 dheap0⟩ (fun _ => .none) := by
  refine ⟨MMInv.init gpu w heap0 dheap0, ?_, ?_, ?_, ?_, ?_, ?_⟩ <;> simp

theorem run_inv {gpu : Bool} {w : Int} {heap0 dheap0 : P → Option (Int → V)} (hw : 1 ≤ w) (ops : List (ArrOp O P V)) :
    ∀ (b : Blocks P) (s : ArrState O P V) (X : Arrays O V), ArrInv gpu w heap0 dheap0 b s X → GoodRun gpu w s X ops →
    ∃ b' s' rs, s.run gpu w ops = .ok (s', rs) ∧ ArrInv gpu w heap0 dheap0 b' s' (arraysRun X ops) ∧
      List.Forall₂ Seen rs (arraysReads X ops) := by
  induction ops with
  | nil => intro b s X hA _; exact ⟨b, s, [], rfl, hA, List.Forall₂.nil⟩
  | cons op ops ih =>
    intro b s X hA hG
    obtain ⟨hl, he, hr⟩ := hG
    obtain ⟨b1, s1, r, e1, i1, f1⟩ := step_inv hA hw op hl he
    obtain ⟨b2, s2, rs, e2, i2, f2⟩ := ih b1 s1 _ i1 (hr s1 r e1)
    refine ⟨b2, s2, r.toList ++ rs, ?_, i2, List.rel_append f1 f2⟩
    unfold ArrState.run
    rw [e1]
    dsimp only
    rw [e2]

end

end Madg
