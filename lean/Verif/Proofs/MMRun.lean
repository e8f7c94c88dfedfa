/-
Histories of requests to the memory manager.
-/
import Verif.Proofs.Memory

set_option linter.unusedSectionVars false
set_option linter.unusedVariables false

namespace Madg
open Spec
variable {P V : Type} [DecidableEq P]

/-- The memory of others is as it was. -/
def Keeps (heap0 heap : P → Option (Int → V)) : Prop := ∀ p c, heap0 p = some c → heap p = some c

/-- One request: no error, tables and memory of others kept, allocations numbered. -/
theorem mmStep_inv {gpu : Bool} {w : Int} {heap0 dheap0 : P → Option (Int → V)} {b : Blocks P} {s : MMState P V}
    (hI : MMInv gpu w heap0 dheap0 b s) (hw : 1 ≤ w) (k1 : Keeps heap0 s.heap) (k2 : Keeps dheap0 s.dheap)
    (op : MMOp P V) (hf : op.Fresh gpu w b s.heap s.dheap) :
    ∃ s' r, mmStep gpu w s op = .ok (s', r) ∧ MMInv gpu w heap0 dheap0 (b.step op) s' ∧ Keeps heap0 s'.heap ∧
      Keeps dheap0 s'.dheap ∧ (r = none ∧ (b.step op).count = b.count ∨ r = some (b.count + 1) ∧ (b.step op).count = b.count + 1) := by
  have own : ∀ h p c, heap0 p = some c → ¬ ∃ x, b.live h = some x ∧ x.owned = true ∧ x.host = p := by
    rintro h p c e ⟨x, e1, e2, rfl⟩
    rw [(hI.owned h x e1 e2).2] at e; cases e
  have set1 : ∀ {m0 m : P → Option (Int → V)} {q : P} {j : Int → V}, m q = none → Keeps m0 m → Keeps m0 (mapSet m q j) := by
    intro m0 m q j hq hk p c e
    unfold mapSet
    rw [if_neg]
    · exact hk p c e
    · rintro rfl; rw [hk _ c e] at hq; cases hq
  cases op with
  | alloc n hp dp jh jd =>
    obtain ⟨s', d, i, e1, e2⟩ := alloc_inv hI jh jd (by omega) hf
    obtain ⟨-, -, -, f1, f2⟩ := hf
    refine ⟨s', some (b.count + 1), by simp only [mmStep, d]; rfl, i, ?_, ?_, Or.inr ⟨rfl, rfl⟩⟩
    · rw [e1]; exact set1 f1 k1
    · rw [e2]; split
      · next g => exact set1 (f2 g) k2
      · exact k2
  | view n hp dp =>
    obtain ⟨s', d, i, e1, e2⟩ := view_inv hI (by omega) hf
    exact ⟨s', some (b.count + 1), by simp only [mmStep, d]; rfl, i, e1 ▸ k1, e2 ▸ k2, Or.inr ⟨rfl, rfl⟩⟩
  | dealloc h =>
    obtain ⟨s', d, i, f1, f2, -⟩ := dealloc_inv hI h
    refine ⟨s', none, by simp only [mmStep, d]; rfl, i, ?_, ?_, Or.inl ⟨rfl, rfl⟩⟩
    · intro p c e
      rcases f1 p with q | q
      · rw [q]; exact k1 p c e
      · exact absurd q (own h p c e)
    · intro p c e
      rcases f2 p with q | ⟨x, e1, e2, e3⟩
      · rw [q]; exact k2 p c e
      · cases hg : gpu with
        | true => rw [← e3, (hI.ownedDev hg h x e1 e2).2] at e; cases e
        | false =>
          have : s'.dheap = s.dheap := by
            have d' := d
            unfold MMState.deallocate at d'
            split at d'
            · cases d'; rfl
            · split at d'
              · cases d'
              · rw [hg] at d'; cases d'; rfl
          rw [this]; exact k2 p c e
  | deallocView h =>
    obtain ⟨s', d, i, f1, f2, -⟩ := deallocView_inv hI h
    refine ⟨s', none, by simp only [mmStep, d]; rfl, i, ?_, ?_, Or.inl ⟨rfl, rfl⟩⟩
    · intro p c e
      rcases f1 p with q | q
      · rw [q]; exact k1 p c e
      · exact absurd q (own h p c e)
    · intro p c e
      rcases f2 p with q | ⟨x, e1, e2, e3⟩
      · rw [q]; exact k2 p c e
      · cases hg : gpu with
        | true => rw [← e3, (hI.ownedDev hg h x e1 e2).2] at e; cases e
        | false =>
          have : s'.dheap = s.dheap := by
            have d' := d
            unfold MMState.deallocateView at d'
            dsimp only at d'
            split at d'
            · cases d'
            · rw [hg] at d'; cases d'; rfl
          rw [this]; exact k2 p c e

/-- Histories: no error, and the handles are numbered consecutively. -/
theorem mmRun_inv {gpu : Bool} {w : Int} {heap0 dheap0 : P → Option (Int → V)} (hw : 1 ≤ w) (ops : List (MMOp P V)) :
    ∀ (b : Blocks P) (s : MMState P V), MMInv gpu w heap0 dheap0 b s → Keeps heap0 s.heap → Keeps dheap0 s.dheap →
      MMGood gpu w s b ops →
      ∃ s' hs, mmRun gpu w s ops = .ok (s', hs) ∧ MMInv gpu w heap0 dheap0 (b.run ops) s' ∧ Keeps heap0 s'.heap ∧
        Keeps dheap0 s'.dheap ∧ hs = (List.range hs.length).map (fun i : Nat => b.count + 1 + (i : Int)) := by
  induction ops with
  | nil => intro b s hI k1 k2 _; exact ⟨s, [], rfl, hI, k1, k2, rfl⟩
  | cons op ops ih =>
    intro b s hI k1 k2 hG
    obtain ⟨hf, hr⟩ := hG
    obtain ⟨s1, r, e1, i1, l1, l2, c1⟩ := mmStep_inv hI hw k1 k2 op hf
    obtain ⟨s2, hs, e2, i2, m1, m2, c2⟩ := ih (b.step op) s1 i1 l1 l2 (hr s1 r e1)
    refine ⟨s2, r.toList ++ hs, ?_, i2, m1, m2, ?_⟩
    · simp only [mmRun, e1, e2]; rfl
    · rcases c1 with ⟨rfl, c⟩ | ⟨rfl, c⟩
      · rw [c] at c2
        simpa using c2
      · rw [c] at c2
        simp only [Option.toList_some, List.singleton_append, List.length_cons, List.range_succ_eq_map, List.map_cons,
          List.map_map]
        refine List.cons_eq_cons.2 ⟨by simp, ?_⟩
        refine c2.trans (List.map_congr_left fun i _ => ?_)
        simp only [Function.comp]; push_cast; omega

end Madg
