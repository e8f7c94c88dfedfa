/-
Closed forms of interior kernels and whole-array loops.
-/
import Verif.Proofs.BC3
import Verif.Model.CH3
import Mathlib.Tactic.FieldSimp

set_option linter.unusedSectionVars false
set_option linter.unusedVariables false

namespace Madg
open Spec
variable {A K : Type} [DecidableEq A]

/-- `m'` is `m` with `F` stored at the interior cells of `r`. -/
structure Writes (g : Grid3) (r : A) (m m' : Mem A K) (F : Int → Int → Int → K) : Prop where
  view : ∀ i j k, g.Int3 i j k → m' r (g.at3 i j k) = F i j k
  out : ∀ n, (∀ i j k, g.Int3 i j k → g.at3 i j k ≠ n) → m' r n = m r n
  frame : ∀ b, b ≠ r → m' b = m b

/-- `m'` is `m` with `F` stored at `[0, N)` of `r`. -/
structure WritesAll (N : Int) (r : A) (m m' : Mem A K) (F : Int → K) : Prop where
  view : ∀ n, 0 ≤ n → n < N → m' r n = F n
  out : ∀ n, ¬ (0 ≤ n ∧ n < N) → m' r n = m r n
  frame : ∀ b, b ≠ r → m' b = m b

theorem interior_det {G : Geom3} (hG : G.Ok) {sz : A → Int} {r : A} (body : Int → Prog A K Unit)
    (F : Int → Int → Int → K) (m : Mem A K)
    (hfoot : ∀ i j k, G.g.Int3 i j k → (body (G.g.at3 i j k)).Foot sz
      (fun a n => a ≠ r ∨ n = G.g.at3 i j k) (fun a n => a = r ∧ n = G.g.at3 i j k))
    (hval : ∀ i j k, G.g.Int3 i j k → (body (G.g.at3 i j k)).exec m r (G.g.at3 i j k) = F i j k) :
    ∃ m', Det sz [forIdx G.interior body] m m' ∧ Writes G.g r m m' F := by
  have hok := hG.ok
  rw [forIdx_eq_map, hG.int, Grid3.interiorVals_eq, List.map_map]
  have hpad : ∀ c ∈ box3 0 G.g.ni 0 G.g.nj 0 G.g.nk, G.g.Int3 c.1 c.2.1 c.2.2 := by
    intro c hc; exact Grid3.mem_interior_box.1 hc
  refine ⟨_, det_cells (nodup_box3 _ _ _ _ _ _) (G.g.loc r) (fun c => F c.1 c.2.1 c.2.2) m ?_ ?_ ?_, ?_⟩
  · intro c hc c' hc' e
    exact Grid3.loc_inj ((hpad c hc).pad hok) ((hpad c' hc').pad hok) e
  · intro c hc
    refine (hfoot _ _ _ (hpad c hc)).mono ?_ ?_
    · rintro a n h c' hc' hne e
      obtain ⟨e1, e2⟩ := Prod.mk.inj e
      rcases h with h | h
      · exact h e1.symm
      · apply hne
        exact Grid3.loc_inj (a := r) ((hpad c' hc').pad hok) ((hpad c hc).pad hok) (by
          simp only [Grid3.loc]; rw [e2, h])
    · rintro a n ⟨rfl, rfl⟩; rfl
  · intro c hc
    exact hval _ _ _ (hpad c hc)
  · refine ⟨?_, ?_, ?_⟩
    · intro i j k h
      rw [Mem.upd_hit (c := (i, j, k)) _ (Grid3.mem_interior_box.2 h) rfl]
      intro c' hc' e
      exact Grid3.loc_inj ((hpad c' hc').pad hok) (h.pad hok) e
    · intro n hn
      rw [Mem.upd_miss]
      intro c hc e
      exact hn _ _ _ (hpad c hc) (Prod.mk.inj e).2
    · intro b hb
      exact Mem.upd_ne fun c _ e => hb e.symm

theorem forAll_det {sz : A → Int} {r : A} (N : Int) (body : Int → Prog A K Unit)
    (F : Int → K) (m : Mem A K)
    (hfoot : ∀ i, 0 ≤ i → i < N → (body i).Foot sz
      (fun a n => a ≠ r ∨ n = i) (fun a n => a = r ∧ n = i))
    (hval : ∀ i, 0 ≤ i → i < N → (body i).exec m r i = F i) :
    ∃ m', Det sz [forAll 0 N body] m m' ∧ WritesAll N r m m' F := by
  unfold forAll
  refine ⟨_, det_cells (nodup_irange _ _) (fun i => (r, i)) F m ?_ ?_ ?_, ?_⟩
  · intro c hc c' hc' e
    exact (Prod.mk.inj e).2
  · intro c hc
    simp only [mem_irange] at hc
    refine (hfoot c hc.1 hc.2).mono ?_ ?_
    · rintro a n h c' hc' hne e
      obtain ⟨e1, e2⟩ := Prod.mk.inj e
      rcases h with h | h
      · exact h e1.symm
      · exact hne (e2.trans h)
    · rintro a n ⟨rfl, rfl⟩; rfl
  · intro c hc
    simp only [mem_irange] at hc
    exact hval c hc.1 hc.2
  · refine ⟨?_, ?_, ?_⟩
    · intro n h0 h1
      rw [Mem.upd_hit (c := n) _ (by simp [h0, h1]) rfl]
      intro c' _ e; exact (Prod.mk.inj e).2
    · intro n hn
      rw [Mem.upd_miss]
      intro c hc e
      have := (Prod.mk.inj e).2; subst this
      exact hn (by simpa using hc)
    · intro b hb
      exact Mem.upd_ne fun c _ e => hb e.symm

theorem Grid3.get_at3 {g : Grid3} {i j k : Int} (h : g.Pad i j k) :
    g.getI (g.at3 i j k) = i ∧ g.getJ (g.at3 i j k) = j ∧ g.getK (g.at3 i j k) = k :=
  ⟨Grid3.getI_at3 h, Grid3.getJ_at3 h, Grid3.getK_at3 h⟩

section
variable [Arith K]

theorem loadStencil_foot {sz : A → Int} {g : Grid3} {a : A} {i j k : Int} {R W : A → Int → Prop}
    {os : List (Int × Int × Int)} {cont : (Int → Int → Int → K) → Prog A K Unit}
    (ho : ∀ o ∈ os, InB sz a (g.at3 (i + o.1) (j + o.2.1) (k + o.2.2)) ∧
      R a (g.at3 (i + o.1) (j + o.2.1) (k + o.2.2)))
    (hc : ∀ f, (cont f).Foot sz R W) :
    (Geom3.loadStencil g a i j k os cont).Foot sz R W := by
  induction os generalizing cont with
  | nil => exact hc _
  | cons o os ih =>
    obtain ⟨x, y, z⟩ := o
    have h := ho (x, y, z) (by simp)
    exact ⟨h.1, h.2, fun v => ih (fun o ho' => ho o (by simp [ho'])) fun f => hc _⟩

theorem loadStencil_exec {g : Grid3} {a : A} {i j k : Int} (m : Mem A K)
    (os : List (Int × Int × Int)) (cont : (Int → Int → Int → K) → Prog A K Unit) :
    (Geom3.loadStencil g a i j k os cont).exec m =
      (cont fun x y z => if (x, y, z) ∈ os then m a (g.at3 (i + x) (j + y) (k + z)) else 0).exec m := by
  induction os generalizing cont with
  | nil => simp [Geom3.loadStencil]
  | cons o os ih =>
    obtain ⟨x, y, z⟩ := o
    refine (ih _).trans ?_
    congr 2
    funext x' y' z'
    simp only [List.mem_cons, Prod.mk.injEq]
    by_cases h : x' = x ∧ y' = y ∧ z' = z
    · obtain ⟨rfl, rfl, rfl⟩ := h; simp
    · simp [h]

end

variable [Field K]

theorem pad_of_int_off {g : Grid3} (h2 : 2 ≤ g.nhalo) {i j k x y z : Int} (h : g.Int3 i j k)
    (hx : -2 ≤ x ∧ x ≤ 2) (hy : -2 ≤ y ∧ y ≤ 2) (hz : -2 ≤ z ∧ z ≤ 2) : g.Pad (i + x) (j + y) (k + z) := by
  unfold Grid3.Int3 at h; unfold Grid3.Pad; omega

theorem pad_of_int_off1 {g : Grid3} (h2 : 1 ≤ g.nhalo) {i j k x y z : Int} (h : g.Int3 i j k)
    (hx : -1 ≤ x ∧ x ≤ 1) (hy : -1 ≤ y ∧ y ≤ 1) (hz : -1 ≤ z ∧ z ≤ 1) : g.Pad (i + x) (j + y) (k + z) := by
  unfold Grid3.Int3 at h; unfold Grid3.Pad; omega

theorem biharmOffsets_le : ∀ o ∈ Geom3.biharmOffsets,
    (-2 ≤ o.1 ∧ o.1 ≤ 2) ∧ (-2 ≤ o.2.1 ∧ o.2.1 ≤ 2) ∧ (-2 ≤ o.2.2 ∧ o.2.2 ≤ 2) := by decide

theorem lapOffsets_le : ∀ o ∈ Geom3.lapOffsets,
    (-1 ≤ o.1 ∧ o.1 ≤ 1) ∧ (-1 ≤ o.2.1 ∧ o.2.1 ≤ 1) ∧ (-1 ≤ o.2.2 ∧ o.2.2 ≤ 1) := by decide

/-- The padded view of an array as a field on ℤ³ (arbitrary outside the padded box). -/
def Grid3.view (g : Grid3) (m : Mem A K) (a : A) (i j k : Int) : K := m a (g.at3 i j k)

theorem biharmExpr_eq (f : Int → Int → Int → K) (dx : K) (i j k : Int) :
    Geom3.biharmExpr (fun x y z => if (x, y, z) ∈ Geom3.biharmOffsets then f (i + x) (j + y) (k + z) else 0)
      (dx * dx * dx * dx) = bih3 dx f i j k := by
  have h : ∀ x y z : Int, (x, y, z) ∈ Geom3.biharmOffsets →
      (if (x, y, z) ∈ Geom3.biharmOffsets then f (i + x) (j + y) (k + z) else 0) = f (i + x) (j + y) (k + z) :=
    fun x y z h => if_pos h
  simp only [Geom3.biharmExpr]
  rw [h 0 0 0 (by decide), h 1 0 0 (by decide), h 0 1 0 (by decide), h 0 0 1 (by decide),
    h (-1) 0 0 (by decide), h 0 (-1) 0 (by decide), h 0 0 (-1) (by decide),
    h 2 0 0 (by decide), h 0 2 0 (by decide), h 0 0 2 (by decide),
    h (-2) 0 0 (by decide), h 0 (-2) 0 (by decide), h 0 0 (-2) (by decide),
    h (-1) (-1) 0 (by decide), h (-1) 1 0 (by decide), h 1 (-1) 0 (by decide), h 1 1 0 (by decide),
    h (-1) 0 (-1) (by decide), h 1 0 (-1) (by decide), h 0 (-1) (-1) (by decide), h 0 1 (-1) (by decide),
    h (-1) 0 1 (by decide), h 1 0 1 (by decide), h 0 (-1) 1 (by decide), h 0 1 1 (by decide)]
  simp only [bih3, lap3, d2x, d2y, d2z, add_zero, sub_eq_add_neg, add_assoc, Int.reduceNeg, Int.reduceAdd,
    neg_add_cancel, add_neg_cancel]
  ring

theorem lapExpr_eq (f : Int → Int → Int → K) (dx : K) (i j k : Int) :
    Geom3.lapExpr (fun x y z => if (x, y, z) ∈ Geom3.lapOffsets then f (i + x) (j + y) (k + z) else 0)
      (dx * dx) = lap3 dx f i j k := by
  have h : ∀ x y z : Int, (x, y, z) ∈ Geom3.lapOffsets →
      (if (x, y, z) ∈ Geom3.lapOffsets then f (i + x) (j + y) (k + z) else 0) = f (i + x) (j + y) (k + z) :=
    fun x y z h => if_pos h
  simp only [Geom3.lapExpr]
  rw [h 0 0 0 (by decide), h 1 0 0 (by decide), h 0 1 0 (by decide), h 0 0 1 (by decide),
    h (-1) 0 0 (by decide), h 0 (-1) 0 (by decide), h 0 0 (-1) (by decide)]
  simp only [lap3, d2x, d2y, d2z, add_zero, sub_eq_add_neg]
  ring

theorem lapExpr_pow_eq (f : Int → Int → Int → K) (dx : K) (i j k : Int) :
    Geom3.lapExpr (fun x y z =>
      (if (x, y, z) ∈ Geom3.lapOffsets then f (i + x) (j + y) (k + z) else 0) ^ 3 -
      (if (x, y, z) ∈ Geom3.lapOffsets then f (i + x) (j + y) (k + z) else 0))
      (dx * dx) = lap3 dx (fun x y z => f x y z ^ 3 - f x y z) i j k := by
  rw [← lapExpr_eq]
  congr 1
  funext x y z
  split <;> simp

/-! ### The kernels -/

theorem laplacian_det {G : Geom3} (hG : G.Ok) {sz : A → Int} {s d : A} (hne : s ≠ d)
    (hs : sz s = G.g.size) (hd : sz d = G.g.size) (h1 : 1 ≤ G.g.nhalo) (dx : K) (m : Mem A K) :
    ∃ m', Det sz (G.laplacian dx s d) m m' ∧ Writes G.g d m m' (lap3 dx (G.g.view m s)) := by
  refine interior_det hG _ _ m ?_ ?_
  · intro i j k h
    obtain ⟨e1, e2, e3⟩ := Grid3.get_at3 (h.pad hG.ok)
    simp only [e1, e2, e3]
    have hb : ∀ x y z, (-1 ≤ x ∧ x ≤ 1) → (-1 ≤ y ∧ y ≤ 1) → (-1 ≤ z ∧ z ≤ 1) →
        InB sz s (G.g.at3 (i + x) (j + y) (k + z)) := by
      intro x y z hx hy hz
      rw [InB, hs]; exact Grid3.at3_bounds (pad_of_int_off1 h1 h hx hy hz)
    have e : ∀ t : Int, t - 1 = t + -1 := fun t => rfl
    have z0 : ∀ t : Int, t + 0 = t := Int.add_zero
    refine ⟨?_, Or.inl hne, fun _ => ⟨?_, Or.inl hne, fun _ => ⟨?_, Or.inl hne, fun _ =>
      ⟨?_, Or.inl hne, fun _ => ⟨?_, Or.inl hne, fun _ => ⟨?_, Or.inl hne, fun _ =>
      ⟨?_, Or.inl hne, fun _ => ⟨?_, ⟨rfl, rfl⟩, trivial⟩⟩⟩⟩⟩⟩⟩⟩
    · simpa [e] using hb (-1) 0 0 (by decide) (by decide) (by decide)
    · simpa using hb 1 0 0 (by decide) (by decide) (by decide)
    · simpa [e] using hb 0 (-1) 0 (by decide) (by decide) (by decide)
    · simpa using hb 0 1 0 (by decide) (by decide) (by decide)
    · simpa [e] using hb 0 0 (-1) (by decide) (by decide) (by decide)
    · simpa using hb 0 0 1 (by decide) (by decide) (by decide)
    · simpa using hb 0 0 0 (by decide) (by decide) (by decide)
    · rw [InB, hd]; exact Grid3.at3_bounds (h.pad hG.ok)
  · intro i j k h
    obtain ⟨e1, e2, e3⟩ := Grid3.get_at3 (h.pad hG.ok)
    simp only [e1, e2, e3]
    refine (Mem.set_same _ _ _ _).trans ?_
    simp only [lap3, d2x, d2y, d2z, Grid3.view]
    ring

theorem biharmonic_det {G : Geom3} (hG : G.Ok) {sz : A → Int} {s d : A} (hne : s ≠ d)
    (hs : sz s = G.g.size) (hd : sz d = G.g.size) (h2 : 2 ≤ G.g.nhalo) (dx : K) (m : Mem A K) :
    ∃ m', Det sz (G.biharmonic dx s d) m m' ∧ Writes G.g d m m' (bih3 dx (G.g.view m s)) := by
  refine interior_det hG _ _ m ?_ ?_
  · intro i j k h
    obtain ⟨e1, e2, e3⟩ := Grid3.get_at3 (h.pad hG.ok)
    simp only [e1, e2, e3]
    refine loadStencil_foot ?_ ?_
    · intro o ho
      obtain ⟨hx, hy, hz⟩ := biharmOffsets_le o ho
      refine ⟨?_, Or.inl hne⟩
      rw [InB, hs]; exact Grid3.at3_bounds (pad_of_int_off h2 h hx hy hz)
    · intro f
      refine ⟨?_, ⟨rfl, rfl⟩, trivial⟩
      rw [InB, hd]; exact Grid3.at3_bounds (h.pad hG.ok)
  · intro i j k h
    obtain ⟨e1, e2, e3⟩ := Grid3.get_at3 (h.pad hG.ok)
    simp only [e1, e2, e3]
    rw [loadStencil_exec]
    refine (Mem.set_same _ _ _ _).trans ?_
    exact biharmExpr_eq (G.g.view m s) dx i j k

end Madg
