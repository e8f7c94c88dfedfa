/-
Closed form of the Poisson right-hand side.
-/
import Verif.Model.Poisson
import Verif.Spec.Poisson
import Verif.Proofs.Transfer

set_option linter.unusedSectionVars false
set_option linter.unusedVariables false

namespace Madg
open Spec
variable {A K : Type} [DecidableEq A]

section
variable [Arith K]

/-- Distinct arrays of the right sizes; coordinates are read only, so they may coincide. -/
structure PoisArr.Ok (g : Grid3) (sz : A → Int) (w : PoisArr A) : Prop where
  cr : w.c ≠ w.r
  cx : w.x ≠ w.c ∧ w.y ≠ w.c ∧ w.z ≠ w.c
  rx : w.x ≠ w.r ∧ w.y ≠ w.r ∧ w.z ≠ w.r
  sc : sz w.c = g.size
  sr : sz w.r = g.size
  sx : sz w.x = g.size ∧ sz w.y = g.size ∧ sz w.z = g.size

/-- Prescribed value at a cell, from the coordinate arrays. -/
def PoisArr.exact (g : Grid3) (sn cs : K → K) (w : PoisArr A) (m : Mem A K) (i j k : Int) : K :=
  sn (m w.x (g.at3 i j k)) * cs (m w.y (g.at3 i j k)) * cs (m w.z (g.at3 i j k))

theorem dirichlet_det {G : Geom3} (hG : G.Ok) {sz : A → Int} {w : PoisArr A} (hw : w.Ok G.g sz) (sn cs : K → K) (m : Mem A K) :
    ∃ m', Det sz (G.applyDirichlet sn cs w) m m' ∧
      (∀ i j k, G.g.Pad i j k → m' w.c (G.g.at3 i j k) =
        if 0 ≤ k ∧ k < G.g.nk then m w.c (G.g.at3 i j k) else w.exact G.g sn cs m i j k) ∧
      (∀ n, ¬ (0 ≤ n ∧ n < G.g.size) → m' w.c n = m w.c n) ∧ (∀ b, b ≠ w.c → m' b = m b) := by
  have hk := hG.ok.hk
  have hh := hG.ok.hh
  set g := G.g with hg
  let us : List (Int × Int) := (irange (-g.nhalo) (g.nj + g.nhalo)).flatMap fun j =>
    (irange (-g.nhalo) 0 ++ irange g.nk (g.nk + g.nhalo)).map fun k => (j, k)
  have hus : ∀ u, u ∈ us ↔ (-g.nhalo ≤ u.1 ∧ u.1 < g.nj + g.nhalo) ∧ ((-g.nhalo ≤ u.2 ∧ u.2 < 0) ∨ (g.nk ≤ u.2 ∧ u.2 < g.nk + g.nhalo)) := by
    rintro ⟨j, k⟩
    simp only [us, List.mem_flatMap, List.mem_map, List.mem_append, mem_irange, Prod.mk.injEq]
    constructor
    · rintro ⟨j', h1, k', h2, rfl, rfl⟩; exact ⟨h1, h2⟩
    · rintro ⟨h1, h2⟩; exact ⟨j, h1, k, h2, rfl, rfl⟩
  have hnd : us.Nodup := by
    refine nodup_flatMap_disj Prod.fst (nodup_irange _ _) ?_ ?_
    · intro j _
      refine (List.nodup_append.2 ⟨nodup_irange _ _, nodup_irange _ _, ?_⟩).map fun a b h => (Prod.mk.inj h).2
      intro a ha b hb
      rw [mem_irange] at ha hb
      omega
    · intro j _ b hb
      obtain ⟨k, -, rfl⟩ := List.mem_map.1 hb
      rfl
  have hpad : ∀ i ∈ irange (-g.nhalo) (g.ni + g.nhalo), ∀ u ∈ us, g.Pad i u.1 u.2 := by
    intro i hi u hu
    have h1 := mem_irange.1 hi
    have h2 := (hus u).1 hu
    exact ⟨h1, h2.1, by omega⟩
  have e : (G.applyDirichlet sn cs w : Host A K) = [(irange (-g.nhalo) (g.ni + g.nhalo)).map fun i =>
      Prog.forEach us fun u => Geom3.dirichletCell g sn cs w i u.1 u.2] := by
    unfold Geom3.applyDirichlet forAll
    dsimp only
    congr 1
    refine List.map_congr_left fun i _ => ?_
    simp only [us]
    rw [forEach_flatMap]
    congr 1; funext j
    rw [forEach_map, forEach_append]
    rfl
  rw [e]
  obtain ⟨m', d, hW, hU, hF⟩ := det_multi (sz := sz) (r := w.c) (ts := irange (-g.nhalo) (g.ni + g.nhalo)) (us := fun _ => us)
    (body := fun i u => (Geom3.dirichletCell g sn cs w i u.1 u.2 : Prog A K Unit)) (fun i u n => g.at3 i u.1 u.2 = n)
    (nodup_irange _ _) (fun _ _ => hnd)
    (by
      intro i hi u hu
      have hb := Grid3.at3_bounds (hpad i hi u hu)
      refine ⟨?_, hw.cx.1, fun _ => ⟨?_, hw.cx.2.1, fun _ => ⟨?_, hw.cx.2.2, fun _ => ⟨?_, ⟨rfl, rfl⟩, trivial⟩⟩⟩⟩
      · rw [InB, hw.sx.1]; exact hb
      · rw [InB, hw.sx.2.1]; exact hb
      · rw [InB, hw.sx.2.2]; exact hb
      · rw [InB, hw.sc]; exact hb)
    (by
      rintro i hi u hu i' hi' u' hu' n e e'
      obtain ⟨e1, e2, e3⟩ := Grid3.at3_inj (hpad i hi u hu) (hpad i' hi' u' hu') (e.trans e'.symm)
      exact ⟨e1, Prod.ext e2 e3⟩) m
  refine ⟨m', d, ?_, ?_, hF⟩
  · intro i j k h
    by_cases hz : 0 ≤ k ∧ k < g.nk
    · rw [if_pos hz]
      refine hU _ ?_
      intro i' hi' u hu e
      obtain ⟨-, -, e3⟩ := Grid3.at3_inj (hpad i' hi' u hu) h e
      have := (hus u).1 hu
      omega
    · rw [if_neg hz]
      obtain ⟨h1, h2, h3⟩ := h
      have hi : i ∈ irange (-g.nhalo) (g.ni + g.nhalo) := mem_irange.2 h1
      have hu : (j, k) ∈ us := (hus _).2 ⟨h2, by simp only; omega⟩
      rw [hW i hi (j, k) hu _ rfl]
      exact Mem.set_same _ _ _ _
  · intro n hn
    refine hU n ?_
    intro i hi u hu e
    have := Grid3.at3_bounds (hpad i hi u hu)
    rw [e] at this
    exact hn this

end

variable [Field K]

theorem source_det {G : Geom3} (hG : G.Ok) {sz : A → Int} {w : PoisArr A} (hw : w.Ok G.g sz) (sn cs : K → K) (m : Mem A K) :
    ∃ m', Det sz (G.addSource sn cs w) m m' ∧
      Writes G.g w.r m m' fun i j k => m w.r (G.g.at3 i j k) + 3 * w.exact G.g sn cs m i j k := by
  refine interior_det hG _ _ m ?_ ?_
  · intro i j k h
    obtain ⟨e1, e2, e3⟩ := Grid3.get_at3 (h.pad hG.ok)
    simp only [e1, e2, e3]
    have hb := Grid3.at3_bounds (h.pad hG.ok)
    refine ⟨?_, Or.inl hw.rx.1, fun _ => ⟨?_, Or.inl hw.rx.2.1, fun _ => ⟨?_, Or.inl hw.rx.2.2, fun _ => ⟨?_, Or.inr rfl, fun _ =>
      ⟨?_, ⟨rfl, rfl⟩, trivial⟩⟩⟩⟩⟩
    · rw [InB, hw.sx.1]; exact hb
    · rw [InB, hw.sx.2.1]; exact hb
    · rw [InB, hw.sx.2.2]; exact hb
    · rw [InB, hw.sr]; exact hb
    · rw [InB, hw.sr]; exact hb
  · intro i j k h
    obtain ⟨e1, e2, e3⟩ := Grid3.get_at3 (h.pad hG.ok)
    simp only [e1, e2, e3]
    refine (Mem.set_same _ _ _ _).trans ?_
    simp only [PoisArr.exact]
    ring

theorem poisson_det {G : Geom3} (hG : G.Ok) {sz : A → Int} {w : PoisArr A} (hw : w.Ok G.g sz) (h1 : 1 ≤ G.g.nhalo)
    (hi : G.g.nhalo ≤ G.g.ni) (hj : G.g.nhalo ≤ G.g.nj) (hk : G.g.nhalo ≤ G.g.nk) (sn cs : K → K) (dx : K) (m : Mem A K) :
    ∃ m', Det sz (G.poissonRHS sn cs dx w) m m' ∧
      (∀ i j k, G.g.Int3 i j k → m' w.r (G.g.at3 i j k) =
        poisRhs dx G.g.ni G.g.nj G.g.nk (w.exact G.g sn cs m) (fun i j k => m w.c (G.g.at3 i j k)) i j k) ∧
      (∀ i j k, G.g.Pad i j k → m' w.c (G.g.at3 i j k) =
        extDirichlet G.g.ni G.g.nj G.g.nk (w.exact G.g sn cs m) (fun i j k => m w.c (G.g.at3 i j k)) i j k) ∧
      (∀ n, (∀ i j k, G.g.Int3 i j k → G.g.at3 i j k ≠ n) → m' w.r n = m w.r n) ∧
      (∀ b, b ≠ w.c → b ≠ w.r → m' b = m b) := by
  obtain ⟨m1, d1, f1⟩ := periodic_det hG hw.sc hi hj hk m
  obtain ⟨m2, d2, v2, -, f2⟩ := dirichlet_det hG hw sn cs m1
  obtain ⟨m3, d3, w3⟩ := laplacian_det hG hw.cr hw.sc hw.sr h1 dx m2
  obtain ⟨m4, d4, w4⟩ := source_det hG hw sn cs m3
  have ex : ∀ mm : Mem A K, (∀ b, b ≠ w.c → b ≠ w.r → mm b = m b) → w.exact G.g sn cs mm = w.exact G.g sn cs m := by
    intro mm h
    funext i j k
    simp only [PoisArr.exact]
    rw [h w.x hw.cx.1 hw.rx.1, h w.y hw.cx.2.1 hw.rx.2.1, h w.z hw.cx.2.2 hw.rx.2.2]
  have fr1 : ∀ b, b ≠ w.c → b ≠ w.r → m1 b = m b := fun b hb _ => f1.frame b hb
  have fr3 : ∀ b, b ≠ w.c → b ≠ w.r → m3 b = m b := fun b hb hr => by
    rw [w3.frame b hr, f2 b hb, f1.frame b hb]
  have vc : ∀ i j k, G.g.Pad i j k → m2 w.c (G.g.at3 i j k) =
      extDirichlet G.g.ni G.g.nj G.g.nk (w.exact G.g sn cs m) (fun i j k => m w.c (G.g.at3 i j k)) i j k := by
    intro i j k h
    rw [v2 i j k h, ex m1 fr1]
    unfold extDirichlet
    split
    · rename_i hz
      rw [f1.view i j k h]
      simp only [wrapIdx, Int.emod_eq_of_lt hz.1 hz.2]
    · rfl
  refine ⟨m4, det_append (det_append (det_append d1 d2) d3) d4, ?_, ?_, ?_, ?_⟩
  · intro i j k h
    rw [w4.view i j k h, w3.view i j k h, ex m3 fr3, poisRhs]
    congr 1
    refine lap3_congr fun x y z hx hy hz => ?_
    exact vc _ _ _ (pad_of_int_off1 h1 h hx hy hz)
  · intro i j k h
    rw [w4.frame w.c hw.cr, w3.frame w.c hw.cr]
    exact vc i j k h
  · intro n hn
    rw [w4.out n hn, w3.out n hn, f2 w.r hw.cr.symm, f1.frame w.r hw.cr.symm]
  · intro b hb hr
    rw [w4.frame b hr, fr3 b hb hr]

end Madg
