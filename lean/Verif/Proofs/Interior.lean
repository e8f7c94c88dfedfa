/-
The interior index lists of 3D and 2D geometries as lists: membership, length, sums.
-/
import Verif.Proofs.BC3
import Verif.Proofs.Grid2
import Verif.Proofs.CSR
import Verif.Spec.Sums
import Verif.Model.Cmd

set_option linter.unusedSectionVars false
set_option linter.unusedVariables false

namespace Madg
open Spec Finset
variable {A K : Type} [DecidableEq A] [Field K]

theorem sum_map_irange (lo hi : Int) (f : Int → K) : ((irange lo hi).map f).sum = ∑ i ∈ Ico lo hi, f i := by
  have h2 : Ico lo hi = (irange lo hi).toFinset := by
    ext x; simp
  rw [h2, List.sum_toFinset _ (nodup_irange lo hi)]

theorem sum_map_flatMap {α β : Type} (l : List α) (g : α → List β) (f : β → K) :
    ((l.flatMap g).map f).sum = (l.map fun x => ((g x).map f).sum).sum := by
  induction l with
  | nil => rfl
  | cons x l ih => rw [List.flatMap_cons, List.map_append, List.sum_append, ih, List.map_cons, List.sum_cons]

namespace Geom3.Ok
variable {G : Geom3} (hG : G.Ok)
include hG

theorem int_sum (f : Int → K) : (G.interior.map f).sum = sum3 G.g.ni G.g.nj G.g.nk fun i j k => f (G.g.at3 i j k) := by
  rw [hG.int, Grid3.interiorVals, sum_map_flatMap, sum_map_irange]
  unfold sum3
  refine Finset.sum_congr rfl fun i _ => ?_
  rw [sum_map_flatMap, sum_map_irange]
  refine Finset.sum_congr rfl fun j _ => ?_
  rw [List.map_map, sum_map_irange]
  rfl

theorem mem_int {n : Int} : n ∈ G.interior ↔ ∃ i j k, G.g.Int3 i j k ∧ G.g.at3 i j k = n := by
  rw [hG.int, Grid3.interiorVals_eq, List.mem_map]
  constructor
  · rintro ⟨c, hc, rfl⟩
    exact ⟨_, _, _, Grid3.mem_interior_box.1 hc, rfl⟩
  · rintro ⟨i, j, k, h, rfl⟩
    exact ⟨(i, j, k), Grid3.mem_interior_box.2 h, rfl⟩

theorem nodup_int : G.interior.Nodup := by
  rw [hG.int, Grid3.interiorVals_eq]
  refine List.Nodup.map_on ?_ (nodup_box3 _ _ _ _ _ _)
  intro c hc d hd e
  obtain ⟨e1, e2, e3⟩ := Grid3.at3_inj ((Grid3.mem_interior_box.1 hc).pad hG.ok) ((Grid3.mem_interior_box.1 hd).pad hG.ok) e
  exact Prod.ext e1 (Prod.ext e2 e3)

theorem length_int : (G.interior.length : Int) = G.g.ni * G.g.nj * G.g.nk := by
  rw [hG.int, Grid3.length_interiorVals hG.ok]

theorem length_int' : (G.interior.length : K) = (G.g.ni : K) * G.g.nj * G.g.nk := by
  have h := congrArg (Int.cast : Int → K) hG.length_int
  push_cast at h
  exact h

theorem int_ne : G.interior ≠ [] := by
  intro h
  have := hG.length_int
  rw [h] at this
  have h1 := hG.ok.hi; have h2 := hG.ok.hj; have h3 := hG.ok.hk
  have h4 : (0 : Int) < G.g.ni * G.g.nj * G.g.nk := by positivity
  rw [← this] at h4
  exact absurd h4 (by decide)

theorem int_inB {sz : A → Int} {a : A} (hs : sz a = G.g.size) {n : Int} (h : n ∈ G.interior) : InB sz a n := by
  obtain ⟨i, j, k, hi, rfl⟩ := hG.mem_int.1 h
  have := Grid3.at3_bounds (hi.pad hG.ok)
  exact ⟨this.1, hs ▸ this.2⟩

end Geom3.Ok

namespace Geom2.Ok
variable {G : Geom2} (hG : G.Ok)
include hG

theorem int_sum (f : Int → K) : (G.interior.map f).sum = sum2 G.g.ni G.g.ni fun i j => f (G.g.at2 i j) := by
  rw [hG.int, List.map_map, box2, sum_map_flatMap, sum_map_irange]
  unfold sum2
  refine Finset.sum_congr rfl fun i _ => ?_
  rw [List.map_map, sum_map_irange]
  rfl

theorem mem_int {n : Int} : n ∈ G.interior ↔ ∃ i j, G.g.Int2 i j ∧ G.g.at2 i j = n := by
  rw [hG.int, List.mem_map]
  constructor
  · rintro ⟨c, hc, rfl⟩
    rw [mem_box2] at hc
    exact ⟨c.1, c.2, ⟨by omega, by have := hG.sq; omega⟩, rfl⟩
  · rintro ⟨i, j, h, rfl⟩
    refine ⟨(i, j), mem_box2.2 ?_, rfl⟩
    have := hG.sq
    have := h.1
    have := h.2
    simp only
    omega

theorem nodup_int : G.interior.Nodup := by
  rw [hG.int]
  refine List.Nodup.map_on ?_ (nodup_box2 _ _ _ _)
  intro c hc d hd e
  rw [mem_box2] at hc hd
  have hp : ∀ c : Int × Int, (0 ≤ c.1 ∧ c.1 < G.g.ni) ∧ (0 ≤ c.2 ∧ c.2 < G.g.ni) → G.g.Pad c.1 c.2 := by
    intro c hc
    have h1 := hG.sq
    exact Grid2.Int2.pad hG.ok ⟨hc.1, by omega⟩
  obtain ⟨e1, e2⟩ := Grid2.at2_inj (hp c (by omega)) (hp d (by omega)) e
  exact Prod.ext e1 e2

theorem length_int : (G.interior.length : Int) = G.g.ni * G.g.ni := by
  have h := hG.hn
  rw [hG.int, List.length_map, length_box2]
  simp only [Int.sub_zero]
  push_cast
  rw [Int.toNat_of_nonneg (by omega)]

theorem length_int' : (G.interior.length : K) = (G.g.ni : K) * G.g.ni := by
  have h := congrArg (Int.cast : Int → K) hG.length_int
  push_cast at h
  exact h

theorem int_ne : G.interior ≠ [] := by
  intro h
  have := hG.length_int
  rw [h] at this
  have h1 := hG.hn
  have h4 : (0 : Int) < G.g.ni * G.g.ni := by positivity
  rw [← this] at h4
  exact absurd h4 (by decide)

theorem int_inB {sz : A → Int} {a : A} (hs : sz a = G.g.size) {n : Int} (h : n ∈ G.interior) : InB sz a n := by
  obtain ⟨i, j, hi, rfl⟩ := hG.mem_int.1 h
  have := Grid2.at2_bounds (hi.pad hG.ok)
  exact ⟨this.1, hs ▸ this.2⟩

end Geom2.Ok

end Madg
