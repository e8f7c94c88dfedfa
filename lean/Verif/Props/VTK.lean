/-
Solution files (C60, C61).
-/
import Verif.Proofs.VTK
import Verif.Props.Coords
import Mathlib.Tactic.LinearCombination

set_option linter.unusedSectionVars false
set_option linter.unusedVariables false

namespace Madg
open Spec
variable {A K : Type} [DecidableEq A] [Field K] [LinearOrder K]

theorem exists_minmax {C : Type} (cs : List C) (hne : cs ≠ []) (x : C → K) :
    (∃ v, (∃ c ∈ cs, x c = v) ∧ ∀ c ∈ cs, v ≤ x c) ∧ ∃ v, (∃ c ∈ cs, x c = v) ∧ ∀ c ∈ cs, x c ≤ v := by
  obtain ⟨c, cs, rfl⟩ := List.exists_cons_of_ne_nil hne
  obtain ⟨h1, h2⟩ := foldl_min_spec (cs.map x) (x c)
  obtain ⟨h3, h4⟩ := foldl_max_spec (cs.map x) (x c)
  rw [← List.map_cons] at h1 h2 h3 h4
  exact ⟨⟨_, List.mem_map.1 h2, fun d hd => h1 _ (List.mem_map.2 ⟨d, hd, rfl⟩)⟩,
    ⟨_, List.mem_map.1 h4, fun d hd => h3 _ (List.mem_map.2 ⟨d, hd, rfl⟩)⟩⟩

section
variable (io : RealText K) (g : Grid3) (hi : 1 ≤ g.ni ∧ g.ni < 2147483648) (hj : 1 ≤ g.nj ∧ g.nj < 2147483648)
  (hk : 1 ≤ g.nk ∧ g.nk < 2147483648) (hh : 0 ≤ g.nhalo) {sz : A → Int} (xv yv zv c : A)
  (hc : sz c = (g.ni + 2 * g.nhalo) * (g.nj + 2 * g.nhalo) * (g.nk + 2 * g.nhalo))
  (hv : ∀ a ∈ [xv, yv, zv], sz a = (g.ni + 1 + 2 * g.nhalo) * (g.nj + 1 + 2 * g.nhalo) * (g.nk + 1 + 2 * g.nhalo))
  (s : Status K) (m : Mem A K)
  (hpe : ∀ i j k, 0 ≤ i → i ≤ g.ni → 0 ≤ j → j ≤ g.nj → 0 ≤ k → k ≤ g.nk →
    Exact io (m xv (g.vert.at3 i j k)) ∧ Exact io (m yv (g.vert.at3 i j k)) ∧ Exact io (m zv (g.vert.at3 i j k)))
include hi hj hk hh hc hv hpe

theorem domain3 {xb xe yb zb : K}
    (hxb : (∃ i j k, ((0 ≤ i ∧ i ≤ g.ni) ∧ (0 ≤ j ∧ j ≤ g.nj) ∧ (0 ≤ k ∧ k ≤ g.nk)) ∧ m xv (g.vert.at3 i j k) = xb) ∧
      ∀ i j k, 0 ≤ i → i ≤ g.ni → 0 ≤ j → j ≤ g.nj → 0 ≤ k → k ≤ g.nk → xb ≤ m xv (g.vert.at3 i j k))
    (hxe : (∃ i j k, ((0 ≤ i ∧ i ≤ g.ni) ∧ (0 ≤ j ∧ j ≤ g.nj) ∧ (0 ≤ k ∧ k ≤ g.nk)) ∧ m xv (g.vert.at3 i j k) = xe) ∧
      ∀ i j k, 0 ≤ i → i ≤ g.ni → 0 ≤ j → j ≤ g.nj → 0 ≤ k → k ≤ g.nk → m xv (g.vert.at3 i j k) ≤ xe)
    (hyb : (∃ i j k, ((0 ≤ i ∧ i ≤ g.ni) ∧ (0 ≤ j ∧ j ≤ g.nj) ∧ (0 ≤ k ∧ k ≤ g.nk)) ∧ m yv (g.vert.at3 i j k) = yb) ∧
      ∀ i j k, 0 ≤ i → i ≤ g.ni → 0 ≤ j → j ≤ g.nj → 0 ≤ k → k ≤ g.nk → yb ≤ m yv (g.vert.at3 i j k))
    (hzb : (∃ i j k, ((0 ≤ i ∧ i ≤ g.ni) ∧ (0 ≤ j ∧ j ≤ g.nj) ∧ (0 ≤ k ∧ k ≤ g.nk)) ∧ m zv (g.vert.at3 i j k) = zb) ∧
      ∀ i j k, 0 ≤ i → i ≤ g.ni → 0 ≤ j → j ≤ g.nj → 0 ≤ k → k ≤ g.nk → zb ≤ m zv (g.vert.at3 i j k)) :
    getCartesianDomain io (file3 io g xv yv zv c s m) = .ok ⟨g.ni, g.nj, g.nk, xb, xe, yb, zb⟩ := by
  have hm : ∀ x : Int × Int × Int, x ∈ box3 0 (g.nk + 1) 0 (g.nj + 1) 0 (g.ni + 1) ↔
      (0 ≤ x.2.2 ∧ x.2.2 ≤ g.ni) ∧ (0 ≤ x.2.1 ∧ x.2.1 ≤ g.nj) ∧ (0 ≤ x.1 ∧ x.1 ≤ g.nk) := by
    intro x; rw [mem_box3]; omega
  have aux : ∀ (P : Int → Int → Int → Prop),
      (∃ i j k, ((0 ≤ i ∧ i ≤ g.ni) ∧ (0 ≤ j ∧ j ≤ g.nj) ∧ (0 ≤ k ∧ k ≤ g.nk)) ∧ P i j k) →
      ∃ x ∈ box3 0 (g.nk + 1) 0 (g.nj + 1) 0 (g.ni + 1), P x.2.2 x.2.1 x.1 := by
    rintro P ⟨i, j, k, h, hP⟩
    exact ⟨(k, j, i), (hm _).2 h, hP⟩
  refine getCartesianDomain_ok io _ ⟨by omega, hi.2⟩ ⟨by omega, hj.2⟩ ⟨by omega, hk.2⟩ rfl
    (box3 0 (g.nk + 1) 0 (g.nj + 1) 0 (g.ni + 1)) _ _ _ (fun x => m xv (g.vert.at3 x.2.2 x.2.1 x.1))
    (fun x => m yv (g.vert.at3 x.2.2 x.2.1 x.1)) (fun x => m zv (g.vert.at3 x.2.2 x.2.1 x.1)) rfl ?_ ?_ ?_ ?_ ?_ ?_ ?_
  · rw [length_box3]
    push_cast
    rw [Int.toNat_of_nonneg (by omega), Int.toNat_of_nonneg (by omega), Int.toNat_of_nonneg (by omega)]
    ring
  · intro x hx
    obtain ⟨h1, h2, h3⟩ := (hm x).1 hx
    obtain ⟨e1, e2, e3⟩ := hpe _ _ _ h1.1 h1.2 h2.1 h2.2 h3.1 h3.2
    exact ⟨e1.1, e2.1, e3.1⟩
  · intro x hx
    obtain ⟨h1, h2, h3⟩ := (hm x).1 hx
    obtain ⟨e1, e2, e3⟩ := hpe _ _ _ h1.1 h1.2 h2.1 h2.2 h3.1 h3.2
    exact ⟨e1.2, e2.2, e3.2⟩
  · exact ⟨aux _ hxb.1, fun x hx => by
      obtain ⟨h1, h2, h3⟩ := (hm x).1 hx
      exact hxb.2 _ _ _ h1.1 h1.2 h2.1 h2.2 h3.1 h3.2⟩
  · exact ⟨aux _ hxe.1, fun x hx => by
      obtain ⟨h1, h2, h3⟩ := (hm x).1 hx
      exact hxe.2 _ _ _ h1.1 h1.2 h2.1 h2.2 h3.1 h3.2⟩
  · exact ⟨aux _ hyb.1, fun x hx => by
      obtain ⟨h1, h2, h3⟩ := (hm x).1 hx
      exact hyb.2 _ _ _ h1.1 h1.2 h2.1 h2.2 h3.1 h3.2⟩
  · exact ⟨aux _ hzb.1, fun x hx => by
      obtain ⟨h1, h2, h3⟩ := (hm x).1 hx
      exact hzb.2 _ _ _ h1.1 h1.2 h2.1 h2.2 h3.1 h3.2⟩

theorem domain3_exists : ∃ xb xe yb zb,
    getCartesianDomain io (file3 io g xv yv zv c s m) = .ok ⟨g.ni, g.nj, g.nk, xb, xe, yb, zb⟩ := by
  have hm : ∀ x : Int × Int × Int, x ∈ box3 0 (g.ni + 1) 0 (g.nj + 1) 0 (g.nk + 1) ↔
      (0 ≤ x.1 ∧ x.1 ≤ g.ni) ∧ (0 ≤ x.2.1 ∧ x.2.1 ≤ g.nj) ∧ (0 ≤ x.2.2 ∧ x.2.2 ≤ g.nk) := by
    intro x; rw [mem_box3]; omega
  have hne : box3 0 (g.ni + 1) 0 (g.nj + 1) 0 (g.nk + 1) ≠ [] := by
    intro h
    have : ((0 : Int), (0 : Int), (0 : Int)) ∈ box3 0 (g.ni + 1) 0 (g.nj + 1) 0 (g.nk + 1) :=
      (hm _).2 ⟨by dsimp only; omega, by dsimp only; omega, by dsimp only; omega⟩
    rw [h] at this; simp at this
  obtain ⟨⟨xb, ⟨cx, hcx, ex⟩, bx⟩, ⟨xe, ⟨cx', hcx', ex'⟩, bx'⟩⟩ := exists_minmax _ hne fun x => m xv (g.vert.at3 x.1 x.2.1 x.2.2)
  obtain ⟨⟨yb, ⟨cy, hcy, ey⟩, yby⟩, -⟩ := exists_minmax _ hne fun x => m yv (g.vert.at3 x.1 x.2.1 x.2.2)
  obtain ⟨⟨zb, ⟨cz, hcz, ez⟩, bz⟩, -⟩ := exists_minmax _ hne fun x => m zv (g.vert.at3 x.1 x.2.1 x.2.2)
  refine ⟨xb, xe, yb, zb, domain3 io g hi hj hk hh xv yv zv c hc hv s m hpe ?_ ?_ ?_ ?_⟩
  · exact ⟨⟨_, _, _, (hm _).1 hcx, ex⟩, fun i j k h1 h2 h3 h4 h5 h6 => bx (i, j, k) ((hm _).2 ⟨⟨h1, h2⟩, ⟨h3, h4⟩, ⟨h5, h6⟩⟩)⟩
  · exact ⟨⟨_, _, _, (hm _).1 hcx', ex'⟩, fun i j k h1 h2 h3 h4 h5 h6 => bx' (i, j, k) ((hm _).2 ⟨⟨h1, h2⟩, ⟨h3, h4⟩, ⟨h5, h6⟩⟩)⟩
  · exact ⟨⟨_, _, _, (hm _).1 hcy, ey⟩, fun i j k h1 h2 h3 h4 h5 h6 => yby (i, j, k) ((hm _).2 ⟨⟨h1, h2⟩, ⟨h3, h4⟩, ⟨h5, h6⟩⟩)⟩
  · exact ⟨⟨_, _, _, (hm _).1 hcz, ez⟩, fun i j k h1 h2 h3 h4 h5 h6 => bz (i, j, k) ((hm _).2 ⟨⟨h1, h2⟩, ⟨h3, h4⟩, ⟨h5, h6⟩⟩)⟩

/-- Three dimensions: writing does not fault and changes nothing; reading the file back into any array of the same extents
restores every interior cell and leaves the halo and all other arrays alone, provided the values survive printing. -/
theorem C60_round_trip3
    (hce : ∀ i j k, 0 ≤ i → i < g.ni → 0 ≤ j → j < g.nj → 0 ≤ k → k < g.nk → Exact io (m c (g.at3 i j k))) :
    ∃ f, (vtkWrite3 io g xv yv zv c s).run sz m = .ok (f, m) ∧
      ∀ (sz' : A → Int) (d : A) (m2 : Mem A K), sz' d = (g.ni + 2 * g.nhalo) * (g.nj + 2 * g.nhalo) * (g.nk + 2 * g.nhalo) →
        ∃ m3, (setSolution io f (.d3 g d)).run sz' m2 = .ok ((), m3) ∧
          (∀ i j k, 0 ≤ i → i < g.ni → 0 ≤ j → j < g.nj → 0 ≤ k → k < g.nk → m3 d (g.at3 i j k) = m c (g.at3 i j k)) ∧
          (∀ i j k, -g.nhalo ≤ i → i < g.ni + g.nhalo → -g.nhalo ≤ j → j < g.nj + g.nhalo → -g.nhalo ≤ k → k < g.nk + g.nhalo →
            ¬ (0 ≤ i ∧ i < g.ni ∧ 0 ≤ j ∧ j < g.nj ∧ 0 ≤ k ∧ k < g.nk) → m3 d (g.at3 i j k) = m2 d (g.at3 i j k)) ∧
          (∀ b, b ≠ d → m3 b = m2 b) := by
  refine ⟨_, vtkWrite3_run io hh hc hv s m, ?_⟩
  intro sz' d m2 hd
  obtain ⟨xb, xe, yb, zb, hdom⟩ := domain3_exists io g hi hj hk hh xv yv zv c hc hv s m hpe
  obtain ⟨m3, h1, h2, h3, h4⟩ := setSolution3_ok (A := A) io (file3 io g xv yv zv c s m) hh ⟨hi.1, hj.1, hk.1⟩ hdom
    (fun i j k => m c (g.at3 i j k)) rfl
    (fun i j k h => hce i j k h.1.1 h.1.2 h.2.1.1 h.2.1.2 h.2.2.1 h.2.2.2) (sz := sz') (d := d) hd m2
  refine ⟨m3, h1, fun i j k a1 a2 a3 a4 a5 a6 => h2 i j k ⟨⟨a1, a2⟩, ⟨a3, a4⟩, ⟨a5, a6⟩⟩, ?_, h4⟩
  intro i j k a1 a2 a3 a4 a5 a6 hn
  refine h3 _ ?_
  intro i' j' k' h e
  obtain ⟨h1', h2', h3'⟩ := h
  obtain ⟨e1, e2, e3⟩ := Grid3.at3_inj (g := g) (i := i) (j := j) (k := k) ⟨⟨a1, a2⟩, ⟨a3, a4⟩, ⟨a5, a6⟩⟩
    (i' := i') (j' := j') (k' := k') ⟨by omega, by omega, by omega⟩ e
  apply hn
  omega

/-- A 3D file read into a 2D state stops with an exception. -/
theorem C60_wrong_dimension
    (hce : ∀ i j k, 0 ≤ i → i < g.ni → 0 ≤ j → j < g.nj → 0 ≤ k → k < g.nk → Exact io (m c (g.at3 i j k))) :
    ∃ f, (vtkWrite3 io g xv yv zv c s).run sz m = .ok (f, m) ∧
      ∀ (sz' : A → Int) (g2 : Grid2) (d : A) (m2 : Mem A K), (setSolution io f (.d2 g2 d)).run sz' m2 = .error .thrown := by
  refine ⟨_, vtkWrite3_run io hh hc hv s m, ?_⟩
  intro sz' g2 d m2
  obtain ⟨xb, xe, yb, zb, hdom⟩ := domain3_exists io g hi hj hk hh xv yv zv c hc hv s m hpe
  have hne : box3 0 g.nk 0 g.nj 0 g.ni ≠ [] := by
    intro h
    have : ((0 : Int), (0 : Int), (0 : Int)) ∈ box3 0 g.nk 0 g.nj 0 g.ni :=
      mem_box3.2 ⟨by dsimp only; omega, by dsimp only; omega, by dsimp only; omega⟩
    rw [h] at this; simp at this
  have hE : ∀ x ∈ box3 0 g.nk 0 g.nj 0 g.ni, Exact io (m c (g.at3 x.2.2 x.2.1 x.1)) := by
    intro x hx
    rw [mem_box3] at hx
    exact hce _ _ _ hx.2.2.1 hx.2.2.2 hx.2.1.1 hx.2.1.2 hx.1.1 hx.1.2
  have htok : (tokensOf (file3 io g xv yv zv c s m).cells).mapM (castReal io) =
      .ok ((box3 0 g.nk 0 g.nj 0 g.ni).map fun x => m c (g.at3 x.2.2 x.2.1 x.1)) := by
    show (tokensOf (cellsText io _)).mapM (castReal io) = _
    rw [tokens_cells io (by simpa using hne) (by
      intro w hw
      obtain ⟨x, hx, rfl⟩ := List.mem_map.1 hw
      exact (hE x hx).1), List.map_map]
    exact mapM_castReal io _ _ _ fun x hx => (hE x hx).2
  unfold setSolution
  rw [htok]
  dsimp only
  rw [hdom]
  dsimp only
  rw [if_neg (by omega)]
  rfl

end

/-! ### Two dimensions -/

section
variable (io : RealText K) (n nhalo : Int) (hi : 1 ≤ n ∧ n < 2147483648) (hh : 0 ≤ nhalo) (g : Grid2) (hg : g = ⟨n, n, nhalo⟩)
  {sz : A → Int} (xv yv c : A) (hc : sz c = (n + 2 * nhalo) * (n + 2 * nhalo))
  (hv : ∀ a ∈ [xv, yv], sz a = (n + 1 + 2 * nhalo) * (n + 1 + 2 * nhalo))
  (s : Status K) (m : Mem A K) (hz : io.parse "0.0".toList = some 0)
  (hpe : ∀ i j, 0 ≤ i → i ≤ n → 0 ≤ j → j ≤ n → Exact io (m xv (g.vert.at2 i j)) ∧ Exact io (m yv (g.vert.at2 i j)))
include hi hh hg hc hv hz hpe

theorem domain2 {xb xe yb : K}
    (hxb : (∃ i j, ((0 ≤ i ∧ i ≤ n) ∧ (0 ≤ j ∧ j ≤ n)) ∧ m xv (g.vert.at2 i j) = xb) ∧
      ∀ i j, 0 ≤ i → i ≤ n → 0 ≤ j → j ≤ n → xb ≤ m xv (g.vert.at2 i j))
    (hxe : (∃ i j, ((0 ≤ i ∧ i ≤ n) ∧ (0 ≤ j ∧ j ≤ n)) ∧ m xv (g.vert.at2 i j) = xe) ∧
      ∀ i j, 0 ≤ i → i ≤ n → 0 ≤ j → j ≤ n → m xv (g.vert.at2 i j) ≤ xe)
    (hyb : (∃ i j, ((0 ≤ i ∧ i ≤ n) ∧ (0 ≤ j ∧ j ≤ n)) ∧ m yv (g.vert.at2 i j) = yb) ∧
      ∀ i j, 0 ≤ i → i ≤ n → 0 ≤ j → j ≤ n → yb ≤ m yv (g.vert.at2 i j)) :
    getCartesianDomain io (file2 io g xv yv c s m) = .ok ⟨n, n, 0, xb, xe, yb, 0⟩ := by
  subst hg
  have hm : ∀ x : Int × Int, x ∈ box2 0 (n + 1) 0 (n + 1) ↔ (0 ≤ x.2 ∧ x.2 ≤ n) ∧ (0 ≤ x.1 ∧ x.1 ≤ n) := by
    intro x; rw [mem_box2]; omega
  have aux : ∀ (P : Int → Int → Prop), (∃ i j, ((0 ≤ i ∧ i ≤ n) ∧ (0 ≤ j ∧ j ≤ n)) ∧ P i j) →
      ∃ x ∈ box2 0 (n + 1) 0 (n + 1), P x.2 x.1 := by
    rintro P ⟨i, j, h, hP⟩
    exact ⟨(j, i), (hm _).2 h, hP⟩
  refine getCartesianDomain_ok io _ ⟨by omega, hi.2⟩ ⟨by omega, hi.2⟩ ⟨by omega, by omega⟩ rfl
    (box2 0 (n + 1) 0 (n + 1)) _ _ _ (fun x => m xv ((Grid2.mk n n nhalo).vert.at2 x.2 x.1))
    (fun x => m yv ((Grid2.mk n n nhalo).vert.at2 x.2 x.1)) (fun _ => 0) rfl ?_ ?_ ?_ ?_ ?_ ?_ ?_
  · rw [length_box2]
    push_cast
    rw [Int.toNat_of_nonneg (by omega)]
    ring
  · intro x hx
    obtain ⟨h1, h2⟩ := (hm x).1 hx
    obtain ⟨e1, e2⟩ := hpe _ _ h1.1 h1.2 h2.1 h2.2
    refine ⟨e1.1, e2.1, by simp, ?_⟩
    intro c hc
    simp at hc
    rcases hc with rfl | rfl | rfl <;> rfl
  · intro x hx
    obtain ⟨h1, h2⟩ := (hm x).1 hx
    obtain ⟨e1, e2⟩ := hpe _ _ h1.1 h1.2 h2.1 h2.2
    exact ⟨e1.2, e2.2, hz⟩
  · exact ⟨aux _ hxb.1, fun x hx => by obtain ⟨h1, h2⟩ := (hm x).1 hx; exact hxb.2 _ _ h1.1 h1.2 h2.1 h2.2⟩
  · exact ⟨aux _ hxe.1, fun x hx => by obtain ⟨h1, h2⟩ := (hm x).1 hx; exact hxe.2 _ _ h1.1 h1.2 h2.1 h2.2⟩
  · exact ⟨aux _ hyb.1, fun x hx => by obtain ⟨h1, h2⟩ := (hm x).1 hx; exact hyb.2 _ _ h1.1 h1.2 h2.1 h2.2⟩
  · exact ⟨⟨(0, 0), (hm _).2 ⟨by dsimp only; omega, by dsimp only; omega⟩, rfl⟩, fun x hx => le_refl _⟩

theorem domain2_exists : ∃ xb xe yb, getCartesianDomain io (file2 io g xv yv c s m) = .ok ⟨n, n, 0, xb, xe, yb, 0⟩ := by
  have hm : ∀ x : Int × Int, x ∈ box2 0 (n + 1) 0 (n + 1) ↔ (0 ≤ x.1 ∧ x.1 ≤ n) ∧ (0 ≤ x.2 ∧ x.2 ≤ n) := by
    intro x; rw [mem_box2]; omega
  have hne : box2 0 (n + 1) 0 (n + 1) ≠ [] := by
    intro h
    have : ((0 : Int), (0 : Int)) ∈ box2 0 (n + 1) 0 (n + 1) := (hm _).2 ⟨by dsimp only; omega, by dsimp only; omega⟩
    rw [h] at this; simp at this
  obtain ⟨⟨xb, ⟨cx, hcx, ex⟩, bx⟩, ⟨xe, ⟨cx', hcx', ex'⟩, bx'⟩⟩ := exists_minmax _ hne fun x => m xv (g.vert.at2 x.1 x.2)
  obtain ⟨⟨yb, ⟨cy, hcy, ey⟩, yby⟩, -⟩ := exists_minmax _ hne fun x => m yv (g.vert.at2 x.1 x.2)
  refine ⟨xb, xe, yb, domain2 io n nhalo hi hh g hg xv yv c hc hv s m hz hpe ?_ ?_ ?_⟩
  · exact ⟨⟨_, _, (hm _).1 hcx, ex⟩, fun i j h1 h2 h3 h4 => bx (i, j) ((hm _).2 ⟨⟨h1, h2⟩, ⟨h3, h4⟩⟩)⟩
  · exact ⟨⟨_, _, (hm _).1 hcx', ex'⟩, fun i j h1 h2 h3 h4 => bx' (i, j) ((hm _).2 ⟨⟨h1, h2⟩, ⟨h3, h4⟩⟩)⟩
  · exact ⟨⟨_, _, (hm _).1 hcy, ey⟩, fun i j h1 h2 h3 h4 => yby (i, j) ((hm _).2 ⟨⟨h1, h2⟩, ⟨h3, h4⟩⟩)⟩

/-- Two dimensions. -/
theorem C60_round_trip2 (hce : ∀ i j, 0 ≤ i → i < n → 0 ≤ j → j < n → Exact io (m c (g.at2 i j))) :
    ∃ f, (vtkWrite2 io g xv yv c s).run sz m = .ok (f, m) ∧
      ∀ (sz' : A → Int) (d : A) (m2 : Mem A K), sz' d = (n + 2 * nhalo) * (n + 2 * nhalo) →
        ∃ m3, (setSolution io f (.d2 g d)).run sz' m2 = .ok ((), m3) ∧
          (∀ i j, 0 ≤ i → i < n → 0 ≤ j → j < n → m3 d (g.at2 i j) = m c (g.at2 i j)) ∧
          (∀ i j, -nhalo ≤ i → i < n + nhalo → -nhalo ≤ j → j < n + nhalo →
            ¬ (0 ≤ i ∧ i < n ∧ 0 ≤ j ∧ j < n) → m3 d (g.at2 i j) = m2 d (g.at2 i j)) ∧
          (∀ b, b ≠ d → m3 b = m2 b) := by
  obtain ⟨xb, xe, yb, hdom⟩ := domain2_exists io n nhalo hi hh g hg xv yv c hc hv s m hz hpe
  subst hg
  refine ⟨_, vtkWrite2_run (g := ⟨n, n, nhalo⟩) io rfl hh hc hv s m, ?_⟩
  intro sz' d m2 hd
  obtain ⟨m3, h1, h2, h3, h4⟩ := setSolution2_ok (A := A) (g := ⟨n, n, nhalo⟩) io (file2 io ⟨n, n, nhalo⟩ xv yv c s m) rfl hh hi.1 hdom
    (fun i j => m c ((Grid2.mk n n nhalo).at2 i j)) rfl (fun i j h => hce i j h.1.1 h.1.2 h.2.1 h.2.2) (sz := sz') (d := d) hd m2
  refine ⟨m3, h1, fun i j a1 a2 a3 a4 => h2 i j ⟨⟨a1, a2⟩, ⟨a3, a4⟩⟩, ?_, h4⟩
  intro i j a1 a2 a3 a4 hn
  refine h3 _ ?_
  intro i' j' h e
  obtain ⟨h1', h2'⟩ := h
  dsimp only at h1' h2'
  obtain ⟨e1, e2⟩ := Grid2.at2_inj (g := ⟨n, n, nhalo⟩) (i := i) (j := j) ⟨⟨a1, a2⟩, ⟨a3, a4⟩⟩
    (i' := i') (j' := j') ⟨by dsimp only; omega, by dsimp only; omega⟩ e
  apply hn
  omega

end

/-! ### Digits -/

/-- In double precision every finite number survives printing with the digits the writer uses and parsing. -/
theorem C60_double_exact (x : ℚ) (hx : IsFloat binary64 x) : Exact doubleText x :=
  ⟨word_sci 16 x, readFloat_sci binary64 16 (by decide) hx⟩

/-- In single precision builds it does not: two different numbers are printed alike, so no reader can restore both. -/
theorem C60_single_collision : ∃ x y : ℚ, IsFloat binary32 x ∧ IsFloat binary32 y ∧ x ≠ y ∧ floatText.full x = floatText.full y := by
  have hl : ∀ x : ℚ, 1000 ≤ x → x < 1001 → Int.log 10 x = 3 := by
    intro x h1 h2
    rw [Int.log_of_one_le_right 10 (by linarith)]
    have : ⌊x⌋₊ = 1000 := by
      rw [Nat.floor_eq_iff (by linarith)]; push_cast; constructor <;> linarith
    rw [this]; rfl
  have hs : ∀ x : ℚ, 1000 ≤ x → x < 1001 → |x * 10000 - 10000001| < 1 / 2 → sci 7 x = sci 7 (1000 + 1 / 10000) := by
    have hr : ∀ x : ℚ, 1000 ≤ x → x < 1001 → |x * 10000 - 10000001| < 1 / 2 → sciRound 7 x = (10000001, 3) := by
      intro x h1 h2 h3
      have hd : x / (10 : ℚ) ^ ((3 : Int) - (7 : Nat)) = x * 10000 := by norm_num; ring
      unfold sciRound
      rw [hl x h1 h2]
      dsimp only
      rw [hd, roundEven_eq (n := 10000001) (by push_cast; exact h3)]
      rfl
    intro x h1 h2 h3
    unfold sci sciNonneg
    rw [if_neg (by linarith), if_neg (by intro h; linarith), if_neg (by norm_num), if_neg (by norm_num), hr x h1 h2 h3,
      hr (1000 + 1 / 10000) (by norm_num) (by norm_num) (by norm_num)]
  refine ⟨1000 + 1 / 16384, 1000 + 2 / 16384, ⟨16384001, -14, by decide, by decide, by norm_num⟩,
    ⟨8192001, -13, by decide, by decide, by norm_num⟩, by norm_num, ?_⟩
  show sci 7 _ = sci 7 _
  rw [hs (1000 + 1 / 16384) (by norm_num) (by norm_num) (by rw [abs_lt]; constructor <;> norm_num),
    hs (1000 + 2 / 16384) (by norm_num) (by norm_num) (by rw [abs_lt]; constructor <;> norm_num)]

/-- The double precision round trip without assumptions on printing: any field and coordinates of finite doubles. -/
theorem C60_round_trip3_double (g : Grid3) (hi : 1 ≤ g.ni ∧ g.ni < 2147483648) (hj : 1 ≤ g.nj ∧ g.nj < 2147483648)
    (hk : 1 ≤ g.nk ∧ g.nk < 2147483648) (hh : 0 ≤ g.nhalo) {sz : A → Int} (xv yv zv c : A)
    (hc : sz c = (g.ni + 2 * g.nhalo) * (g.nj + 2 * g.nhalo) * (g.nk + 2 * g.nhalo))
    (hv : ∀ a ∈ [xv, yv, zv], sz a = (g.ni + 1 + 2 * g.nhalo) * (g.nj + 1 + 2 * g.nhalo) * (g.nk + 1 + 2 * g.nhalo))
    (s : Status ℚ) (m : Mem A ℚ) (hm : ∀ a n, IsFloat binary64 (m a n)) :
    ∃ f, (vtkWrite3 doubleText g xv yv zv c s).run sz m = .ok (f, m) ∧
      ∀ (sz' : A → Int) (d : A) (m2 : Mem A ℚ), sz' d = (g.ni + 2 * g.nhalo) * (g.nj + 2 * g.nhalo) * (g.nk + 2 * g.nhalo) →
        ∃ m3, (setSolution doubleText f (.d3 g d)).run sz' m2 = .ok ((), m3) ∧
          (∀ i j k, 0 ≤ i → i < g.ni → 0 ≤ j → j < g.nj → 0 ≤ k → k < g.nk → m3 d (g.at3 i j k) = m c (g.at3 i j k)) ∧
          (∀ b, b ≠ d → m3 b = m2 b) := by
  obtain ⟨f, h1, h2⟩ := C60_round_trip3 doubleText g hi hj hk hh xv yv zv c hc hv s m
    (fun i j k _ _ _ _ _ _ => ⟨C60_double_exact _ (hm _ _), C60_double_exact _ (hm _ _), C60_double_exact _ (hm _ _)⟩)
    (fun i j k _ _ _ _ _ _ => C60_double_exact _ (hm _ _))
  refine ⟨f, h1, fun sz' d m2 hd => ?_⟩
  obtain ⟨m3, e1, e2, -, e4⟩ := h2 sz' d m2 hd
  exact ⟨m3, e1, e2, e4⟩

theorem zero_text : doubleText.parse "0.0".toList = some 0 := by
  show readFloat binary64 "0.0".toList = some 0
  unfold readFloat readDec
  rw [show readSign "0.0".toList = (false, "0.0".toList) from rfl]
  dsimp only
  have : readUnsigned "0.0".toList = some 0 := by
    unfold readUnsigned
    rw [show ("0.0".toList : Text).takeWhile isDigitC = ['0'] from rfl, show ("0.0".toList : Text).dropWhile isDigitC = ['.', '0'] from rfl,
      show readFrac ['.', '0'] = (['0'], []) from rfl]
    simp [readNat, readDigits, digitVal, readExp]
  rw [this]
  simp [FloatFmt.round]

theorem C60_round_trip2_double (n nhalo : Int) (hi : 1 ≤ n ∧ n < 2147483648) (hh : 0 ≤ nhalo) (g : Grid2) (hg : g = ⟨n, n, nhalo⟩)
    {sz : A → Int} (xv yv c : A) (hc : sz c = (n + 2 * nhalo) * (n + 2 * nhalo))
    (hv : ∀ a ∈ [xv, yv], sz a = (n + 1 + 2 * nhalo) * (n + 1 + 2 * nhalo))
    (s : Status ℚ) (m : Mem A ℚ) (hm : ∀ a n, IsFloat binary64 (m a n)) :
    ∃ f, (vtkWrite2 doubleText g xv yv c s).run sz m = .ok (f, m) ∧
      ∀ (sz' : A → Int) (d : A) (m2 : Mem A ℚ), sz' d = (n + 2 * nhalo) * (n + 2 * nhalo) →
        ∃ m3, (setSolution doubleText f (.d2 g d)).run sz' m2 = .ok ((), m3) ∧
          (∀ i j, 0 ≤ i → i < n → 0 ≤ j → j < n → m3 d (g.at2 i j) = m c (g.at2 i j)) ∧
          (∀ b, b ≠ d → m3 b = m2 b) := by
  obtain ⟨f, h1, h2⟩ := C60_round_trip2 doubleText n nhalo hi hh g hg xv yv c hc hv s m zero_text
    (fun i j _ _ _ _ => ⟨C60_double_exact _ (hm _ _), C60_double_exact _ (hm _ _)⟩)
    (fun i j _ _ _ _ => C60_double_exact _ (hm _ _))
  refine ⟨f, h1, fun sz' d m2 hd => ?_⟩
  obtain ⟨m3, e1, e2, -, e4⟩ := h2 sz' d m2 hd
  exact ⟨m3, e1, e2, e4⟩

/-- The reader does not compare the number of values with the number of cells: with too few values it reads past the end
of its vector (undefined behaviour). -/
theorem C60_short_file (io : RealText K) (f : VtsFile) (g : Grid3) (hh : 0 ≤ g.nhalo) (xb xe yb zb : K) (hk : g.nk ≠ 0)
    (hd : getCartesianDomain io f = .ok ⟨g.ni, g.nj, g.nk, xb, xe, yb, zb⟩) (vs : List K)
    (hvs : (tokensOf f.cells).mapM (castReal io) = .ok vs) (hlt : (vs.length : Int) < g.ni * g.nj * g.nk)
    (hp : 0 ≤ g.ni ∧ 0 ≤ g.nj ∧ 0 ≤ g.nk) {sz : A → Int} (d : A)
    (hs : sz d = (g.ni + 2 * g.nhalo) * (g.nj + 2 * g.nhalo) * (g.nk + 2 * g.nhalo)) (m : Mem A K) :
    (setSolution io f (.d3 g d)).run sz m = .error .outOfBounds := by
  have key : ∀ (cs : List (Int × Int × Int)) (i : Nat) (m : Mem A K), (∀ x ∈ cs, InB sz d (g.at3 x.2.2 x.2.1 x.1)) →
      vs.length < i + cs.length → i ≤ vs.length →
      (Prog.fold (fun s x => putNext vs d s (g.at3 x.2.2 x.2.1 x.1)) cs i).run sz m = .error .outOfBounds := by
    intro cs
    induction cs with
    | nil => intro i m _ h1 h2; simp at h1; omega
    | cons x cs ih =>
      intro i m hb h1 h2
      rw [Prog.fold, run_bind]
      by_cases hi : i < vs.length
      · have e1 : (putNext vs d i (g.at3 x.2.2 x.2.1 x.1) : Prog A K Nat).run sz m = .ok (i + 1, m.set d (g.at3 x.2.2 x.2.1 x.1) vs[i]) := by
          unfold putNext
          rw [List.getElem?_eq_getElem hi]
          simp only [Prog.wr, Prog.bind, Prog.run, if_pos (hb x (by simp))]
        rw [e1]
        exact ih (i + 1) _ (fun y hy => hb y (by simp [hy])) (by simp at h1; omega) hi
      · have e1 : (putNext vs d i (g.at3 x.2.2 x.2.1 x.1) : Prog A K Nat).run sz m = .error .outOfBounds := by
          unfold putNext
          rw [List.getElem?_eq_none (by omega)]
          rfl
        rw [e1]; rfl
  unfold setSolution
  rw [hvs]
  dsimp only
  rw [hd]
  dsimp only
  rw [if_neg hk, fold_box3 0 g.nk 0 g.nj 0 g.ni (fun s k j i => putNext vs d s (g.at3 i j k)), run_bind,
    key _ 0 m ?_ ?_ (Nat.zero_le _)]
  · rfl
  · intro x hx
    rw [mem_box3] at hx
    have := Grid3.at3_bounds (g := g) (i := x.2.2) (j := x.2.1) (k := x.1) ⟨by omega, by omega, by omega⟩
    exact ⟨this.1, by rw [hs]; exact this.2⟩
  · rw [length_box3]
    have : ((0 + (g.nk - 0).toNat * ((g.nj - 0).toNat * (g.ni - 0).toNat) : Nat) : Int) = g.ni * g.nj * g.nk := by
      push_cast
      rw [Int.toNat_of_nonneg (by omega), Int.toNat_of_nonneg (by omega), Int.toNat_of_nonneg (by omega)]
      ring
    omega

/-- The hypotheses of the double precision round trip can be met, with a field that is not constant. -/
example : ∃ (m : Mem (Fin 4) ℚ), (∀ a n, IsFloat binary64 (m a n)) ∧ m 0 0 ≠ m 0 1 := by
  refine ⟨fun a n => if n = 0 then 3 / 8 else 0, ?_, by norm_num⟩
  intro a n
  by_cases h : n = 0
  · exact ⟨3, -3, by decide, by decide, by simp only [if_pos h]; norm_num⟩
  · exact ⟨0, 0, by decide, by decide, by simp [h]⟩

/-! ### Grid description -/

section
variable [IsStrictOrderedRing K]

theorem mul_cast_mono {dx : K} (h : 0 ≤ dx) {i j : Int} (hij : i ≤ j) (b : K) : b + (i : K) * dx ≤ b + (j : K) * dx := by
  have : (i : K) ≤ (j : K) := by exact_mod_cast hij
  have := mul_le_mul_of_nonneg_right this h
  linarith

/-- Three dimensions: build a grid for a box, write a file, read the description back: the extents, the two ends in x and
the lower ends in y and z are recovered, hence the spacing too; the reader sets nothing else. -/
theorem C61_grid3 (io : RealText K) (g : Grid3) (hi : 1 ≤ g.ni ∧ g.ni < 2147483648) (hj : 1 ≤ g.nj ∧ g.nj < 2147483648)
    (hk : 1 ≤ g.nk ∧ g.nk < 2147483648) (hh : 0 ≤ g.nhalo) (xbeg xend ybeg zbeg : K) (hx : xbeg ≤ xend)
    {sz : A → Int} (x y z xv yv zv c : A) (hnd : [x, y, z, xv, yv, zv].Nodup)
    (hs : ∀ a ∈ [x, y, z, c], sz a = (g.ni + 2 * g.nhalo) * (g.nj + 2 * g.nhalo) * (g.nk + 2 * g.nhalo))
    (hsv : ∀ a ∈ [xv, yv, zv], sz a = (g.ni + 1 + 2 * g.nhalo) * (g.nj + 1 + 2 * g.nhalo) * (g.nk + 1 + 2 * g.nhalo))
    (m0 m : Mem A K) (hgrid : Det sz (g.fillCoords ⟨xbeg, xend, ybeg, zbeg⟩ ⟨x, y, z, xv, yv, zv⟩) m0 m)
    (hex : ∀ i : Int, 0 ≤ i → i ≤ max g.ni (max g.nj g.nk) → Exact io (xbeg + (i : K) * ((xend - xbeg) / (g.ni : K))) ∧
      Exact io (ybeg + (i : K) * ((xend - xbeg) / (g.ni : K))) ∧ Exact io (zbeg + (i : K) * ((xend - xbeg) / (g.ni : K))))
    (s : Status K) :
    ∃ f, (vtkWrite3 io g xv yv zv c s).run sz m = .ok (f, m) ∧
      getCartesianDomain io f = .ok ⟨g.ni, g.nj, g.nk, xbeg, xend, ybeg, zbeg⟩ := by
  obtain ⟨m', hd, -, hvert, -⟩ := C06_coordinates3 g hi.1 xbeg xend ybeg zbeg x y z xv yv zv hnd
    (fun a ha => hs a (by simp only [List.mem_cons, List.not_mem_nil, or_false] at ha ⊢; tauto)) hsv m0 _ rfl
  obtain rfl := hgrid.unique hd
  have hdx : 0 ≤ (xend - xbeg) / (g.ni : K) := by
    apply div_nonneg (by linarith)
    have : (0 : Int) ≤ g.ni := by omega
    exact_mod_cast this
  have hdn : (g.ni : K) * ((xend - xbeg) / (g.ni : K)) = xend - xbeg := by
    have : (g.ni : K) ≠ 0 := by
      have : g.ni ≠ 0 := by omega
      exact_mod_cast this
    field_simp
  have hV : ∀ i j k, 0 ≤ i → i ≤ g.ni → 0 ≤ j → j ≤ g.nj → 0 ≤ k → k ≤ g.nk → _ := fun i j k h1 h2 h3 h4 h5 h6 =>
    hvert i j k (by omega) (by omega) (by omega) (by omega) (by omega) (by omega)
  refine ⟨_, vtkWrite3_run io hh (hs c (by simp)) hsv s m, domain3 io g hi hj hk hh xv yv zv c (hs c (by simp)) hsv s m ?_ ?_ ?_ ?_ ?_⟩
  · intro i j k h1 h2 h3 h4 h5 h6
    obtain ⟨e1, e2, e3⟩ := hV i j k h1 h2 h3 h4 h5 h6
    rw [e1, e2, e3]
    exact ⟨(hex i h1 (by omega)).1, (hex j h3 (by omega)).2.1, (hex k h5 (by omega)).2.2⟩
  · refine ⟨⟨0, 0, 0, ⟨by omega, by omega, by omega⟩, ?_⟩, fun i j k h1 h2 h3 h4 h5 h6 => ?_⟩
    · rw [(hV 0 0 0 (by omega) (by omega) (by omega) (by omega) (by omega) (by omega)).1]; simp
    · rw [(hV i j k h1 h2 h3 h4 h5 h6).1]
      have := mul_cast_mono hdx h1 xbeg
      simpa using this
  · refine ⟨⟨g.ni, 0, 0, ⟨by omega, by omega, by omega⟩, ?_⟩, fun i j k h1 h2 h3 h4 h5 h6 => ?_⟩
    · rw [(hV g.ni 0 0 (by omega) (by omega) (by omega) (by omega) (by omega) (by omega)).1, hdn]; ring
    · rw [(hV i j k h1 h2 h3 h4 h5 h6).1]
      have := mul_cast_mono hdx h2 xbeg
      rw [hdn] at this
      linarith
  · refine ⟨⟨0, 0, 0, ⟨by omega, by omega, by omega⟩, ?_⟩, fun i j k h1 h2 h3 h4 h5 h6 => ?_⟩
    · rw [(hV 0 0 0 (by omega) (by omega) (by omega) (by omega) (by omega) (by omega)).2.1]; simp
    · rw [(hV i j k h1 h2 h3 h4 h5 h6).2.1]
      have := mul_cast_mono hdx h3 ybeg
      simpa using this
  · refine ⟨⟨0, 0, 0, ⟨by omega, by omega, by omega⟩, ?_⟩, fun i j k h1 h2 h3 h4 h5 h6 => ?_⟩
    · rw [(hV 0 0 0 (by omega) (by omega) (by omega) (by omega) (by omega) (by omega)).2.2]; simp
    · rw [(hV i j k h1 h2 h3 h4 h5 h6).2.2]
      have := mul_cast_mono hdx h5 zbeg
      simpa using this

/-- Two dimensions: `nz` is read as 0 and the z start as 0. -/
theorem C61_grid2 (io : RealText K) (n nhalo : Int) (hi : 1 ≤ n ∧ n < 2147483648) (hh : 0 ≤ nhalo) (g : Grid2) (hg : g = ⟨n, n, nhalo⟩)
    (xbeg xend ybeg zbeg : K) (hx : xbeg ≤ xend) (hz : io.parse "0.0".toList = some 0)
    {sz : A → Int} (x y z xv yv zv c : A) (hnd : [x, y, xv, yv].Nodup)
    (hs : ∀ a ∈ [x, y, c], sz a = (n + 2 * nhalo) * (n + 2 * nhalo))
    (hsv : ∀ a ∈ [xv, yv], sz a = (n + 1 + 2 * nhalo) * (n + 1 + 2 * nhalo))
    (m0 m : Mem A K) (hgrid : Det sz (g.fillCoords ⟨xbeg, xend, ybeg, zbeg⟩ ⟨x, y, z, xv, yv, zv⟩) m0 m)
    (hex : ∀ i : Int, 0 ≤ i → i ≤ n → Exact io (xbeg + (i : K) * ((xend - xbeg) / (n : K))) ∧
      Exact io (ybeg + (i : K) * ((xend - xbeg) / (n : K)))) (s : Status K) :
    ∃ f, (vtkWrite2 io g xv yv c s).run sz m = .ok (f, m) ∧
      getCartesianDomain io f = .ok ⟨n, n, 0, xbeg, xend, ybeg, 0⟩ := by
  obtain ⟨m', hd, -, hvert, -⟩ := C06_coordinates2 n nhalo hi.1 xbeg xend ybeg zbeg g hg x y z xv yv zv hnd
    (fun a ha => hs a (by simp only [List.mem_cons, List.not_mem_nil, or_false] at ha ⊢; tauto)) hsv m0 _ rfl
  obtain rfl := hgrid.unique hd
  have hdx : 0 ≤ (xend - xbeg) / (n : K) := by
    apply div_nonneg (by linarith)
    have : (0 : Int) ≤ n := by omega
    exact_mod_cast this
  have hdn : (n : K) * ((xend - xbeg) / (n : K)) = xend - xbeg := by
    have : (n : K) ≠ 0 := by
      have : n ≠ 0 := by omega
      exact_mod_cast this
    field_simp
  have hV : ∀ i j, 0 ≤ i → i ≤ n → 0 ≤ j → j ≤ n → _ := fun i j h1 h2 h3 h4 =>
    hvert i j (by omega) (by omega) (by omega) (by omega)
  have hw : (vtkWrite2 io g xv yv c s).run sz m = .ok (file2 io g xv yv c s m, m) := by
    subst hg
    exact vtkWrite2_run (g := ⟨n, n, nhalo⟩) io rfl hh (hs c (by simp)) hsv s m
  refine ⟨_, hw, domain2 io n nhalo hi hh g hg xv yv c (hs c (by simp)) hsv s m hz ?_ ?_ ?_ ?_⟩
  · intro i j h1 h2 h3 h4
    obtain ⟨e1, e2⟩ := hV i j h1 h2 h3 h4
    rw [e1, e2]
    exact ⟨(hex i h1 (by omega)).1, (hex j h3 (by omega)).2⟩
  · refine ⟨⟨0, 0, ⟨by omega, by omega⟩, ?_⟩, fun i j h1 h2 h3 h4 => ?_⟩
    · rw [(hV 0 0 (by omega) (by omega) (by omega) (by omega)).1]; simp
    · rw [(hV i j h1 h2 h3 h4).1]
      have := mul_cast_mono hdx h1 xbeg
      simpa using this
  · refine ⟨⟨n, 0, ⟨by omega, by omega⟩, ?_⟩, fun i j h1 h2 h3 h4 => ?_⟩
    · rw [(hV n 0 (by omega) (by omega) (by omega) (by omega)).1, hdn]; ring
    · rw [(hV i j h1 h2 h3 h4).1]
      have := mul_cast_mono hdx h2 xbeg
      rw [hdn] at this
      linarith
  · refine ⟨⟨0, 0, ⟨by omega, by omega⟩, ?_⟩, fun i j h1 h2 h3 h4 => ?_⟩
    · rw [(hV 0 0 (by omega) (by omega) (by omega) (by omega)).2]; simp
    · rw [(hV i j h1 h2 h3 h4).2]
      have := mul_cast_mono hdx h3 ybeg
      simpa using this

end

/-- The exactness assumption on coordinates holds for instance for the box `[0, 2π)`-like box `[0, 8]` cut into powers of
two, in double precision. -/
example (i : Int) (h0 : 0 ≤ i) (h1 : i ≤ 64) : Exact doubleText ((0 : ℚ) + (i : ℚ) * ((8 - 0) / ((64 : Int) : ℚ))) := by
  refine C60_double_exact _ ⟨i, -3, ?_, by decide, by norm_num⟩
  rw [abs_of_nonneg h0]
  show i < 2 ^ 53
  omega

end Madg
