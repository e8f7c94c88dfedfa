/-
2D grid: indexing, lists, periodic fill, kernels, right-hand side.
-/
import Verif.Proofs.Kern3
import Verif.Model.CH2
import Verif.Spec.Ops2

set_option linter.unusedSectionVars false
set_option linter.unusedVariables false

namespace Madg
open Spec
variable {A K : Type} [DecidableEq A]

/-- Loop over distinct cells, each writing one location of `r` of its own. -/
theorem cells_det {C : Type} {sz : A → Int} {cs : List C} (hnd : cs.Nodup) (e : C → Int)
    (inj : ∀ c ∈ cs, ∀ c' ∈ cs, e c = e c' → c = c') (r : A) (body : C → Prog A K Unit) (F : C → K)
    (m : Mem A K)
    (hfoot : ∀ c ∈ cs, (body c).Foot sz (fun a n => a ≠ r ∨ n = e c) (fun a n => a = r ∧ n = e c))
    (hval : ∀ c ∈ cs, (body c).exec m r (e c) = F c) :
    ∃ m', Det sz [cs.map body] m m' ∧ (∀ c ∈ cs, m' r (e c) = F c) ∧
      (∀ n, (∀ c ∈ cs, e c ≠ n) → m' r n = m r n) ∧ (∀ b, b ≠ r → m' b = m b) := by
  refine ⟨_, det_cells hnd (fun c => (r, e c)) F m ?_ ?_ hval, ?_, ?_, ?_⟩
  · intro c hc c' hc' h
    exact inj c hc c' hc' (Prod.mk.inj h).2
  · intro c hc
    refine (hfoot c hc).mono ?_ ?_
    · rintro a n h c' hc' hne h'
      obtain ⟨e1, e2⟩ := Prod.mk.inj h'
      rcases h with h | h
      · exact h e1.symm
      · exact hne (inj _ hc' _ hc (e2.trans h))
    · rintro a n ⟨rfl, rfl⟩; rfl
  · intro c hc
    rw [Mem.upd_hit (c := c) _ hc rfl]
    intro c' hc' h
    exact inj c' hc' c hc (Prod.mk.inj h).2
  · intro n hn
    rw [Mem.upd_miss]
    intro c hc h
    exact hn c hc (Prod.mk.inj h).2
  · intro b hb
    exact Mem.upd_ne fun c _ h => hb h.symm

namespace Grid2

/-- Positive extents, non-negative halo. -/
structure Ok (g : Grid2) : Prop where
  hi : 1 ≤ g.ni
  hj : 1 ≤ g.nj
  hh : 0 ≤ g.nhalo

def Pad (g : Grid2) (i j : Int) : Prop :=
  (-g.nhalo ≤ i ∧ i < g.ni + g.nhalo) ∧ (-g.nhalo ≤ j ∧ j < g.nj + g.nhalo)

def Int2 (g : Grid2) (i j : Int) : Prop := (0 ≤ i ∧ i < g.ni) ∧ (0 ≤ j ∧ j < g.nj)

variable {g : Grid2}

theorem Int2.pad (hg : g.Ok) {i j : Int} (h : g.Int2 i j) : g.Pad i j := by
  have := hg.hh; unfold Int2 at h; unfold Pad; omega

theorem at2_eq (i j : Int) : g.at2 i j = (i + g.nhalo) * g.njh + (j + g.nhalo) := by
  unfold at2 get1Dindex; ring

theorem at2_bounds {i j : Int} (h : g.Pad i j) : 0 ≤ g.at2 i j ∧ g.at2 i j < g.size := by
  rw [at2_eq]
  unfold Pad at h
  exact enc_bounds (m := g.ni + 2 * g.nhalo) (n := g.nj + 2 * g.nhalo) (by omega) (by omega)
    (by omega) (by omega)

theorem get_at2 {i j : Int} (h : g.Pad i j) : g.getI (g.at2 i j) = i ∧ g.getJ (g.at2 i j) = j := by
  have hb := at2_bounds h
  unfold Pad at h
  unfold getI getJ
  rw [Int.tdiv_eq_ediv_of_nonneg hb.1, Int.tmod_eq_emod_of_nonneg hb.1, at2_eq,
    enc_div (by omega) (by unfold njh; omega), enc_mod (by omega) (by unfold njh; omega)]
  omega

theorem at2_inj {i j i' j' : Int} (h : g.Pad i j) (h' : g.Pad i' j') (e : g.at2 i j = g.at2 i' j') :
    i = i' ∧ j = j' := by
  have h1 := get_at2 h; have h2 := get_at2 h'
  rw [e] at h1
  exact ⟨h1.1.symm.trans h2.1, h1.2.symm.trans h2.2⟩

theorem pad_get (hg : g.Ok) {n : Int} (h0 : 0 ≤ n) (h1 : n < g.size) :
    g.Pad (g.getI n) (g.getJ n) ∧ g.at2 (g.getI n) (g.getJ n) = n := by
  have hi := hg.hi; have hj := hg.hj; have hh := hg.hh
  have hjp : 0 < g.njh := by unfold njh; omega
  have hd := Int.emod_add_mul_ediv n g.njh
  have hm0 := Int.emod_nonneg n (by omega : g.njh ≠ 0)
  have hm1 := Int.emod_lt_of_pos n hjp
  have hq0 : 0 ≤ n / g.njh := Int.ediv_nonneg h0 (by omega)
  have hq1 : n / g.njh < g.ni + 2 * g.nhalo := by
    rw [Int.ediv_lt_iff_lt_mul hjp]
    exact h1
  refine ⟨?_, ?_⟩
  · unfold Pad getI getJ
    rw [Int.tdiv_eq_ediv_of_nonneg h0, Int.tmod_eq_emod_of_nonneg h0]
    unfold njh at hm1 hq1 ⊢
    unfold njh at hq0 hm0
    omega
  · rw [at2_eq]
    unfold getI getJ
    rw [Int.tdiv_eq_ediv_of_nonneg h0, Int.tmod_eq_emod_of_nonneg h0]
    linear_combination hd

theorem interiorCells_eq (g : Grid2) : g.interiorCells = box2 0 g.ni 0 g.ni := rfl

theorem row_eq (i0 i1 j0 j1 : Int) :
    ((irange j0 j1).flatMap fun j => (irange i0 i1).map fun i => (i, j)) =
      (box2 j0 j1 i0 i1).map Prod.swap := by
  simp only [box2, List.map_flatMap, List.map_map]
  rfl

theorem mem_boundaryCells (hn : 0 ≤ g.ni) (hh : 0 ≤ g.nhalo) {c : Int × Int} :
    c ∈ g.boundaryCells ↔
      ((-g.nhalo ≤ c.1 ∧ c.1 < g.ni + g.nhalo) ∧ (-g.nhalo ≤ c.2 ∧ c.2 < g.ni + g.nhalo)) ∧
        ¬ ((0 ≤ c.1 ∧ c.1 < g.ni) ∧ (0 ≤ c.2 ∧ c.2 < g.ni)) := by
  obtain ⟨i, j⟩ := c
  unfold boundaryCells
  simp only [row_eq, List.mem_append, List.mem_map, List.mem_flatMap, mem_irange, mem_box2, Prod.exists,
    Prod.swap_prod_mk, Prod.mk.injEq]
  constructor
  · rintro (((⟨a, b, h, rfl, rfl⟩ | ⟨a, b, h, rfl, rfl⟩) | ⟨a, h, b, h', rfl, rfl⟩) | ⟨a, h, b, h', rfl, rfl⟩) <;>
      omega
  · intro h
    by_cases hj : j < 0
    · exact .inl (.inl (.inl ⟨j, i, by omega, rfl, rfl⟩))
    · by_cases hj' : g.ni ≤ j
      · exact .inl (.inl (.inr ⟨j, i, by omega, rfl, rfl⟩))
      · by_cases hi : i < 0
        · exact .inl (.inr ⟨i, by omega, j, by omega, rfl, rfl⟩)
        · exact .inr ⟨i, by omega, j, by omega, rfl, rfl⟩

theorem nodup_boundaryCells (hn : 0 ≤ g.ni) (hh : 0 ≤ g.nhalo) : g.boundaryCells.Nodup := by
  unfold boundaryCells
  have e3 : ∀ i0 i1 j0 j1 : Int, ((irange i0 i1).flatMap fun i => (irange j0 j1).map fun j => (i, j)) =
      box2 i0 i1 j0 j1 := fun _ _ _ _ => rfl
  simp only [row_eq, e3]
  have hsw : ∀ i0 i1 j0 j1 : Int, ((box2 i0 i1 j0 j1).map Prod.swap).Nodup := fun _ _ _ _ =>
    (nodup_box2 _ _ _ _).map Prod.swap_injective
  rw [List.nodup_append, List.nodup_append, List.nodup_append]
  refine ⟨⟨⟨hsw _ _ _ _, hsw _ _ _ _, ?_⟩, nodup_box2 _ _ _ _, ?_⟩, nodup_box2 _ _ _ _, ?_⟩
  · rintro a ha b hb rfl
    simp only [List.mem_map, mem_box2, Prod.exists, Prod.swap_prod_mk] at ha hb
    obtain ⟨p, q, h, rfl⟩ := ha
    obtain ⟨p', q', h', e⟩ := hb
    simp only [Prod.mk.injEq] at e; omega
  · rintro a ha b hb rfl
    rw [mem_box2] at hb
    rcases List.mem_append.1 ha with ha | ha <;>
    · simp only [List.mem_map, mem_box2, Prod.exists, Prod.swap_prod_mk] at ha
      obtain ⟨p, q, h, rfl⟩ := ha
      simp only at hb; omega
  · rintro a ha b hb rfl
    rw [mem_box2] at hb
    rcases List.mem_append.1 ha with ha | ha
    · rcases List.mem_append.1 ha with ha | ha <;>
      · simp only [List.mem_map, mem_box2, Prod.exists, Prod.swap_prod_mk] at ha
        obtain ⟨p, q, h, rfl⟩ := ha
        simp only at hb; omega
    · rw [mem_box2] at ha; omega

theorem length_boundaryCells (hn : 0 ≤ g.ni) (hh : 0 ≤ g.nhalo) : (g.boundaryCells.length : Int) =
    (g.ni + 2 * g.nhalo) * g.nhalo * 2 + g.ni * g.nhalo * 2 := by
  unfold boundaryCells
  have e3 : ∀ i0 i1 j0 j1 : Int, ((irange i0 i1).flatMap fun i => (irange j0 j1).map fun j => (i, j)) =
      box2 i0 i1 j0 j1 := fun _ _ _ _ => rfl
  simp only [row_eq, e3, List.length_append, List.length_map, length_box2]
  push_cast
  rw [Int.toNat_of_nonneg (by omega), Int.toNat_of_nonneg (by omega), Int.toNat_of_nonneg (by omega),
    Int.toNat_of_nonneg (by omega)]
  ring

end Grid2

/-- The 2D discretization is what the constructor builds. -/
structure Geom2.Ok (G : Geom2) : Prop where
  sq : G.g.nj = G.g.ni
  hn : 1 ≤ G.g.ni
  hh : 0 ≤ G.g.nhalo
  int : G.interior = (box2 0 G.g.ni 0 G.g.ni).map fun c => G.g.at2 c.1 c.2
  bdry : G.boundary = G.g.boundaryCells.map fun c => G.g.at2 c.1 c.2

theorem Geom2.Ok.ok {G : Geom2} (h : G.Ok) : G.g.Ok := ⟨h.hn, by rw [h.sq]; exact h.hn, h.hh⟩

theorem mkGeom2_ok {n nhalo : Int} (hn : 1 ≤ n) (hh : 0 ≤ nhalo) :
    ∃ G, mkGeom2 n nhalo = .ok G ∧ G.Ok ∧ G.g = ⟨n, n, nhalo⟩ := by
  let g : Grid2 := ⟨n, n, nhalo⟩
  refine ⟨⟨g, (box2 0 n 0 n).map fun c => g.at2 c.1 c.2, g.boundaryCells.map fun c => g.at2 c.1 c.2⟩, ?_,
    ⟨rfl, hn, hh, rfl, rfl⟩, rfl⟩
  unfold mkGeom2
  have hl : ((g.interiorCells.map fun c => g.at2 c.1 c.2).length : Int) = n * n := by
    rw [List.length_map, Grid2.interiorCells_eq, length_box2]
    push_cast
    simp only [g]
    rw [Int.toNat_of_nonneg (by omega)]
    ring
  have hl' : ((g.boundaryCells.map fun c => g.at2 c.1 c.2).length : Int) =
      (n + 2 * nhalo) * nhalo * 2 + n * nhalo * 2 := by
    rw [List.length_map]
    exact Grid2.length_boundaryCells (by simp only [g]; omega) hh
  simp only [g] at hl hl'
  simp only [fillList_exact hl, fillList_exact hl']
  rfl

theorem Geom2.ok_of_mk {n nhalo : Int} {G : Geom2} (hn : 1 ≤ n) (hh : 0 ≤ nhalo)
    (h : mkGeom2 n nhalo = .ok G) : G.Ok ∧ G.g = ⟨n, n, nhalo⟩ := by
  obtain ⟨G', h', hok⟩ := mkGeom2_ok hn hh
  rw [h] at h'; cases h'
  exact hok

/-! ### Periodic fill -/

theorem donorLoops (n h : Int) (hn : 1 ≤ n) (f : Int → Int → Prog A K Unit) :
    ((Prog.forEach (irange (-h) 0) fun i => f (i + n) i).bind fun _ =>
      Prog.forEach (irange n (n + h)) fun i => f (i - n) i) =
    Prog.forEach (halo1 n h) fun i => f (Grid3.donor1 n i) i := by
  unfold halo1
  rw [forEach_append]
  congr 1
  · refine forEach_congr ?_
    intro i hi; simp only [mem_irange] at hi
    unfold Grid3.donor1; rw [if_pos (by omega)]
  · funext _
    refine forEach_congr ?_
    intro i hi; simp only [mem_irange] at hi
    unfold Grid3.donor1; rw [if_neg (by omega), if_pos (by omega)]

/-- One of the four loops. `mk x y` places inner coordinate `x` and outer coordinate `y`; `s` is the outer
coordinate of the source. -/
theorem fill_loop {G : Geom2} (hG : G.Ok) (hle : G.g.nhalo ≤ G.g.ni) {sz : A → Int} {a : A}
    (hs : sz a = G.g.size) (m : Mem A K) (lo hi : Int) (s : Int → Int) (mk : Int → Int → Int × Int)
    (hmk : ∀ x y x' y', mk x y = mk x' y' → x = x' ∧ y = y')
    (hpad : ∀ x y, (-G.g.nhalo ≤ x ∧ x < G.g.ni + G.g.nhalo) → (lo ≤ y ∧ y < hi) →
      G.g.Pad (mk x y).1 (mk x y).2)
    (hsrc : ∀ x y, (0 ≤ x ∧ x < G.g.ni) → (lo ≤ y ∧ y < hi) → G.g.Int2 (mk x (s y)).1 (mk x (s y)).2)
    (hdst : ∀ x y, x ∈ halo1 G.g.ni G.g.nhalo → ¬ G.g.Int2 (mk x y).1 (mk x y).2) :
    ∃ m', Det sz [forAll lo hi fun y =>
        (Prog.forEach (irange (-G.g.nhalo) 0) fun x =>
          .load a (G.g.at2 (mk (x + G.g.ni) (s y)).1 (mk (x + G.g.ni) (s y)).2) fun v =>
            .store a (G.g.at2 (mk x y).1 (mk x y).2) v (.pure ())).bind fun _ =>
        Prog.forEach (irange G.g.ni (G.g.ni + G.g.nhalo)) fun x =>
          .load a (G.g.at2 (mk (x - G.g.ni) (s y)).1 (mk (x - G.g.ni) (s y)).2) fun v =>
            .store a (G.g.at2 (mk x y).1 (mk x y).2) v (.pure ())] m m' ∧
      (∀ x y, x ∈ halo1 G.g.ni G.g.nhalo → (lo ≤ y ∧ y < hi) →
        m' a (G.g.at2 (mk x y).1 (mk x y).2) =
          m a (G.g.at2 (mk (wrapIdx G.g.ni x) (s y)).1 (mk (wrapIdx G.g.ni x) (s y)).2)) ∧
      (∀ i j, G.g.Pad i j → (∀ x y, x ∈ halo1 G.g.ni G.g.nhalo → (lo ≤ y ∧ y < hi) → mk x y ≠ (i, j)) →
        m' a (G.g.at2 i j) = m a (G.g.at2 i j)) ∧
      (∀ n, ¬ (0 ≤ n ∧ n < G.g.size) → m' a n = m a n) ∧ (∀ b, b ≠ a → m' b = m b) := by
  have hn := hG.hn
  have hh := hG.hh
  set g := G.g
  let body : Int → Int → Prog A K Unit := fun y x =>
    .load a (g.at2 (mk (Grid3.donor1 g.ni x) (s y)).1 (mk (Grid3.donor1 g.ni x) (s y)).2) fun v =>
      .store a (g.at2 (mk x y).1 (mk x y).2) v (.pure ())
  have hpool : (forAll lo hi fun y =>
        (Prog.forEach (irange (-g.nhalo) 0) fun x =>
          .load a (g.at2 (mk (x + g.ni) (s y)).1 (mk (x + g.ni) (s y)).2) fun v =>
            .store a (g.at2 (mk x y).1 (mk x y).2) v (.pure ())).bind fun _ =>
        Prog.forEach (irange g.ni (g.ni + g.nhalo)) fun x =>
          .load a (g.at2 (mk (x - g.ni) (s y)).1 (mk (x - g.ni) (s y)).2) fun v =>
            .store a (g.at2 (mk x y).1 (mk x y).2) v (.pure ()) : Pool A K) =
      (irange lo hi).map fun y => Prog.forEach (halo1 g.ni g.nhalo) (body y) := by
    unfold forAll
    congr 1
    funext y
    exact donorLoops g.ni g.nhalo hn (fun x' x =>
      .load a (g.at2 (mk x' (s y)).1 (mk x' (s y)).2) fun v =>
        .store a (g.at2 (mk x y).1 (mk x y).2) v (.pure ()))
  rw [hpool]
  have hrng : ∀ x, x ∈ halo1 g.ni g.nhalo → -g.nhalo ≤ x ∧ x < g.ni + g.nhalo := by
    intro x hx; have := mem_halo1.1 hx; omega
  have hcell : ∀ x y, x ∈ halo1 g.ni g.nhalo → y ∈ irange lo hi → g.Pad (mk x y).1 (mk x y).2 := by
    intro x y hx hy; exact hpad x y (hrng x hx) (by simpa using hy)
  have hdon : ∀ x y, x ∈ halo1 g.ni g.nhalo → y ∈ irange lo hi →
      g.Int2 (mk (Grid3.donor1 g.ni x) (s y)).1 (mk (Grid3.donor1 g.ni x) (s y)).2 := by
    intro x y hx hy
    have := hrng x hx
    exact hsrc _ y (donor1_range hn hle this.1 this.2) (by simpa using hy)
  have hinj : ∀ i j i' j', g.Pad i j → g.Pad i' j' → (a, g.at2 i j) = (a, g.at2 i' j') →
      (i, j) = (i', j') := by
    intro i j i' j' h h' e
    obtain ⟨e1, e2⟩ := Grid2.at2_inj h h' (Prod.mk.inj e).2
    rw [e1, e2]
  refine ⟨_, det_cells_nested (nodup_irange _ _) (fun _ _ => nodup_halo1 (by omega))
    (fun c => (a, g.at2 (mk c.2 c.1).1 (mk c.2 c.1).2))
    (fun c => m a (g.at2 (mk (Grid3.donor1 g.ni c.2) (s c.1)).1 (mk (Grid3.donor1 g.ni c.2) (s c.1)).2)) m
    ?_ ?_ ?_, ?_, ?_, ?_, ?_⟩
  · rintro ⟨y, x⟩ h1 h2 ⟨y', x'⟩ h1' h2' e
    obtain ⟨e1, e2⟩ := hmk _ _ _ _ (hinj _ _ _ _ (hcell x y h2 h1) (hcell x' y' h2' h1') e)
    simp only [Prod.mk.injEq]; exact ⟨e2, e1⟩
  · rintro ⟨y, x⟩ h1 h2
    refine ⟨?_, ?_, fun v => ⟨?_, rfl, trivial⟩⟩
    · rw [InB, hs]; exact Grid2.at2_bounds ((hdon x y h2 h1).pad hG.ok)
    · rintro ⟨y', x'⟩ h1' h2' _ e
      have e' := hinj _ _ _ _ (hcell x' y' h2' h1') ((hdon x y h2 h1).pad hG.ok) e
      apply hdst x' y' h2'
      have := hdon x y h2 h1
      rw [show mk x' y' = mk (Grid3.donor1 g.ni x) (s y) from e']
      exact this
    · rw [InB, hs]; exact Grid2.at2_bounds (hcell x y h2 h1)
  · intro c h1 h2
    exact Mem.set_same _ _ _ _
  · intro x y hx hy
    have hr := hrng x hx
    rw [Mem.upd_hit (c := (y, x)) _ ⟨by simpa using hy, hx⟩ rfl]
    · simp only [donor1_eq_wrap hn hle hr.1 hr.2]
    · rintro ⟨y', x'⟩ ⟨h1', h2'⟩ e
      obtain ⟨e1, e2⟩ := hmk _ _ _ _ (hinj _ _ _ _ (hcell x' y' h2' h1') (hpad x y hr hy) e)
      simp only [Prod.mk.injEq]; exact ⟨e2, e1⟩
  · intro i j hp hno
    rw [Mem.upd_miss]
    rintro ⟨y', x'⟩ ⟨h1', h2'⟩ e
    exact hno x' y' h2' (by simpa using h1') (hinj _ _ _ _ (hcell x' y' h2' h1') hp e)
  · intro n hno
    rw [Mem.upd_miss]
    rintro ⟨y', x'⟩ ⟨h1', h2'⟩ e
    have := (Prod.mk.inj e).2
    exact hno (by rw [← this]; exact Grid2.at2_bounds (hcell x' y' h2' h1'))
  · intro b hb
    exact Mem.upd_ne fun c _ e => hb e.symm

theorem periodic2_det {G : Geom2} (hG : G.Ok) (hle : G.g.nhalo ≤ G.g.ni) {sz : A → Int} {a : A}
    (hs : sz a = G.g.size) (m : Mem A K) :
    ∃ m', Det sz (G.applyPeriodic a) m m' ∧
      (∀ i j, G.g.Pad i j → m' a (G.g.at2 i j) = m a (G.g.at2 (wrapIdx G.g.ni i) (wrapIdx G.g.ni j))) ∧
      (∀ n, ¬ (0 ≤ n ∧ n < G.g.size) → m' a n = m a n) ∧ (∀ b, b ≠ a → m' b = m b) := by
  have hn := hG.hn
  have hh := hG.hh
  have hsq := hG.sq
  obtain ⟨m1, d1, v1, u1, o1, f1⟩ := fill_loop (K := K) hG hle hs m 0 G.g.ni (fun y => y) (fun x y => (x, y))
    (by simp) (by intro x y hx hy; unfold Grid2.Pad; simp only; omega)
    (by intro x y hx hy; unfold Grid2.Int2; simp only; omega)
    (by intro x y hx; have := mem_halo1.1 hx; unfold Grid2.Int2; simp only; omega)
  obtain ⟨m2, d2, v2, u2, o2, f2⟩ := fill_loop (K := K) hG hle hs m1 0 G.g.ni (fun y => y) (fun x y => (y, x))
    (by simp) (by intro x y hx hy; unfold Grid2.Pad; simp only; omega)
    (by intro x y hx hy; unfold Grid2.Int2; simp only; omega)
    (by intro x y hx; have := mem_halo1.1 hx; unfold Grid2.Int2; simp only; omega)
  obtain ⟨m3, d3, v3, u3, o3, f3⟩ := fill_loop (K := K) hG hle hs m2 (-G.g.nhalo) 0 (fun y => y + G.g.ni)
    (fun x y => (y, x))
    (by simp) (by intro x y hx hy; unfold Grid2.Pad; simp only; omega)
    (by intro x y hx hy; unfold Grid2.Int2; simp only; omega)
    (by intro x y hx; have := mem_halo1.1 hx; unfold Grid2.Int2; simp only; omega)
  obtain ⟨m4, d4, v4, u4, o4, f4⟩ := fill_loop (K := K) hG hle hs m3 G.g.ni (G.g.ni + G.g.nhalo)
    (fun y => y - G.g.ni) (fun x y => (y, x))
    (by simp) (by intro x y hx hy; unfold Grid2.Pad; simp only; omega)
    (by intro x y hx hy; unfold Grid2.Int2; simp only; omega)
    (by intro x y hx; have := mem_halo1.1 hx; unfold Grid2.Int2; simp only; omega)
  refine ⟨m4, det_append d1 (det_append d2 (det_append d3 d4)), ?_, ?_, ?_⟩
  · -- interior values never change
    have i1 : ∀ i j, G.g.Int2 i j → m1 a (G.g.at2 i j) = m a (G.g.at2 i j) := by
      intro i j h
      refine u1 i j (h.pad hG.ok) fun x y hx hy e => ?_
      have := mem_halo1.1 hx; simp only [Prod.mk.injEq] at e; unfold Grid2.Int2 at h; omega
    have i2 : ∀ i j, G.g.Int2 i j → m2 a (G.g.at2 i j) = m1 a (G.g.at2 i j) := by
      intro i j h
      refine u2 i j (h.pad hG.ok) fun x y hx hy e => ?_
      have := mem_halo1.1 hx; simp only [Prod.mk.injEq] at e; unfold Grid2.Int2 at h; omega
    have i3 : ∀ i j, G.g.Int2 i j → m3 a (G.g.at2 i j) = m2 a (G.g.at2 i j) := by
      intro i j h
      refine u3 i j (h.pad hG.ok) fun x y hx hy e => ?_
      have := mem_halo1.1 hx; simp only [Prod.mk.injEq] at e; unfold Grid2.Int2 at h; omega
    have i4 : ∀ i j, G.g.Int2 i j → m4 a (G.g.at2 i j) = m3 a (G.g.at2 i j) := by
      intro i j h
      refine u4 i j (h.pad hG.ok) fun x y hx hy e => ?_
      have := mem_halo1.1 hx; simp only [Prod.mk.injEq] at e; unfold Grid2.Int2 at h; omega
    have wr := fun x => wrapIdx_range (n := G.g.ni) x hn
    have hW : ∀ x y, (0 ≤ x ∧ x < G.g.ni) → (0 ≤ y ∧ y < G.g.ni) → G.g.Int2 x y := by
      intro x y h1 h2; unfold Grid2.Int2; omega
    intro i j hp
    have hp' := hp
    unfold Grid2.Pad at hp'
    have hwi : wrapIdx G.g.ni i = Grid3.donor1 G.g.ni i := (donor1_eq_wrap hn hle hp'.1.1 hp'.1.2).symm
    by_cases ci : 0 ≤ i ∧ i < G.g.ni
    · have ei : wrapIdx G.g.ni i = i := wrapIdx_of_int ci.1 ci.2
      by_cases cj : 0 ≤ j ∧ j < G.g.ni
      · have h := hW i j ci cj
        rw [i4 i j h, i3 i j h, i2 i j h, i1 i j h, ei, wrapIdx_of_int cj.1 cj.2]
      · have hj : j ∈ halo1 G.g.ni G.g.nhalo := mem_halo1.2 (by omega)
        rw [u4 i j hp (fun x y hx hy e => by simp only [Prod.mk.injEq] at e; omega),
          u3 i j hp (fun x y hx hy e => by simp only [Prod.mk.injEq] at e; omega)]
        have := v2 j i hj ci
        simp only at this
        rw [this, i1 _ _ (hW _ _ ci (wr j)), ei]
    · by_cases cj : 0 ≤ j ∧ j < G.g.ni
      · have hi : i ∈ halo1 G.g.ni G.g.nhalo := mem_halo1.2 (by omega)
        rw [u4 i j hp (fun x y hx hy e => by
            have := mem_halo1.1 hx; simp only [Prod.mk.injEq] at e; omega),
          u3 i j hp (fun x y hx hy e => by
            have := mem_halo1.1 hx; simp only [Prod.mk.injEq] at e; omega),
          u2 i j hp (fun x y hx hy e => by simp only [Prod.mk.injEq] at e; omega)]
        have := v1 i j hi cj
        simp only at this
        rw [this, wrapIdx_of_int cj.1 cj.2]
      · have hj : j ∈ halo1 G.g.ni G.g.nhalo := mem_halo1.2 (by omega)
        by_cases c0 : i < 0
        · rw [u4 i j hp (fun x y hx hy e => by simp only [Prod.mk.injEq] at e; omega)]
          have := v3 j i hj (by omega)
          simp only at this
          have hd : wrapIdx G.g.ni i = i + G.g.ni := by
            rw [hwi]; unfold Grid3.donor1; rw [if_pos c0]
          have hint := hW (i + G.g.ni) (wrapIdx G.g.ni j) (by omega) (wr j)
          rw [this, i2 _ _ hint, i1 _ _ hint, hd]
        · have := v4 j i hj (by omega)
          simp only at this
          have hd : wrapIdx G.g.ni i = i - G.g.ni := by
            rw [hwi]; unfold Grid3.donor1; rw [if_neg c0, if_pos (by omega)]
          have hint := hW (i - G.g.ni) (wrapIdx G.g.ni j) (by omega) (wr j)
          rw [this, i3 _ _ hint, i2 _ _ hint, i1 _ _ hint, hd]
  · intro n h; rw [o4 n h, o3 n h, o2 n h, o1 n h]
  · intro b hb; rw [f4 b hb, f3 b hb, f2 b hb, f1 b hb]

end Madg
