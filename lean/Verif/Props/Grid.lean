/-
Properties of indexing, index lists, parallel loops and boundary fills (C01, C04, C07, C09, C11, C12).
-/
import Verif.Proofs.Race
import Verif.Proofs.CH3

namespace Madg
open Spec
variable {A K : Type} [DecidableEq A]

/-! ### C01 -/

/-- Indexing and `getIJK` are mutually inverse bijections between the padded box and `[0, size)`. -/
theorem C01_index3_bijection (g : Grid3) (hi : 1 ≤ g.ni) (hj : 1 ≤ g.nj) (hk : 1 ≤ g.nk) (hh : 0 ≤ g.nhalo) :
    (∀ i j k, -g.nhalo ≤ i → i < g.ni + g.nhalo → -g.nhalo ≤ j → j < g.nj + g.nhalo →
      -g.nhalo ≤ k → k < g.nk + g.nhalo →
      0 ≤ g.at3 i j k ∧ g.at3 i j k < (g.ni + 2 * g.nhalo) * (g.nj + 2 * g.nhalo) * (g.nk + 2 * g.nhalo) ∧
      g.getI (g.at3 i j k) = i ∧ g.getJ (g.at3 i j k) = j ∧ g.getK (g.at3 i j k) = k) ∧
    (∀ n, 0 ≤ n → n < (g.ni + 2 * g.nhalo) * (g.nj + 2 * g.nhalo) * (g.nk + 2 * g.nhalo) →
      -g.nhalo ≤ g.getI n ∧ g.getI n < g.ni + g.nhalo ∧ -g.nhalo ≤ g.getJ n ∧ g.getJ n < g.nj + g.nhalo ∧
      -g.nhalo ≤ g.getK n ∧ g.getK n < g.nk + g.nhalo ∧ g.at3 (g.getI n) (g.getJ n) (g.getK n) = n) := by
  have hg : g.Ok := ⟨hi, hj, hk, hh⟩
  refine ⟨?_, ?_⟩
  · intro i j k h1 h2 h3 h4 h5 h6
    have hp : g.Pad i j k := ⟨⟨h1, h2⟩, ⟨h3, h4⟩, ⟨h5, h6⟩⟩
    have hb := Grid3.at3_bounds hp
    exact ⟨hb.1, hb.2, Grid3.getI_at3 hp, Grid3.getJ_at3 hp, Grid3.getK_at3 hp⟩
  · intro n h0 h1
    have hp := Grid3.pad_get hg h0 h1
    exact ⟨hp.1.1, hp.1.2, hp.2.1.1, hp.2.1.2, hp.2.2.1, hp.2.2.2, Grid3.at3_get hg h0⟩

example : (1 : Int) ≤ (Grid3.mk 4 3 2 2).ni ∧ (1 : Int) ≤ (Grid3.mk 4 3 2 2).nj ∧
    (1 : Int) ≤ (Grid3.mk 4 3 2 2).nk ∧ (0 : Int) ≤ (Grid3.mk 4 3 2 2).nhalo := by decide

/-! ### C04 -/

/-- The constructor's index lists: no write outside them, interior and halo partition the padded array, each
halo entry's donor is its periodic image. -/
theorem C04_index_lists3 (g : Grid3) (hi : 1 ≤ g.ni) (hj : 1 ≤ g.nj) (hk : 1 ≤ g.nk) (hh : 0 ≤ g.nhalo)
    (xbc ybc zbc : BCType) :
    ∃ G, mkGeom3 g xbc ybc zbc = .ok G ∧ G.g = g ∧
      -- interior list
      G.interior.Nodup ∧ (G.interior.length : Int) = g.ni * g.nj * g.nk ∧
      (∀ n, n ∈ G.interior ↔ ∃ i j k, (0 ≤ i ∧ i < g.ni) ∧ (0 ≤ j ∧ j < g.nj) ∧ (0 ≤ k ∧ k < g.nk) ∧
        n = g.at3 i j k) ∧
      -- halo list: exactly the other cells of the array, once each
      G.receiver.Nodup ∧
      (∀ n, n ∈ G.receiver ↔ (0 ≤ n ∧ n < g.size) ∧ n ∉ G.interior) ∧
      -- donors
      G.donor.length = G.receiver.length ∧
      (∀ (x : Nat) r, G.receiver[x]? = some r → ∃ d, G.donor[x]? = some d ∧ ∃ i j k,
        r = g.at3 i j k ∧
        (-g.nhalo ≤ i ∧ i < g.ni + g.nhalo) ∧ (-g.nhalo ≤ j ∧ j < g.nj + g.nhalo) ∧
        (-g.nhalo ≤ k ∧ k < g.nk + g.nhalo) ∧
        (∃ i' j' k', d = g.at3 i' j' k' ∧ i' % g.ni = i % g.ni ∧ j' % g.nj = j % g.nj ∧
          k' % g.nk = k % g.nk) ∧
        (g.nhalo ≤ g.ni → g.nhalo ≤ g.nj → g.nhalo ≤ g.nk →
          d = g.at3 (i % g.ni) (j % g.nj) (k % g.nk) ∧ d ∈ G.interior)) := by
  have hg : g.Ok := ⟨hi, hj, hk, hh⟩
  refine ⟨_, mkGeom3_ok hg xbc ybc zbc, rfl, ?_⟩
  have hint : ∀ n, n ∈ g.interiorVals ↔ ∃ i j k, (0 ≤ i ∧ i < g.ni) ∧ (0 ≤ j ∧ j < g.nj) ∧
      (0 ≤ k ∧ k < g.nk) ∧ n = g.at3 i j k := by
    intro n
    rw [Grid3.interiorVals_eq, List.mem_map]
    constructor
    · rintro ⟨c, hc, rfl⟩
      have := Grid3.mem_interior_box.1 hc
      exact ⟨_, _, _, this.1, this.2.1, this.2.2, rfl⟩
    · rintro ⟨i, j, k, h1, h2, h3, rfl⟩
      exact ⟨(i, j, k), Grid3.mem_interior_box.2 ⟨h1, h2, h3⟩, rfl⟩
  have hhalo : ∀ c ∈ g.haloCells, g.at3 c.1 c.2.1 c.2.2 ∉ g.interiorVals := by
    intro c hc h
    obtain ⟨i, j, k, h1, h2, h3, e⟩ := (hint _).1 h
    have hc' := Grid3.mem_haloCells.1 hc
    have h' : g.Int3 i j k := ⟨h1, h2, h3⟩
    obtain ⟨e1, e2, e3⟩ := Grid3.at3_inj hc'.1 (h'.pad hg) e
    exact hc'.2 (by rw [e1, e2, e3]; exact h')
  have hmod : ∀ n i : Int, Grid3.donor1 n i % n = i % n := by
    intro n i; unfold Grid3.donor1; split
    · simp
    · split <;> simp
  refine ⟨?_, Grid3.length_interiorVals hg, hint, ?_, ?_, ?_, ?_⟩
  · rw [Grid3.interiorVals_eq]
    refine (nodup_box3 _ _ _ _ _ _).map_on ?_
    intro c hc c' hc' e
    exact Grid3.loc_inj (a := ()) ((Grid3.mem_interior_box.1 hc).pad hg) ((Grid3.mem_interior_box.1 hc').pad hg)
      (by simp only [Grid3.loc]; rw [e])
  · refine (Grid3.nodup_haloCells g).map_on ?_
    intro c hc c' hc' e
    exact Grid3.loc_inj (a := ()) (Grid3.mem_haloCells.1 hc).1 (Grid3.mem_haloCells.1 hc').1
      (by simp only [Grid3.loc]; rw [e])
  · intro n
    constructor
    · intro h
      obtain ⟨c, hc, rfl⟩ := List.mem_map.1 h
      exact ⟨Grid3.at3_bounds (Grid3.mem_haloCells.1 hc).1, hhalo c hc⟩
    · rintro ⟨⟨h0, h1⟩, hn⟩
      have hp := Grid3.pad_get hg h0 h1
      refine List.mem_map.2 ⟨(g.getI n, g.getJ n, g.getK n), Grid3.mem_haloCells.2 ⟨hp, ?_⟩,
        Grid3.at3_get hg h0⟩
      intro h
      exact hn ((hint n).2 ⟨_, _, _, h.1, h.2.1, h.2.2, (Grid3.at3_get hg h0).symm⟩)
  · simp [Grid3.donorVals, Grid3.receiverVals]
  · intro x r hr
    simp only [Grid3.receiverVals, List.getElem?_map] at hr
    obtain ⟨c, hc, rfl⟩ := Option.map_eq_some_iff.1 hr
    have hm := Grid3.mem_haloCells.1 (List.mem_of_getElem? hc)
    obtain ⟨p1, p2, p3⟩ := hm.1
    refine ⟨g.at3 (Grid3.donor1 g.ni c.1) (Grid3.donor1 g.nj c.2.1) (Grid3.donor1 g.nk c.2.2), ?_,
      c.1, c.2.1, c.2.2, rfl, p1, p2, p3, ⟨_, _, _, rfl, hmod _ _, hmod _ _, hmod _ _⟩, ?_⟩
    · simp only [Grid3.donorVals, List.getElem?_map, hc, Option.map_some]
    · intro h1 h2 h3
      refine ⟨?_, (hint _).2 ⟨_, _, _, donor1_range hi h1 p1.1 p1.2, donor1_range hj h2 p2.1 p2.2,
        donor1_range hk h3 p3.1 p3.2, rfl⟩⟩
      rw [donor1_eq_wrap hi h1 p1.1 p1.2, donor1_eq_wrap hj h2 p2.1 p2.2, donor1_eq_wrap hk h3 p3.1 p3.2]
      rfl

example : (1 : Int) ≤ (Grid3.mk 2 3 4 2).ni ∧ (Grid3.mk 2 3 4 2).nhalo ≤ (Grid3.mk 2 3 4 2).ni := by decide

/-! ### C07 -/

/-- A parallel loop over distinct indices in which iteration `t` loads only from `R t`, stores only to `W t`,
all in bounds, and no iteration stores where another loads or stores.  Every interleaving of single loads and
stores terminates, none faults, and all end in the same memory `m'`, in which each `W t` is as if `t` had run
alone on the initial memory and everything else is unchanged. -/
theorem C07_race_free {T : Type} (sz : A → Int) (ts : List T) (body : T → Prog A K Unit)
    (R W : T → A → Int → Prop) (hnd : ts.Nodup)
    (hfoot : ∀ t ∈ ts, (body t).Foot sz (R t) (W t))
    (hdisj : ∀ t ∈ ts, ∀ t' ∈ ts, t ≠ t' → ∀ a i, W t a i → ¬ R t' a i ∧ ¬ W t' a i) (m : Mem A K) :
    WellFounded (fun c' c : Pool A K × Mem A K => Step sz c c') ∧
    ∃ m', (∀ o, KernelOut sz (ts.map body) m o ↔ o = .ok m') ∧
      (∀ t ∈ ts, ∃ mt, (body t).run sz m = .ok ((), mt) ∧ ∀ a i, W t a i → m' a i = mt a i) ∧
      (∀ a i, (∀ t ∈ ts, ¬ W t a i) → m' a i = m a i) := by
  classical
  refine ⟨step_wf sz, ?_⟩
  let m' : Mem A K := fun a i =>
    if h : ∃ t ∈ ts, W t a i then (body h.choose).exec m a i else m a i
  have hW : ∀ t ∈ ts, ∀ a i, W t a i → m' a i = (body t).exec m a i := by
    intro t ht a i hw
    have h : ∃ t ∈ ts, W t a i := ⟨t, ht, hw⟩
    simp only [m', dif_pos h]
    by_cases e : h.choose = t
    · rw [e]
    · exact absurd hw (hdisj _ h.choose_spec.1 t ht e a i h.choose_spec.2).2
  have hU : ∀ a i, (∀ t ∈ ts, ¬ W t a i) → m' a i = m a i := by
    intro a i h
    simp only [m']
    rw [dif_neg]
    rintro ⟨t, ht, hw⟩
    exact h t ht hw
  refine ⟨m', kernelOut_iff hnd hfoot hdisj hW hU, ?_, hU⟩
  intro t ht
  exact ⟨_, Prog.run_eq_exec (hfoot t ht) m, hW t ht⟩

/-- Non-vacuity: the loop `a[i] = a[i] + b[0]` over `i < 10`. -/
example : ∀ t ∈ List.range 10, (Prog.load true (t : Int) fun x => .load false 0 fun y =>
      .store true (t : Int) (x + y) (.pure ()) : Prog Bool Int Unit).Foot (fun _ => 10)
      (fun a i => a = false ∨ i = t) (fun a i => a = true ∧ i = t) := by
  intro t ht
  have := List.mem_range.1 ht
  have hb : (0 : Int) ≤ t ∧ (t : Int) < 10 := by omega
  exact ⟨hb, .inr rfl, fun _ => ⟨by decide, .inl rfl, fun _ => ⟨hb, ⟨rfl, rfl⟩, trivial⟩⟩⟩

/-! ### C09, C11 -/

/-- Periodic fill: every padded cell ends up as the initial interior value at the wrapped coordinates (so the
interior is unchanged), nothing else changes, under every schedule. -/
theorem C09_periodic_fill3 (g : Grid3) (hi : 1 ≤ g.ni) (hj : 1 ≤ g.nj) (hk : 1 ≤ g.nk) (hh : 0 ≤ g.nhalo)
    (hhi : g.nhalo ≤ g.ni) (hhj : g.nhalo ≤ g.nj) (hhk : g.nhalo ≤ g.nk) (xbc ybc zbc : BCType)
    (G : Geom3) (hG : mkGeom3 g xbc ybc zbc = .ok G) (sz : A → Int) (a : A) (hs : sz a = g.size)
    (m : Mem A K) :
    ∃ m', Det sz (G.applyPeriodic a) m m' ∧
      (∀ i j k, -g.nhalo ≤ i → i < g.ni + g.nhalo → -g.nhalo ≤ j → j < g.nj + g.nhalo →
        -g.nhalo ≤ k → k < g.nk + g.nhalo →
        m' a (g.at3 i j k) = m a (g.at3 (i % g.ni) (j % g.nj) (k % g.nk))) ∧
      (∀ n, ¬ (0 ≤ n ∧ n < g.size) → m' a n = m a n) ∧ (∀ b, b ≠ a → m' b = m b) := by
  obtain ⟨hok, rfl, -, -, -⟩ := Geom3.ok_of_mk ⟨hi, hj, hk, hh⟩ hG
  obtain ⟨m', hd, hf⟩ := periodic_det hok hs hhi hhj hhk m
  exact ⟨m', hd, fun i j k h1 h2 h3 h4 h5 h6 => hf.view i j k ⟨⟨h1, h2⟩, ⟨h3, h4⟩, ⟨h5, h6⟩⟩, hf.out, hf.frame⟩

/-- The interior is unchanged by the fill (consequence of the closed form). -/
theorem C09_interior_unchanged (g : Grid3) (i j k : Int) (hi : 0 ≤ i ∧ i < g.ni) (hj : 0 ≤ j ∧ j < g.nj)
    (hk : 0 ≤ k ∧ k < g.nk) : (i % g.ni, j % g.nj, k % g.nk) = (i, j, k) := by
  rw [Int.emod_eq_of_lt hi.1 hi.2, Int.emod_eq_of_lt hj.1 hj.2, Int.emod_eq_of_lt hk.1 hk.2]

/-- Periodic followed by Neumann fill, any mix of axes: every padded cell, edges and corners included, holds the
initial interior value at the coordinates clamped on Neumann axes and wrapped on the others. -/
theorem C11_mixed_fill (g : Grid3) (hi : 1 ≤ g.ni) (hj : 1 ≤ g.nj) (hk : 1 ≤ g.nk) (hh : 0 ≤ g.nhalo)
    (hhi : g.nhalo ≤ g.ni) (hhj : g.nhalo ≤ g.nj) (hhk : g.nhalo ≤ g.nk) (xbc ybc zbc : BCType)
    (G : Geom3) (hG : mkGeom3 g xbc ybc zbc = .ok G) (sz : A → Int) (a : A) (hs : sz a = g.size)
    (m : Mem A K) :
    ∃ m', Det sz (G.applyPeriodic a ++ G.applyNeumann a) m m' ∧
      (∀ i j k, -g.nhalo ≤ i → i < g.ni + g.nhalo → -g.nhalo ≤ j → j < g.nj + g.nhalo →
        -g.nhalo ≤ k → k < g.nk + g.nhalo →
        m' a (g.at3 i j k) = m a (g.at3 (extIdx xbc g.ni i) (extIdx ybc g.nj j) (extIdx zbc g.nk k))) ∧
      (∀ i j k, (0 ≤ i ∧ i < g.ni) → (0 ≤ j ∧ j < g.nj) → (0 ≤ k ∧ k < g.nk) →
        m' a (g.at3 i j k) = m a (g.at3 i j k)) ∧
      (∀ n, ¬ (0 ≤ n ∧ n < g.size) → m' a n = m a n) ∧ (∀ b, b ≠ a → m' b = m b) := by
  obtain ⟨hok, rfl, rfl, rfl, rfl⟩ := Geom3.ok_of_mk ⟨hi, hj, hk, hh⟩ hG
  obtain ⟨m', hd, hf⟩ := bc_det hok hs hhi hhj hhk m
  refine ⟨m', hd, fun i j k h1 h2 h3 h4 h5 h6 => hf.view i j k ⟨⟨h1, h2⟩, ⟨h3, h4⟩, ⟨h5, h6⟩⟩, ?_, hf.out,
    hf.frame⟩
  intro i j k h1 h2 h3
  have h : G.g.Int3 i j k := ⟨h1, h2, h3⟩
  rw [hf.view i j k (h.pad hok.ok), extIdx_of_int h1.1 h1.2, extIdx_of_int h2.1 h2.2, extIdx_of_int h3.1 h3.2]

/-- Non-vacuity: a 2×3×4 grid with two halo layers and mixed boundaries is constructible. -/
example : ∃ G, mkGeom3 ⟨2, 3, 4, 2⟩ .neumann .periodic .neumann = .ok G ∧ (2 : Int) ≤ 2 :=
  ⟨_, mkGeom3_ok ⟨by decide, by decide, by decide, by decide⟩ _ _ _, le_refl _⟩

/-! ### C12 -/

/-- On every grid with some extent smaller than the halo width the periodic fill has a data race, and two schedules that
end in different array contents, from some initial memory. -/
theorem C12_periodic_fill_needs_extent (g : Grid3) (hi : 1 ≤ g.ni) (hj : 1 ≤ g.nj) (hk : 1 ≤ g.nk)
    (hsmall : g.ni < g.nhalo ∨ g.nj < g.nhalo ∨ g.nk < g.nhalo) (xbc ybc zbc : BCType)
    (G : Geom3) (hG : mkGeom3 g xbc ybc zbc = .ok G) (sz : A → Int) (a : A) (hs : sz a = g.size)
    (x y : K) (hxy : x ≠ y) :
    ∃ m m1 m2 : Mem A K, HostOut sz (G.applyPeriodic a) m (.ok m1) ∧
      HostOut sz (G.applyPeriodic a) m (.ok m2) ∧ m1 a ≠ m2 a ∧ HostOut sz (G.applyPeriodic a) m (.fault .dataRace) := by
  have hh : 0 ≤ g.nhalo := by omega
  obtain ⟨hok, rfl, -, -, -⟩ := Geom3.ok_of_mk ⟨hi, hj, hk, hh⟩ hG
  have hd1 : ∀ n z : Int, 1 ≤ n → -G.g.nhalo ≤ z → z < n + G.g.nhalo →
      -G.g.nhalo ≤ Grid3.donor1 n z ∧ Grid3.donor1 n z < n + G.g.nhalo := by
    intro n z hn h1 h2; unfold Grid3.donor1; split
    · omega
    · split <;> omega
  have hin : ∀ e ∈ G.g.haloCells, G.g.Pad (Grid3.donor1 G.g.ni e.1) (Grid3.donor1 G.g.nj e.2.1)
      (Grid3.donor1 G.g.nk e.2.2) := by
    intro e he
    obtain ⟨⟨p1, p2, p3⟩, -⟩ := Grid3.mem_haloCells.1 he
    exact ⟨hd1 _ _ hi p1.1 p1.2, hd1 _ _ hj p2.1 p2.2, hd1 _ _ hk p3.1 p3.2⟩
  have v0 : ∀ n : Int, 1 ≤ n → Grid3.donor1 n 0 = 0 := fun n hn => donor1_of_int (le_refl _) (by omega)
  have v1 : ∀ n : Int, 1 ≤ n → Grid3.donor1 n (-n - 1) = -1 := by
    intro n hn; unfold Grid3.donor1; rw [if_pos (by omega)]; omega
  have v2 : ∀ n : Int, 1 ≤ n → Grid3.donor1 n (-1) = n - 1 := by
    intro n hn; unfold Grid3.donor1; rw [if_pos (by omega)]; omega
  rcases hsmall with h | h | h
  · refine periodic_race hok hs (c := (-G.g.ni - 1, 0, 0)) (d := (-1, 0, 0)) ?_ ?_ ?_ ?_ ?_ hin x y hxy
    · exact Grid3.mem_haloCells.2 ⟨by unfold Grid3.Pad; simp only; omega,
        by unfold Grid3.Int3; simp only; omega⟩
    · exact Grid3.mem_haloCells.2 ⟨by unfold Grid3.Pad; simp only; omega,
        by unfold Grid3.Int3; simp only; omega⟩
    · simp only [v0 _ hj, v0 _ hk, v1 _ hi]
    · simp only [ne_eq, Prod.mk.injEq]; omega
    · simp only [v0 _ hj, v0 _ hk, v2 _ hi]; unfold Grid3.Int3; omega
  · refine periodic_race hok hs (c := (0, -G.g.nj - 1, 0)) (d := (0, -1, 0)) ?_ ?_ ?_ ?_ ?_ hin x y hxy
    · exact Grid3.mem_haloCells.2 ⟨by unfold Grid3.Pad; simp only; omega,
        by unfold Grid3.Int3; simp only; omega⟩
    · exact Grid3.mem_haloCells.2 ⟨by unfold Grid3.Pad; simp only; omega,
        by unfold Grid3.Int3; simp only; omega⟩
    · simp only [v0 _ hi, v0 _ hk, v1 _ hj]
    · simp only [ne_eq, Prod.mk.injEq]; omega
    · simp only [v0 _ hi, v0 _ hk, v2 _ hj]; unfold Grid3.Int3; omega
  · refine periodic_race hok hs (c := (0, 0, -G.g.nk - 1)) (d := (0, 0, -1)) ?_ ?_ ?_ ?_ ?_ hin x y hxy
    · exact Grid3.mem_haloCells.2 ⟨by unfold Grid3.Pad; simp only; omega,
        by unfold Grid3.Int3; simp only; omega⟩
    · exact Grid3.mem_haloCells.2 ⟨by unfold Grid3.Pad; simp only; omega,
        by unfold Grid3.Int3; simp only; omega⟩
    · simp only [v0 _ hi, v0 _ hj, v1 _ hk]
    · simp only [ne_eq, Prod.mk.injEq]; omega
    · simp only [v0 _ hi, v0 _ hj, v2 _ hk]; unfold Grid3.Int3; omega

example : ∃ G, mkGeom3 ⟨1, 3, 4, 2⟩ .periodic .periodic .periodic = .ok G ∧ (1 : Int) < 2 :=
  ⟨_, mkGeom3_ok ⟨by decide, by decide, by decide, by decide⟩ _ _ _, by decide⟩

end Madg
