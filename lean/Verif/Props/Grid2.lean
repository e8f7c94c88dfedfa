/-
Properties of the two-dimensional discretization (C02, C05, C10, C15, C16).
-/
import Verif.Proofs.CH2

namespace Madg
open Spec
variable {A K : Type} [DecidableEq A]

/-! ### C02 -/

/-- 2D indexing and `getIJ` are mutually inverse bijections between the padded box and `[0, size)`. -/
theorem C02_index2_bijection (g : Grid2) (hi : 1 ≤ g.ni) (hj : 1 ≤ g.nj) (hh : 0 ≤ g.nhalo) :
    (∀ i j, -g.nhalo ≤ i → i < g.ni + g.nhalo → -g.nhalo ≤ j → j < g.nj + g.nhalo →
      0 ≤ g.at2 i j ∧ g.at2 i j < (g.ni + 2 * g.nhalo) * (g.nj + 2 * g.nhalo) ∧
      g.getI (g.at2 i j) = i ∧ g.getJ (g.at2 i j) = j) ∧
    (∀ n, 0 ≤ n → n < (g.ni + 2 * g.nhalo) * (g.nj + 2 * g.nhalo) →
      -g.nhalo ≤ g.getI n ∧ g.getI n < g.ni + g.nhalo ∧ -g.nhalo ≤ g.getJ n ∧ g.getJ n < g.nj + g.nhalo ∧
      g.at2 (g.getI n) (g.getJ n) = n) := by
  refine ⟨?_, ?_⟩
  · intro i j h1 h2 h3 h4
    have hp : g.Pad i j := ⟨⟨h1, h2⟩, ⟨h3, h4⟩⟩
    have hb := Grid2.at2_bounds hp
    exact ⟨hb.1, hb.2, (Grid2.get_at2 hp).1, (Grid2.get_at2 hp).2⟩
  · intro n h0 h1
    have hp := Grid2.pad_get ⟨hi, hj, hh⟩ h0 h1
    exact ⟨hp.1.1.1, hp.1.1.2, hp.1.2.1, hp.1.2.2, hp.2⟩

example : (1 : Int) ≤ (Grid2.mk 4 3 2).ni ∧ (1 : Int) ≤ (Grid2.mk 4 3 2).nj ∧
    (0 : Int) ≤ (Grid2.mk 4 3 2).nhalo := by decide

/-! ### C05 -/

/-- The 2D constructor fills both lists completely and in range; interior list = interior cells once each;
boundary list = all other cells of the padded array once each. -/
theorem C05_index_lists2 (n nhalo : Int) (hn : 1 ≤ n) (hh : 0 ≤ nhalo) :
    ∃ G, mkGeom2 n nhalo = .ok G ∧ G.g = ⟨n, n, nhalo⟩ ∧
      G.interior.Nodup ∧ (G.interior.length : Int) = n * n ∧
      (∀ x, x ∈ G.interior ↔ ∃ i j, (0 ≤ i ∧ i < n) ∧ (0 ≤ j ∧ j < n) ∧ x = G.g.at2 i j) ∧
      G.boundary.Nodup ∧
      (∀ x, x ∈ G.boundary ↔ (0 ≤ x ∧ x < (n + 2 * nhalo) * (n + 2 * nhalo)) ∧ x ∉ G.interior) := by
  obtain ⟨G, hG, hok, hg⟩ := mkGeom2_ok hn hh
  have hgok := hok.ok
  have hni : G.g.ni = n := by rw [hg]
  have hnj : G.g.nj = n := by rw [hg]
  have hnh : G.g.nhalo = nhalo := by rw [hg]
  have hsize : G.g.size = (n + 2 * nhalo) * (n + 2 * nhalo) := by rw [hg]; rfl
  have hint : ∀ x, x ∈ G.interior ↔ ∃ i j, (0 ≤ i ∧ i < n) ∧ (0 ≤ j ∧ j < n) ∧ x = G.g.at2 i j := by
    intro x
    rw [hok.int, List.mem_map]
    constructor
    · rintro ⟨c, hc, rfl⟩
      rw [mem_box2, hni] at hc
      exact ⟨_, _, hc.1, hc.2, rfl⟩
    · rintro ⟨i, j, h1, h2, rfl⟩
      exact ⟨(i, j), mem_box2.2 ⟨by omega, by omega⟩, rfl⟩
  have hbp : ∀ c ∈ G.g.boundaryCells, G.g.Pad c.1 c.2 ∧ ¬ G.g.Int2 c.1 c.2 := by
    intro c hc
    have := (Grid2.mem_boundaryCells (by omega) (by omega)).1 hc
    unfold Grid2.Pad Grid2.Int2
    rw [hnj]; rw [hni] at *; exact this
  refine ⟨G, hG, hg, ?_, ?_, hint, ?_, ?_⟩
  · rw [hok.int]
    refine (nodup_box2 _ _ _ _).map_on ?_
    intro c hc c' hc' e
    rw [mem_box2] at hc hc'
    have h1 : G.g.Int2 c.1 c.2 := ⟨hc.1, by omega⟩
    have h2 : G.g.Int2 c'.1 c'.2 := ⟨hc'.1, by omega⟩
    obtain ⟨e1, e2⟩ := Grid2.at2_inj (h1.pad hgok) (h2.pad hgok) e
    exact Prod.ext e1 e2
  · rw [hok.int, List.length_map, length_box2, hni]
    push_cast
    rw [Int.toNat_of_nonneg (by omega)]; ring
  · rw [hok.bdry]
    refine (Grid2.nodup_boundaryCells (by omega) (by omega)).map_on ?_
    intro c hc c' hc' e
    obtain ⟨e1, e2⟩ := Grid2.at2_inj (hbp c hc).1 (hbp c' hc').1 e
    exact Prod.ext e1 e2
  · intro x
    rw [hok.bdry, List.mem_map, ← hsize]
    constructor
    · rintro ⟨c, hc, rfl⟩
      refine ⟨Grid2.at2_bounds (hbp c hc).1, fun h => ?_⟩
      obtain ⟨i, j, h1, h2, e⟩ := (hint _).1 h
      have h' : G.g.Int2 i j := ⟨by omega, by omega⟩
      obtain ⟨e1, e2⟩ := Grid2.at2_inj (hbp c hc).1 (h'.pad hgok) e
      exact (hbp c hc).2 (by rw [e1, e2]; exact h')
    · rintro ⟨⟨h0, h1⟩, hx⟩
      obtain ⟨hp, he⟩ := Grid2.pad_get hgok h0 h1
      refine ⟨(G.g.getI x, G.g.getJ x), (Grid2.mem_boundaryCells (by omega) (by omega)).2 ?_, he⟩
      unfold Grid2.Pad at hp
      refine ⟨by rw [hni, hnh]; rw [hni, hnj, hnh] at hp; exact hp, fun h => hx ((hint x).2 ?_)⟩
      rw [hni] at h
      exact ⟨_, _, h.1, h.2, he.symm⟩

example : (1 : Int) ≤ 4 ∧ (0 : Int) ≤ 2 := by decide

/-! ### C10 -/

/-- 2D periodic fill: every padded cell, all four corner blocks included, holds the initial interior value at the
coordinates modulo `n`, under every schedule, whatever the halo held before. -/
theorem C10_periodic_fill2 (n nhalo : Int) (hn : 1 ≤ n) (hh : 0 ≤ nhalo) (hle : nhalo ≤ n)
    (G : Geom2) (hG : mkGeom2 n nhalo = .ok G) (sz : A → Int) (a : A)
    (hs : sz a = (n + 2 * nhalo) * (n + 2 * nhalo)) (m : Mem A K) :
    ∃ m', Det sz (G.applyPeriodic a) m m' ∧
      (∀ i j, -nhalo ≤ i → i < n + nhalo → -nhalo ≤ j → j < n + nhalo →
        m' a (G.g.at2 i j) = m a (G.g.at2 (i % n) (j % n))) ∧
      (∀ i j, (0 ≤ i ∧ i < n) → (0 ≤ j ∧ j < n) → m' a (G.g.at2 i j) = m a (G.g.at2 i j)) ∧
      (∀ x, ¬ (0 ≤ x ∧ x < sz a) → m' a x = m a x) ∧ (∀ b, b ≠ a → m' b = m b) := by
  obtain ⟨hok, hg⟩ := Geom2.ok_of_mk hn hh hG
  have hni : G.g.ni = n := by rw [hg]
  have hnj : G.g.nj = n := by rw [hg]
  have hnh : G.g.nhalo = nhalo := by rw [hg]
  have hs' : sz a = G.g.size := by rw [hs, hg]; rfl
  obtain ⟨m', d, v, o, f⟩ := periodic2_det (K := K) hok (by omega) hs' m
  have hv : ∀ i j, -nhalo ≤ i → i < n + nhalo → -nhalo ≤ j → j < n + nhalo →
        m' a (G.g.at2 i j) = m a (G.g.at2 (i % n) (j % n)) := by
    intro i j h1 h2 h3 h4
    have := v i j ⟨by omega, by omega⟩
    rw [hni] at this; exact this
  refine ⟨m', d, hv, ?_, by rw [hs']; exact o, f⟩
  intro i j h1 h2
  rw [hv i j (by omega) (by omega) (by omega) (by omega), Int.emod_eq_of_lt h1.1 h1.2,
    Int.emod_eq_of_lt h2.1 h2.2]

example : ∃ G, mkGeom2 2 2 = .ok G ∧ (2 : Int) ≤ 2 :=
  let ⟨G, h, _⟩ := mkGeom2_ok (n := 2) (nhalo := 2) (by decide) (by decide)
  ⟨G, h, le_refl _⟩

variable [Field K]

/-! ### C15 -/

/-- The 2D right-hand side: closed form in the interior on the periodic extension, zero halo of the result, state
interior unchanged, only the six named arrays touched, under every schedule and for arbitrary initial halo and
scratch contents. -/
theorem C15_rhs2 (n : Int) (hn : 2 ≤ n) (G : Geom2) (hG : mkGeom2 n 2 = .ok G)
    (w : CHArr A) (hw : [w.c, w.r, w.lapRhs, w.lapArg, w.bihar, w.lin].Nodup)
    (sz : A → Int)
    (hsz : ∀ a ∈ [w.c, w.r, w.lapRhs, w.lapArg, w.bihar, w.lin], sz a = (n + 2 * 2) * (n + 2 * 2))
    (p : CHParams K) (dx : K) (m : Mem A K) :
    ∃ m', Det sz (G.evalRHS p dx w) m m' ∧
      (∀ u : Int → Int → K, (u = fun x y => m w.c (G.g.at2 (x % n) (y % n))) →
        ∀ i j, (0 ≤ i ∧ i < n) → (0 ≤ j ∧ j < n) →
          m' w.r (G.g.at2 i j) =
            -p.eps2 * lap2 dx (lap2 dx u) i j + lap2 dx (fun x y => u x y ^ 3 - u x y) i j
              - p.sigma * (u i j - p.m)) ∧
      (∀ i j, (-2 ≤ i ∧ i < n + 2) → (-2 ≤ j ∧ j < n + 2) → ¬ ((0 ≤ i ∧ i < n) ∧ (0 ≤ j ∧ j < n)) →
        m' w.r (G.g.at2 i j) = 0) ∧
      (∀ i j, (0 ≤ i ∧ i < n) → (0 ≤ j ∧ j < n) → m' w.c (G.g.at2 i j) = m w.c (G.g.at2 i j)) ∧
      (∀ b, b ∉ [w.c, w.r, w.lapRhs, w.lapArg, w.bihar, w.lin] → m' b = m b) := by
  obtain ⟨hok, hg⟩ := Geom2.ok_of_mk (by omega) (by omega) hG
  have hni : G.g.ni = n := by rw [hg]
  have hnj : G.g.nj = n := by rw [hg]
  have hnh : G.g.nhalo = 2 := by rw [hg]
  have hsize : G.g.size = (n + 2 * 2) * (n + 2 * 2) := by rw [hg]; rfl
  obtain ⟨m', d, r, s, so, z, ro, f⟩ := evalRHS2_det (K := K) hok hw (by rw [hsize]; exact hsz) (by omega)
    (by omega) p dx m
  refine ⟨m', d, ?_, ?_, ?_, f⟩
  · rintro u rfl i j h1 h2
    have := r i j ⟨by omega, by omega⟩
    rw [hni] at this
    exact this
  · intro i j h1 h2 h3
    have hp : G.g.Pad i j := ⟨by omega, by omega⟩
    have hb := Grid2.at2_bounds hp
    refine z _ hb.1 hb.2 fun i' j' h' e => ?_
    obtain ⟨rfl, rfl⟩ := Grid2.at2_inj (h'.pad hok.ok) hp e
    apply h3
    unfold Grid2.Int2 at h'
    omega
  · intro i j h1 h2
    have := s i j ⟨by omega, by omega⟩
    rw [this, wrapIdx_of_int (by omega) (by omega), wrapIdx_of_int (by omega) (by omega)]

example : ∃ (G : Geom2) (w : CHArr Nat) (sz : Nat → Int), mkGeom2 3 2 = .ok G ∧
    [w.c, w.r, w.lapRhs, w.lapArg, w.bihar, w.lin].Nodup ∧
    ∀ a ∈ [w.c, w.r, w.lapRhs, w.lapArg, w.bihar, w.lin], sz a = ((3 : Int) + 2 * 2) * (3 + 2 * 2) :=
  let ⟨G, h, _⟩ := mkGeom2_ok (n := 3) (nhalo := 2) (by decide) (by decide)
  ⟨G, ⟨0, 1, 2, 3, 4, 5⟩, fun _ => 49, h, by decide, fun _ _ => rfl⟩

/-! ### C16 (two dimensions) -/

/-- The 2D biharmonic kernel computes the five-point Laplacian applied twice to the padded array. -/
theorem C16_biharmonic2_is_lap_lap (n nhalo : Int) (hn : 1 ≤ n) (hh : 2 ≤ nhalo) (G : Geom2)
    (hG : mkGeom2 n nhalo = .ok G) (sz : A → Int) (f d : A) (hne : f ≠ d)
    (hs : sz f = (n + 2 * nhalo) * (n + 2 * nhalo)) (hd : sz d = (n + 2 * nhalo) * (n + 2 * nhalo))
    (dx : K) (m : Mem A K) :
    ∃ m', Det sz (G.biharmonic dx f d) m m' ∧
      (∀ i j, (0 ≤ i ∧ i < n) → (0 ≤ j ∧ j < n) →
        m' d (G.g.at2 i j) = lap2 dx (lap2 dx fun x y => m f (G.g.at2 x y)) i j) ∧
      (∀ b, b ≠ d → m' b = m b) := by
  obtain ⟨hok, hg⟩ := Geom2.ok_of_mk (by omega) (by omega) hG
  have hni : G.g.ni = n := by rw [hg]
  have hnj : G.g.nj = n := by rw [hg]
  have hnh : G.g.nhalo = nhalo := by rw [hg]
  have hsize : G.g.size = (n + 2 * nhalo) * (n + 2 * nhalo) := by rw [hg]; rfl
  obtain ⟨m', d, w⟩ := biharmonic2_det (sz := sz) hok hne (by rw [hsize]; exact hs) (by rw [hsize]; exact hd) (by omega) dx m
  exact ⟨m', d, fun i j h1 h2 => w.view i j ⟨by omega, by omega⟩, w.frame⟩

/-- The 2D Laplacian kernel computes the five-point Laplacian of the padded array. -/
theorem C16_laplacian2 (n nhalo : Int) (hn : 1 ≤ n) (hh : 1 ≤ nhalo) (G : Geom2)
    (hG : mkGeom2 n nhalo = .ok G) (sz : A → Int) (f d : A) (hne : f ≠ d)
    (hs : sz f = (n + 2 * nhalo) * (n + 2 * nhalo)) (hd : sz d = (n + 2 * nhalo) * (n + 2 * nhalo))
    (dx : K) (m : Mem A K) :
    ∃ m', Det sz (G.laplacian dx f d) m m' ∧
      (∀ i j, (0 ≤ i ∧ i < n) → (0 ≤ j ∧ j < n) →
        m' d (G.g.at2 i j) = lap2 dx (fun x y => m f (G.g.at2 x y)) i j) ∧
      (∀ b, b ≠ d → m' b = m b) := by
  obtain ⟨hok, hg⟩ := Geom2.ok_of_mk (by omega) (by omega) hG
  have hni : G.g.ni = n := by rw [hg]
  have hnj : G.g.nj = n := by rw [hg]
  have hnh : G.g.nhalo = nhalo := by rw [hg]
  have hsize : G.g.size = (n + 2 * nhalo) * (n + 2 * nhalo) := by rw [hg]; rfl
  obtain ⟨m', d, w⟩ := laplacian2_det (sz := sz) hok hne (by rw [hsize]; exact hs) (by rw [hsize]; exact hd) (by omega) dx m
  exact ⟨m', d, fun i j h1 h2 => w.view i j ⟨by omega, by omega⟩, w.frame⟩

example : ∃ G, mkGeom2 1 2 = .ok G :=
  let ⟨G, h, _⟩ := mkGeom2_ok (n := 1) (nhalo := 2) (by decide) (by decide); ⟨G, h⟩

end Madg
