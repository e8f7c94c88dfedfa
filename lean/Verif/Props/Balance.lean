/-
Conservation, symmetry and dissipation properties of the evaluated operators (C16–C22).
-/
import Verif.Props.CH
import Verif.Props.Grid
import Verif.Props.Grid2
import Verif.Proofs.Symm

namespace Madg
open Spec Finset
variable {A : Type} [DecidableEq A]

/-! ### C16, C17: operators on boundary-extended fields -/

section
variable {K : Type} [Field K] (g : Grid3) (hn : 2 ≤ g.ni ∧ 2 ≤ g.nj ∧ 2 ≤ g.nk) (hh : g.nhalo = 2)
  (xbc ybc zbc : BCType) (G : Geom3) (hG : mkGeom3 g xbc ybc zbc = .ok G)
  (sz : A → Int) (c d : A) (hcd : c ≠ d) (hc : sz c = g.size) (hd : sz d = g.size) (dx : K)
include hn hh hG hcd hc hd

/-- Boundary fill followed by the Laplacian kernel computes the Laplacian of the extended field. -/
theorem C17_filled_laplacian (m : Mem A K) :
    ∃ m', Det sz (G.applyPeriodic c ++ G.applyNeumann c ++ G.laplacian dx c d) m m' ∧
      ∀ i j k, (0 ≤ i ∧ i < g.ni) → (0 ≤ j ∧ j < g.nj) → (0 ≤ k ∧ k < g.nk) →
        m' d (g.at3 i j k) =
          lap3 dx (ext3 xbc ybc zbc g.ni g.nj g.nk fun x y z => m c (g.at3 x y z)) i j k := by
  obtain ⟨m1, d1, v1, -, -, -⟩ := C11_mixed_fill (K := K) g (by omega) (by omega) (by omega) (by omega)
    (by omega) (by omega) (by omega) xbc ybc zbc G hG sz c hc m
  obtain ⟨m2, d2, v2, -⟩ := C16_laplacian3 g (by omega) (by omega) (by omega) (by omega) xbc ybc zbc G hG sz c d
    hcd hc hd dx m1
  refine ⟨m2, det_append d1 d2, fun i j k hi hj hk => ?_⟩
  rw [v2 i j k hi hj hk]
  refine lap3_congr fun x y z hx hy hz => ?_
  exact v1 _ _ _ (by omega) (by omega) (by omega) (by omega) (by omega) (by omega)

/-- Conservation: the computed Laplacian sums to zero over the interior, for any mix of boundary types. -/
theorem C17_laplacian_sums_to_zero (m : Mem A K) :
    ∃ m', Det sz (G.applyPeriodic c ++ G.applyNeumann c ++ G.laplacian dx c d) m m' ∧
      sum3 g.ni g.nj g.nk (fun i j k => m' d (g.at3 i j k)) = 0 := by
  obtain ⟨m', hd', hv⟩ := C17_filled_laplacian g hn hh xbc ybc zbc G hG sz c d hcd hc hd dx m
  refine ⟨m', hd', ?_⟩
  rw [sum3_congr hv]
  exact lap3_sum_zero dx (by omega) (by omega) (by omega) xbc ybc zbc _

/-- Symmetry: for two states `m₁`, `m₂`, `⟨c₁, Lap c₂⟩ = ⟨Lap c₁, c₂⟩`. -/
theorem C17_laplacian_symmetric (m₁ m₂ : Mem A K) :
    ∃ m₁' m₂', Det sz (G.applyPeriodic c ++ G.applyNeumann c ++ G.laplacian dx c d) m₁ m₁' ∧
      Det sz (G.applyPeriodic c ++ G.applyNeumann c ++ G.laplacian dx c d) m₂ m₂' ∧
      sum3 g.ni g.nj g.nk (fun i j k => m₁ c (g.at3 i j k) * m₂' d (g.at3 i j k)) =
      sum3 g.ni g.nj g.nk (fun i j k => m₁' d (g.at3 i j k) * m₂ c (g.at3 i j k)) := by
  obtain ⟨m₁', d₁, v₁⟩ := C17_filled_laplacian g hn hh xbc ybc zbc G hG sz c d hcd hc hd dx m₁
  obtain ⟨m₂', d₂, v₂⟩ := C17_filled_laplacian g hn hh xbc ybc zbc G hG sz c d hcd hc hd dx m₂
  refine ⟨m₁', m₂', d₁, d₂, ?_⟩
  have h := lap3_symm dx (ni := g.ni) (nj := g.nj) (nk := g.nk) (by omega) (by omega) (by omega) xbc ybc zbc
    (fun x y z => m₁ c (g.at3 x y z)) (fun x y z => m₂ c (g.at3 x y z))
  refine Eq.trans (sum3_congr fun i j k hi hj hk => ?_) (h.trans (sum3_congr fun i j k hi hj hk => ?_))
  · rw [v₂ i j k hi hj hk, ext3_of_int _ hi hj hk]
  · rw [v₁ i j k hi hj hk, ext3_of_int _ hi hj hk]

end

section
variable {K : Type} [Field K] [LinearOrder K] [IsStrictOrderedRing K] (g : Grid3)
  (hn : 2 ≤ g.ni ∧ 2 ≤ g.nj ∧ 2 ≤ g.nk) (hh : g.nhalo = 2)
  (xbc ybc zbc : BCType) (G : Geom3) (hG : mkGeom3 g xbc ybc zbc = .ok G)
  (sz : A → Int) (c d : A) (hcd : c ≠ d) (hc : sz c = g.size) (hd : sz d = g.size) (dx : K)
include hn hh hG hcd hc hd

/-- Negative semidefiniteness: `⟨c, Lap c⟩ ≤ 0`. -/
theorem C17_laplacian_nonpositive (m : Mem A K) :
    ∃ m', Det sz (G.applyPeriodic c ++ G.applyNeumann c ++ G.laplacian dx c d) m m' ∧
      sum3 g.ni g.nj g.nk (fun i j k => m c (g.at3 i j k) * m' d (g.at3 i j k)) ≤ 0 := by
  obtain ⟨m', d', v'⟩ := C17_filled_laplacian g hn hh xbc ybc zbc G hG sz c d hcd hc hd dx m
  refine ⟨m', d', ?_⟩
  have h := green3 dx (ni := g.ni) (nj := g.nj) (nk := g.nk) (by omega) (by omega) (by omega) xbc ybc zbc
    (fun x y z => m c (g.at3 x y z)) (fun x y z => m c (g.at3 x y z))
  have e : sum3 g.ni g.nj g.nk (fun i j k => m c (g.at3 i j k) * m' d (g.at3 i j k)) = _ :=
    (sum3_congr fun i j k hi hj hk => by rw [v' i j k hi hj hk, ext3_of_int _ hi hj hk]).trans h
  rw [e, neg_nonpos]
  refine div_nonneg ?_ (by positivity)
  unfold grad3 sum3
  refine sum_nonneg fun i _ => sum_nonneg fun j _ => sum_nonneg fun k _ => ?_
  exact add_nonneg (add_nonneg (mul_self_nonneg _) (mul_self_nonneg _)) (mul_self_nonneg _)

/-- On periodic grids the biharmonic kernel (after the fill) is symmetric and positive semidefinite. -/
theorem C16_biharmonic_symmetric_psd (hx : xbc = .periodic) (hy : ybc = .periodic) (hz : zbc = .periodic)
    (m₁ m₂ : Mem A K) :
    ∃ m₁' m₂', Det sz (G.applyPeriodic c ++ G.biharmonic dx c d) m₁ m₁' ∧
      Det sz (G.applyPeriodic c ++ G.biharmonic dx c d) m₂ m₂' ∧
      sum3 g.ni g.nj g.nk (fun i j k => m₁ c (g.at3 i j k) * m₂' d (g.at3 i j k)) =
      sum3 g.ni g.nj g.nk (fun i j k => m₁' d (g.at3 i j k) * m₂ c (g.at3 i j k)) ∧
      0 ≤ sum3 g.ni g.nj g.nk (fun i j k => m₁ c (g.at3 i j k) * m₁' d (g.at3 i j k)) := by
  subst hx; subst hy; subst hz
  have key : ∀ m : Mem A K, ∃ m', Det sz (G.applyPeriodic c ++ G.biharmonic dx c d) m m' ∧
      ∀ i j k, (0 ≤ i ∧ i < g.ni) → (0 ≤ j ∧ j < g.nj) → (0 ≤ k ∧ k < g.nk) →
        m' d (g.at3 i j k) = bih3 dx (ext3 .periodic .periodic .periodic g.ni g.nj g.nk
          fun x y z => m c (g.at3 x y z)) i j k := by
    intro m
    obtain ⟨m1, d1, v1, -, -⟩ := C09_periodic_fill3 (K := K) g (by omega) (by omega) (by omega) (by omega)
      (by omega) (by omega) (by omega) _ _ _ G hG sz c hc m
    obtain ⟨m2, d2, v2, -⟩ := C16_biharmonic3_is_lap_lap g (by omega) (by omega) (by omega) (by omega) _ _ _ G hG
      sz c d hcd hc hd dx m1
    refine ⟨m2, det_append d1 d2, fun i j k hi hj hk => ?_⟩
    rw [v2 i j k hi hj hk]
    refine bih3_congr fun x y z hx hy hz => ?_
    exact v1 _ _ _ (by omega) (by omega) (by omega) (by omega) (by omega) (by omega)
  obtain ⟨m₁', d₁, v₁⟩ := key m₁
  obtain ⟨m₂', d₂, v₂⟩ := key m₂
  have hgr := fun v u : Int → Int → Int → K => bih3_green dx (ni := g.ni) (nj := g.nj) (nk := g.nk) (by omega)
    (by omega) (by omega) .periodic .periodic .periodic (by decide) (by decide) (by decide) v u
  refine ⟨m₁', m₂', d₁, d₂, ?_, ?_⟩
  · have e2 : sum3 g.ni g.nj g.nk (fun i j k => m₁ c (g.at3 i j k) * m₂' d (g.at3 i j k)) = _ :=
      (sum3_congr fun i j k hi hj hk => by rw [v₂ i j k hi hj hk, ext3_of_int _ hi hj hk]).trans
        (hgr (fun x y z => m₁ c (g.at3 x y z)) fun x y z => m₂ c (g.at3 x y z))
    have e1 : sum3 g.ni g.nj g.nk (fun i j k => m₁' d (g.at3 i j k) * m₂ c (g.at3 i j k)) = _ :=
      (sum3_congr fun i j k hi hj hk => by
        rw [v₁ i j k hi hj hk, ext3_of_int _ hi hj hk, mul_comm]).trans
        (hgr (fun x y z => m₂ c (g.at3 x y z)) fun x y z => m₁ c (g.at3 x y z))
    rw [e1, e2]
    exact sum3_congr fun i j k _ _ _ => mul_comm _ _
  · have e : sum3 g.ni g.nj g.nk (fun i j k => m₁ c (g.at3 i j k) * m₁' d (g.at3 i j k)) = _ :=
      (sum3_congr fun i j k hi hj hk => by rw [v₁ i j k hi hj hk, ext3_of_int _ hi hj hk]).trans
        (hgr (fun x y z => m₁ c (g.at3 x y z)) fun x y z => m₁ c (g.at3 x y z))
    rw [e]
    unfold sum3
    exact sum_nonneg fun i _ => sum_nonneg fun j _ => sum_nonneg fun k _ => mul_self_nonneg _

end

/-- Non-vacuity for this section: a Neumann/periodic 3×2×4 grid with two arrays. -/
example : ∃ (G : Geom3) (sz : Bool → Int), mkGeom3 ⟨3, 2, 4, 2⟩ .neumann .periodic .neumann = .ok G ∧
    true ≠ false ∧ ∀ a, sz a = (Grid3.mk 3 2 4 2).size :=
  ⟨_, fun _ => (Grid3.mk 3 2 4 2).size, mkGeom3_ok ⟨by decide, by decide, by decide, by decide⟩ _ _ _,
    by decide, fun _ => rfl⟩

/-! ### C18–C22: the right-hand side -/

section
variable {K : Type} [Field K] (g : Grid3) (hn : 2 ≤ g.ni ∧ 2 ≤ g.nj ∧ 2 ≤ g.nk) (hh : g.nhalo = 2)
  (xbc ybc zbc : BCType) (G : Geom3) (hG : mkGeom3 g xbc ybc zbc = .ok G)
  (v : Int) (hv : v = 0 ∨ v = 1 ∨ v = 2)
  (w : CHArr A) (hw : [w.c, w.r, w.lapRhs, w.lapArg, w.bihar, w.lin].Nodup)
  (sz : A → Int) (hsz : ∀ a ∈ [w.c, w.r, w.lapRhs, w.lapArg, w.bihar, w.lin], sz a = g.size)
  (p : CHParams K) (dx : K)
include hn hh hG hv hw hsz

/-- Mass balance on periodic grids: `∑ RHS = -σ ∑ (c - m)`. -/
theorem C18_mass_balance3 (hx : xbc = .periodic) (hy : ybc = .periodic) (hz : zbc = .periodic) (m : Mem A K) :
    ∃ m', Det sz (G.evalRHS v p dx w) m m' ∧
      sum3 g.ni g.nj g.nk (fun i j k => m' w.r (g.at3 i j k)) =
        -p.sigma * sum3 g.ni g.nj g.nk (fun i j k => m w.c (g.at3 i j k) - p.m) := by
  obtain ⟨m', hd, hr, -⟩ := C13_rhs3 g hn hh xbc ybc zbc G hG v hv w hw sz hsz p dx m
  refine ⟨m', hd, ?_⟩
  rw [sum3_congr fun i j k hi hj hk => (hr i j k hi hj hk).1 _ rfl]
  refine (chRhs3_sum p dx (ni := g.ni) (nj := g.nj) (nk := g.nk) (by omega) (by omega) (by omega) xbc ybc zbc
    fun x y z => m w.c (g.at3 x y z)).trans ?_
  subst hx; subst hy; subst hz
  rw [bih3_sum_zero dx (by omega) (by omega) (by omega) _ _ _ (by decide) (by decide) (by decide), mul_zero,
    zero_sub, neg_mul]
  congr 2
  exact sum3_congr fun i j k hi hj hk => by rw [ext3_of_int _ hi hj hk]

/-- In particular the sum vanishes when the mean of the state is `m` (or `σ = 0`). -/
theorem C18_no_drift_at_mean3 (hx : xbc = .periodic) (hy : ybc = .periodic) (hz : zbc = .periodic) (m : Mem A K)
    (hm : p.sigma = 0 ∨ sum3 g.ni g.nj g.nk (fun i j k => m w.c (g.at3 i j k)) =
      ((g.ni * g.nj * g.nk : Int) : K) * p.m) :
    ∃ m', Det sz (G.evalRHS v p dx w) m m' ∧
      sum3 g.ni g.nj g.nk (fun i j k => m' w.r (g.at3 i j k)) = 0 := by
  obtain ⟨m', hd, hs⟩ := C18_mass_balance3 g hn hh xbc ybc zbc G hG v hv w hw sz hsz p dx hx hy hz m
  refine ⟨m', hd, hs.trans ?_⟩
  rcases hm with h | h
  · rw [h]; simp
  · rw [sum3_sub, h, sum3_const _ _ _ (by omega) (by omega) (by omega), sub_self, mul_zero]

/-- Exact sum of the right-hand side for any mix of boundary types: each Neumann axis adds
`-ε²/dx⁴` times `(c(n-1) - c(n-2)) - (c(1) - c(0))` summed over the face. -/
theorem C19_mass_drift (m : Mem A K) :
    ∃ m', Det sz (G.evalRHS v p dx w) m m' ∧
      sum3 g.ni g.nj g.nk (fun i j k => m' w.r (g.at3 i j k)) =
        -p.eps2 / dx ^ 4 * (
          (if xbc = .neumann then ∑ j ∈ Ico 0 g.nj, ∑ k ∈ Ico 0 g.nk,
            ((m w.c (g.at3 (g.ni - 1) j k) - m w.c (g.at3 (g.ni - 2) j k)) -
              (m w.c (g.at3 1 j k) - m w.c (g.at3 0 j k))) else 0) +
          (if ybc = .neumann then ∑ i ∈ Ico 0 g.ni, ∑ k ∈ Ico 0 g.nk,
            ((m w.c (g.at3 i (g.nj - 1) k) - m w.c (g.at3 i (g.nj - 2) k)) -
              (m w.c (g.at3 i 1 k) - m w.c (g.at3 i 0 k))) else 0) +
          (if zbc = .neumann then ∑ i ∈ Ico 0 g.ni, ∑ j ∈ Ico 0 g.nj,
            ((m w.c (g.at3 i j (g.nk - 1)) - m w.c (g.at3 i j (g.nk - 2))) -
              (m w.c (g.at3 i j 1) - m w.c (g.at3 i j 0))) else 0)) -
        p.sigma * sum3 g.ni g.nj g.nk (fun i j k => m w.c (g.at3 i j k) - p.m) := by
  obtain ⟨m', hd, hr, -⟩ := C13_rhs3 g hn hh xbc ybc zbc G hG v hv w hw sz hsz p dx m
  refine ⟨m', hd, ?_⟩
  rw [sum3_congr fun i j k hi hj hk => (hr i j k hi hj hk).1 _ rfl]
  refine (chRhs3_sum p dx (ni := g.ni) (nj := g.nj) (nk := g.nk) (by omega) (by omega) (by omega) xbc ybc zbc
    fun x y z => m w.c (g.at3 x y z)).trans ?_
  rw [bih3_sum dx (by omega) (by omega) (by omega)]
  have hE : ∀ i j k, (0 ≤ i ∧ i < g.ni) → (0 ≤ j ∧ j < g.nj) → (0 ≤ k ∧ k < g.nk) →
      ext3 xbc ybc zbc g.ni g.nj g.nk (fun x y z => m w.c (g.at3 x y z)) i j k = m w.c (g.at3 i j k) :=
    fun i j k hi hj hk => ext3_of_int _ hi hj hk
  have e1 : (∑ j ∈ Ico 0 g.nj, ∑ k ∈ Ico 0 g.nk, axisDrift xbc g.ni fun i =>
      ext3 xbc ybc zbc g.ni g.nj g.nk (fun x y z => m w.c (g.at3 x y z)) i j k) =
      (if xbc = .neumann then ∑ j ∈ Ico 0 g.nj, ∑ k ∈ Ico 0 g.nk,
            ((m w.c (g.at3 (g.ni - 1) j k) - m w.c (g.at3 (g.ni - 2) j k)) -
              (m w.c (g.at3 1 j k) - m w.c (g.at3 0 j k))) else 0) := by
    unfold axisDrift
    split
    · refine sum_congr rfl fun j hj => sum_congr rfl fun k hk => ?_
      rw [mem_Ico] at hj hk
      beta_reduce
      rw [hE (g.ni - 1) j k (by omega) hj hk, hE (g.ni - 2) j k (by omega) hj hk, hE 1 j k (by omega) hj hk,
        hE 0 j k (by omega) hj hk]
    · simp
  have e2 : (∑ i ∈ Ico 0 g.ni, ∑ k ∈ Ico 0 g.nk, axisDrift ybc g.nj fun j =>
      ext3 xbc ybc zbc g.ni g.nj g.nk (fun x y z => m w.c (g.at3 x y z)) i j k) =
      (if ybc = .neumann then ∑ i ∈ Ico 0 g.ni, ∑ k ∈ Ico 0 g.nk,
            ((m w.c (g.at3 i (g.nj - 1) k) - m w.c (g.at3 i (g.nj - 2) k)) -
              (m w.c (g.at3 i 1 k) - m w.c (g.at3 i 0 k))) else 0) := by
    unfold axisDrift
    split
    · refine sum_congr rfl fun i hi => sum_congr rfl fun k hk => ?_
      rw [mem_Ico] at hi hk
      beta_reduce
      rw [hE i (g.nj - 1) k hi (by omega) hk, hE i (g.nj - 2) k hi (by omega) hk, hE i 1 k hi (by omega) hk,
        hE i 0 k hi (by omega) hk]
    · simp
  have e3 : (∑ i ∈ Ico 0 g.ni, ∑ j ∈ Ico 0 g.nj, axisDrift zbc g.nk fun k =>
      ext3 xbc ybc zbc g.ni g.nj g.nk (fun x y z => m w.c (g.at3 x y z)) i j k) =
      (if zbc = .neumann then ∑ i ∈ Ico 0 g.ni, ∑ j ∈ Ico 0 g.nj,
            ((m w.c (g.at3 i j (g.nk - 1)) - m w.c (g.at3 i j (g.nk - 2))) -
              (m w.c (g.at3 i j 1) - m w.c (g.at3 i j 0))) else 0) := by
    unfold axisDrift
    split
    · refine sum_congr rfl fun i hi => sum_congr rfl fun j hj => ?_
      rw [mem_Ico] at hi hj
      beta_reduce
      rw [hE i j (g.nk - 1) hi hj (by omega), hE i j (g.nk - 2) hi hj (by omega), hE i j 1 hi hj (by omega),
        hE i j 0 hi hj (by omega)]
    · simp
  rw [e1, e2, e3]
  have e4 : sum3 g.ni g.nj g.nk (fun i j k => ext3 xbc ybc zbc g.ni g.nj g.nk
      (fun x y z => m w.c (g.at3 x y z)) i j k - p.m) =
      sum3 g.ni g.nj g.nk (fun i j k => m w.c (g.at3 i j k) - p.m) :=
    sum3_congr fun i j k hi hj hk => by rw [ext3_of_int _ hi hj hk]
  rw [e4]
  ring

/-- Conservation with a Neumann x-axis (others periodic) and `σ = 0` is false: whenever `ε² ≠ 0`, `dx ≠ 0`, at
least three cells in x, and characteristic zero, some state has a right-hand side with non-zero sum. -/
theorem C19_neumann_not_conservative [CharZero K] (hx : xbc = .neumann) (hy : ybc = .periodic)
    (hz : zbc = .periodic) (h3 : 3 ≤ g.ni) (hs : p.sigma = 0) (he : p.eps2 ≠ 0) (hdx : dx ≠ 0) :
    ∃ m m' : Mem A K, Det sz (G.evalRHS v p dx w) m m' ∧
      sum3 g.ni g.nj g.nk (fun i j k => m' w.r (g.at3 i j k)) ≠ 0 := by
  let m : Mem A K := fun _ n => if g.getI n = 0 then 1 else 0
  have hm : ∀ i j k, (0 ≤ i ∧ i < g.ni) → (0 ≤ j ∧ j < g.nj) → (0 ≤ k ∧ k < g.nk) →
      m w.c (g.at3 i j k) = if i = 0 then 1 else 0 := by
    intro i j k hi hj hk
    have hp : g.Pad i j k := by unfold Grid3.Pad; omega
    simp only [m, Grid3.getI_at3 hp]
  obtain ⟨m', hd, hsum⟩ := C19_mass_drift g hn hh xbc ybc zbc G hG v hv w hw sz hsz p dx m
  refine ⟨m, m', hd, ?_⟩
  rw [hsum, hx, hy, hz, hs, if_pos rfl, if_neg (by decide), if_neg (by decide)]
  have e : (∑ j ∈ Ico 0 g.nj, ∑ k ∈ Ico 0 g.nk,
      ((m w.c (g.at3 (g.ni - 1) j k) - m w.c (g.at3 (g.ni - 2) j k)) -
        (m w.c (g.at3 1 j k) - m w.c (g.at3 0 j k)))) = ∑ j ∈ Ico 0 g.nj, ∑ k ∈ Ico 0 g.nk, (1 : K) := by
    refine sum_congr rfl fun j hj => sum_congr rfl fun k hk => ?_
    rw [mem_Ico] at hj hk
    rw [hm _ j k ⟨by omega, by omega⟩ hj hk, hm _ j k ⟨by omega, by omega⟩ hj hk,
      hm _ j k ⟨by omega, by omega⟩ hj hk, hm _ j k ⟨by omega, by omega⟩ hj hk, if_neg (by omega),
      if_neg (by omega), if_neg (by omega), if_pos rfl]
    ring
  rw [e]
  simp only [sum_const, Int.card_Ico, sub_zero, nsmul_eq_mul, mul_one, add_zero, zero_mul]
  have h1 : ((g.nj.toNat : Nat) : K) ≠ 0 := by
    rw [Nat.cast_ne_zero]; omega
  have h2 : ((g.nk.toNat : Nat) : K) ≠ 0 := by
    rw [Nat.cast_ne_zero]; omega
  have h4 : -p.eps2 / dx ^ 4 ≠ 0 := div_ne_zero (neg_ne_zero.2 he) (pow_ne_zero _ hdx)
  exact mul_ne_zero h4 (mul_ne_zero h1 h2)

/-- Uniform states: any halo contents, any boundary mix, any variant. -/
theorem C21_uniform_state3 (a : K) (m : Mem A K)
    (hm : ∀ i j k, (0 ≤ i ∧ i < g.ni) → (0 ≤ j ∧ j < g.nj) → (0 ≤ k ∧ k < g.nk) → m w.c (g.at3 i j k) = a) :
    ∃ m', Det sz (G.evalRHS v p dx w) m m' ∧
      ∀ i j k, (0 ≤ i ∧ i < g.ni) → (0 ≤ j ∧ j < g.nj) → (0 ≤ k ∧ k < g.nk) →
        m' w.r (g.at3 i j k) = -p.sigma * (a - p.m) := by
  obtain ⟨m', hd, hr, -⟩ := C13_rhs3 g hn hh xbc ybc zbc G hG v hv w hw sz hsz p dx m
  refine ⟨m', hd, fun i j k hi hj hk => ?_⟩
  have := (hr i j k hi hj hk).1 (fun _ _ _ => a) (by
    funext x y z
    rw [hm _ _ _ (extIdx_range x (by omega)) (extIdx_range y (by omega)) (extIdx_range z (by omega))])
  rw [this]
  exact chRhs3_const p dx a i j k

/-- Relabelled states give relabelled right-hand sides: tool for the symmetry theorems. -/
theorem rhs3_relabel (φ : Int → Int → Int → Int × Int × Int)
    (h : ∀ u : Int → Int → Int → K,
      lap3 dx (fun i j k => u (φ i j k).1 (φ i j k).2.1 (φ i j k).2.2) =
        fun i j k => lap3 dx u (φ i j k).1 (φ i j k).2.1 (φ i j k).2.2)
    (m₁ m₂ : Mem A K)
    (hm : ∀ i j k, m₂ w.c (g.at3 (extIdx xbc g.ni i) (extIdx ybc g.nj j) (extIdx zbc g.nk k)) =
      m₁ w.c (g.at3 (extIdx xbc g.ni (φ i j k).1) (extIdx ybc g.nj (φ i j k).2.1)
        (extIdx zbc g.nk (φ i j k).2.2))) :
    ∃ m₁' m₂', Det sz (G.evalRHS v p dx w) m₁ m₁' ∧ Det sz (G.evalRHS v p dx w) m₂ m₂' ∧
      ∀ i j k, (0 ≤ i ∧ i < g.ni) → (0 ≤ j ∧ j < g.nj) → (0 ≤ k ∧ k < g.nk) →
        (∀ i' j' k', (0 ≤ i' ∧ i' < g.ni) → (0 ≤ j' ∧ j' < g.nj) → (0 ≤ k' ∧ k' < g.nk) →
          m₁' w.r (g.at3 i' j' k') = chRhs3 p dx
            (fun x y z => m₁ w.c (g.at3 (extIdx xbc g.ni x) (extIdx ybc g.nj y) (extIdx zbc g.nk z))) i' j' k') ∧
        m₂' w.r (g.at3 i j k) = chRhs3 p dx
          (fun x y z => m₁ w.c (g.at3 (extIdx xbc g.ni x) (extIdx ybc g.nj y) (extIdx zbc g.nk z)))
          (φ i j k).1 (φ i j k).2.1 (φ i j k).2.2 := by
  obtain ⟨m₁', d₁, r₁, -⟩ := C13_rhs3 g hn hh xbc ybc zbc G hG v hv w hw sz hsz p dx m₁
  obtain ⟨m₂', d₂, r₂, -⟩ := C13_rhs3 g hn hh xbc ybc zbc G hG v hv w hw sz hsz p dx m₂
  refine ⟨m₁', m₂', d₁, d₂, fun i j k hi hj hk => ⟨fun i' j' k' hi' hj' hk' => ?_, ?_⟩⟩
  · exact (r₁ i' j' k' hi' hj' hk').1 _ rfl
  · rw [← chRhs3_relabel p dx φ h]
    refine (r₂ i j k hi hj hk).1 _ ?_
    funext x y z
    exact (hm x y z).symm

/-- Translation by any number of cells in any direction on periodic grids. -/
theorem C22_translation (hx : xbc = .periodic) (hy : ybc = .periodic) (hz : zbc = .periodic) (a b c : Int)
    (m₁ m₂ : Mem A K)
    (hm : ∀ i j k, (0 ≤ i ∧ i < g.ni) → (0 ≤ j ∧ j < g.nj) → (0 ≤ k ∧ k < g.nk) →
      m₂ w.c (g.at3 i j k) = m₁ w.c (g.at3 ((i + a) % g.ni) ((j + b) % g.nj) ((k + c) % g.nk))) :
    ∃ m₁' m₂', Det sz (G.evalRHS v p dx w) m₁ m₁' ∧ Det sz (G.evalRHS v p dx w) m₂ m₂' ∧
      ∀ i j k, (0 ≤ i ∧ i < g.ni) → (0 ≤ j ∧ j < g.nj) → (0 ≤ k ∧ k < g.nk) →
        m₂' w.r (g.at3 i j k) = m₁' w.r (g.at3 ((i + a) % g.ni) ((j + b) % g.nj) ((k + c) % g.nk)) := by
  subst hx; subst hy; subst hz
  obtain ⟨m₁', m₂', d₁, d₂, h⟩ := rhs3_relabel g hn hh .periodic .periodic .periodic G hG v hv w hw sz hsz p dx
    (fun i j k => (i + a, j + b, k + c)) (lap3_translate dx a b c) m₁ m₂ (by
      intro i j k
      rw [hm _ _ _ (extIdx_range i (by omega)) (extIdx_range j (by omega)) (extIdx_range k (by omega))]
      simp only [extIdx, wrapIdx, Int.emod_add_emod])
  have hpos : 0 < g.ni ∧ 0 < g.nj ∧ 0 < g.nk := by omega
  refine ⟨m₁', m₂', d₁, d₂, fun i j k hi hj hk => ?_⟩
  obtain ⟨h1, h2⟩ := h i j k hi hj hk
  rw [h1 _ _ _ ⟨Int.emod_nonneg _ (by omega), Int.emod_lt_of_pos _ hpos.1⟩
    ⟨Int.emod_nonneg _ (by omega), Int.emod_lt_of_pos _ hpos.2.1⟩
    ⟨Int.emod_nonneg _ (by omega), Int.emod_lt_of_pos _ hpos.2.2⟩, h2]
  have hper := lap3_ext_periodic dx (ni := g.ni) (nj := g.nj) (nk := g.nk) .periodic .periodic .periodic
    (by decide) (by decide) (by decide)
  have key : ∀ U : Int → Int → Int → K, U = ext3 .periodic .periodic .periodic g.ni g.nj g.nk U →
      ∀ x y z, U x y z = U (x % g.ni) (y % g.nj) (z % g.nk) := by
    intro U hU x y z
    rw [hU]; simp only [ext3, extIdx, wrapIdx, Int.emod_emod_of_dvd, dvd_refl]
  have hE := key (chRhs3 p dx (ext3 .periodic .periodic .periodic g.ni g.nj g.nk
    fun x y z => m₁ w.c (g.at3 x y z))) (by
      funext x y z
      set U := ext3 .periodic .periodic .periodic g.ni g.nj g.nk fun x y z => m₁ w.c (g.at3 x y z) with hU
      have e0 : U = ext3 .periodic .periodic .periodic g.ni g.nj g.nk U := by
        funext x y z
        simp only [hU, ext3, extIdx, wrapIdx, Int.emod_emod_of_dvd, dvd_refl]
      have e1 : lap3 dx U = ext3 .periodic .periodic .periodic g.ni g.nj g.nk (lap3 dx U) := by
        have := hper U; rw [← e0] at this; exact this
      have e2 : lap3 dx (lap3 dx U) = ext3 .periodic .periodic .periodic g.ni g.nj g.nk (lap3 dx (lap3 dx U)) := by
        have := hper (lap3 dx U); rw [← e1] at this; exact this
      have e3 : lap3 dx (fun x y z => U x y z ^ 3 - U x y z) =
          ext3 .periodic .periodic .periodic g.ni g.nj g.nk (lap3 dx (fun x y z => U x y z ^ 3 - U x y z)) := by
        have h3 : (fun x y z => U x y z ^ 3 - U x y z) =
            ext3 .periodic .periodic .periodic g.ni g.nj g.nk (fun x y z => U x y z ^ 3 - U x y z) := by
          funext x y z
          have := congrFun (congrFun (congrFun e0 x) y) z
          simp only [ext3] at this ⊢
          rw [this]
        have := hper (fun x y z => U x y z ^ 3 - U x y z); rw [← h3] at this; exact this
      unfold chRhs3 bih3
      rw [congrFun (congrFun (congrFun e2 x) y) z, congrFun (congrFun (congrFun e3 x) y) z,
        congrFun (congrFun (congrFun e0 x) y) z]
      rfl)
  exact hE (i + a) (j + b) (k + c)

/-- Reflection along each axis, any mix of boundary types. -/
theorem C22_reflection (m₁ m₂ : Mem A K) (ax : Fin 3)
    (hm : ∀ i j k, (0 ≤ i ∧ i < g.ni) → (0 ≤ j ∧ j < g.nj) → (0 ≤ k ∧ k < g.nk) →
      m₂ w.c (g.at3 i j k) = m₁ w.c (g.at3 (if ax = 0 then g.ni - 1 - i else i)
        (if ax = 1 then g.nj - 1 - j else j) (if ax = 2 then g.nk - 1 - k else k))) :
    ∃ m₁' m₂', Det sz (G.evalRHS v p dx w) m₁ m₁' ∧ Det sz (G.evalRHS v p dx w) m₂ m₂' ∧
      ∀ i j k, (0 ≤ i ∧ i < g.ni) → (0 ≤ j ∧ j < g.nj) → (0 ≤ k ∧ k < g.nk) →
        m₂' w.r (g.at3 i j k) = m₁' w.r (g.at3 (if ax = 0 then g.ni - 1 - i else i)
        (if ax = 1 then g.nj - 1 - j else j) (if ax = 2 then g.nk - 1 - k else k)) := by
  have hm' := fun i j k => hm _ _ _ (extIdx_range (bc := xbc) i (by omega : 1 ≤ g.ni))
    (extIdx_range (bc := ybc) j (by omega : 1 ≤ g.nj)) (extIdx_range (bc := zbc) k (by omega : 1 ≤ g.nk))
  match ax with
  | 0 =>
    simp only [if_true] at hm' ⊢
    obtain ⟨m₁', m₂', d₁, d₂, h⟩ := rhs3_relabel g hn hh xbc ybc zbc G hG v hv w hw sz hsz p dx
      (fun i j k => (g.ni - 1 - i, j, k)) (lap3_reflect_x dx g.ni) m₁ m₂ (by
        intro i j k; rw [hm' i j k, if_neg (by decide), if_neg (by decide)]
        simp only [extIdx_reflect xbc (by omega : 1 ≤ g.ni)])
    refine ⟨m₁', m₂', d₁, d₂, fun i j k hi hj hk => ?_⟩
    obtain ⟨h1, h2⟩ := h i j k hi hj hk
    rw [h2, if_neg (by decide), if_neg (by decide), h1 _ _ _ (by omega) hj hk]
  | 1 =>
    simp only [if_true] at hm' ⊢
    obtain ⟨m₁', m₂', d₁, d₂, h⟩ := rhs3_relabel g hn hh xbc ybc zbc G hG v hv w hw sz hsz p dx
      (fun i j k => (i, g.nj - 1 - j, k)) (lap3_reflect_y dx g.nj) m₁ m₂ (by
        intro i j k; rw [hm' i j k, if_neg (by decide), if_neg (by decide)]
        simp only [extIdx_reflect ybc (by omega : 1 ≤ g.nj)])
    refine ⟨m₁', m₂', d₁, d₂, fun i j k hi hj hk => ?_⟩
    obtain ⟨h1, h2⟩ := h i j k hi hj hk
    rw [h2, if_neg (by decide), if_neg (by decide), h1 _ _ _ hi (by omega) hk]
  | 2 =>
    simp only [if_true] at hm' ⊢
    obtain ⟨m₁', m₂', d₁, d₂, h⟩ := rhs3_relabel g hn hh xbc ybc zbc G hG v hv w hw sz hsz p dx
      (fun i j k => (i, j, g.nk - 1 - k)) (lap3_reflect_z dx g.nk) m₁ m₂ (by
        intro i j k; rw [hm' i j k, if_neg (by decide), if_neg (by decide)]
        simp only [extIdx_reflect zbc (by omega : 1 ≤ g.nk)])
    refine ⟨m₁', m₂', d₁, d₂, fun i j k hi hj hk => ?_⟩
    obtain ⟨h1, h2⟩ := h i j k hi hj hk
    rw [h2, if_neg (by decide), if_neg (by decide), h1 _ _ _ hi hj (by omega)]

/-- Exchange of x and y when their extents and boundary types match. -/
theorem C22_swap_xy (hij : g.ni = g.nj) (hb : xbc = ybc) (m₁ m₂ : Mem A K)
    (hm : ∀ i j k, (0 ≤ i ∧ i < g.ni) → (0 ≤ j ∧ j < g.nj) → (0 ≤ k ∧ k < g.nk) →
      m₂ w.c (g.at3 i j k) = m₁ w.c (g.at3 j i k)) :
    ∃ m₁' m₂', Det sz (G.evalRHS v p dx w) m₁ m₁' ∧ Det sz (G.evalRHS v p dx w) m₂ m₂' ∧
      ∀ i j k, (0 ≤ i ∧ i < g.ni) → (0 ≤ j ∧ j < g.nj) → (0 ≤ k ∧ k < g.nk) →
        m₂' w.r (g.at3 i j k) = m₁' w.r (g.at3 j i k) := by
  obtain ⟨m₁', m₂', d₁, d₂, h⟩ := rhs3_relabel g hn hh xbc ybc zbc G hG v hv w hw sz hsz p dx
    (fun i j k => (j, i, k)) (lap3_swap_xy dx) m₁ m₂ (by
      intro i j k
      rw [hm _ _ _ (extIdx_range i (by omega)) (extIdx_range j (by omega)) (extIdx_range k (by omega)), hb, hij])
  refine ⟨m₁', m₂', d₁, d₂, fun i j k hi hj hk => ?_⟩
  obtain ⟨h1, h2⟩ := h i j k hi hj hk
  rw [h2, h1 _ _ _ (by omega) (by omega) hk]

/-- Exchange of y and z when their extents and boundary types match. -/
theorem C22_swap_yz (hjk : g.nj = g.nk) (hb : ybc = zbc) (m₁ m₂ : Mem A K)
    (hm : ∀ i j k, (0 ≤ i ∧ i < g.ni) → (0 ≤ j ∧ j < g.nj) → (0 ≤ k ∧ k < g.nk) →
      m₂ w.c (g.at3 i j k) = m₁ w.c (g.at3 i k j)) :
    ∃ m₁' m₂', Det sz (G.evalRHS v p dx w) m₁ m₁' ∧ Det sz (G.evalRHS v p dx w) m₂ m₂' ∧
      ∀ i j k, (0 ≤ i ∧ i < g.ni) → (0 ≤ j ∧ j < g.nj) → (0 ≤ k ∧ k < g.nk) →
        m₂' w.r (g.at3 i j k) = m₁' w.r (g.at3 i k j) := by
  obtain ⟨m₁', m₂', d₁, d₂, h⟩ := rhs3_relabel g hn hh xbc ybc zbc G hG v hv w hw sz hsz p dx
    (fun i j k => (i, k, j)) (lap3_swap_yz dx) m₁ m₂ (by
      intro i j k
      rw [hm _ _ _ (extIdx_range i (by omega)) (extIdx_range j (by omega)) (extIdx_range k (by omega)), hb, hjk])
  refine ⟨m₁', m₂', d₁, d₂, fun i j k hi hj hk => ?_⟩
  obtain ⟨h1, h2⟩ := h i j k hi hj hk
  rw [h2, h1 _ _ _ hi (by omega) (by omega)]

/-- Sign change `c → -c`, `m → -m`, any boundary mix. -/
theorem C22_sign (m₁ m₂ : Mem A K)
    (hm : ∀ i j k, (0 ≤ i ∧ i < g.ni) → (0 ≤ j ∧ j < g.nj) → (0 ≤ k ∧ k < g.nk) →
      m₂ w.c (g.at3 i j k) = -m₁ w.c (g.at3 i j k)) :
    ∃ m₁' m₂', Det sz (G.evalRHS v p dx w) m₁ m₁' ∧
      Det sz (G.evalRHS v ⟨p.eps2, p.sigma, -p.m⟩ dx w) m₂ m₂' ∧
      ∀ i j k, (0 ≤ i ∧ i < g.ni) → (0 ≤ j ∧ j < g.nj) → (0 ≤ k ∧ k < g.nk) →
        m₂' w.r (g.at3 i j k) = -m₁' w.r (g.at3 i j k) := by
  obtain ⟨m₁', d₁, r₁, -⟩ := C13_rhs3 g hn hh xbc ybc zbc G hG v hv w hw sz hsz p dx m₁
  obtain ⟨m₂', d₂, r₂, -⟩ := C13_rhs3 g hn hh xbc ybc zbc G hG v hv w hw sz hsz ⟨p.eps2, p.sigma, -p.m⟩ dx m₂
  refine ⟨m₁', m₂', d₁, d₂, fun i j k hi hj hk => ?_⟩
  rw [(r₁ i j k hi hj hk).1 _ rfl]
  refine ((r₂ i j k hi hj hk).1 (fun x y z =>
    -m₁ w.c (g.at3 (extIdx xbc g.ni x) (extIdx ybc g.nj y) (extIdx zbc g.nk z))) ?_).trans
    (chRhs3_neg p dx _ i j k)
  funext x y z
  rw [hm _ _ _ (extIdx_range x (by omega)) (extIdx_range y (by omega)) (extIdx_range z (by omega))]

end

/-- Non-vacuity: C18, C20–C22 on a periodic 3×3×4 grid, all variants; a uniform state; a state with mean `m`. -/
example : ∃ (G : Geom3) (w : CHArr Nat) (sz : Nat → Int) (m : Mem Nat Rat),
    mkGeom3 ⟨3, 3, 4, 2⟩ .periodic .periodic .periodic = .ok G ∧
    [w.c, w.r, w.lapRhs, w.lapArg, w.bihar, w.lin].Nodup ∧
    (∀ a ∈ [w.c, w.r, w.lapRhs, w.lapArg, w.bihar, w.lin], sz a = (Grid3.mk 3 3 4 2).size) ∧
    (∀ i j k, m w.c ((Grid3.mk 3 3 4 2).at3 i j k) = 7) ∧
    sum3 3 3 4 (fun i j k => m w.c ((Grid3.mk 3 3 4 2).at3 i j k)) = ((3 * 3 * 4 : Int) : Rat) * 7 :=
  ⟨_, ⟨0, 1, 2, 3, 4, 5⟩, fun _ => (Grid3.mk 3 3 4 2).size, fun _ _ => 7,
    mkGeom3_ok ⟨by decide, by decide, by decide, by decide⟩ _ _ _, by decide, fun _ _ => rfl, fun _ _ _ => rfl,
    sum3_const 3 3 4 (by decide) (by decide) (by decide) 7⟩

/-- Non-vacuity: C19 with a Neumann x-axis of three cells. -/
example : ∃ (G : Geom3) (p : CHParams Rat), mkGeom3 ⟨3, 2, 2, 2⟩ .neumann .periodic .periodic = .ok G ∧
    p.sigma = 0 ∧ p.eps2 ≠ 0 :=
  ⟨_, ⟨1, 0, 0⟩, mkGeom3_ok ⟨by decide, by decide, by decide, by decide⟩ _ _ _, rfl, one_ne_zero⟩

/-! ### C20: energy dissipation -/

section
variable (g : Grid3) (hn : 2 ≤ g.ni ∧ 2 ≤ g.nj ∧ 2 ≤ g.nk) (hh : g.nhalo = 2)
  (G : Geom3) (hG : mkGeom3 g .periodic .periodic .periodic = .ok G)
  (v : Int) (hv : v = 0 ∨ v = 1 ∨ v = 2)
  (w : CHArr A) (hw : [w.c, w.r, w.lapRhs, w.lapArg, w.bihar, w.lin].Nodup)
  (sz : A → Int) (hsz : ∀ a ∈ [w.c, w.r, w.lapRhs, w.lapArg, w.bihar, w.lin], sz a = g.size)
  (p : CHParams Real) (hs : p.sigma = 0) (dx : Real)
include hn hh hG hv hw hsz hs

/-- With `σ = 0` on a periodic grid, moving the state along the computed right-hand side changes the discrete free
energy at rate `-∑|∇μ|² ≤ 0`, `μ = c³ - c - ε² Δc`; the rate is zero only if `μ` is constant on the grid. -/
theorem C20_energy_dissipation3 (m : Mem A Real) :
    ∃ m', Det sz (G.evalRHS v p dx w) m m' ∧
      ∀ (C : Int → Int → Int → Real) (μ : Int → Int → Int → Real),
        (C = ext3 .periodic .periodic .periodic g.ni g.nj g.nk fun i j k => m w.c (g.at3 i j k)) →
        (μ = fun i j k => C i j k ^ 3 - C i j k - p.eps2 * lap3 dx C i j k) →
        HasDerivAt (fun t : Real => energy3 p.eps2 dx g.ni g.nj g.nk
            (ext3 .periodic .periodic .periodic g.ni g.nj g.nk fun i j k =>
              m w.c (g.at3 i j k) + t * m' w.r (g.at3 i j k)))
          (-(grad3 g.ni g.nj g.nk μ μ / dx ^ 2)) 0 ∧
        -(grad3 g.ni g.nj g.nk μ μ / dx ^ 2) ≤ 0 ∧
        (dx ≠ 0 → -(grad3 g.ni g.nj g.nk μ μ / dx ^ 2) = 0 → ∀ i j k, μ i j k = μ 0 0 0) := by
  obtain ⟨m', hd, hr, -⟩ := C13_rhs3 g hn hh _ _ _ G hG v hv w hw sz hsz p dx m
  refine ⟨m', hd, ?_⟩
  intro C μ hC hμ
  have hi : 1 ≤ g.ni := by omega
  have hj : 1 ≤ g.nj := by omega
  have hk : 1 ≤ g.nk := by omega
  have idem : ∀ u : Int → Int → Int → Real, ext3 .periodic .periodic .periodic g.ni g.nj g.nk
      (ext3 .periodic .periodic .periodic g.ni g.nj g.nk u) = ext3 .periodic .periodic .periodic g.ni g.nj g.nk u := by
    intro u; funext x y z
    simp only [ext3, extIdx, wrapIdx, Int.emod_emod_of_dvd, dvd_refl]
  have hper : ∀ u : Int → Int → Int → Real, u = ext3 .periodic .periodic .periodic g.ni g.nj g.nk u →
      lap3 dx u = ext3 .periodic .periodic .periodic g.ni g.nj g.nk (lap3 dx u) := by
    intro u hu
    have := lap3_ext_periodic dx (ni := g.ni) (nj := g.nj) (nk := g.nk) .periodic .periodic .periodic
      (by decide) (by decide) (by decide) u
    rw [← hu] at this; exact this
  have eC : C = ext3 .periodic .periodic .periodic g.ni g.nj g.nk C := by rw [hC, idem]
  have eL := hper C eC
  have eμ : μ = ext3 .periodic .periodic .periodic g.ni g.nj g.nk μ := by
    rw [hμ]
    funext x y z
    have h1 := congrFun (congrFun (congrFun eC x) y) z
    have h2 := congrFun (congrFun (congrFun eL x) y) z
    simp only [ext3] at h1 h2 ⊢
    rw [h1, h2]
  have eLμ := hper μ eμ
  -- the right-hand side is the Laplacian of the chemical potential
  have hrhs : ∀ i j k, (0 ≤ i ∧ i < g.ni) → (0 ≤ j ∧ j < g.nj) → (0 ≤ k ∧ k < g.nk) →
      m' w.r (g.at3 i j k) = lap3 dx μ i j k := by
    intro i j k h1 h2 h3
    rw [(hr i j k h1 h2 h3).1 C hC, hs, hμ]
    have e : (fun i j k => C i j k ^ 3 - C i j k - p.eps2 * lap3 dx C i j k) = fun i j k =>
        1 * (C i j k ^ 3 - C i j k) + (-p.eps2) * lap3 dx C i j k := by funext i j k; ring
    rw [e, lap3_linear]
    ring
  have hext : ∀ t : Real, (ext3 .periodic .periodic .periodic g.ni g.nj g.nk fun i j k =>
        m w.c (g.at3 i j k) + t * m' w.r (g.at3 i j k)) = fun i j k => C i j k + t * lap3 dx μ i j k := by
    intro t
    funext x y z
    have h2 := congrFun (congrFun (congrFun eLμ x) y) z
    simp only [ext3] at h2 ⊢
    rw [h2, hrhs _ _ _ (extIdx_range x hi) (extIdx_range y hj) (extIdx_range z hk), hC]
    rfl
  have hgreen : ∀ V U : Int → Int → Int → Real, V = ext3 .periodic .periodic .periodic g.ni g.nj g.nk V →
      U = ext3 .periodic .periodic .periodic g.ni g.nj g.nk U →
      sum3 g.ni g.nj g.nk (fun i j k => V i j k * lap3 dx U i j k) = -(grad3 g.ni g.nj g.nk V U / dx ^ 2) := by
    intro V U hV hU
    have := green3 dx hi hj hk .periodic .periodic .periodic V U
    rw [← hV, ← hU] at this; exact this
  refine ⟨?_, ?_, ?_⟩
  · simp only [hext]
    refine (energy3_deriv p.eps2 dx g.ni g.nj g.nk C (lap3 dx μ)).congr_deriv ?_
    have h1 := hgreen μ μ eμ eμ
    have h2 := hgreen (lap3 dx μ) C eLμ eC
    rw [grad3_comm] at h2
    rw [← h1]
    have e : (fun i j k => μ i j k * lap3 dx μ i j k) = fun i j k =>
        (C i j k ^ 3 - C i j k) * lap3 dx μ i j k - p.eps2 * (lap3 dx μ i j k * lap3 dx C i j k) := by
      funext i j k
      have : μ i j k = C i j k ^ 3 - C i j k - p.eps2 * lap3 dx C i j k := by rw [hμ]
      rw [this]; ring
    rw [e, sum3_sub, sum3_mul, h2]
    ring
  · rw [neg_nonpos]
    exact div_nonneg (grad3_nonneg _ _ _ _) (by positivity)
  · intro hdx h0
    have hg0 : grad3 g.ni g.nj g.nk μ μ = 0 := by
      rw [neg_eq_zero, div_eq_zero_iff] at h0
      rcases h0 with h | h
      · exact h
      · exact absurd h (pow_ne_zero _ hdx)
    have hnn : ∀ i j k, 0 ≤ (μ (i + 1) j k - μ i j k) * (μ (i + 1) j k - μ i j k) +
        (μ i (j + 1) k - μ i j k) * (μ i (j + 1) k - μ i j k) +
        (μ i j (k + 1) - μ i j k) * (μ i j (k + 1) - μ i j k) := fun i j k =>
      add_nonneg (add_nonneg (mul_self_nonneg _) (mul_self_nonneg _)) (mul_self_nonneg _)
    have hcell : ∀ i j k, (0 ≤ i ∧ i < g.ni) → (0 ≤ j ∧ j < g.nj) → (0 ≤ k ∧ k < g.nk) →
        μ (i + 1) j k = μ i j k ∧ μ i (j + 1) k = μ i j k ∧ μ i j (k + 1) = μ i j k := by
      intro i j k h1 h2 h3
      unfold grad3 sum3 at hg0
      have q1 := (sum_eq_zero_iff_of_nonneg (fun i _ => sum_nonneg fun j _ => sum_nonneg fun k _ => hnn i j k)).1
        hg0 i (by simpa using h1)
      have q2 := (sum_eq_zero_iff_of_nonneg (fun j _ => sum_nonneg fun k _ => hnn i j k)).1 q1 j (by simpa using h2)
      have q3 := (sum_eq_zero_iff_of_nonneg (fun k _ => hnn i j k)).1 q2 k (by simpa using h3)
      have z1 := mul_self_nonneg (μ (i + 1) j k - μ i j k)
      have z2 := mul_self_nonneg (μ i (j + 1) k - μ i j k)
      have z3 := mul_self_nonneg (μ i j (k + 1) - μ i j k)
      exact ⟨sub_eq_zero.1 (mul_self_eq_zero.1 (by linarith)), sub_eq_zero.1 (mul_self_eq_zero.1 (by linarith)),
        sub_eq_zero.1 (mul_self_eq_zero.1 (by linarith))⟩
    have hall : ∀ i j k, μ (i + 1) j k = μ i j k ∧ μ i (j + 1) k = μ i j k ∧ μ i j (k + 1) = μ i j k := by
      intro i j k
      have hm : ∀ x y z, μ x y z = μ (x % g.ni) (y % g.nj) (z % g.nk) := by
        intro x y z
        exact congrFun (congrFun (congrFun eμ x) y) z
      obtain ⟨q1, q2, q3⟩ := hcell (i % g.ni) (j % g.nj) (k % g.nk)
        (extIdx_range (bc := .periodic) i hi) (extIdx_range (bc := .periodic) j hj)
        (extIdx_range (bc := .periodic) k hk)
      refine ⟨?_, ?_, ?_⟩
      · rw [hm (i + 1) j k, hm i j k, ← q1, hm (i % g.ni + 1)]
        simp only [Int.emod_add_emod, Int.emod_emod_of_dvd, dvd_refl]
      · rw [hm i (j + 1) k, hm i j k, ← q2, hm _ (j % g.nj + 1)]
        simp only [Int.emod_add_emod, Int.emod_emod_of_dvd, dvd_refl]
      · rw [hm i j (k + 1), hm i j k, ← q3, hm _ _ (k % g.nk + 1)]
        simp only [Int.emod_add_emod, Int.emod_emod_of_dvd, dvd_refl]
    have const1 : ∀ f : Int → Real, (∀ x, f (x + 1) = f x) → ∀ x, f x = f 0 := by
      intro f hf x
      induction x using Int.induction_on with
      | zero => rfl
      | succ n ih => rw [hf]; exact ih
      | pred n ih =>
        have h := hf (-(n : Int) - 1)
        have e : -(n : Int) - 1 + 1 = -(n : Int) := by omega
        rw [e] at h
        rw [← h]; exact ih
    intro i j k
    rw [const1 (fun i => μ i j k) (fun i => (hall i j k).1) i, const1 (fun j => μ 0 j k) (fun j => (hall 0 j k).2.1) j,
      const1 (fun k => μ 0 0 k) (fun k => (hall 0 0 k).2.2) k]

end

/-! ### Two dimensions

The hypotheses are those of `C15_rhs2`; a concrete instance stands beside it in `Verif.Props.Grid2`. -/

section
variable {K : Type} [Field K] (n : Int) (hn : 2 ≤ n) (G : Geom2) (hG : mkGeom2 n 2 = .ok G)
  (w : CHArr A) (hw : [w.c, w.r, w.lapRhs, w.lapArg, w.bihar, w.lin].Nodup)
  (sz : A → Int)
  (hsz : ∀ a ∈ [w.c, w.r, w.lapRhs, w.lapArg, w.bihar, w.lin], sz a = (n + 2 * 2) * (n + 2 * 2))
  (p : CHParams K) (dx : K)
include hn hG hw hsz

/-- 2D mass balance. -/
theorem C18_mass_balance2 (m : Mem A K) :
    ∃ m', Det sz (G.evalRHS p dx w) m m' ∧
      sum2 n n (fun i j => m' w.r (G.g.at2 i j)) =
        -p.sigma * sum2 n n (fun i j => m w.c (G.g.at2 i j) - p.m) := by
  obtain ⟨m', hd, hr, -⟩ := C15_rhs2 n hn G hG w hw sz hsz p dx m
  refine ⟨m', hd, ?_⟩
  rw [sum2_congr (hr _ rfl)]
  refine (chRhs2_sum p dx (n := n) (by omega) fun x y => m w.c (G.g.at2 x y)).trans ?_
  congr 1
  exact sum2_congr fun i j hi hj => by rw [ext2_of_int _ hi hj]

/-- Uniform states in 2D. -/
theorem C21_uniform_state2 (a : K) (m : Mem A K)
    (hm : ∀ i j, (0 ≤ i ∧ i < n) → (0 ≤ j ∧ j < n) → m w.c (G.g.at2 i j) = a) :
    ∃ m', Det sz (G.evalRHS p dx w) m m' ∧
      ∀ i j, (0 ≤ i ∧ i < n) → (0 ≤ j ∧ j < n) → m' w.r (G.g.at2 i j) = -p.sigma * (a - p.m) := by
  obtain ⟨m', hd, hr, -⟩ := C15_rhs2 n hn G hG w hw sz hsz p dx m
  refine ⟨m', hd, fun i j hi hj => ?_⟩
  rw [hr (fun _ _ => a) (by
    funext x y
    rw [hm _ _ ⟨Int.emod_nonneg _ (by omega), Int.emod_lt_of_pos _ (by omega)⟩
      ⟨Int.emod_nonneg _ (by omega), Int.emod_lt_of_pos _ (by omega)⟩]) i j hi hj]
  exact chRhs2_const p dx a i j

/-- Translation in 2D. -/
theorem C22_translation2 (a b : Int) (m₁ m₂ : Mem A K)
    (hm : ∀ i j, (0 ≤ i ∧ i < n) → (0 ≤ j ∧ j < n) →
      m₂ w.c (G.g.at2 i j) = m₁ w.c (G.g.at2 ((i + a) % n) ((j + b) % n))) :
    ∃ m₁' m₂', Det sz (G.evalRHS p dx w) m₁ m₁' ∧ Det sz (G.evalRHS p dx w) m₂ m₂' ∧
      ∀ i j, (0 ≤ i ∧ i < n) → (0 ≤ j ∧ j < n) →
        m₂' w.r (G.g.at2 i j) = m₁' w.r (G.g.at2 ((i + a) % n) ((j + b) % n)) := by
  obtain ⟨m₁', d₁, r₁, -⟩ := C15_rhs2 n hn G hG w hw sz hsz p dx m₁
  obtain ⟨m₂', d₂, r₂, -⟩ := C15_rhs2 n hn G hG w hw sz hsz p dx m₂
  refine ⟨m₁', m₂', d₁, d₂, fun i j hi hj => ?_⟩
  have hr : ∀ x : Int, 0 ≤ x % n ∧ x % n < n := fun x =>
    ⟨Int.emod_nonneg _ (by omega), Int.emod_lt_of_pos _ (by omega)⟩
  have e2 := r₂ (fun x y => m₁ w.c (G.g.at2 ((x + a) % n) ((y + b) % n))) (by
    funext x y
    rw [hm _ _ (hr x) (hr y)]
    simp only [Int.emod_add_emod]) i j hi hj
  have e1 := r₁ _ rfl ((i + a) % n) ((j + b) % n) (hr _) (hr _)
  rw [e1, e2]
  have hs := chRhs2_relabel p dx (fun i j => (i + a, j + b)) (lap2_translate dx a b)
    (fun x y => m₁ w.c (G.g.at2 (x % n) (y % n))) i j
  refine hs.trans ?_
  -- the field, its Laplacian and its biharmonic are periodic
  set U : Int → Int → K := fun x y => m₁ w.c (G.g.at2 (x % n) (y % n)) with hU
  have q0 : ∀ x y, U (x % n) (y % n) = U x y := by
    intro x y; simp only [hU, Int.emod_emod_of_dvd, dvd_refl]
  have q1 : ∀ V : Int → Int → K, (∀ x y, V (x % n) (y % n) = V x y) →
      ∀ x y, lap2 dx V (x % n) (y % n) = lap2 dx V x y := by
    intro V hV x y
    have h := lap2_ext_periodic dx (n := n) V
    have e : ext2 n V = V := by funext x y; exact hV x y
    rw [e] at h
    exact (congrFun (congrFun h x) y).symm
  have q3 := q1 (fun x y => U x y ^ 3 - U x y) (by intro x y; simp only [q0])
  change chRhs2 p dx U (i + a) (j + b) = chRhs2 p dx U ((i + a) % n) ((j + b) % n)
  unfold chRhs2 bih2
  rw [q1 _ (q1 U q0), q3, q0]

/-- Reflection, exchange of the axes and sign change in 2D. -/
theorem C22_reflection2 (m₁ m₂ : Mem A K)
    (hm : ∀ i j, (0 ≤ i ∧ i < n) → (0 ≤ j ∧ j < n) → m₂ w.c (G.g.at2 i j) = m₁ w.c (G.g.at2 (n - 1 - i) j)) :
    ∃ m₁' m₂', Det sz (G.evalRHS p dx w) m₁ m₁' ∧ Det sz (G.evalRHS p dx w) m₂ m₂' ∧
      ∀ i j, (0 ≤ i ∧ i < n) → (0 ≤ j ∧ j < n) →
        m₂' w.r (G.g.at2 i j) = m₁' w.r (G.g.at2 (n - 1 - i) j) := by
  obtain ⟨m₁', d₁, r₁, -⟩ := C15_rhs2 n hn G hG w hw sz hsz p dx m₁
  obtain ⟨m₂', d₂, r₂, -⟩ := C15_rhs2 n hn G hG w hw sz hsz p dx m₂
  refine ⟨m₁', m₂', d₁, d₂, fun i j hi hj => ?_⟩
  have hr : ∀ x : Int, 0 ≤ x % n ∧ x % n < n := fun x =>
    ⟨Int.emod_nonneg _ (by omega), Int.emod_lt_of_pos _ (by omega)⟩
  have e2 := r₂ (fun x y => m₁ w.c (G.g.at2 ((n - 1 - x) % n) (y % n))) (by
    funext x y
    rw [hm _ _ (hr x) (hr y)]
    have : (n - 1 - x) % n = n - 1 - x % n := extIdx_reflect .periodic (by omega) x
    rw [this]) i j hi hj
  rw [r₁ _ rfl (n - 1 - i) j (by omega) hj, e2]
  exact chRhs2_relabel p dx (fun i j => (n - 1 - i, j)) (lap2_reflect_x dx n)
    (fun x y => m₁ w.c (G.g.at2 (x % n) (y % n))) i j

theorem C22_swap2 (m₁ m₂ : Mem A K)
    (hm : ∀ i j, (0 ≤ i ∧ i < n) → (0 ≤ j ∧ j < n) → m₂ w.c (G.g.at2 i j) = m₁ w.c (G.g.at2 j i)) :
    ∃ m₁' m₂', Det sz (G.evalRHS p dx w) m₁ m₁' ∧ Det sz (G.evalRHS p dx w) m₂ m₂' ∧
      ∀ i j, (0 ≤ i ∧ i < n) → (0 ≤ j ∧ j < n) → m₂' w.r (G.g.at2 i j) = m₁' w.r (G.g.at2 j i) := by
  obtain ⟨m₁', d₁, r₁, -⟩ := C15_rhs2 n hn G hG w hw sz hsz p dx m₁
  obtain ⟨m₂', d₂, r₂, -⟩ := C15_rhs2 n hn G hG w hw sz hsz p dx m₂
  refine ⟨m₁', m₂', d₁, d₂, fun i j hi hj => ?_⟩
  have hr : ∀ x : Int, 0 ≤ x % n ∧ x % n < n := fun x =>
    ⟨Int.emod_nonneg _ (by omega), Int.emod_lt_of_pos _ (by omega)⟩
  rw [r₁ _ rfl j i hj hi, r₂ (fun x y => m₁ w.c (G.g.at2 (y % n) (x % n))) (by
    funext x y
    rw [hm _ _ (hr x) (hr y)]) i j hi hj]
  exact chRhs2_relabel p dx (fun i j => (j, i)) (lap2_swap dx)
    (fun x y => m₁ w.c (G.g.at2 (x % n) (y % n))) i j

theorem C22_sign2 (m₁ m₂ : Mem A K)
    (hm : ∀ i j, (0 ≤ i ∧ i < n) → (0 ≤ j ∧ j < n) → m₂ w.c (G.g.at2 i j) = -m₁ w.c (G.g.at2 i j)) :
    ∃ m₁' m₂', Det sz (G.evalRHS p dx w) m₁ m₁' ∧ Det sz (G.evalRHS ⟨p.eps2, p.sigma, -p.m⟩ dx w) m₂ m₂' ∧
      ∀ i j, (0 ≤ i ∧ i < n) → (0 ≤ j ∧ j < n) → m₂' w.r (G.g.at2 i j) = -m₁' w.r (G.g.at2 i j) := by
  obtain ⟨m₁', d₁, r₁, -⟩ := C15_rhs2 n hn G hG w hw sz hsz p dx m₁
  obtain ⟨m₂', d₂, r₂, -⟩ := C15_rhs2 n hn G hG w hw sz hsz ⟨p.eps2, p.sigma, -p.m⟩ dx m₂
  refine ⟨m₁', m₂', d₁, d₂, fun i j hi hj => ?_⟩
  have hr : ∀ x : Int, 0 ≤ x % n ∧ x % n < n := fun x =>
    ⟨Int.emod_nonneg _ (by omega), Int.emod_lt_of_pos _ (by omega)⟩
  rw [r₁ _ rfl i j hi hj, r₂ (fun x y => -m₁ w.c (G.g.at2 (x % n) (y % n))) (by
    funext x y
    rw [hm _ _ (hr x) (hr y)]) i j hi hj]
  exact chRhs2_neg p dx _ i j

end

section
variable (n : Int) (hn : 2 ≤ n) (G : Geom2) (hG : mkGeom2 n 2 = .ok G)
  (w : CHArr A) (hw : [w.c, w.r, w.lapRhs, w.lapArg, w.bihar, w.lin].Nodup)
  (sz : A → Int)
  (hsz : ∀ a ∈ [w.c, w.r, w.lapRhs, w.lapArg, w.bihar, w.lin], sz a = (n + 2 * 2) * (n + 2 * 2))
  (p : CHParams Real) (hs : p.sigma = 0) (dx : Real)
include hn hG hw hsz hs

/-- 2D energy dissipation. -/
theorem C20_energy_dissipation2 (m : Mem A Real) :
    ∃ m', Det sz (G.evalRHS p dx w) m m' ∧
      ∀ (C : Int → Int → Real) (μ : Int → Int → Real),
        (C = ext2 n fun i j => m w.c (G.g.at2 i j)) →
        (μ = fun i j => C i j ^ 3 - C i j - p.eps2 * lap2 dx C i j) →
        HasDerivAt (fun t : Real => energy2 p.eps2 dx n n
            (ext2 n fun i j => m w.c (G.g.at2 i j) + t * m' w.r (G.g.at2 i j)))
          (-(grad2 n n μ μ / dx ^ 2)) 0 ∧
        -(grad2 n n μ μ / dx ^ 2) ≤ 0 := by
  obtain ⟨m', hd, hr, -⟩ := C15_rhs2 n hn G hG w hw sz hsz p dx m
  refine ⟨m', hd, ?_⟩
  intro C μ hC hμ
  have hi : 1 ≤ n := by omega
  have hper : ∀ u : Int → Int → Real, u = ext2 n u → lap2 dx u = ext2 n (lap2 dx u) := by
    intro u hu
    have := lap2_ext_periodic dx (n := n) u
    rw [← hu] at this; exact this
  have eC : C = ext2 n C := by
    rw [hC]; funext x y
    simp only [ext2, wrapIdx, Int.emod_emod_of_dvd, dvd_refl]
  have eL := hper C eC
  have eμ : μ = ext2 n μ := by
    rw [hμ]
    funext x y
    have h1 := congrFun (congrFun eC x) y
    have h2 := congrFun (congrFun eL x) y
    simp only [ext2] at h1 h2 ⊢
    rw [h1, h2]
  have eLμ := hper μ eμ
  have hrhs : ∀ i j, (0 ≤ i ∧ i < n) → (0 ≤ j ∧ j < n) → m' w.r (G.g.at2 i j) = lap2 dx μ i j := by
    intro i j h1 h2
    rw [hr C hC i j h1 h2, hs, hμ]
    have e : (fun i j => C i j ^ 3 - C i j - p.eps2 * lap2 dx C i j) = fun i j =>
        1 * (C i j ^ 3 - C i j) + (-p.eps2) * lap2 dx C i j := by funext i j; ring
    rw [e, lap2_linear]
    ring
  have hext : ∀ t : Real, (ext2 n fun i j => m w.c (G.g.at2 i j) + t * m' w.r (G.g.at2 i j)) =
      fun i j => C i j + t * lap2 dx μ i j := by
    intro t
    funext x y
    have h2 := congrFun (congrFun eLμ x) y
    simp only [ext2] at h2 ⊢
    rw [h2, hrhs _ _ (wrapIdx_range x hi) (wrapIdx_range y hi), hC]
    rfl
  have hgreen : ∀ V U : Int → Int → Real, V = ext2 n V → U = ext2 n U →
      sum2 n n (fun i j => V i j * lap2 dx U i j) = -(grad2 n n V U / dx ^ 2) := by
    intro V U hV hU
    have := green2 dx hi V U
    rw [← hV, ← hU] at this; exact this
  refine ⟨?_, ?_⟩
  · simp only [hext]
    refine (energy2_deriv p.eps2 dx n n C (lap2 dx μ)).congr_deriv ?_
    have h1 := hgreen μ μ eμ eμ
    have h2 := hgreen (lap2 dx μ) C eLμ eC
    rw [grad2_comm] at h2
    rw [← h1]
    have e : (fun i j => μ i j * lap2 dx μ i j) = fun i j =>
        (C i j ^ 3 - C i j) * lap2 dx μ i j - p.eps2 * (lap2 dx μ i j * lap2 dx C i j) := by
      funext i j
      have : μ i j = C i j ^ 3 - C i j - p.eps2 * lap2 dx C i j := by rw [hμ]
      rw [this]; ring
    rw [e, sum2_sub, sum2_mul, h2]
    ring
  · rw [neg_nonpos]
    exact div_nonneg (grad2_nonneg _ _ _) (by positivity)

end

end Madg
