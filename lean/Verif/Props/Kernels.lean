/-
Every parallel loop is safe and schedule independent (C08).

`Safe sz h` says: started in any memory whatsoever, the kernel sequence `h` has exactly one outcome over all interleavings of
the iterations of its loops, and that outcome is a memory. So no interleaving leaves an array, no two iterations race, and all
interleavings agree.
-/
import Verif.Proofs.CH2
import Verif.Proofs.Smooth
import Verif.Proofs.Poisson
import Verif.Props.Transfer

set_option linter.unusedSectionVars false
set_option linter.unusedVariables false

namespace Madg
open Spec
variable {A K : Type} [DecidableEq A] [Field K]

/-- One outcome over all schedules, from every memory, and it is neither a fault nor a race. -/
def Safe (sz : A → Int) (h : Host A K) : Prop := ∀ m, ∃ m', ∀ o, HostOut sz h m o ↔ o = .ok m'

theorem safe_of {sz : A → Int} {h : Host A K} {P : Mem A K → Mem A K → Prop} (H : ∀ m, ∃ m', Det sz h m m' ∧ P m m') : Safe sz h :=
  fun m => by obtain ⟨m', d, -⟩ := H m; exact ⟨m', d⟩

/-- What `Safe` excludes, spelled out: no schedule leaves an array, races, divides by zero or stops, and any two schedules end
in the same memory. -/
theorem safe_spec {sz : A → Int} {h : Host A K} (H : Safe sz h) (m : Mem A K) :
    (∀ e, ¬ HostOut sz h m (.fault e)) ∧ (∀ m₁ m₂, HostOut sz h m (.ok m₁) → HostOut sz h m (.ok m₂) → m₁ = m₂) ∧
    ∃ m', HostOut sz h m (.ok m') := by
  obtain ⟨m', hm⟩ := H m
  refine ⟨fun e he => ?_, fun m₁ m₂ h1 h2 => ?_, m', (hm _).2 rfl⟩
  · have := (hm _).1 he; cases this
  · have e1 := (hm _).1 h1
    have e2 := (hm _).1 h2
    rw [Outcome.ok.injEq] at e1 e2
    rw [e1, e2]

section
variable (g : Grid3) (hh : 2 ≤ g.nhalo) (hi : g.nhalo ≤ g.ni) (hj : g.nhalo ≤ g.nj) (hk : g.nhalo ≤ g.nk)
  (xbc ybc zbc : BCType) (G : Geom3) (hG : mkGeom3 g xbc ybc zbc = .ok G) (sz : A → Int)
include hh hi hj hk hG

/-- Halo fills of the three-dimensional grid. -/
theorem C08_boundary_fills3 (a : A) (hs : sz a = g.size) :
    Safe (K := K) sz (G.applyPeriodic a) ∧ Safe (K := K) sz (G.applyNeumann a) := by
  obtain ⟨hGo, rfl, -, -, -⟩ := Geom3.ok_of_mk ⟨by omega, by omega, by omega, by omega⟩ hG
  exact ⟨safe_of fun m => periodic_det hGo hs hi hj hk m, safe_of fun m => neumann_det hGo hs m⟩

/-- Stencil operators on the three-dimensional grid; halo contents may be anything. -/
theorem C08_stencils3 (s d : A) (hne : s ≠ d) (hs : sz s = g.size) (hd : sz d = g.size) (dx : K) :
    Safe sz (G.laplacian dx s d) ∧ Safe sz (G.biharmonic dx s d) := by
  obtain ⟨hGo, rfl, -, -, -⟩ := Geom3.ok_of_mk ⟨by omega, by omega, by omega, by omega⟩ hG
  exact ⟨safe_of fun m => laplacian_det hGo hne hs hd (by omega) dx m, safe_of fun m => biharmonic_det hGo hne hs hd hh dx m⟩

/-- Each of the three right-hand-side variants in three dimensions. -/
theorem C08_rhs3 (c r l1 l2 l3 l4 : A) (hnd : [c, r, l1, l2, l3, l4].Nodup)
    (hsz : ∀ a ∈ [c, r, l1, l2, l3, l4], sz a = g.size) (v : Int) (hv : 0 ≤ v ∧ v ≤ 2) (p : CHParams K) (dx : K) :
    Safe sz (G.evalRHS v p dx ⟨c, r, l1, l2, l3, l4⟩) := by
  obtain ⟨hGo, rfl, -, -, -⟩ := Geom3.ok_of_mk ⟨by omega, by omega, by omega, by omega⟩ hG
  have hw : (⟨c, r, l1, l2, l3, l4⟩ : CHArr A).Ok sz G.g := ⟨hnd, hsz⟩
  exact safe_of fun m => evalRHS_det hGo hw hh hi hj hk (by rw [ctorCH3, if_pos hv]) p dx m

/-- Loops of the Poisson problem. -/
theorem C08_poisson (c r x y z : A) (hnd : [c, r, x, y, z].Nodup) (hs : ∀ a ∈ [c, r, x, y, z], sz a = g.size)
    (sn cs : K → K) (dx : K) : Safe sz (G.applyDirichlet sn cs ⟨c, r, x, y, z⟩) ∧ Safe sz (G.addSource sn cs ⟨c, r, x, y, z⟩) ∧
      Safe sz (G.poissonRHS sn cs dx ⟨c, r, x, y, z⟩) := by
  obtain ⟨hGo, rfl, -, -, -⟩ := Geom3.ok_of_mk ⟨by omega, by omega, by omega, by omega⟩ hG
  simp only [List.nodup_cons, List.mem_cons, List.not_mem_nil, or_false, not_or, List.nodup_nil, and_true, not_false_eq_true] at hnd
  obtain ⟨⟨n1, n2, n3, n4⟩, ⟨n5, n6, n7⟩, -⟩ := hnd
  have hw : (⟨c, r, x, y, z⟩ : PoisArr A).Ok G.g sz :=
    ⟨n1, ⟨Ne.symm n2, Ne.symm n3, Ne.symm n4⟩, ⟨Ne.symm n5, Ne.symm n6, Ne.symm n7⟩, hs c (by simp), hs r (by simp),
      hs x (by simp), hs y (by simp), hs z (by simp)⟩
  exact ⟨safe_of fun m => dirichlet_det hGo hw sn cs m, safe_of fun m => source_det hGo hw sn cs m,
    safe_of fun m => poisson_det hGo hw (by omega) hi hj hk sn cs dx m⟩

end

/-- Halo fill, stencil operators and right-hand side on the two-dimensional grid. -/
theorem C08_2d (n nhalo : Int) (hh : 2 ≤ nhalo) (hn : nhalo ≤ n) (G : Geom2) (hG : mkGeom2 n nhalo = .ok G) (sz : A → Int)
    (c r l1 l2 l3 l4 : A) (hnd : [c, r, l1, l2, l3, l4].Nodup)
    (hsz : ∀ a ∈ [c, r, l1, l2, l3, l4], sz a = (n + 2 * nhalo) * (n + 2 * nhalo)) (p : CHParams K) (dx : K) :
    Safe (K := K) sz (G.applyPeriodic c) ∧ Safe sz (G.laplacian dx c r) ∧ Safe sz (G.biharmonic dx c r) ∧
      Safe sz (G.evalRHS p dx ⟨c, r, l1, l2, l3, l4⟩) := by
  obtain ⟨hGo, hg⟩ := Geom2.ok_of_mk (by omega) (by omega) hG
  have e1 : G.g.nhalo = nhalo := by rw [hg]
  have e2 : G.g.ni = n := by rw [hg]
  have e3 : G.g.size = (n + 2 * nhalo) * (n + 2 * nhalo) := by rw [hg]; rfl
  rw [← e3] at hsz
  have hcr : c ≠ r := by
    intro e; subst e; simp at hnd
  exact ⟨safe_of fun m => periodic2_det hGo (by omega) (hsz c (by simp)) m,
    safe_of fun m => laplacian2_det hGo hcr (hsz c (by simp)) (hsz r (by simp)) (by omega) dx m,
    safe_of fun m => biharmonic2_det hGo hcr (hsz c (by simp)) (hsz r (by simp)) (by omega) dx m,
    safe_of fun m => evalRHS2_det (w := ⟨c, r, l1, l2, l3, l4⟩) hGo hnd hsz (by omega) (by omega) p dx m⟩

/-- Stage, residual, update and copy loops of the explicit integrators, for any vector length. -/
theorem C08_integrator_loops (N : Int) (sz : A → Int) (w : RKArr A)
    (hnd : [w.sol, w.res, w.k1, w.k2, w.k3, w.k4, w.stage].Nodup)
    (hsz : ∀ a ∈ [w.sol, w.res, w.k1, w.k2, w.k3, w.k4, w.stage], sz a = N) (dt a b c : K) :
    Safe sz (stage2Loop N w dt a) ∧ Safe sz (stage3Loop N w dt a b) ∧ Safe sz (residualLoop N w a b c) ∧
      Safe sz (updateLoop N w dt) ∧ Safe (K := K) sz (fsalLoop N w) := by
  have hw : w.Ok sz N (fun _ => False) := ⟨hnd, hsz, fun _ _ h => h⟩
  exact ⟨safe_of fun m => stage2_det hw dt a m, safe_of fun m => stage3_det hw dt a b m, safe_of fun m => residual_det hw a b c m,
    safe_of fun m => update_det hw dt m, safe_of fun m => fsal_det hw m⟩

/-- Grid transfers between a grid and its coarsening. -/
theorem C08_transfers (g gc : Grid3) (hi : 1 ≤ g.ni) (hj : 1 ≤ g.nj) (hk : 1 ≤ g.nk) (hh : 1 ≤ g.nhalo)
    (hc : g.coarsen = .ok gc) (xbc ybc zbc : BCType) (G : Geom3) (hG : mkGeom3 gc xbc ybc zbc = .ok G)
    (sz : A → Int) (f c : A) (hfc : f ≠ c) (hf : sz f = g.size) (hs : sz c = gc.size) :
    Safe (K := K) sz (G.restrict g f c) ∧ Safe (K := K) sz (G.prolongNearest g c f) ∧ Safe (K := K) sz (G.prolongLinear g c f) := by
  obtain ⟨hgc, hF⟩ := fine_of_coarsen hi hj hk (by omega) hc
  obtain ⟨hGo, rfl, -, -, -⟩ := Geom3.ok_of_mk hgc hG
  have h1 : 1 ≤ G.g.nhalo := by have := hF.h; omega
  exact ⟨safe_of fun m => restrict_det hGo hF hfc hf hs m, safe_of fun m => nearest_det hGo hF hfc hf hs m,
    safe_of fun m => linear_det hF h1 hfc hf hs m⟩

/-- Vector loops of the implicit integrator: copy, unsteady term, source, source setup, difference, relaxed correction. -/
theorem C08_vector_loops (N : Int) (sz : A → Int) (a b c : A) (hnd : [a, b, c].Nodup) (hsz : ∀ x ∈ [a, b, c], sz x = N) (t : K) :
    Safe (K := K) sz (copyLoop N a b) ∧ Safe sz (unsteadyLoop N t a b c) ∧ Safe (K := K) sz (sourceLoop N a b) ∧
      Safe (K := K) sz (sourceSetLoop N a b c) ∧ Safe (K := K) sz (deltaLoop N a b c) ∧ Safe sz (relaxLoop N t a b) := by
  have sa := hsz a (by simp); have sb := hsz b (by simp); have sc := hsz c (by simp)
  simp only [List.nodup_cons, List.mem_cons, List.not_mem_nil, or_false, not_or, List.nodup_nil, and_true, not_false_eq_true] at hnd
  obtain ⟨⟨n1, n2⟩, n3⟩ := hnd
  exact ⟨safe_of fun m => copy_det n1 sa sb m, safe_of fun m => unsteady_det t n3 n2 sa sb sc m,
    safe_of fun m => addSource_det n1 sa sb m, safe_of fun m => sourceSet_det n2 n3 sa sb sc m,
    safe_of fun m => delta_det n2 n3 sa sb sc m, safe_of fun m => relax_det t n1 sa sb m⟩

/-! Hypotheses are met by concrete data. -/

/-- A 4×3×2 grid with mixed boundary types and six arrays. -/
example : ∃ G, mkGeom3 ⟨4, 3, 2, 2⟩ .periodic .neumann .periodic = .ok G ∧
    Safe (A := Fin 6) (K := ℚ) (fun _ => 8 * 7 * 6) (G.evalRHS 0 ⟨1, 1, 1/2⟩ (1/4) ⟨0, 1, 2, 3, 4, 5⟩) :=
  ⟨_, mkGeom3_ok ⟨by decide, by decide, by decide, by decide⟩ _ _ _,
    C08_rhs3 ⟨4, 3, 2, 2⟩ (by decide) (by decide) (by decide) (by decide) .periodic .neumann .periodic _
      (mkGeom3_ok ⟨by decide, by decide, by decide, by decide⟩ _ _ _) _ 0 1 2 3 4 5 (by decide) (by intros; rfl) 0 (by decide) _ _⟩

/-- The 4×6×2 grid coarsens to 2×3×1. -/
example : ∃ G, mkGeom3 ⟨2, 3, 1, 2⟩ .periodic .periodic .periodic = .ok G ∧
    Safe (A := Bool) (K := ℚ) (fun b => if b then 8 * 10 * 6 else 6 * 7 * 5) (G.prolongLinear ⟨4, 6, 2, 2⟩ false true) :=
  ⟨_, mkGeom3_ok ⟨by decide, by decide, by decide, by decide⟩ _ _ _,
    (C08_transfers ⟨4, 6, 2, 2⟩ ⟨2, 3, 1, 2⟩ (by decide) (by decide) (by decide) (by decide) rfl .periodic .periodic .periodic _
      (mkGeom3_ok ⟨by decide, by decide, by decide, by decide⟩ _ _ _) _ true false (by decide) rfl rfl).2.2⟩

example : Safe (A := Fin 3) (K := ℚ) (fun _ => 5) (relaxLoop 5 (1/2) 0 1) :=
  (C08_vector_loops 5 (fun _ => 5) (0 : Fin 3) 1 2 (by decide) (by intros; rfl) (1/2)).2.2.2.2.2

end Madg
