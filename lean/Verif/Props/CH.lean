/-
Properties of the three-dimensional Cahn–Hilliard right-hand side (C13, C14) and of its stencils (C16).
-/
import Verif.Proofs.CH3

namespace Madg
open Spec
variable {A K : Type} [DecidableEq A] [Field K]

/-! ### C13 -/

/-- All three kernel variants, any mix of boundary conditions, arbitrary halo and scratch contents, every
schedule: the interior of the result array holds `-ε² Δ(Δc) + Δ(c³ - c) - σ(c - m)` of the field extended by the
boundary conditions; the interior of the state is unchanged and only the six named arrays are touched. -/
theorem C13_rhs3 (g : Grid3) (hn : 2 ≤ g.ni ∧ 2 ≤ g.nj ∧ 2 ≤ g.nk) (hh : g.nhalo = 2) (xbc ybc zbc : BCType)
    (G : Geom3) (hG : mkGeom3 g xbc ybc zbc = .ok G) (v : Int) (hv : v = 0 ∨ v = 1 ∨ v = 2)
    (w : CHArr A) (hw : [w.c, w.r, w.lapRhs, w.lapArg, w.bihar, w.lin].Nodup)
    (sz : A → Int) (hsz : ∀ a ∈ [w.c, w.r, w.lapRhs, w.lapArg, w.bihar, w.lin], sz a = g.size)
    (p : CHParams K) (dx : K) (m : Mem A K) :
    ∃ m', Det sz (G.evalRHS v p dx w) m m' ∧
      (∀ i j k, (0 ≤ i ∧ i < g.ni) → (0 ≤ j ∧ j < g.nj) → (0 ≤ k ∧ k < g.nk) →
        (∀ u : Int → Int → Int → K,
          (u = fun x y z => m w.c (g.at3 (extIdx xbc g.ni x) (extIdx ybc g.nj y) (extIdx zbc g.nk z))) →
          m' w.r (g.at3 i j k) =
            -p.eps2 * lap3 dx (lap3 dx u) i j k + lap3 dx (fun x y z => u x y z ^ 3 - u x y z) i j k
              - p.sigma * (u i j k - p.m)) ∧
        m' w.c (g.at3 i j k) = m w.c (g.at3 i j k)) ∧
      (∀ b, b ∉ [w.c, w.r, w.lapRhs, w.lapArg, w.bihar, w.lin] → m' b = m b) := by
  have hok : g.Ok := ⟨by omega, by omega, by omega, by omega⟩
  obtain ⟨hGok, rfl, rfl, rfl, rfl⟩ := Geom3.ok_of_mk hok hG
  have hv' : ctorCH3 v = .ok () := by unfold ctorCH3; rw [if_pos (by omega)]
  obtain ⟨m', hd, hp, -, -⟩ := evalRHS_det hGok (w := w) ⟨hw, hsz⟩ (by omega) (by omega) (by omega) (by omega)
    hv' p dx m
  refine ⟨m', hd, ?_, hp.frame⟩
  intro i j k h1 h2 h3
  have hint : G.g.Int3 i j k := ⟨h1, h2, h3⟩
  refine ⟨?_, ?_⟩
  · rintro u rfl
    exact hp.rhs i j k hint
  rw [hp.state i j k (hint.pad hok)]
  simp only [Geom3.extField, ext3, Grid3.view]
  rw [extIdx_of_int h1.1 h1.2, extIdx_of_int h2.1 h2.2, extIdx_of_int h3.1 h3.2]

/-- Arrays named 0..5, all of the padded size: the hypotheses are satisfiable. -/
example : ∃ (G : Geom3) (w : CHArr Nat) (sz : Nat → Int),
    mkGeom3 ⟨2, 3, 4, 2⟩ .periodic .neumann .periodic = .ok G ∧
    [w.c, w.r, w.lapRhs, w.lapArg, w.bihar, w.lin].Nodup ∧
    ∀ a ∈ [w.c, w.r, w.lapRhs, w.lapArg, w.bihar, w.lin], sz a = (Grid3.mk 2 3 4 2).size :=
  ⟨_, ⟨0, 1, 2, 3, 4, 5⟩, fun _ => (Grid3.mk 2 3 4 2).size,
    mkGeom3_ok ⟨by decide, by decide, by decide, by decide⟩ _ _ _, by decide, fun _ _ => rfl⟩

/-! ### C14 -/

/-- Two kernel variants started from memories that agree on the interior of the state (halos, result and
scratch arrays arbitrary) produce the same interior result, for every mix of boundary conditions. -/
theorem C14_variants_agree (g : Grid3) (hn : 2 ≤ g.ni ∧ 2 ≤ g.nj ∧ 2 ≤ g.nk) (hh : g.nhalo = 2)
    (xbc ybc zbc : BCType) (G : Geom3) (hG : mkGeom3 g xbc ybc zbc = .ok G) (v v' : Int)
    (hv : v = 0 ∨ v = 1 ∨ v = 2) (hv' : v' = 0 ∨ v' = 1 ∨ v' = 2)
    (w : CHArr A) (hw : [w.c, w.r, w.lapRhs, w.lapArg, w.bihar, w.lin].Nodup)
    (sz : A → Int) (hsz : ∀ a ∈ [w.c, w.r, w.lapRhs, w.lapArg, w.bihar, w.lin], sz a = g.size)
    (p : CHParams K) (dx : K) (m m' : Mem A K)
    (hm : ∀ i j k, (0 ≤ i ∧ i < g.ni) → (0 ≤ j ∧ j < g.nj) → (0 ≤ k ∧ k < g.nk) →
      m w.c (g.at3 i j k) = m' w.c (g.at3 i j k)) :
    ∃ m1 m1', Det sz (G.evalRHS v p dx w) m m1 ∧ Det sz (G.evalRHS v' p dx w) m' m1' ∧
      ∀ i j k, (0 ≤ i ∧ i < g.ni) → (0 ≤ j ∧ j < g.nj) → (0 ≤ k ∧ k < g.nk) →
        m1 w.r (g.at3 i j k) = m1' w.r (g.at3 i j k) := by
  obtain ⟨m1, d1, r1, -⟩ := C13_rhs3 g hn hh xbc ybc zbc G hG v hv w hw sz hsz p dx m
  obtain ⟨m1', d1', r1', -⟩ := C13_rhs3 g hn hh xbc ybc zbc G hG v' hv' w hw sz hsz p dx m'
  refine ⟨m1, m1', d1, d1', fun i j k h1 h2 h3 => ?_⟩
  have : (fun x y z => m w.c (g.at3 (extIdx xbc g.ni x) (extIdx ybc g.nj y) (extIdx zbc g.nk z))) =
      fun x y z => m' w.c (g.at3 (extIdx xbc g.ni x) (extIdx ybc g.nj y) (extIdx zbc g.nk z)) := by
    funext x y z
    exact hm _ _ _ (extIdx_range x (by omega)) (extIdx_range y (by omega)) (extIdx_range z (by omega))
  rw [(r1 i j k h1 h2 h3).1 _ rfl, (r1' i j k h1 h2 h3).1 _ this]

/-- The constructor aborts on exactly the variants outside 0..2. -/
theorem C14_unknown_variant_aborts (v : Int) :
    (ctorCH3 v = .error .abort ↔ ¬ (v = 0 ∨ v = 1 ∨ v = 2)) ∧
    (ctorCH3 v = .ok () ↔ (v = 0 ∨ v = 1 ∨ v = 2)) := by
  unfold ctorCH3
  split
  · constructor
    · simp; omega
    · simp; omega
  · constructor
    · simp; omega
    · simp; omega

/-! ### C16 (three dimensions) -/

/-- The biharmonic kernel computes the seven-point Laplacian applied twice to the padded array, for every array
content and every spacing. -/
theorem C16_biharmonic3_is_lap_lap (g : Grid3) (hi : 1 ≤ g.ni) (hj : 1 ≤ g.nj) (hk : 1 ≤ g.nk)
    (hh : 2 ≤ g.nhalo) (xbc ybc zbc : BCType) (G : Geom3) (hG : mkGeom3 g xbc ybc zbc = .ok G)
    (sz : A → Int) (f d : A) (hne : f ≠ d) (hs : sz f = g.size) (hd : sz d = g.size) (dx : K) (m : Mem A K) :
    ∃ m', Det sz (G.biharmonic dx f d) m m' ∧
      (∀ i j k, (0 ≤ i ∧ i < g.ni) → (0 ≤ j ∧ j < g.nj) → (0 ≤ k ∧ k < g.nk) →
        m' d (g.at3 i j k) = lap3 dx (lap3 dx fun x y z => m f (g.at3 x y z)) i j k) ∧
      (∀ b, b ≠ d → m' b = m b) := by
  obtain ⟨hGok, rfl, -, -, -⟩ := Geom3.ok_of_mk ⟨hi, hj, hk, by omega⟩ hG
  obtain ⟨m', hd, hp⟩ := biharmonic_det hGok hne hs hd hh dx m
  exact ⟨m', hd, fun i j k h1 h2 h3 => hp.view i j k ⟨h1, h2, h3⟩, hp.frame⟩

/-- The Laplacian kernel computes the seven-point Laplacian of the padded array. -/
theorem C16_laplacian3 (g : Grid3) (hi : 1 ≤ g.ni) (hj : 1 ≤ g.nj) (hk : 1 ≤ g.nk)
    (hh : 1 ≤ g.nhalo) (xbc ybc zbc : BCType) (G : Geom3) (hG : mkGeom3 g xbc ybc zbc = .ok G)
    (sz : A → Int) (f d : A) (hne : f ≠ d) (hs : sz f = g.size) (hd : sz d = g.size) (dx : K) (m : Mem A K) :
    ∃ m', Det sz (G.laplacian dx f d) m m' ∧
      (∀ i j k, (0 ≤ i ∧ i < g.ni) → (0 ≤ j ∧ j < g.nj) → (0 ≤ k ∧ k < g.nk) →
        m' d (g.at3 i j k) = lap3 dx (fun x y z => m f (g.at3 x y z)) i j k) ∧
      (∀ b, b ≠ d → m' b = m b) := by
  obtain ⟨hGok, rfl, -, -, -⟩ := Geom3.ok_of_mk ⟨hi, hj, hk, by omega⟩ hG
  obtain ⟨m', hd, hp⟩ := laplacian_det hGok hne hs hd hh dx m
  exact ⟨m', hd, fun i j k h1 h2 h3 => hp.view i j k ⟨h1, h2, h3⟩, hp.frame⟩

end Madg
