/-
Second-order consistency of the finite-difference kernels with the differential equation (C77).
-/
import Verif.Proofs.Taylor
import Verif.Props.CH
import Verif.Props.Grid2
import Verif.Proofs.Poly
import Verif.Proofs.CH3
import Mathlib.Analysis.SpecialFunctions.Trigonometric.Deriv
import Mathlib.Analysis.SpecialFunctions.Trigonometric.DerivHyp

set_option linter.unusedVariables false

namespace Madg
open Spec

theorem centre3_shift (o : Fin 3 → ℝ) (dx : ℝ) (i j k : Int) :
    centre3 o dx (i + 1) j k = centre3 o dx i j k + Pi.single 0 dx ∧ centre3 o dx (i - 1) j k = centre3 o dx i j k - Pi.single 0 dx ∧
    centre3 o dx i (j + 1) k = centre3 o dx i j k + Pi.single 1 dx ∧ centre3 o dx i (j - 1) k = centre3 o dx i j k - Pi.single 1 dx ∧
    centre3 o dx i j (k + 1) = centre3 o dx i j k + Pi.single 2 dx ∧ centre3 o dx i j (k - 1) = centre3 o dx i j k - Pi.single 2 dx := by
  unfold centre3
  refine ⟨?_, ?_, ?_, ?_, ?_, ?_⟩ <;> funext a <;> fin_cases a <;> simp <;> ring

theorem centre2_shift (o : Fin 2 → ℝ) (dx : ℝ) (i j : Int) :
    centre2 o dx (i + 1) j = centre2 o dx i j + Pi.single 0 dx ∧ centre2 o dx (i - 1) j = centre2 o dx i j - Pi.single 0 dx ∧
    centre2 o dx i (j + 1) = centre2 o dx i j + Pi.single 1 dx ∧ centre2 o dx i (j - 1) = centre2 o dx i j - Pi.single 1 dx := by
  unfold centre2
  refine ⟨?_, ?_, ?_, ?_⟩ <;> funext a <;> fin_cases a <;> simp <;> ring

/-- The stencil applied to samples is the sampled difference operator. -/
theorem lap3_sample (o : Fin 3 → ℝ) (dx : ℝ) (u : (Fin 3 → ℝ) → ℝ) :
    lap3 dx (fun i j k => u (centre3 o dx i j k)) = fun i j k => dlap dx u (centre3 o dx i j k) := by
  funext i j k
  obtain ⟨h1, h2, h3, h4, h5, h6⟩ := centre3_shift o dx i j k
  unfold lap3 d2x d2y d2z dlap
  dsimp only
  rw [h1, h2, h3, h4, h5, h6, Fin.sum_univ_three]

theorem lap2_sample (o : Fin 2 → ℝ) (dx : ℝ) (u : (Fin 2 → ℝ) → ℝ) :
    lap2 dx (fun i j => u (centre2 o dx i j)) = fun i j => dlap dx u (centre2 o dx i j) := by
  funext i j
  obtain ⟨h1, h2, h3, h4⟩ := centre2_shift o dx i j
  unfold lap2 dlap
  dsimp only
  rw [h1, h2, h3, h4, Fin.sum_univ_two]

section
variable {A : Type} [DecidableEq A] (g : Grid3) (hi : 1 ≤ g.ni) (hj : 1 ≤ g.nj) (hk : 1 ≤ g.nk) (xbc ybc zbc : BCType)
  {G : Geom3} (hG : mkGeom3 g xbc ybc zbc = .ok G) {sz : A → Int} {s d : A} (hne : s ≠ d) (hs : sz s = g.size)
  (hd : sz d = g.size) {dx : ℝ} (hdx : 0 < dx) (o : Fin 3 → ℝ) (u : (Fin 3 → ℝ) → ℝ) (m : Mem A ℝ)
include hi hj hk hG hne hs hd hdx

/-- At every interior cell around which the array holds samples of a function with fourth derivatives bounded by `M`, the
Laplacian kernel stores the Laplacian at the cell centre up to `M dx² / 4`. -/
theorem C77_laplacian (hh : 1 ≤ g.nhalo) (hu : ContDiff ℝ (4 : ℕ) u) (M : ℝ)
    (hM : ∀ a x, |pd a (pd a (pd a (pd a u))) x| ≤ M) :
    ∃ m', Det sz (G.laplacian dx s d) m m' ∧
      ∀ i j k, (0 ≤ i ∧ i < g.ni) → (0 ≤ j ∧ j < g.nj) → (0 ≤ k ∧ k < g.nk) →
        (∀ x y z, (-1 ≤ x ∧ x ≤ 1) → (-1 ≤ y ∧ y ≤ 1) → (-1 ≤ z ∧ z ≤ 1) →
          m s (g.at3 (i + x) (j + y) (k + z)) = u (centre3 o dx (i + x) (j + y) (k + z))) →
        |m' d (g.at3 i j k) - laplace u (centre3 o dx i j k)| ≤ M / 4 * dx ^ 2 := by
  obtain ⟨hGo, rfl, -, -, -⟩ := Geom3.ok_of_mk ⟨hi, hj, hk, by omega⟩ hG
  obtain ⟨m', hdet, hw⟩ := laplacian_det hGo hne hs hd hh dx m
  refine ⟨m', hdet, fun i j k h1 h2 h3 hv => ?_⟩
  rw [hw.view i j k ⟨h1, h2, h3⟩]
  have e := lap3_congr (dx := dx) (u := fun x y z => m s (G.g.at3 x y z)) (v := fun i j k => u (centre3 o dx i j k)) hv
  rw [lap3_sample] at e
  refine (le_of_eq (congrArg (fun q => |q - _|) e)).trans ((dlap_error hu hM hdx _).trans (le_of_eq ?_))
  push_cast; ring

/-- At every interior cell around which the array holds samples of a function with sixth derivatives bounded by `M`, the
biharmonic kernel stores the biharmonic operator at the cell centre up to `3 M dx² / 2`. -/
theorem C77_biharmonic (hh : 2 ≤ g.nhalo) (hu : ContDiff ℝ (6 : ℕ) u) (M : ℝ)
    (hM : ∀ a b x, |pd b (pd b (pd b (pd b (pd a (pd a u))))) x| ≤ M) :
    ∃ m', Det sz (G.biharmonic dx s d) m m' ∧
      ∀ i j k, (0 ≤ i ∧ i < g.ni) → (0 ≤ j ∧ j < g.nj) → (0 ≤ k ∧ k < g.nk) →
        (∀ x y z, (-2 ≤ x ∧ x ≤ 2) → (-2 ≤ y ∧ y ≤ 2) → (-2 ≤ z ∧ z ≤ 2) →
          m s (g.at3 (i + x) (j + y) (k + z)) = u (centre3 o dx (i + x) (j + y) (k + z))) →
        |m' d (g.at3 i j k) - laplace (laplace u) (centre3 o dx i j k)| ≤ 3 / 2 * M * dx ^ 2 := by
  obtain ⟨hGo, rfl, -, -, -⟩ := Geom3.ok_of_mk ⟨hi, hj, hk, by omega⟩ hG
  obtain ⟨m', hdet, hw⟩ := biharmonic_det hGo hne hs hd hh dx m
  refine ⟨m', hdet, fun i j k h1 h2 h3 hv => ?_⟩
  rw [hw.view i j k ⟨h1, h2, h3⟩]
  have e := bih3_congr (dx := dx) (u := fun x y z => m s (G.g.at3 x y z)) (v := fun i j k => u (centre3 o dx i j k)) hv
  unfold bih3 at e
  rw [lap3_sample, lap3_sample o dx (dlap dx u)] at e
  refine (le_of_eq (congrArg (fun q => |q - _|) e)).trans ((dbih_error hu hM hdx _).trans (le_of_eq ?_))
  push_cast; ring

end

/-- Samples of a periodic function, continued periodically, are the samples everywhere. -/
theorem wrap3_sample {L : Fin 3 → ℝ} {u : (Fin 3 → ℝ) → ℝ} (hp : BoxPeriodic L u) {ni nj nk : Int} {dx : ℝ}
    (h0 : ni * dx = L 0) (h1 : nj * dx = L 1) (h2 : nk * dx = L 2) (o : Fin 3 → ℝ) (x y z : Int) :
    u (centre3 o dx (x % ni) (y % nj) (z % nk)) = u (centre3 o dx x y z) := by
  have e : centre3 o dx (x % ni) (y % nj) (z % nk) = centre3 o dx x y z + Pi.single 0 (((-(x / ni) : ℤ) : ℝ) * L 0) +
      Pi.single 1 (((-(y / nj) : ℤ) : ℝ) * L 1) + Pi.single 2 (((-(z / nk) : ℤ) : ℝ) * L 2) := by
    have a : ∀ p q : Int, ((p % q : Int) : ℝ) = p - q * (p / q : Int) := fun p q => by
      have := Int.emod_add_mul_ediv p q
      have h : p % q = p - q * (p / q) := by omega
      rw [h]; push_cast; ring
    rw [← h0, ← h1, ← h2]
    unfold centre3
    funext b
    simp only [Pi.add_apply, Pi.single_apply]
    fin_cases b <;> simp [a] <;> ring
  rw [e, hp.int, hp.int, hp.int]

theorem wrap2_sample {L : Fin 2 → ℝ} {u : (Fin 2 → ℝ) → ℝ} (hp : BoxPeriodic L u) {n : Int} {dx : ℝ}
    (h : ∀ a, n * dx = L a) (o : Fin 2 → ℝ) (x y : Int) : u (centre2 o dx (x % n) (y % n)) = u (centre2 o dx x y) := by
  have e : centre2 o dx (x % n) (y % n) = centre2 o dx x y + Pi.single 0 (((-(x / n) : ℤ) : ℝ) * L 0) +
      Pi.single 1 (((-(y / n) : ℤ) : ℝ) * L 1) := by
    have a : ∀ p q : Int, ((p % q : Int) : ℝ) = p - q * (p / q : Int) := fun p q => by
      have := Int.emod_add_mul_ediv p q
      have h : p % q = p - q * (p / q) := by omega
      rw [h]; push_cast; ring
    rw [← h 0, ← h 1]
    unfold centre2
    funext b
    simp only [Pi.add_apply, Pi.single_apply]
    fin_cases b <;> simp [a] <;> ring
  rw [e, hp.int, hp.int]

/-- C77. For every six times continuously differentiable function, periodic on the box, there is one constant such that on
every periodic grid covering the box, started from samples of the function at the cell centres (whatever halo and scratch
arrays contain), every kernel variant leaves the Cahn-Hilliard right-hand side of the function at the cell centres up to
that constant times the square of the spacing. -/
theorem C77_rhs3 (p : CHParams ℝ) (L : Fin 3 → ℝ) (hL : ∀ a, 0 < L a) (u : (Fin 3 → ℝ) → ℝ) (hu : ContDiff ℝ (6 : ℕ) u)
    (hp : BoxPeriodic L u) :
    ∃ C, 0 ≤ C ∧ ∀ (A : Type) [DecidableEq A] (g : Grid3) (hn : 2 ≤ g.ni ∧ 2 ≤ g.nj ∧ 2 ≤ g.nk) (hh : g.nhalo = 2)
      (G : Geom3) (hG : mkGeom3 g .periodic .periodic .periodic = .ok G) (v : Int) (hv : v = 0 ∨ v = 1 ∨ v = 2)
      (w : CHArr A) (hw : [w.c, w.r, w.lapRhs, w.lapArg, w.bihar, w.lin].Nodup)
      (sz : A → Int) (hsz : ∀ a ∈ [w.c, w.r, w.lapRhs, w.lapArg, w.bihar, w.lin], sz a = g.size)
      (dx : ℝ) (h0 : g.ni * dx = L 0) (h1 : g.nj * dx = L 1) (h2 : g.nk * dx = L 2) (o : Fin 3 → ℝ) (m : Mem A ℝ)
      (hm : ∀ i j k, (0 ≤ i ∧ i < g.ni) → (0 ≤ j ∧ j < g.nj) → (0 ≤ k ∧ k < g.nk) →
        m w.c (g.at3 i j k) = u (centre3 o dx i j k)),
      ∃ m', Det sz (G.evalRHS v p dx w) m m' ∧
        ∀ i j k, (0 ≤ i ∧ i < g.ni) → (0 ≤ j ∧ j < g.nj) → (0 ≤ k ∧ k < g.nk) →
          |m' w.r (g.at3 i j k) - chCont p u (centre3 o dx i j k)| ≤ C * dx ^ 2 := by
  obtain ⟨C, hC, hE⟩ := scheme_error p hL hu hp
  refine ⟨C, hC, ?_⟩
  intro A _ g hn hh G hG v hv w hw sz hsz dx h0 h1 h2 o m hm
  have hdx : 0 < dx := by
    have : (0 : ℝ) < g.ni := by have := hn.1; exact_mod_cast (by omega : (0 : Int) < g.ni)
    have h := hL 0
    rw [← h0] at h
    exact (mul_pos_iff_of_pos_left this).1 h
  obtain ⟨m', hd, hr, -⟩ := C13_rhs3 g hn hh .periodic .periodic .periodic G hG v hv w hw sz hsz p dx m
  refine ⟨m', hd, fun i j k hi hj hk => ?_⟩
  have e : (fun x y z => m w.c (g.at3 (extIdx .periodic g.ni x) (extIdx .periodic g.nj y) (extIdx .periodic g.nk z))) =
      fun x y z => u (centre3 o dx x y z) := by
    funext x y z
    refine (hm _ _ _ (wrapIdx_range _ (by omega)) (wrapIdx_range _ (by omega)) (wrapIdx_range _ (by omega))).trans ?_
    exact wrap3_sample hp h0 h1 h2 o x y z
  have := (hr i j k hi hj hk).1 _ e.symm
  rw [lap3_sample, lap3_sample o dx (dlap dx u), lap3_sample o dx (fun y => u y ^ 3 - u y)] at this
  rw [this]
  exact hE dx hdx _

/-- C77 in two dimensions. -/
theorem C77_rhs2 (p : CHParams ℝ) (L : Fin 2 → ℝ) (hL : ∀ a, 0 < L a) (u : (Fin 2 → ℝ) → ℝ) (hu : ContDiff ℝ (6 : ℕ) u)
    (hp : BoxPeriodic L u) :
    ∃ C, 0 ≤ C ∧ ∀ (A : Type) [DecidableEq A] (n : Int) (hn : 2 ≤ n) (G : Geom2) (hG : mkGeom2 n 2 = .ok G)
      (w : CHArr A) (hw : [w.c, w.r, w.lapRhs, w.lapArg, w.bihar, w.lin].Nodup) (sz : A → Int)
      (hsz : ∀ a ∈ [w.c, w.r, w.lapRhs, w.lapArg, w.bihar, w.lin], sz a = (n + 2 * 2) * (n + 2 * 2))
      (dx : ℝ) (h : ∀ a, n * dx = L a) (o : Fin 2 → ℝ) (m : Mem A ℝ)
      (hm : ∀ i j, (0 ≤ i ∧ i < n) → (0 ≤ j ∧ j < n) → m w.c (G.g.at2 i j) = u (centre2 o dx i j)),
      ∃ m', Det sz (G.evalRHS p dx w) m m' ∧
        ∀ i j, (0 ≤ i ∧ i < n) → (0 ≤ j ∧ j < n) → |m' w.r (G.g.at2 i j) - chCont p u (centre2 o dx i j)| ≤ C * dx ^ 2 := by
  obtain ⟨C, hC, hE⟩ := scheme_error p hL hu hp
  refine ⟨C, hC, ?_⟩
  intro A _ n hn G hG w hw sz hsz dx h o m hm
  have hdx : 0 < dx := by
    have : (0 : ℝ) < n := by exact_mod_cast (by omega : (0 : Int) < n)
    have h' := hL 0
    rw [← h 0] at h'
    exact (mul_pos_iff_of_pos_left this).1 h'
  obtain ⟨m', hd, hr, -⟩ := C15_rhs2 n hn G hG w hw sz hsz p dx m
  refine ⟨m', hd, fun i j hi hj => ?_⟩
  have e : (fun x y => m w.c (G.g.at2 (x % n) (y % n))) = fun x y => u (centre2 o dx x y) := by
    funext x y
    rw [hm _ _ ⟨Int.emod_nonneg _ (by omega), Int.emod_lt_of_pos _ (by omega)⟩ ⟨Int.emod_nonneg _ (by omega), Int.emod_lt_of_pos _ (by omega)⟩]
    exact wrap2_sample hp h o x y
  have := hr _ e.symm i j hi hj
  rw [lap2_sample, lap2_sample o dx (dlap dx u), lap2_sample o dx (fun y => u y ^ 3 - u y)] at this
  rw [this]
  exact hE dx hdx _

/-- The hypotheses on the function are met by a product of sines on a cube of side `2π`. -/
example : ∃ u : (Fin 3 → ℝ) → ℝ, ContDiff ℝ (6 : ℕ) u ∧ BoxPeriodic (fun _ => 2 * Real.pi) u ∧ u 0 ≠ u (fun _ => Real.pi / 2) := by
  refine ⟨fun x => Real.sin (x 0) * Real.cos (x 1) + Real.sin (x 2), ?_, ?_, ?_⟩
  · exact ((Real.contDiff_sin.comp (contDiff_apply ℝ ℝ 0)).mul (Real.contDiff_cos.comp (contDiff_apply ℝ ℝ 1))).add
      (Real.contDiff_sin.comp (contDiff_apply ℝ ℝ 2))
  · intro a x
    fin_cases a <;> simp
  · simp

end Madg
