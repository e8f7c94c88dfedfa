/-
Poisson verification problem (C66).
-/
import Verif.Proofs.Poisson
import Mathlib.Analysis.Complex.Trigonometric
import Mathlib.Analysis.SpecialFunctions.Trigonometric.Basic

set_option linter.unusedVariables false

namespace Madg
open Spec
variable {A K : Type} [DecidableEq A] [Field K]

section
variable (g : Grid3) (hh : 1 ≤ g.nhalo) (hi : g.nhalo ≤ g.ni) (hj : g.nhalo ≤ g.nj) (hk : g.nhalo ≤ g.nk)
  (xbc ybc zbc : BCType) (G : Geom3) (hG : mkGeom3 g xbc ybc zbc = .ok G)
  (sz : A → Int) (c r x y z : A) (hnd : [c, r, x, y, z].Nodup) (hs : ∀ a ∈ [c, r, x, y, z], sz a = g.size)
include hh hi hj hk hG hnd hs

/-- The right-hand side is the seven-point Laplacian of the state continued periodically in x and y and by the prescribed
values in the z halo, plus the source, at every interior cell, whatever the boundary types and the schedule. Only the state
and the interior of the output change. -/
theorem C66_poisson_rhs (sn cs : K → K) (dx : K) (m : Mem A K) (e : Int → Int → Int → K)
    (he : ∀ i j k, e i j k = sn (m x (g.at3 i j k)) * cs (m y (g.at3 i j k)) * cs (m z (g.at3 i j k))) :
    ∃ m', Det sz (G.poissonRHS sn cs dx ⟨c, r, x, y, z⟩) m m' ∧
      (∀ i j k, (0 ≤ i ∧ i < g.ni) → (0 ≤ j ∧ j < g.nj) → (0 ≤ k ∧ k < g.nk) →
        m' r (g.at3 i j k) = poisRhs dx g.ni g.nj g.nk e (fun i j k => m c (g.at3 i j k)) i j k ∧
        m' c (g.at3 i j k) = m c (g.at3 i j k)) ∧
      (∀ i j k, (-g.nhalo ≤ i ∧ i < g.ni + g.nhalo) → (-g.nhalo ≤ j ∧ j < g.nj + g.nhalo) → (-g.nhalo ≤ k ∧ k < g.nk + g.nhalo) →
        m' c (g.at3 i j k) = extDirichlet g.ni g.nj g.nk e (fun i j k => m c (g.at3 i j k)) i j k) ∧
      (∀ n, (∀ i j k, (0 ≤ i ∧ i < g.ni) → (0 ≤ j ∧ j < g.nj) → (0 ≤ k ∧ k < g.nk) → g.at3 i j k ≠ n) → m' r n = m r n) ∧
      (∀ b, b ≠ c → b ≠ r → m' b = m b) := by
  obtain ⟨hGo, rfl, -, -, -⟩ := Geom3.ok_of_mk ⟨by omega, by omega, by omega, by omega⟩ hG
  simp only [List.nodup_cons, List.mem_cons, List.not_mem_nil, or_false, not_or, List.nodup_nil, and_true, not_false_eq_true] at hnd
  obtain ⟨⟨n1, n2, n3, n4⟩, ⟨n5, n6, n7⟩, -⟩ := hnd
  have hw : (⟨c, r, x, y, z⟩ : PoisArr A).Ok G.g sz :=
    ⟨n1, ⟨Ne.symm n2, Ne.symm n3, Ne.symm n4⟩, ⟨Ne.symm n5, Ne.symm n6, Ne.symm n7⟩, hs c (by simp), hs r (by simp),
      hs x (by simp), hs y (by simp), hs z (by simp)⟩
  obtain ⟨m', d, v, vc, o, f⟩ := poisson_det (K := K) hGo hw hh hi hj hk sn cs dx m
  have ee : PoisArr.exact G.g sn cs (⟨c, r, x, y, z⟩ : PoisArr A) m = e := by
    funext i j k; exact (he i j k).symm
  rw [ee] at v vc
  refine ⟨m', d, ?_, fun i j k h1 h2 h3 => vc i j k ⟨h1, h2, h3⟩, fun n hn => o n fun i j k h => hn i j k h.1 h.2.1 h.2.2, f⟩
  intro i j k h1 h2 h3
  refine ⟨v i j k ⟨h1, h2, h3⟩, ?_⟩
  have := vc i j k ((show G.g.Int3 i j k from ⟨h1, h2, h3⟩).pad hGo.ok)
  simp only at this
  rw [this, extDirichlet, if_pos h3]
  simp only [wrapIdx, Int.emod_eq_of_lt h1.1 h1.2, Int.emod_eq_of_lt h2.1 h2.2]

/-- The map from the interior state to the right-hand side is affine. -/
theorem C66_affine (sn cs : K → K) (dx t : K) (m₁ m₂ m₃ : Mem A K)
    (hx : ∀ a ∈ [x, y, z], m₁ a = m₂ a ∧ m₃ a = m₂ a)
    (hc : ∀ i j k, (0 ≤ i ∧ i < g.ni) → (0 ≤ j ∧ j < g.nj) → (0 ≤ k ∧ k < g.nk) →
      m₃ c (g.at3 i j k) = t * m₁ c (g.at3 i j k) + (1 - t) * m₂ c (g.at3 i j k)) :
    ∃ m₁' m₂' m₃', Det sz (G.poissonRHS sn cs dx ⟨c, r, x, y, z⟩) m₁ m₁' ∧ Det sz (G.poissonRHS sn cs dx ⟨c, r, x, y, z⟩) m₂ m₂' ∧
      Det sz (G.poissonRHS sn cs dx ⟨c, r, x, y, z⟩) m₃ m₃' ∧
      ∀ i j k, (0 ≤ i ∧ i < g.ni) → (0 ≤ j ∧ j < g.nj) → (0 ≤ k ∧ k < g.nk) →
        m₃' r (g.at3 i j k) = t * m₁' r (g.at3 i j k) + (1 - t) * m₂' r (g.at3 i j k) := by
  have e1 := (hx x (by simp)).1; have e2 := (hx y (by simp)).1; have e3 := (hx z (by simp)).1
  have f1 := (hx x (by simp)).2; have f2 := (hx y (by simp)).2; have f3 := (hx z (by simp)).2
  let e : Int → Int → Int → K := fun i j k => sn (m₂ x (g.at3 i j k)) * cs (m₂ y (g.at3 i j k)) * cs (m₂ z (g.at3 i j k))
  obtain ⟨a, da, va, -⟩ := C66_poisson_rhs g hh hi hj hk xbc ybc zbc G hG sz c r x y z hnd hs sn cs dx m₁ e (fun i j k => by rw [e1, e2, e3])
  obtain ⟨b, db, vb, -⟩ := C66_poisson_rhs g hh hi hj hk xbc ybc zbc G hG sz c r x y z hnd hs sn cs dx m₂ e (fun i j k => rfl)
  obtain ⟨d, dd, vd, -⟩ := C66_poisson_rhs g hh hi hj hk xbc ybc zbc G hG sz c r x y z hnd hs sn cs dx m₃ e (fun i j k => by rw [f1, f2, f3])
  refine ⟨a, b, d, da, db, dd, fun i j k h1 h2 h3 => ?_⟩
  rw [(va i j k h1 h2 h3).1, (vb i j k h1 h2 h3).1, (vd i j k h1 h2 h3).1]
  have key : ∀ p q s, extDirichlet g.ni g.nj g.nk e (fun i j k => m₃ c (g.at3 i j k)) p q s =
      t * extDirichlet g.ni g.nj g.nk e (fun i j k => m₁ c (g.at3 i j k)) p q s +
        (1 - t) * extDirichlet g.ni g.nj g.nk e (fun i j k => m₂ c (g.at3 i j k)) p q s := by
    intro p q s
    unfold extDirichlet
    split
    · rename_i h
      exact hc _ _ _ ⟨Int.emod_nonneg _ (by omega), Int.emod_lt_of_pos _ (by omega)⟩
        ⟨Int.emod_nonneg _ (by omega), Int.emod_lt_of_pos _ (by omega)⟩ h
    · ring
  simp only [poisRhs, lap3, d2x, d2y, d2z, key]
  ring

/-- Second-order consistency: when the coordinates are those of a uniform grid whose x and y lengths are multiples of `2π`
and the state holds samples of the exact solution `sin x cos y cos z`, the right-hand side is
`3 - 6 (1 - cos dx) / dx²` times the exact solution, hence at most `5/16 dx²` for `dx ≤ 1`. -/
theorem C66_consistency (dx xb yb zb : ℝ) (hdx : 0 < dx) (px py : ℤ) (hpx : (g.ni : ℝ) * dx = px * (2 * Real.pi))
    (hpy : (g.nj : ℝ) * dx = py * (2 * Real.pi)) (m : Mem A ℝ)
    (hco : ∀ i j k, (-g.nhalo ≤ i ∧ i < g.ni + g.nhalo) → (-g.nhalo ≤ j ∧ j < g.nj + g.nhalo) → (-g.nhalo ≤ k ∧ k < g.nk + g.nhalo) →
      m x (g.at3 i j k) = xb + (i + 1 / 2) * dx ∧ m y (g.at3 i j k) = yb + (j + 1 / 2) * dx ∧ m z (g.at3 i j k) = zb + (k + 1 / 2) * dx)
    (hm : ∀ i j k, (0 ≤ i ∧ i < g.ni) → (0 ≤ j ∧ j < g.nj) → (0 ≤ k ∧ k < g.nk) →
      m c (g.at3 i j k) = Real.sin (m x (g.at3 i j k)) * Real.cos (m y (g.at3 i j k)) * Real.cos (m z (g.at3 i j k))) :
    ∃ m', Det sz (G.poissonRHS Real.sin Real.cos dx ⟨c, r, x, y, z⟩) m m' ∧
      ∀ i j k, (0 ≤ i ∧ i < g.ni) → (0 ≤ j ∧ j < g.nj) → (0 ≤ k ∧ k < g.nk) →
        m' r (g.at3 i j k) = (3 - 6 * (1 - Real.cos dx) / dx ^ 2) * m c (g.at3 i j k) ∧
        (dx ≤ 1 → |m' r (g.at3 i j k)| ≤ 5 / 16 * dx ^ 2) := by
  obtain ⟨m', d, v, -⟩ := C66_poisson_rhs g hh hi hj hk xbc ybc zbc G hG sz c r x y z hnd hs Real.sin Real.cos dx m _ (fun i j k => rfl)
  refine ⟨m', d, fun i j k h1 h2 h3 => ?_⟩
  let E : Int → Int → Int → ℝ := fun i j k =>
    Real.sin (xb + (i + 1 / 2) * dx) * Real.cos (yb + (j + 1 / 2) * dx) * Real.cos (zb + (k + 1 / 2) * dx)
  have hE : ∀ i j k, (-g.nhalo ≤ i ∧ i < g.ni + g.nhalo) → (-g.nhalo ≤ j ∧ j < g.nj + g.nhalo) → (-g.nhalo ≤ k ∧ k < g.nk + g.nhalo) →
      Real.sin (m x (g.at3 i j k)) * Real.cos (m y (g.at3 i j k)) * Real.cos (m z (g.at3 i j k)) = E i j k := by
    intro i j k h1 h2 h3
    obtain ⟨a, b, e⟩ := hco i j k h1 h2 h3
    rw [a, b, e]
  have hwrap : ∀ (n p : ℤ) (a : ℝ), (n : ℝ) * dx = p * (2 * Real.pi) → ∀ i : ℤ,
      a + ((i % n : ℤ) + 1 / 2) * dx = a + (i + 1 / 2) * dx - ((i / n * p : ℤ) : ℝ) * (2 * Real.pi) := by
    intro n p a hp i
    have : ((i % n : ℤ) : ℝ) = i - n * (i / n : ℤ) := by
      rw [← Int.cast_mul, ← Int.cast_sub]; congr 1; rw [Int.emod_def]
    rw [this]
    push_cast
    linear_combination (-((i / n : ℤ) : ℝ)) * hp
  have hext : ∀ p q s, (-g.nhalo ≤ p ∧ p < g.ni + g.nhalo) → (-g.nhalo ≤ q ∧ q < g.nj + g.nhalo) → (-g.nhalo ≤ s ∧ s < g.nk + g.nhalo) →
      extDirichlet g.ni g.nj g.nk (fun i j k => Real.sin (m x (g.at3 i j k)) * Real.cos (m y (g.at3 i j k)) * Real.cos (m z (g.at3 i j k)))
        (fun i j k => m c (g.at3 i j k)) p q s = E p q s := by
    intro p q s hp hq hs'
    unfold extDirichlet
    split
    · rename_i h
      have wp : 0 ≤ wrapIdx g.ni p ∧ wrapIdx g.ni p < g.ni := ⟨Int.emod_nonneg _ (by omega), Int.emod_lt_of_pos _ (by omega)⟩
      have wq : 0 ≤ wrapIdx g.nj q ∧ wrapIdx g.nj q < g.nj := ⟨Int.emod_nonneg _ (by omega), Int.emod_lt_of_pos _ (by omega)⟩
      beta_reduce
      rw [hm _ _ _ wp wq h, hE _ _ _ (by omega) (by omega) (by omega)]
      simp only [E, wrapIdx]
      rw [hwrap g.ni px xb hpx p, hwrap g.nj py yb hpy q, Real.sin_sub_int_mul_two_pi, Real.cos_sub_int_mul_two_pi]
    · exact hE p q s hp hq hs'
  have hlap : m' r (g.at3 i j k) = lap3 dx E i j k + 3 * E i j k := by
    rw [(v i j k h1 h2 h3).1, poisRhs, hE i j k (by omega) (by omega) (by omega)]
    congr 1
    refine lap3_congr fun a b e ha hb he => hext _ _ _ (by omega) (by omega) (by omega)
  have hd0 : dx ^ 2 ≠ 0 := by positivity
  have hval : m' r (g.at3 i j k) = (3 - 6 * (1 - Real.cos dx) / dx ^ 2) * m c (g.at3 i j k) := by
    rw [hlap, hm i j k h1 h2 h3, hE i j k (by omega) (by omega) (by omega)]
    have s1 : ∀ a : ℝ, ∀ i : ℤ, a + (((i + 1 : ℤ) : ℝ) + 1 / 2) * dx = (a + ((i : ℝ) + 1 / 2) * dx) + dx := by intro a i; push_cast; ring
    have s2 : ∀ a : ℝ, ∀ i : ℤ, a + (((i - 1 : ℤ) : ℝ) + 1 / 2) * dx = (a + ((i : ℝ) + 1 / 2) * dx) - dx := by intro a i; push_cast; ring
    simp only [lap3, d2x, d2y, d2z, E, s1, s2]
    generalize xb + ((i : ℝ) + 1 / 2) * dx = X
    generalize yb + ((j : ℝ) + 1 / 2) * dx = Y
    generalize zb + ((k : ℝ) + 1 / 2) * dx = Z
    simp only [Real.sin_add, Real.sin_sub, Real.cos_add, Real.cos_sub]
    field_simp
    ring
  refine ⟨hval, fun hle => ?_⟩
  rw [hval, abs_mul]
  have hc1 : |m c (g.at3 i j k)| ≤ 1 := by
    rw [hm i j k h1 h2 h3, abs_mul, abs_mul]
    have a := Real.abs_sin_le_one (m x (g.at3 i j k))
    have b := Real.abs_cos_le_one (m y (g.at3 i j k))
    have e := Real.abs_cos_le_one (m z (g.at3 i j k))
    exact mul_le_one₀ (mul_le_one₀ a (abs_nonneg _) b) (abs_nonneg _) e
  have hb := Real.cos_bound (x := dx) (by rw [abs_of_pos hdx]; exact hle)
  have e2 : 3 - 6 * (1 - Real.cos dx) / dx ^ 2 = 6 / dx ^ 2 * (Real.cos dx - (1 - dx ^ 2 / 2)) := by
    field_simp
    ring
  have e3 : |3 - 6 * (1 - Real.cos dx) / dx ^ 2| ≤ 5 / 16 * dx ^ 2 := by
    rw [e2, abs_mul, abs_of_pos (by positivity : (0 : ℝ) < 6 / dx ^ 2)]
    rw [abs_of_pos hdx] at hb
    calc 6 / dx ^ 2 * |Real.cos dx - (1 - dx ^ 2 / 2)| ≤ 6 / dx ^ 2 * (dx ^ 4 * (5 / 96)) :=
          mul_le_mul_of_nonneg_left hb (by positivity)
      _ = 5 / 16 * dx ^ 2 := by field_simp; ring
  calc _ ≤ 5 / 16 * dx ^ 2 * 1 := mul_le_mul e3 hc1 (abs_nonneg _) (by positivity)
    _ = _ := mul_one _

end

/-- The hypotheses of the theorems above can be met: a non-cubic grid, five arrays. -/
example : ∃ (sz : Fin 5 → Int) (G : Geom3), mkGeom3 ⟨3, 4, 5, 2⟩ .periodic .periodic .dirichlet = .ok G ∧
    [(0 : Fin 5), 1, 2, 3, 4].Nodup ∧ (∀ a ∈ [(0 : Fin 5), 1, 2, 3, 4], sz a = (⟨3, 4, 5, 2⟩ : Grid3).size) :=
  ⟨fun _ => (⟨3, 4, 5, 2⟩ : Grid3).size, _, mkGeom3_ok ⟨by decide, by decide, by decide, by decide⟩ _ _ _, by decide, fun _ _ => rfl⟩

/-- Uniform coordinates and samples of the exact solution, as needed by `C66_consistency`, with `dx = π / 4`, eight cells in x
and y. -/
example : ∃ (m : Mem (Fin 5) ℝ), ((8 : ℤ) : ℝ) * (Real.pi / 4) = (1 : ℤ) * (2 * Real.pi) ∧
    (∀ i j k, (-2 ≤ i ∧ i < 10) → (-2 ≤ j ∧ j < 10) → (-2 ≤ k ∧ k < 5) →
      m 2 ((⟨8, 8, 3, 2⟩ : Grid3).at3 i j k) = 0 + (i + 1 / 2) * (Real.pi / 4) ∧
      m 3 ((⟨8, 8, 3, 2⟩ : Grid3).at3 i j k) = 0 + (j + 1 / 2) * (Real.pi / 4) ∧
      m 4 ((⟨8, 8, 3, 2⟩ : Grid3).at3 i j k) = 0 + (k + 1 / 2) * (Real.pi / 4)) ∧
    ∀ n, m 0 n = Real.sin (m 2 n) * Real.cos (m 3 n) * Real.cos (m 4 n) := by
  let g : Grid3 := ⟨8, 8, 3, 2⟩
  let X : Int → ℝ := fun n => 0 + (g.getI n + 1 / 2) * (Real.pi / 4)
  let Y : Int → ℝ := fun n => 0 + (g.getJ n + 1 / 2) * (Real.pi / 4)
  let Z : Int → ℝ := fun n => 0 + (g.getK n + 1 / 2) * (Real.pi / 4)
  refine ⟨fun a n => if a = 2 then X n else if a = 3 then Y n else if a = 4 then Z n else
    Real.sin (X n) * Real.cos (Y n) * Real.cos (Z n), by push_cast; ring, ?_, ?_⟩
  · intro i j k h1 h2 h3
    have hp : g.Pad i j k := by simp only [Grid3.Pad, g]; omega
    obtain ⟨e1, e2, e3⟩ := Grid3.get_at3 hp
    refine ⟨?_, ?_, ?_⟩
    · simp only [if_true]; show 0 + (((g.getI (g.at3 i j k) : ℤ) : ℝ) + 1 / 2) * _ = _; rw [e1]
    · show 0 + (((g.getJ (g.at3 i j k) : ℤ) : ℝ) + 1 / 2) * _ = _; rw [e2]
    · show 0 + (((g.getK (g.at3 i j k) : ℤ) : ℝ) + 1 / 2) * _ = _; rw [e3]
  · intro n
    rfl

end Madg
