/-
Truncation error of the discrete Poisson problem at the exact solution, and stability of the discrete Laplacian.
-/
import Verif.Proofs.PoisConv
import Mathlib.Analysis.Complex.Trigonometric
import Mathlib.Analysis.SpecialFunctions.Trigonometric.Basic
import Mathlib.Analysis.Real.Sqrt

set_option linter.unusedVariables false

namespace Madg
open Spec

/-- The samples of `sin x cos y cos z` on a uniform grid whose x and y lengths are multiples of `2π` satisfy the discrete
equations up to `5/16 dx²`. -/
theorem pois_truncation {ni nj nk : Int} (dx xb yb zb : ℝ) (hdx : 0 < dx) (px py : ℤ)
    (hi : 1 ≤ ni) (hj : 1 ≤ nj) (hpx : (ni : ℝ) * dx = px * (2 * Real.pi)) (hpy : (nj : ℝ) * dx = py * (2 * Real.pi))
    (e u : Int → Int → Int → ℝ)
    (hE : ∀ i j k : Int, (-1 ≤ i ∧ i < ni + 1) → (-1 ≤ j ∧ j < nj + 1) → (-1 ≤ k ∧ k < nk + 1) → e i j k =
      Real.sin (xb + (i + 1 / 2) * dx) * Real.cos (yb + (j + 1 / 2) * dx) * Real.cos (zb + (k + 1 / 2) * dx))
    (hu : ∀ i j k, (0 ≤ i ∧ i < ni) → (0 ≤ j ∧ j < nj) → (0 ≤ k ∧ k < nk) → u i j k = e i j k) :
    ∀ i j k, (0 ≤ i ∧ i < ni) → (0 ≤ j ∧ j < nj) → (0 ≤ k ∧ k < nk) →
      poisRhs dx ni nj nk e u i j k = (3 - 6 * (1 - Real.cos dx) / dx ^ 2) * e i j k ∧
      (dx ≤ 1 → |poisRhs dx ni nj nk e u i j k| ≤ 5 / 16 * dx ^ 2) := by
  intro i j k h1 h2 h3
  let E : Int → Int → Int → ℝ := fun i j k =>
    Real.sin (xb + (i + 1 / 2) * dx) * Real.cos (yb + (j + 1 / 2) * dx) * Real.cos (zb + (k + 1 / 2) * dx)
  have hwrap : ∀ (n p : ℤ) (a : ℝ), (n : ℝ) * dx = p * (2 * Real.pi) → ∀ i : ℤ,
      a + ((i % n : ℤ) + 1 / 2) * dx = a + (i + 1 / 2) * dx - ((i / n * p : ℤ) : ℝ) * (2 * Real.pi) := by
    intro n p a hp i
    have : ((i % n : ℤ) : ℝ) = i - n * (i / n : ℤ) := by
      rw [← Int.cast_mul, ← Int.cast_sub]; congr 1; rw [Int.emod_def]
    rw [this]
    push_cast
    linear_combination (-((i / n : ℤ) : ℝ)) * hp
  have hext : ∀ p q s, (-1 ≤ p ∧ p < ni + 1) → (-1 ≤ q ∧ q < nj + 1) → (-1 ≤ s ∧ s < nk + 1) →
      extDirichlet ni nj nk e u p q s = E p q s := by
    intro p q s hp hq hs'
    unfold extDirichlet
    split
    · rename_i h
      have wp : 0 ≤ wrapIdx ni p ∧ wrapIdx ni p < ni := ⟨Int.emod_nonneg _ (by omega), Int.emod_lt_of_pos _ (by omega)⟩
      have wq : 0 ≤ wrapIdx nj q ∧ wrapIdx nj q < nj := ⟨Int.emod_nonneg _ (by omega), Int.emod_lt_of_pos _ (by omega)⟩
      rw [hu _ _ _ wp wq h, hE _ _ _ (by omega) (by omega) (by omega)]
      simp only [E, wrapIdx]
      rw [hwrap ni px xb hpx p, hwrap nj py yb hpy q, Real.sin_sub_int_mul_two_pi, Real.cos_sub_int_mul_two_pi]
    · exact hE p q s hp hq hs'
  have hlap : poisRhs dx ni nj nk e u i j k = lap3 dx E i j k + 3 * E i j k := by
    rw [poisRhs, hE i j k (by omega) (by omega) (by omega)]
    congr 1
    refine lap3_congr fun a b e ha hb he => hext _ _ _ (by omega) (by omega) (by omega)
  have hd0 : dx ^ 2 ≠ 0 := by positivity
  have hval : poisRhs dx ni nj nk e u i j k = (3 - 6 * (1 - Real.cos dx) / dx ^ 2) * e i j k := by
    rw [hlap, hE i j k (by omega) (by omega) (by omega)]
    have s1 : ∀ a : ℝ, ∀ i : ℤ, a + (((i + 1 : ℤ) : ℝ) + 1 / 2) * dx = (a + ((i : ℝ) + 1 / 2) * dx) + dx := by intro a i; push_cast; ring
    have s2 : ∀ a : ℝ, ∀ i : ℤ, a + (((i - 1 : ℤ) : ℝ) + 1 / 2) * dx = (a + ((i : ℝ) + 1 / 2) * dx) - dx := by intro a i; push_cast; ring
    simp only [lap3, d2x, d2y, d2z, E, s1, s2]
    generalize xb + ((i : ℝ) + 1 / 2) * dx = X
    generalize yb + ((j : ℝ) + 1 / 2) * dx = Y
    generalize zb + ((k : ℝ) + 1 / 2) * dx = Z
    simp only [Real.sin_add, Real.sin_sub, Real.cos_add, Real.cos_sub]
    field_simp
    ring
  refine ⟨hval, fun hle => ?_⟩
  rw [hval, abs_mul]
  have hc1 : |e i j k| ≤ 1 := by
    rw [hE i j k (by omega) (by omega) (by omega), abs_mul, abs_mul]
    exact mul_le_one₀ (mul_le_one₀ (Real.abs_sin_le_one _) (abs_nonneg _) (Real.abs_cos_le_one _)) (abs_nonneg _) (Real.abs_cos_le_one _)
  have hb := Real.cos_bound (x := dx) (by rw [abs_of_pos hdx]; exact hle)
  have e2 : 3 - 6 * (1 - Real.cos dx) / dx ^ 2 = 6 / dx ^ 2 * (Real.cos dx - (1 - dx ^ 2 / 2)) := by
    field_simp
    ring
  have e3 : |3 - 6 * (1 - Real.cos dx) / dx ^ 2| ≤ 5 / 16 * dx ^ 2 := by
    rw [e2, abs_mul, abs_of_pos (by positivity : (0 : ℝ) < 6 / dx ^ 2)]
    rw [abs_of_pos hdx] at hb
    calc 6 / dx ^ 2 * |Real.cos dx - (1 - dx ^ 2 / 2)| ≤ 6 / dx ^ 2 * (dx ^ 4 * (5 / 96)) :=
          mul_le_mul_of_nonneg_left hb (by positivity)
      _ = 5 / 16 * dx ^ 2 := by field_simp; ring
  calc _ ≤ 5 / 16 * dx ^ 2 * 1 := mul_le_mul e3 hc1 (abs_nonneg _) (by positivity)
    _ = _ := mul_one _

/-- Stability: a field is bounded by its discrete Laplacian. -/
theorem lapL_stable {K : Type} [Field K] [LinearOrder K] [IsStrictOrderedRing K] {dx : K} (hdx : dx ≠ 0) {ni nj nk : Int}
    (hi : 1 ≤ ni) (hj : 1 ≤ nj) (hk : 1 ≤ nk) (v : Fld K) :
    ipL ni nj nk v v ≤ ((nk : K) * dx) ^ 4 * ipL ni nj nk (lapL dx ni nj nk v) (lapL dx ni nj nk v) := by
  have h := pois_symOp (cfl := (1 : K)) hdx zero_le_one hi hj hk
  have low := pois_low (cfl := (1 : K)) hdx zero_le_one hi hj hk
  have hn : (0 : K) < (nk : K) := by exact_mod_cast (show 0 < nk by omega)
  have cp : (0 : K) < 1 / (nk : K) ^ 2 := by positivity
  have a1 := mul_le_mul_of_nonneg_left (low v) cp.le
  have a2 := h.square cp low v
  have a3 := a1.trans a2
  simp only [LinearMap.smul_apply, map_smul, smul_eq_mul] at a3
  have e1 : 1 / (nk : K) ^ 2 * (1 / (nk : K) ^ 2 * ipL ni nj nk v v) = (1 / (nk : K) ^ 2) ^ 2 * ipL ni nj nk v v := by ring
  have e2 : -(1 * dx ^ 2) * (-(1 * dx ^ 2) * ipL ni nj nk (lapL dx ni nj nk v) (lapL dx ni nj nk v)) =
      (1 / (nk : K) ^ 2) ^ 2 * (((nk : K) * dx) ^ 4 * ipL ni nj nk (lapL dx ni nj nk v) (lapL dx ni nj nk v)) := by
    field_simp
  rw [e1, e2] at a3
  exact le_of_mul_le_mul_left a3 (by positivity)

/-- Triangle inequality for the root mean square. -/
theorem rms_triangle {ni nj nk : Int} {N : ℝ} (hN : 0 < N) (a b : Int → Int → Int → ℝ) :
    Real.sqrt (sum3 ni nj nk (fun i j k => (a i j k + b i j k) ^ 2) / N) ≤
      Real.sqrt (sum3 ni nj nk (fun i j k => a i j k ^ 2) / N) + Real.sqrt (sum3 ni nj nk (fun i j k => b i j k ^ 2) / N) := by
  set SA := sum3 ni nj nk (fun i j k => a i j k ^ 2) with hA
  set SB := sum3 ni nj nk (fun i j k => b i j k ^ 2) with hB
  set SC := sum3 ni nj nk (fun i j k => a i j k * b i j k) with hC
  have A0 : 0 ≤ SA := sum3_nonneg fun i j k => sq_nonneg _
  have B0 : 0 ≤ SB := sum3_nonneg fun i j k => sq_nonneg _
  have q : ∀ t : ℝ, sum3 ni nj nk (fun i j k => (a i j k + t * b i j k) ^ 2) = SA + 2 * t * SC + t ^ 2 * SB := by
    intro t
    rw [hA, hB, hC, ← sum3_mul, ← sum3_mul, ← sum3_add, ← sum3_add]
    congr 1; funext i j k; ring
  have q1 := q 1
  simp only [one_mul] at q1
  have cs : SC ^ 2 ≤ SA * SB := by
    have := fun t : ℝ => (sum3_nonneg (ni := ni) (nj := nj) (nk := nk) fun i j k => sq_nonneg (a i j k + t * b i j k))
    have h := discrim_le_zero (a := SB) (b := 2 * SC) (c := SA) (fun t => by
      have := this t
      rw [q t] at this
      nlinarith)
    unfold discrim at h
    nlinarith
  have hSC : SC ≤ Real.sqrt SA * Real.sqrt SB := by
    rw [← Real.sqrt_mul A0]
    exact Real.le_sqrt_of_sq_le cs
  have hs : sum3 ni nj nk (fun i j k => (a i j k + b i j k) ^ 2) ≤ (Real.sqrt SA + Real.sqrt SB) ^ 2 := by
    rw [q1, add_sq, Real.sq_sqrt A0, Real.sq_sqrt B0]
    nlinarith
  rw [Real.sqrt_div' _ hN.le, Real.sqrt_div' _ hN.le, Real.sqrt_div' _ hN.le, ← add_div]
  refine div_le_div_of_nonneg_right ?_ (Real.sqrt_nonneg _)
  exact Real.sqrt_le_iff.2 ⟨by positivity, hs⟩

end Madg
