/-
Order three of the Runge–Kutta runs on the semi-discrete Cahn–Hilliard equations.
-/
import Verif.Proofs.RKConv
import Verif.Proofs.CHLap
import Verif.Proofs.BC3
import Mathlib.Topology.Algebra.Module.FiniteDimension
import Mathlib.Analysis.Normed.Ring.Basic
import Mathlib.Analysis.Normed.Module.FiniteDimension
import Mathlib.Analysis.Calculus.Deriv.Prod
import Mathlib.Algebra.Algebra.Bilinear

set_option linter.unusedVariables false

namespace Madg
open Spec

section
variable {ι : Type} [Fintype ι] (Q M : (ι → ℝ) →ₗ[ℝ] (ι → ℝ)) (c : ι → ℝ)

/-- Derivative of the cubic field. -/
noncomputable def cubA (y : ι → ℝ) : (ι → ℝ) →ₗ[ℝ] (ι → ℝ) := Q ∘ₗ LinearMap.mulLeft ℝ ((3 : ℝ) • y ^ 2) + M

/-- Half the second derivative. -/
noncomputable def cubB (y : ι → ℝ) : (ι → ℝ) →ₗ[ℝ] (ι → ℝ) →ₗ[ℝ] (ι → ℝ) :=
  (LinearMap.mul ℝ (ι → ℝ)).compr₂ Q ∘ₗ LinearMap.mulLeft ℝ ((3 : ℝ) • y)

theorem lin_bound (Q : (ι → ℝ) →ₗ[ℝ] (ι → ℝ)) : ∃ K, 0 ≤ K ∧ ∀ v, ‖Q v‖ ≤ K * ‖v‖ :=
  ⟨‖Q.toContinuousLinearMap‖, norm_nonneg _, fun v => Q.toContinuousLinearMap.le_opNorm v⟩

/-- A field `Q(u³) + M u + c` with linear `Q` and `M` is cubic. -/
theorem cubic_field : Cubic (fun u => Q (u ^ 3) + M u + c) (cubA Q M) (cubB Q) where
  bnd b := by
    obtain ⟨q, q0, hq⟩ := lin_bound Q
    obtain ⟨r, r0, hr⟩ := lin_bound M
    refine ⟨q * |b| ^ 3 + r * |b| + ‖c‖ + (q * (3 * |b| ^ 2) + r) + q * (3 * |b|) + q, by positivity, fun y hy => ?_⟩
    have hb : ‖y‖ ≤ |b| := hy.trans (le_abs_self b)
    obtain ⟨β, hβ⟩ : ∃ β, β = |b| := ⟨_, rfl⟩
    rw [← hβ] at hb ⊢
    have β0 : 0 ≤ β := hβ ▸ abs_nonneg b
    have p3 : ∀ d : ι → ℝ, ‖d ^ 3‖ ≤ ‖d‖ ^ 3 := fun d => norm_pow_le' d (by norm_num)
    have p2 : ∀ d : ι → ℝ, ‖d ^ 2‖ ≤ ‖d‖ ^ 2 := fun d => norm_pow_le' d (by norm_num)
    have t1 : 0 ≤ q * β ^ 3 := by positivity
    have t2 : 0 ≤ r * β := by positivity
    have t3 : 0 ≤ q * (3 * β ^ 2) := by positivity
    have t4 : 0 ≤ q * (3 * β) := by positivity
    have t5 := norm_nonneg c
    refine ⟨?_, fun d => ?_, fun d e => ?_, fun d => ?_⟩
    · refine (norm_add_le _ _).trans ((add_le_add_left (norm_add_le _ _) _).trans ?_)
      have h1 := (hq (y ^ 3)).trans (mul_le_mul_of_nonneg_left ((p3 y).trans (pow_le_pow_left₀ (norm_nonneg _) hb 3)) q0)
      have h2 := (hr y).trans (mul_le_mul_of_nonneg_left hb r0)
      linarith
    · have e : cubA Q M y d = Q ((3 : ℝ) • y ^ 2 * d) + M d := rfl
      rw [e]
      refine (norm_add_le _ _).trans ?_
      have h1 : ‖(3 : ℝ) • y ^ 2 * d‖ ≤ 3 * β ^ 2 * ‖d‖ := by
        refine (norm_mul_le _ _).trans (mul_le_mul_of_nonneg_right ?_ (norm_nonneg _))
        rw [norm_smul, Real.norm_of_nonneg (by norm_num)]
        exact mul_le_mul_of_nonneg_left ((p2 y).trans (pow_le_pow_left₀ (norm_nonneg _) hb 2)) (by norm_num)
      have h2 := (hq _).trans (mul_le_mul_of_nonneg_left h1 q0)
      have h3 := hr d
      have h4 : 0 ≤ (q * β ^ 3 + r * β + ‖c‖ + q * (3 * β) + q) * ‖d‖ := mul_nonneg (by linarith) (norm_nonneg _)
      linarith
    · have e' : cubB Q y d e = Q ((3 : ℝ) • y * d * e) := rfl
      rw [e']
      have h1 : ‖(3 : ℝ) • y * d * e‖ ≤ 3 * β * ‖d‖ * ‖e‖ := by
        refine (norm_mul_le _ _).trans (mul_le_mul_of_nonneg_right ?_ (norm_nonneg _))
        refine (norm_mul_le _ _).trans (mul_le_mul_of_nonneg_right ?_ (norm_nonneg _))
        rw [norm_smul, Real.norm_of_nonneg (by norm_num)]
        exact mul_le_mul_of_nonneg_left hb (by norm_num)
      have h2 := (hq _).trans (mul_le_mul_of_nonneg_left h1 q0)
      have h4 : 0 ≤ (q * β ^ 3 + r * β + ‖c‖ + (q * (3 * β ^ 2) + r) + q) * (‖d‖ * ‖e‖) :=
        mul_nonneg (by linarith) (mul_nonneg (norm_nonneg _) (norm_nonneg _))
      linarith
    · have e : Q ((y + d) ^ 3) + M (y + d) + c - (Q (y ^ 3) + M y + c) - cubA Q M y d - cubB Q y d d = Q (d ^ 3) := by
        have e1 : cubA Q M y d = Q ((3 : ℝ) • y ^ 2 * d) + M d := rfl
        have e2 : cubB Q y d d = Q ((3 : ℝ) • y * d * d) := rfl
        have e3 : (y + d) ^ 3 = y ^ 3 + (3 : ℝ) • y ^ 2 * d + (3 : ℝ) • y * d * d + d ^ 3 := by
          funext i; simp only [Pi.pow_apply, Pi.add_apply, Pi.mul_apply, Pi.smul_apply, smul_eq_mul]; ring
        rw [e1, e2, e3]
        simp only [map_add]
        abel
      rw [e]
      have h2 := (hq _).trans (mul_le_mul_of_nonneg_left (p3 d) q0)
      have h4 : 0 ≤ (q * β ^ 3 + r * β + ‖c‖ + (q * (3 * β ^ 2) + r) + q * (3 * β)) * ‖d‖ ^ 3 :=
        mul_nonneg (by linarith) (by positivity)
      linarith

end

/-- Runs commute with a linear map that intertwines the fields. -/
theorem RK3c.run_map {U V : Type} [AddCommGroup U] [Module ℝ U] [AddCommGroup V] [Module ℝ V] (T : RK3c) (R : U →ₗ[ℝ] V)
    {F : U → U} {G : V → V} (h : ∀ u, R (F u) = G (R u)) (dts : List ℝ) (u : U) : R (T.run F dts u) = T.run G dts (R u) := by
  induction dts generalizing u with
  | nil => rfl
  | cons dt dts ih =>
    rw [RK3c.run, RK3c.run, ih]
    congr 1
    simp only [RK3c.step, RK3c.y3, RK3c.y2, map_add, map_smul, h]

/-- Order three for a cubic field on functions over a finite set of cells. -/
theorem cells_converges {C : Type} (S : Finset C) (T : RK3c) (o2 : T.b2 * T.a21 + T.b3 * (T.a31 + T.a32) = 1 / 2)
    (o3 : T.b2 * T.a21 ^ 2 + T.b3 * (T.a31 + T.a32) ^ 2 = 1 / 3) (o4 : T.b3 * T.a32 * T.a21 = 1 / 6)
    (G : (C → ℝ) → C → ℝ) (Q M : (S → ℝ) →ₗ[ℝ] (S → ℝ)) (k : S → ℝ)
    (hG : ∀ u (c : S), G u c = (Q (fun c => u c ^ 3) + M (fun c => u c) + k : S → ℝ) c)
    {Tm : ℝ} {y : ℝ → C → ℝ}
    (hy : ∀ t ∈ Set.Icc 0 Tm, ∀ c ∈ S, HasDerivWithinAt (fun t => y t c) (G (y t) c) (Set.Icc 0 Tm) t) (a : ℝ) (ha : 0 ≤ a) :
    ∃ K δ0, 0 ≤ K ∧ 0 < δ0 ∧ ∀ δ, 0 ≤ δ → δ ≤ δ0 → ∀ dts : List ℝ, (∀ d ∈ dts, 0 ≤ d ∧ d ≤ δ) → dts.sum ≤ Tm → ∀ u : C → ℝ,
      (∀ c ∈ S, |u c - y 0 c| ≤ a * δ ^ 3) → ∀ c ∈ S, |T.run G dts u c - y dts.sum c| ≤ K * δ ^ 3 := by
  obtain ⟨K, δ0, K0, d0, H⟩ := (cubic_field Q M k).converges T o2 o3 o4 (Tm := Tm) (y := fun t (c : S) => y t c)
    (fun t ht => by
      rw [hasDerivWithinAt_pi]
      intro c
      have := hy t ht c c.2
      rw [hG] at this
      exact this) a ha
  refine ⟨K, δ0, K0, d0, fun δ h0 hδ dts hd hs u hu c hc => ?_⟩
  have := H δ h0 hδ dts hd hs (fun c => u c) (by
    rw [pi_norm_le_iff_of_nonneg (by positivity)]
    intro c; exact hu c c.2)
  have e := T.run_map (LinearMap.funLeft ℝ ℝ ((↑) : S → C)) (F := G) (G := fun u => Q (u ^ 3) + M u + k)
    (fun u => funext fun c => by exact hG u c) dts u
  have e' : (fun c : S => T.run G dts u c) = T.run (fun u => Q (u ^ 3) + M u + k) dts (fun c : S => u c) := e
  rw [← e'] at this
  exact (norm_le_pi_norm (fun c : S => T.run G dts u c - y dts.sum c) ⟨c, hc⟩).trans this

section
variable (bx bY bz : BCType) {ni nj nk : Int} (hi : 1 ≤ ni) (hj : 1 ≤ nj) (hk : 1 ≤ nk)

/-- Extension of a field known on the interior cells. -/
noncomputable def xt3 : (cells3 ni nj nk → ℝ) →ₗ[ℝ] (Int → Int → Int → ℝ) where
  toFun v i j k := v ⟨(extIdx bx ni i, extIdx bY nj j, extIdx bz nk k),
    (mem_cells3 ni nj nk _).2 ⟨extIdx_range i hi, extIdx_range j hj, extIdx_range k hk⟩⟩
  map_add' u v := rfl
  map_smul' r u := rfl

/-- `Δ` on the interior. -/
noncomputable def lapR3 (dx : ℝ) : (cells3 ni nj nk → ℝ) →ₗ[ℝ] (cells3 ni nj nk → ℝ) where
  toFun v c := lap3 dx (xt3 bx bY bz hi hj hk v) c.1.1 c.1.2.1 c.1.2.2
  map_add' u v := by
    funext c
    simp only [lap3, d2x, d2y, d2z, map_add, Pi.add_apply]; ring
  map_smul' r u := by
    funext c
    simp only [lap3, d2x, d2y, d2z, map_smul, Pi.smul_apply, smul_eq_mul, RingHom.id_apply]; ring

/-- `Δ²` on the interior. -/
noncomputable def bihR3 (dx : ℝ) : (cells3 ni nj nk → ℝ) →ₗ[ℝ] (cells3 ni nj nk → ℝ) where
  toFun v c := bih3 dx (xt3 bx bY bz hi hj hk v) c.1.1 c.1.2.1 c.1.2.2
  map_add' u v := by
    funext c
    simp only [bih3, lap3, d2x, d2y, d2z, map_add, Pi.add_apply]; ring
  map_smul' r u := by
    funext c
    simp only [bih3, lap3, d2x, d2y, d2z, map_smul, Pi.smul_apply, smul_eq_mul, RingHom.id_apply]; ring

/-- Linear part of the Cahn–Hilliard right-hand side. -/
noncomputable def chM3 (p : CHParams ℝ) (dx : ℝ) : (cells3 ni nj nk → ℝ) →ₗ[ℝ] (cells3 ni nj nk → ℝ) :=
  (-p.eps2) • bihR3 bx bY bz hi hj hk dx - lapR3 bx bY bz hi hj hk dx - p.sigma • LinearMap.id

theorem chField3_cubic (p : CHParams ℝ) (dx t : ℝ) (u : Int × Int × Int → ℝ) (c : cells3 ni nj nk) :
    chField3 p dx bx bY bz ni nj nk t u c = (lapR3 bx bY bz hi hj hk dx (fun c => u c ^ 3) +
      chM3 bx bY bz hi hj hk p dx (fun c => u c) +
      (fun _ => p.sigma * p.m) : cells3 ni nj nk → ℝ) c := by
  obtain ⟨⟨i, j, k⟩, hc⟩ := c
  obtain ⟨h1, h2, h3⟩ := (mem_cells3 ni nj nk _).1 hc
  dsimp only at h1 h2 h3
  have e : (ext3 bx bY bz ni nj nk fun i j k => u (i, j, k)) i j k = u (i, j, k) := by
    simp only [ext3, extIdx_of_int h1.1 h1.2, extIdx_of_int h2.1 h2.2, extIdx_of_int h3.1 h3.2]
  have x1 : (xt3 bx bY bz hi hj hk fun c => u c) = ext3 bx bY bz ni nj nk fun i j k => u (i, j, k) := rfl
  have x3 : (xt3 bx bY bz hi hj hk fun c => u c ^ 3) = fun x y z => (ext3 bx bY bz ni nj nk fun i j k => u (i, j, k)) x y z ^ 3 := rfl
  simp only [chField3, chRhs3, chM3, Pi.add_apply, LinearMap.sub_apply, LinearMap.smul_apply, Pi.sub_apply, Pi.smul_apply, LinearMap.id_apply,
    smul_eq_mul, lapR3, bihR3, LinearMap.coe_mk, AddHom.coe_mk, x1, x3, e]
  simp only [lap3, d2x, d2y, d2z]
  ring

end

section
variable {n : Int} (hn : 1 ≤ n)

/-- Extension of a field known on the interior cells. -/
noncomputable def xt2 : (cells2 n → ℝ) →ₗ[ℝ] (Int → Int → ℝ) where
  toFun v i j := v ⟨(wrapIdx n i, wrapIdx n j), (mem_cells2 n _).2 ⟨wrapIdx_range i hn, wrapIdx_range j hn⟩⟩
  map_add' u v := rfl
  map_smul' r u := rfl

/-- `Δ` on the interior. -/
noncomputable def lapR2 (dx : ℝ) : (cells2 n → ℝ) →ₗ[ℝ] (cells2 n → ℝ) where
  toFun v c := lap2 dx (xt2 hn v) c.1.1 c.1.2
  map_add' u v := by
    funext c
    simp only [lap2, map_add, Pi.add_apply]; ring
  map_smul' r u := by
    funext c
    simp only [lap2, map_smul, Pi.smul_apply, smul_eq_mul, RingHom.id_apply]; ring

/-- `Δ²` on the interior. -/
noncomputable def bihR2 (dx : ℝ) : (cells2 n → ℝ) →ₗ[ℝ] (cells2 n → ℝ) where
  toFun v c := bih2 dx (xt2 hn v) c.1.1 c.1.2
  map_add' u v := by
    funext c
    simp only [bih2, lap2, map_add, Pi.add_apply]; ring
  map_smul' r u := by
    funext c
    simp only [bih2, lap2, map_smul, Pi.smul_apply, smul_eq_mul, RingHom.id_apply]; ring

/-- Linear part of the Cahn–Hilliard right-hand side. -/
noncomputable def chM2 (p : CHParams ℝ) (dx : ℝ) : (cells2 n → ℝ) →ₗ[ℝ] (cells2 n → ℝ) :=
  (-p.eps2) • bihR2 hn dx - lapR2 hn dx - p.sigma • LinearMap.id

theorem chField2_cubic (p : CHParams ℝ) (dx t : ℝ) (u : Int × Int → ℝ) (c : cells2 n) :
    chField2 p dx n t u c = (lapR2 hn dx (fun c => u c ^ 3) +
      chM2 hn p dx (fun c => u c) +
      (fun _ => p.sigma * p.m) : cells2 n → ℝ) c := by
  obtain ⟨⟨i, j⟩, hc⟩ := c
  obtain ⟨h1, h2⟩ := (mem_cells2 n _).1 hc
  dsimp only at h1 h2
  have e : (ext2 n fun i j => u (i, j)) i j = u (i, j) := by
    simp only [ext2, wrapIdx_of_int h1.1 h1.2, wrapIdx_of_int h2.1 h2.2]
  have x1 : (xt2 hn fun c => u c) = ext2 n fun i j => u (i, j) := rfl
  have x3 : (xt2 hn fun c => u c ^ 3) = fun x y => (ext2 n fun i j => u (i, j)) x y ^ 3 := rfl
  simp only [chField2, chRhs2, chM2, Pi.add_apply, LinearMap.sub_apply, LinearMap.smul_apply, Pi.sub_apply, Pi.smul_apply, LinearMap.id_apply,
    smul_eq_mul, lapR2, bihR2, LinearMap.coe_mk, AddHom.coe_mk, x1, x3, e]
  simp only [lap2]
  ring

end

end Madg
