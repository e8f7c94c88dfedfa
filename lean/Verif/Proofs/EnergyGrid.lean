/-
The abstract energy estimates on the periodic grids of the program.
-/
import Verif.Proofs.Energy
import Verif.Proofs.CHLap
import Verif.Proofs.RKField
import Verif.Proofs.ProgramInit
import Verif.Spec.Energy
import Mathlib.Topology.Algebra.InfiniteSum.Real
import Mathlib.Topology.Algebra.InfiniteSum.Order

set_option linter.unusedVariables false
set_option linter.unusedSectionVars false

namespace Madg
open Madg.Spec Finset

theorem ssp3c_step {C : Type} (F : ℝ → (C → ℝ) → C → ℝ) (hF : ∀ t s, F t = F s) (t dt : ℝ) (y : C → ℝ) :
    (ssprk3 : Tableau ℝ).step F t dt y = ssp3c.step (F 0) dt y ∧ (ssprk3 : Tableau ℝ).slope F t dt y = ssp3c.slope (F 0) dt y := by
  rw [Tableau.step, ssprk3_slope, ssprk3_stage0, ssprk3_stage1, ssprk3_stage2]
  simp only [RK3c.step, RK3c.slope, RK3c.y2, RK3c.y3, ssp3c, hF _ 0, mul_one, one_smul, and_self]

theorem bs3c_step {C : Type} (F : ℝ → (C → ℝ) → C → ℝ) (hF : ∀ t s, F t = F s) (t dt : ℝ) (y : C → ℝ) :
    (bs23 : Tableau ℝ).step F t dt y = bs3c.step (F 0) dt y ∧ (bs23 : Tableau ℝ).slope F t dt y = bs3c.slope (F 0) dt y := by
  rw [Tableau.step, bs23_slope, bs23_stage0, bs23_stage1, bs23_stage2]
  simp only [RK3c.step, RK3c.slope, RK3c.y2, RK3c.y3, bs3c, hF _ 0, mul_smul, and_self]

/-- Both methods of the program as instances of the abstract one. -/
theorem rk_pair {T : Tableau ℝ} (hT : T = ssprk3 ∨ T = bs23) : ∃ S : RK3c,
    (S.b2 * S.a21 + S.b3 * (S.a31 + S.a32) = 1 / 2 ∧ S.b3 * S.a32 * S.a21 = 1 / 6) ∧
    ∀ {C : Type} (F : ℝ → (C → ℝ) → C → ℝ), (∀ t s, F t = F s) → ∀ t dt y,
      T.step F t dt y = S.step (F 0) dt y ∧ T.slope F t dt y = S.slope (F 0) dt y := by
  rcases hT with rfl | rfl
  · exact ⟨ssp3c, by norm_num [ssp3c], fun F hF t dt y => ssp3c_step F hF t dt y⟩
  · exact ⟨bs3c, by norm_num [bs3c], fun F hF t dt y => bs3c_step F hF t dt y⟩

theorem RK3c.step_map {U V : Type} [AddCommGroup U] [Module ℝ U] [AddCommGroup V] [Module ℝ V] (T : RK3c) (R : U →ₗ[ℝ] V)
    {F : U → U} {G : V → V} (h : ∀ u, R (F u) = G (R u)) (dt : ℝ) (u : U) :
    R (T.step F dt u) = T.step G dt (R u) ∧ R (T.slope F dt u) = T.slope G dt (R u) := by
  simp only [RK3c.step, RK3c.slope, RK3c.y3, RK3c.y2, map_add, map_smul, h, and_self]

theorem int_const {f : Int → ℝ} (hf : ∀ x, f (x + 1) = f x) (x : Int) : f x = f 0 := by
  induction x using Int.induction_on with
  | zero => rfl
  | succ n ih => rw [hf]; exact ih
  | pred n ih =>
    have h := hf (-(n : Int) - 1)
    have e : -(n : Int) - 1 + 1 = -(n : Int) := by omega
    rw [e] at h
    rw [← h]; exact ih

/-! ### Three dimensions -/

section
variable {ni nj nk : Int} (hi : 1 ≤ ni) (hj : 1 ≤ nj) (hk : 1 ≤ nk)

/-- Periodic Laplacian on the cells. -/
noncomputable abbrev pL3 (dx : ℝ) : (cells3 ni nj nk → ℝ) →ₗ[ℝ] (cells3 ni nj nk → ℝ) :=
  lapR3 .periodic .periodic .periodic hi hj hk dx

/-- Restriction to the cells. -/
abbrev rs3 (ni nj nk : Int) : (Int × Int × Int → ℝ) →ₗ[ℝ] (cells3 ni nj nk → ℝ) := LinearMap.funLeft ℝ ℝ ((↑) : cells3 ni nj nk → _)

theorem rs3_surj (v : cells3 ni nj nk → ℝ) : ∃ w, v = rs3 ni nj nk w :=
  ⟨fun c => if h : c ∈ cells3 ni nj nk then v ⟨c, h⟩ else 0, funext fun c => by
    show v c = if h : (c : Int × Int × Int) ∈ cells3 ni nj nk then v ⟨c, h⟩ else 0
    rw [dif_pos c.2]⟩

theorem pL3_apply (dx : ℝ) (w : Int × Int × Int → ℝ) (c : cells3 ni nj nk) :
    pL3 hi hj hk dx (rs3 ni nj nk w) c = plap3 ni nj nk dx w c := rfl

theorem sum_sub3 (f : Int × Int × Int → ℝ) : ∑ c : cells3 ni nj nk, f c = sum3 ni nj nk fun i j k => f (i, j, k) := by
  exact (Finset.sum_coe_sort (cells3 ni nj nk) f).trans (sum_cells3 ni nj nk f)

theorem pL3_sym (dx : ℝ) (u v : cells3 ni nj nk → ℝ) : ∑ i, pL3 hi hj hk dx u i * v i = ∑ i, u i * pL3 hi hj hk dx v i := by
  obtain ⟨u, rfl⟩ := rs3_surj u
  obtain ⟨v, rfl⟩ := rs3_surj v
  have := plap3_sym hi hj hk dx u v
  rw [← Finset.sum_coe_sort (cells3 ni nj nk) fun c => plap3 ni nj nk dx u c * v c,
    ← Finset.sum_coe_sort (cells3 ni nj nk) fun c => u c * plap3 ni nj nk dx v c] at this
  exact this

theorem aF3 (dx : ℝ) (u v : Int × Int × Int → ℝ) : aF (pL3 hi hj hk dx) (rs3 ni nj nk u) (rs3 ni nj nk v) =
    grad3 ni nj nk (per3 ni nj nk u) (per3 ni nj nk v) / dx ^ 2 := by
  have g := green3 dx hi hj hk .periodic .periodic .periodic (fun i j k => v (i, j, k)) fun i j k => u (i, j, k)
  have e : ∑ i, pL3 hi hj hk dx (rs3 ni nj nk u) i * rs3 ni nj nk v i =
      sum3 ni nj nk fun i j k => plap3 ni nj nk dx u (i, j, k) * v (i, j, k) :=
    sum_sub3 fun c => plap3 ni nj nk dx u c * v c
  unfold aF
  rw [e, grad3_comm]
  rw [show sum3 ni nj nk (fun i j k => plap3 ni nj nk dx u (i, j, k) * v (i, j, k)) = _ from
    (sum3_congr fun i j k h1 h2 h3 => by
      have := pext3_in (u := v) h1 h2 h3
      unfold pext3 at this
      rw [this, mul_comm]; rfl).trans g, neg_neg]
  rfl

theorem pL3_neg (dx : ℝ) (u : cells3 ni nj nk → ℝ) : ∑ i, pL3 hi hj hk dx u i * u i ≤ 0 := by
  obtain ⟨u, rfl⟩ := rs3_surj u
  have := aF3 hi hj hk dx u u
  unfold aF at this
  rw [neg_eq_iff_eq_neg] at this
  rw [this, neg_nonpos]
  exact div_nonneg (grad3_nonneg _ _ _ _) (by positivity)

theorem pL3_bnd {dx : ℝ} (hdx : 0 < dx) (u : cells3 ni nj nk → ℝ) :
    ∑ i, pL3 hi hj hk dx u i ^ 2 ≤ (12 / dx ^ 2) ^ 2 * ∑ i, u i ^ 2 := by
  obtain ⟨u, rfl⟩ := rs3_surj u
  have := plap3_bnd hi hj hk hdx u
  have h2 := pow_le_pow_left₀ (Real.sqrt_nonneg _) this 2
  unfold cellNorm at h2
  rw [mul_pow, Real.sq_sqrt (sum_nonneg fun c _ => sq_nonneg _), Real.sq_sqrt (sum_nonneg fun c _ => sq_nonneg _),
    ← Finset.sum_coe_sort (cells3 ni nj nk) fun c => plap3 ni nj nk dx u c ^ 2,
    ← Finset.sum_coe_sort (cells3 ni nj nk) fun c => u c ^ 2] at h2
  exact h2

theorem pL3_sup {dx : ℝ} (hdx : 0 < dx) (u : cells3 ni nj nk → ℝ) (B : ℝ) (hu : ∀ i, |u i| ≤ B) (c : cells3 ni nj nk) :
    |pL3 hi hj hk dx u c| ≤ 12 / dx ^ 2 * B := by
  have hU : ∀ i j k, |xt3 .periodic .periodic .periodic hi hj hk u i j k| ≤ B := fun i j k => hu _
  have e : pL3 hi hj hk dx u c = lap3 dx (xt3 .periodic .periodic .periodic hi hj hk u) c.1.1 c.1.2.1 c.1.2.2 := rfl
  rw [e]
  unfold lap3 d2x d2y d2z
  generalize xt3 .periodic .periodic .periodic hi hj hk u = U at hU
  obtain ⟨⟨i, j, k⟩, hc⟩ := c
  dsimp only
  rw [abs_div, abs_of_pos (by positivity : 0 < dx ^ 2), div_mul_eq_mul_div]
  refine div_le_div_of_nonneg_right ?_ (by positivity)
  have h0 := abs_le.1 (hU i j k)
  have h1 := abs_le.1 (hU (i + 1) j k)
  have h2 := abs_le.1 (hU (i - 1) j k)
  have h3 := abs_le.1 (hU i (j + 1) k)
  have h4 := abs_le.1 (hU i (j - 1) k)
  have h5 := abs_le.1 (hU i j (k + 1))
  have h6 := abs_le.1 (hU i j (k - 1))
  rw [abs_le]
  constructor <;> linarith

include hi hj hk in
theorem grad3_const {U : Int → Int → Int → ℝ} (hU : ∀ x y z, U x y z = U (x % ni) (y % nj) (z % nk)) (h0 : grad3 ni nj nk U U = 0) :
    ∀ i j k, U i j k = U 0 0 0 := by
  have hnn : ∀ i j k, 0 ≤ (U (i + 1) j k - U i j k) * (U (i + 1) j k - U i j k) +
      (U i (j + 1) k - U i j k) * (U i (j + 1) k - U i j k) +
      (U i j (k + 1) - U i j k) * (U i j (k + 1) - U i j k) := fun i j k =>
    add_nonneg (add_nonneg (mul_self_nonneg _) (mul_self_nonneg _)) (mul_self_nonneg _)
  have hcell : ∀ i j k, (0 ≤ i ∧ i < ni) → (0 ≤ j ∧ j < nj) → (0 ≤ k ∧ k < nk) →
      U (i + 1) j k = U i j k ∧ U i (j + 1) k = U i j k ∧ U i j (k + 1) = U i j k := by
    intro i j k h1 h2 h3
    unfold grad3 sum3 at h0
    have q1 := (sum_eq_zero_iff_of_nonneg (fun i _ => sum_nonneg fun j _ => sum_nonneg fun k _ => hnn i j k)).1
      h0 i (by simpa using h1)
    have q2 := (sum_eq_zero_iff_of_nonneg (fun j _ => sum_nonneg fun k _ => hnn i j k)).1 q1 j (by simpa using h2)
    have q3 := (sum_eq_zero_iff_of_nonneg (fun k _ => hnn i j k)).1 q2 k (by simpa using h3)
    have z1 := mul_self_nonneg (U (i + 1) j k - U i j k)
    have z2 := mul_self_nonneg (U i (j + 1) k - U i j k)
    have z3 := mul_self_nonneg (U i j (k + 1) - U i j k)
    exact ⟨sub_eq_zero.1 (mul_self_eq_zero.1 (by linarith)), sub_eq_zero.1 (mul_self_eq_zero.1 (by linarith)),
      sub_eq_zero.1 (mul_self_eq_zero.1 (by linarith))⟩
  have hall : ∀ i j k, U (i + 1) j k = U i j k ∧ U i (j + 1) k = U i j k ∧ U i j (k + 1) = U i j k := by
    intro i j k
    obtain ⟨q1, q2, q3⟩ := hcell (i % ni) (j % nj) (k % nk)
      (extIdx_range (bc := .periodic) i hi) (extIdx_range (bc := .periodic) j hj) (extIdx_range (bc := .periodic) k hk)
    refine ⟨?_, ?_, ?_⟩
    · rw [hU (i + 1) j k, hU i j k, ← q1, hU (i % ni + 1)]
      simp only [Int.emod_add_emod, Int.emod_emod_of_dvd, dvd_refl]
    · rw [hU i (j + 1) k, hU i j k, ← q2, hU _ (j % nj + 1)]
      simp only [Int.emod_add_emod, Int.emod_emod_of_dvd, dvd_refl]
    · rw [hU i j (k + 1), hU i j k, ← q3, hU _ _ (k % nk + 1)]
      simp only [Int.emod_add_emod, Int.emod_emod_of_dvd, dvd_refl]
  intro i j k
  rw [int_const (f := fun i => U i j k) (fun i => (hall i j k).1) i, int_const (f := fun j => U 0 j k) (fun j => (hall 0 j k).2.1) j,
    int_const (f := fun k => U 0 0 k) (fun k => (hall 0 0 k).2.2) k]

theorem per3_wrap (u : Int × Int × Int → ℝ) (x y z : Int) :
    per3 ni nj nk u x y z = per3 ni nj nk u (x % ni) (y % nj) (z % nk) := by
  simp only [per3, ext3, extIdx, wrapIdx, Int.emod_emod_of_dvd, dvd_refl]

theorem per3_in {u : Int × Int × Int → ℝ} {c : Int × Int × Int} (h : In3 ni nj nk c) : per3 ni nj nk u c.1 c.2.1 c.2.2 = u c :=
  pext3_in h.1 h.2.1 h.2.2

theorem pL3_ker {dx : ℝ} (hdx : 0 < dx) (u : cells3 ni nj nk → ℝ) (h : pL3 hi hj hk dx u = 0) (c e : cells3 ni nj nk) : u c = u e := by
  obtain ⟨u, rfl⟩ := rs3_surj u
  have a := aF3 hi hj hk dx u u
  unfold aF at a
  rw [h] at a
  simp only [Pi.zero_apply, zero_mul, sum_const_zero, neg_zero] at a
  have g0 : grad3 ni nj nk (per3 ni nj nk u) (per3 ni nj nk u) = 0 :=
    (div_eq_zero_iff.1 a.symm).resolve_right (by positivity)
  have cst := grad3_const hi hj hk (per3_wrap u) g0
  have q : ∀ c : cells3 ni nj nk, rs3 ni nj nk u c = per3 ni nj nk u 0 0 0 := fun c => by
    rw [← cst c.1.1 c.1.2.1 c.1.2.2, per3_in ((mem_cells3 ni nj nk c).1 c.2)]; rfl
  rw [q, q]

theorem pot3_iff (dx m : ℝ) (u φ : Int × Int × Int → ℝ) :
    Potential3 dx m ni nj nk u φ ↔ pL3 hi hj hk dx (rs3 ni nj nk φ) = (fun _ => m) - rs3 ni nj nk u := by
  constructor
  · intro h
    funext c
    exact h c ((mem_cells3 ni nj nk c).1 c.2)
  · intro h c hc
    exact congrFun h ⟨c, (mem_cells3 ni nj nk c).2 hc⟩

theorem gEn3 (p : CHParams ℝ) (dx : ℝ) (u φ : Int × Int × Int → ℝ) :
    gEn (pL3 hi hj hk dx) p.eps2 p.sigma (rs3 ni nj nk u) (rs3 ni nj nk φ) = freeEnergy3 p dx ni nj nk u φ := by
  unfold gEn freeEnergy3 energy3
  rw [aF3, aF3]
  have e : ∑ i, (rs3 ni nj nk u i ^ 2 - 1) ^ 2 / 4 = sum3 ni nj nk fun i j k => (per3 ni nj nk u i j k ^ 2 - 1) ^ 2 / 4 := by
    refine (sum_sub3 fun c => (u c ^ 2 - 1) ^ 2 / 4).trans (sum3_congr fun i j k h1 h2 h3 => ?_)
    rw [per3_in (c := (i, j, k)) ⟨h1, h2, h3⟩]
  rw [e]

theorem chemPot3_per (p : CHParams ℝ) (dx : ℝ) (u φ : Int × Int × Int → ℝ) :
    chemPot3 p dx ni nj nk u φ = per3 ni nj nk fun c => chemPot3 p dx ni nj nk u φ c.1 c.2.1 c.2.2 := by
  have e := lap3_ext_periodic dx (ni := ni) (nj := nj) (nk := nk) .periodic .periodic .periodic (by decide) (by decide) (by decide)
    fun i j k => u (i, j, k)
  funext i j k
  have q : lap3 dx (per3 ni nj nk u) i j k = lap3 dx (per3 ni nj nk u) (i % ni) (j % nj) (k % nk) :=
    congrFun (congrFun (congrFun e i) j) k
  have r : (per3 ni nj nk fun c => chemPot3 p dx ni nj nk u φ c.1 c.2.1 c.2.2) i j k =
      chemPot3 p dx ni nj nk u φ (i % ni) (j % nj) (k % nk) := rfl
  rw [r]
  unfold chemPot3
  rw [q, per3_wrap u i j k, per3_wrap φ i j k]

theorem gPot3 (p : CHParams ℝ) (dx : ℝ) (u φ : Int × Int × Int → ℝ) :
    gPot (pL3 hi hj hk dx) p.eps2 p.sigma (rs3 ni nj nk u) (rs3 ni nj nk φ) =
      rs3 ni nj nk fun c => chemPot3 p dx ni nj nk u φ c.1 c.2.1 c.2.2 := by
  funext c
  have hc := (mem_cells3 ni nj nk c).1 c.2
  have e1 := per3_in (u := u) hc
  have e2 := per3_in (u := φ) hc
  show u c ^ 3 - u c - p.eps2 * lap3 dx (per3 ni nj nk u) c.1.1 c.1.2.1 c.1.2.2 + p.sigma * φ c =
    chemPot3 p dx ni nj nk u φ c.1.1 c.1.2.1 c.1.2.2
  unfold chemPot3
  rw [e1, e2]

theorem diss3 (p : CHParams ℝ) (dx : ℝ) (u φ : Int × Int × Int → ℝ) :
    aF (pL3 hi hj hk dx) (gPot (pL3 hi hj hk dx) p.eps2 p.sigma (rs3 ni nj nk u) (rs3 ni nj nk φ))
      (gPot (pL3 hi hj hk dx) p.eps2 p.sigma (rs3 ni nj nk u) (rs3 ni nj nk φ)) = dissipation3 p dx ni nj nk u φ := by
  rw [gPot3, aF3, ← chemPot3_per]
  rfl

/-- The field of the abstract estimates. -/
noncomputable def absF3 (p : CHParams ℝ) (dx m0 : ℝ) (u : cells3 ni nj nk → ℝ) : cells3 ni nj nk → ℝ :=
  pL3 hi hj hk dx (fun i => u i ^ 3 - u i) - p.eps2 • pL3 hi hj hk dx (pL3 hi hj hk dx u) - p.sigma • (u - fun _ => m0)

theorem rs3_field (p : CHParams ℝ) (dx m0 : ℝ) (hσ : p.sigma = 0 ∨ p.m = m0) (t : ℝ) (u : Int × Int × Int → ℝ) :
    rs3 ni nj nk (chField3 p dx .periodic .periodic .periodic ni nj nk t u) = absF3 hi hj hk p dx m0 (rs3 ni nj nk u) := by
  funext c
  have h := chField3_abs p dx t u u (fun _ _ => rfl) hi hj hk c ((mem_cells3 ni nj nk c).1 c.2)
  refine h.trans ?_
  have e : p.sigma • (rs3 ni nj nk u - fun _ => p.m) = p.sigma • (rs3 ni nj nk u - fun _ => m0) := by
    rcases hσ with h | h
    · rw [h, zero_smul, zero_smul]
    · rw [h]
  have e2 := congrFun e c
  simp only [Pi.smul_apply, Pi.sub_apply, smul_eq_mul] at e2
  simp only [absF3, Pi.sub_apply, Pi.smul_apply, smul_eq_mul]
  rw [← e2]
  rfl

include hi hj hk in
theorem pot3_exists {dx : ℝ} (hdx : 0 < dx) {m0 : ℝ} {u : Int × Int × Int → ℝ} :
    (∃ φ, Potential3 dx m0 ni nj nk u φ) ↔ sum3 ni nj nk (fun i j k => u (i, j, k)) = ((ni * nj * nk : Int) : ℝ) * m0 := by
  have hs : ∑ c : cells3 ni nj nk, ((fun _ => m0) - rs3 ni nj nk u : cells3 ni nj nk → ℝ) c =
      ((ni * nj * nk : Int) : ℝ) * m0 - sum3 ni nj nk (fun i j k => u (i, j, k)) := by
    have := card_cells3 ni nj nk (by omega) (by omega) (by omega)
    simp only [Pi.sub_apply, sum_sub_distrib, sum_const, nsmul_eq_mul]
    rw [show ∑ c, rs3 ni nj nk u c = _ from sum_sub3 u, show (univ : Finset (cells3 ni nj nk)).card = (cells3 ni nj nk).card by
      rw [card_univ, Fintype.card_coe], this]
    push_cast; ring
  have hsum : ∀ v, ∑ i, pL3 hi hj hk dx v i = 0 := by
    intro v
    obtain ⟨v, rfl⟩ := rs3_surj v
    exact (sum_sub3 (plap3 ni nj nk dx v)).trans (lap3_sum_zero dx hi hj hk .periodic .periodic .periodic fun i j k => v (i, j, k))
  constructor
  · rintro ⟨φ, h⟩
    have h := hsum (rs3 ni nj nk φ)
    rw [(pot3_iff hi hj hk dx m0 u φ).1 ‹_›, hs] at h
    linarith
  · intro h
    have : Nonempty (cells3 ni nj nk) := ⟨⟨(0, 0, 0), (mem_cells3 ni nj nk _).2 ⟨⟨le_rfl, by omega⟩, ⟨le_rfl, by dsimp only; omega⟩, le_rfl, by dsimp only; omega⟩⟩⟩
    obtain ⟨φ, hφ⟩ := pot_exists hsum (pL3_ker hi hj hk hdx) (w := (fun _ => m0) - rs3 ni nj nk u) (by rw [hs, h, sub_self])
    obtain ⟨φ, rfl⟩ := rs3_surj φ
    exact ⟨φ, (pot3_iff hi hj hk dx m0 u φ).2 hφ⟩

include hi hj hk in
/-- Energy and dissipation do not depend on the potential chosen. -/
theorem pot3_indep (p : CHParams ℝ) {dx m0 : ℝ} {u φ ψ : Int × Int × Int → ℝ} (hφ : Potential3 dx m0 ni nj nk u φ)
    (hψ : Potential3 dx m0 ni nj nk u ψ) : freeEnergy3 p dx ni nj nk u φ = freeEnergy3 p dx ni nj nk u ψ ∧
      dissipation3 p dx ni nj nk u φ = dissipation3 p dx ni nj nk u ψ := by
  have e := ((pot3_iff hi hj hk dx m0 u φ).1 hφ).trans ((pot3_iff hi hj hk dx m0 u ψ).1 hψ).symm
  rw [← gEn3 hi hj hk, ← gEn3 hi hj hk, ← diss3 hi hj hk, ← diss3 hi hj hk]
  exact ⟨gEn_indep (pL3_sym hi hj hk dx) _ e, gPot_indep (pL3_sym hi hj hk dx) _ e⟩

variable {p : CHParams ℝ} {dx m0 : ℝ} (hdx : 0 < dx) (he : 0 ≤ p.eps2) (hsg : 0 ≤ p.sigma) (hσ : p.sigma = 0 ∨ p.m = m0)
  {T : Tableau ℝ} (hT : T = ssprk3 ∨ T = bs23) {t d : Nat → ℝ} {u0 φ0 : Int × Int × Int → ℝ} (hφ0 : Potential3 dx m0 ni nj nk u0 φ0)
  {E0 : ℝ} (hE0 : freeEnergy3 p dx ni nj nk u0 φ0 ≤ E0) {n : Nat}
  (hd : ∀ k, k < n → 0 ≤ d k ∧ d k * (12 / dx ^ 2 * (28 + 54 * Real.sqrt E0 + 12 * p.eps2 / dx ^ 2) + p.sigma) ≤ 1 / 2)
  {F : ℝ → (Int × Int × Int → ℝ) → Int × Int × Int → ℝ} (hF : F = chField3 p dx .periodic .periodic .periodic ni nj nk)
  {u : Nat → Int × Int × Int → ℝ} (hu : u = states T F t d u0)
include hi hj hk hdx he hsg hσ hT hφ0 hE0 hd hF hu

theorem energy3_main :
    (∀ k, k ≤ n → (∃ φ, Potential3 dx m0 ni nj nk (u k) φ) ∧ ∀ c, In3 ni nj nk c → u k c ^ 2 ≤ 1 + 2 * Real.sqrt E0) ∧
    (∀ k, k < n → ∀ φ ψ, Potential3 dx m0 ni nj nk (u k) φ → Potential3 dx m0 ni nj nk (u (k + 1)) ψ →
      freeEnergy3 p dx ni nj nk (u (k + 1)) ψ + d k / 4 * dissipation3 p dx ni nj nk (u k) φ ≤ freeEnergy3 p dx ni nj nk (u k) φ ∧
      (sum3 ni nj nk fun i j l => T.slope F (t k) (d k) (u k) (i, j, l) ^ 2) ≤ 24 / dx ^ 2 * dissipation3 p dx ni nj nk (u k) φ) ∧
    ∀ k, k ≤ n → ∀ φ, Potential3 dx m0 ni nj nk (u k) φ →
      (∑ a ∈ range k, d a * sum3 ni nj nk fun i j l => T.slope F (t a) (d a) (u a) (i, j, l) ^ 2) ≤
        96 / dx ^ 2 * (E0 - freeEnergy3 p dx ni nj nk (u k) φ) := by
  obtain ⟨S, ⟨o2, o3⟩, hS⟩ := rk_pair hT
  have hFt : ∀ t s, F t = F s := fun t s => by rw [hF]; rfl
  have hst := fun t dt y => hS F hFt t dt y
  have hmap := S.step_map (rs3 ni nj nk) (F := F 0) (G := absF3 hi hj hk p dx m0)
    (fun v => by rw [hF]; exact rs3_field hi hj hk p dx m0 hσ 0 v)
  have hlam : 0 ≤ 12 / dx ^ 2 := by positivity
  have q0 : 0 ≤ Real.sqrt E0 := Real.sqrt_nonneg _
  obtain ⟨R, hR⟩ : ∃ R, R = Real.sqrt (1 + 2 * Real.sqrt E0) := ⟨_, rfl⟩
  have hR0 : 0 ≤ R := by rw [hR]; exact Real.sqrt_nonneg _
  have hR2 : R ^ 2 = 1 + 2 * Real.sqrt E0 := by rw [hR]; exact Real.sq_sqrt (by linarith)
  have hv0 : ∃ φ, pL3 hi hj hk dx φ = (fun _ => m0) - rs3 ni nj nk (u 0) ∧ gEn (pL3 hi hj hk dx) p.eps2 p.sigma (rs3 ni nj nk (u 0)) φ ≤ E0 :=
    ⟨rs3 ni nj nk φ0, by rw [hu]; exact (pot3_iff hi hj hk dx m0 u0 φ0).1 hφ0, by rw [hu, gEn3]; exact hE0⟩
  have hv : ∀ k, k < n → rs3 ni nj nk (u (k + 1)) = S.step (absF3 hi hj hk p dx m0) (d k) (rs3 ni nj nk (u k)) := by
    intro k _
    rw [← (hmap _ _).1, ← (hst (t k) _ _).1, hu]
    rfl
  have hsl : ∀ k, (sum3 ni nj nk fun i j l => T.slope F (t k) (d k) (u k) (i, j, l) ^ 2) =
      ∑ i, S.slope (absF3 hi hj hk p dx m0) (d k) (rs3 ni nj nk (u k)) i ^ 2 := by
    intro k
    rw [← (hmap _ _).2, ← (hst (t k) _ _).2]
    exact (sum_sub3 fun c => T.slope F (t k) (d k) (u k) c ^ 2).symm
  have hm0 : |m0| ≤ R := by
    obtain ⟨φ, hp, hE⟩ := hv0
    have sup := gEn_sup (pL3_sym hi hj hk dx) (pL3_neg hi hj hk dx) he hsg hE hR0 hR2
    have hs := (pot3_exists hi hj hk hdx (m0 := m0) (u := u 0)).1 ⟨φ0, by rw [hu]; exact hφ0⟩
    rw [show (sum3 ni nj nk fun i j k => u 0 (i, j, k)) = _ from (sum_sub3 (u 0)).symm] at hs
    have hc := card_cells3 ni nj nk (by omega) (by omega) (by omega)
    have hpos : (0 : ℝ) < ((ni * nj * nk : Int) : ℝ) := by
      exact_mod_cast Int.mul_pos (Int.mul_pos (by omega) (by omega)) (by omega)
    have hb : |∑ c : cells3 ni nj nk, u 0 c| ≤ ((ni * nj * nk : Int) : ℝ) * R := by
      refine (abs_sum_le_sum_abs _ _).trans ((sum_le_sum fun c _ => sup c).trans (le_of_eq ?_))
      rw [sum_const, nsmul_eq_mul, show (univ : Finset (cells3 ni nj nk)).card = (cells3 ni nj nk).card by
        rw [card_univ, Fintype.card_coe], hc]
      push_cast; ring
    rw [hs, abs_mul, abs_of_pos hpos] at hb
    exact le_of_mul_le_mul_left hb hpos
  have hd' : ∀ k, k < n → 0 ≤ d k ∧ d k * (12 / dx ^ 2 * (27 * R ^ 2 + 1 + p.eps2 * (12 / dx ^ 2)) + p.sigma) ≤ 1 / 2 := by
    intro k hk'
    refine ⟨(hd k hk').1, le_trans (le_of_eq ?_) (hd k hk').2⟩
    rw [hR2]; ring
  have pot := energy_run_pot (pL3_sym hi hj hk dx) (pL3_neg hi hj hk dx) hlam (pL3_bnd hi hj hk hdx) (pL3_sup hi hj hk hdx) he hsg S o2 o3
    (F := absF3 hi hj hk p dx m0) (fun _ => rfl) hR0 hR2 hm0 (u := fun k => rs3 ni nj nk (u k)) hd' hv hv0
  have sup := energy_run_sup (pL3_sym hi hj hk dx) (pL3_neg hi hj hk dx) hlam (pL3_bnd hi hj hk hdx) (pL3_sup hi hj hk hdx) he hsg S o2 o3
    (F := absF3 hi hj hk p dx m0) (fun _ => rfl) hR0 hR2 hm0 (u := fun k => rs3 ni nj nk (u k)) hd' hv hv0
  refine ⟨fun k hk' => ⟨?_, fun c hc => ?_⟩, fun k hk' φ ψ hφ hψ => ?_, fun k hk' φ hφ => ?_⟩
  · obtain ⟨φ, hφ, -⟩ := pot k hk'
    obtain ⟨φ, rfl⟩ := rs3_surj φ
    exact ⟨φ, (pot3_iff hi hj hk dx m0 _ φ).2 hφ⟩
  · rw [← hR2]
    have h : |u k c| ≤ R := sup k hk' ⟨c, (mem_cells3 ni nj nk c).2 hc⟩
    exact sq_le_sq' (by linarith [neg_abs_le (u k c)]) ((le_abs_self _).trans h)
  · obtain ⟨a, b⟩ := energy_run_step (pL3_sym hi hj hk dx) (pL3_neg hi hj hk dx) hlam (pL3_bnd hi hj hk hdx) (pL3_sup hi hj hk hdx) he
      hsg S o2 o3 (F := absF3 hi hj hk p dx m0) (fun _ => rfl) hR0 hR2 hm0 (u := fun k => rs3 ni nj nk (u k)) hd' hv hv0 k hk'
      ((pot3_iff hi hj hk dx m0 _ φ).1 hφ) ((pot3_iff hi hj hk dx m0 _ ψ).1 hψ)
    rw [gEn3, gEn3, diss3] at a
    rw [diss3] at b
    rw [hsl]
    refine ⟨by linarith, b.trans (le_of_eq (by ring))⟩
  · have a := energy_run_sum (pL3_sym hi hj hk dx) (pL3_neg hi hj hk dx) hlam (pL3_bnd hi hj hk hdx) (pL3_sup hi hj hk hdx) he
      hsg S o2 o3 (F := absF3 hi hj hk p dx m0) (fun _ => rfl) hR0 hR2 hm0 (u := fun k => rs3 ni nj nk (u k)) hd' hv hv0 k hk'
      _ ((pot3_iff hi hj hk dx m0 _ φ).1 hφ)
    rw [gEn3] at a
    rw [sum_congr rfl fun a _ => by rw [hsl a]]
    exact a.trans (le_of_eq (by ring))

end

/-! ### Two dimensions -/

section
variable {n : Int} (hn : 1 ≤ n)

/-- Periodic Laplacian on the cells. -/
noncomputable abbrev pL2 (dx : ℝ) : (cells2 n → ℝ) →ₗ[ℝ] (cells2 n → ℝ) :=
  lapR2 hn dx

/-- Restriction to the cells. -/
abbrev rs2 (n : Int) : (Int × Int → ℝ) →ₗ[ℝ] (cells2 n → ℝ) := LinearMap.funLeft ℝ ℝ ((↑) : cells2 n → _)

theorem rs2_surj (v : cells2 n → ℝ) : ∃ w, v = rs2 n w :=
  ⟨fun c => if h : c ∈ cells2 n then v ⟨c, h⟩ else 0, funext fun c => by
    show v c = if h : (c : Int × Int) ∈ cells2 n then v ⟨c, h⟩ else 0
    rw [dif_pos c.2]⟩

theorem pL2_apply (dx : ℝ) (w : Int × Int → ℝ) (c : cells2 n) :
    pL2 hn dx (rs2 n w) c = plap2 n dx w c := rfl

theorem sum_sub2 (f : Int × Int → ℝ) : ∑ c : cells2 n, f c = sum2 n n fun i j => f (i, j) := by
  exact (Finset.sum_coe_sort (cells2 n) f).trans (sum_cells2 n f)

theorem pL2_sym (dx : ℝ) (u v : cells2 n → ℝ) : ∑ i, pL2 hn dx u i * v i = ∑ i, u i * pL2 hn dx v i := by
  obtain ⟨u, rfl⟩ := rs2_surj u
  obtain ⟨v, rfl⟩ := rs2_surj v
  have := plap2_sym hn dx u v
  rw [← Finset.sum_coe_sort (cells2 n) fun c => plap2 n dx u c * v c,
    ← Finset.sum_coe_sort (cells2 n) fun c => u c * plap2 n dx v c] at this
  exact this

theorem aF2 (dx : ℝ) (u v : Int × Int → ℝ) : aF (pL2 hn dx) (rs2 n u) (rs2 n v) =
    grad2 n n (per2 n u) (per2 n v) / dx ^ 2 := by
  have g := green2 dx hn (fun i j => v (i, j)) fun i j => u (i, j)
  have e : ∑ i, pL2 hn dx (rs2 n u) i * rs2 n v i =
      sum2 n n fun i j => plap2 n dx u (i, j) * v (i, j) :=
    sum_sub2 fun c => plap2 n dx u c * v c
  unfold aF
  rw [e, grad2_comm]
  rw [show sum2 n n (fun i j => plap2 n dx u (i, j) * v (i, j)) = _ from
    (sum2_congr fun i j h1 h2 => by
      have := pext2_in (u := v) h1 h2
      unfold pext2 at this
      rw [this, mul_comm]; rfl).trans g, neg_neg]
  rfl

theorem pL2_neg (dx : ℝ) (u : cells2 n → ℝ) : ∑ i, pL2 hn dx u i * u i ≤ 0 := by
  obtain ⟨u, rfl⟩ := rs2_surj u
  have := aF2 hn dx u u
  unfold aF at this
  rw [neg_eq_iff_eq_neg] at this
  rw [this, neg_nonpos]
  exact div_nonneg (grad2_nonneg _ _ _) (by positivity)

theorem pL2_bnd {dx : ℝ} (hdx : 0 < dx) (u : cells2 n → ℝ) :
    ∑ i, pL2 hn dx u i ^ 2 ≤ (8 / dx ^ 2) ^ 2 * ∑ i, u i ^ 2 := by
  obtain ⟨u, rfl⟩ := rs2_surj u
  have := plap2_bnd hn hdx u
  have h2 := pow_le_pow_left₀ (Real.sqrt_nonneg _) this 2
  unfold cellNorm at h2
  rw [mul_pow, Real.sq_sqrt (sum_nonneg fun c _ => sq_nonneg _), Real.sq_sqrt (sum_nonneg fun c _ => sq_nonneg _),
    ← Finset.sum_coe_sort (cells2 n) fun c => plap2 n dx u c ^ 2,
    ← Finset.sum_coe_sort (cells2 n) fun c => u c ^ 2] at h2
  exact h2

theorem pL2_sup {dx : ℝ} (hdx : 0 < dx) (u : cells2 n → ℝ) (B : ℝ) (hu : ∀ i, |u i| ≤ B) (c : cells2 n) :
    |pL2 hn dx u c| ≤ 8 / dx ^ 2 * B := by
  have hU : ∀ i j, |xt2 hn u i j| ≤ B := fun i j => hu _
  have e : pL2 hn dx u c = lap2 dx (xt2 hn u) c.1.1 c.1.2 := rfl
  rw [e]
  unfold lap2
  generalize xt2 hn u = U at hU
  obtain ⟨⟨i, j⟩, hc⟩ := c
  dsimp only
  rw [abs_div, abs_of_pos (by positivity : 0 < dx ^ 2), div_mul_eq_mul_div]
  refine div_le_div_of_nonneg_right ?_ (by positivity)
  have h0 := abs_le.1 (hU i j)
  have h1 := abs_le.1 (hU (i + 1) j)
  have h2 := abs_le.1 (hU (i - 1) j)
  have h3 := abs_le.1 (hU i (j + 1))
  have h4 := abs_le.1 (hU i (j - 1))
  rw [abs_le]
  constructor <;> linarith

include hn in
theorem grad2_const {U : Int → Int → ℝ} (hU : ∀ x y, U x y = U (x % n) (y % n)) (h0 : grad2 n n U U = 0) :
    ∀ i j, U i j = U 0 0 := by
  have hnn : ∀ i j, 0 ≤ (U (i + 1) j - U i j) * (U (i + 1) j - U i j) + (U i (j + 1) - U i j) * (U i (j + 1) - U i j) := fun i j =>
    add_nonneg (mul_self_nonneg _) (mul_self_nonneg _)
  have hcell : ∀ i j, (0 ≤ i ∧ i < n) → (0 ≤ j ∧ j < n) → U (i + 1) j = U i j ∧ U i (j + 1) = U i j := by
    intro i j h1 h2
    unfold grad2 sum2 at h0
    have q1 := (sum_eq_zero_iff_of_nonneg (fun i _ => sum_nonneg fun j _ => hnn i j)).1 h0 i (by simpa using h1)
    have q2 := (sum_eq_zero_iff_of_nonneg (fun j _ => hnn i j)).1 q1 j (by simpa using h2)
    have z1 := mul_self_nonneg (U (i + 1) j - U i j)
    have z2 := mul_self_nonneg (U i (j + 1) - U i j)
    exact ⟨sub_eq_zero.1 (mul_self_eq_zero.1 (by linarith)), sub_eq_zero.1 (mul_self_eq_zero.1 (by linarith))⟩
  have hall : ∀ i j, U (i + 1) j = U i j ∧ U i (j + 1) = U i j := by
    intro i j
    obtain ⟨q1, q2⟩ := hcell (i % n) (j % n) (extIdx_range (bc := .periodic) i hn) (extIdx_range (bc := .periodic) j hn)
    refine ⟨?_, ?_⟩
    · rw [hU (i + 1) j, hU i j, ← q1, hU (i % n + 1)]
      simp only [Int.emod_add_emod, Int.emod_emod_of_dvd, dvd_refl]
    · rw [hU i (j + 1), hU i j, ← q2, hU _ (j % n + 1)]
      simp only [Int.emod_add_emod, Int.emod_emod_of_dvd, dvd_refl]
  intro i j
  rw [int_const (f := fun i => U i j) (fun i => (hall i j).1) i, int_const (f := fun j => U 0 j) (fun j => (hall 0 j).2) j]

theorem per2_wrap (u : Int × Int → ℝ) (x y : Int) : per2 n u x y = per2 n u (x % n) (y % n) := by
  simp only [per2, ext2, wrapIdx, Int.emod_emod_of_dvd, dvd_refl]

theorem per2_in {u : Int × Int → ℝ} {c : Int × Int} (h : In2 n c) : per2 n u c.1 c.2 = u c :=
  pext2_in h.1 h.2

theorem pL2_ker {dx : ℝ} (hdx : 0 < dx) (u : cells2 n → ℝ) (h : pL2 hn dx u = 0) (c e : cells2 n) : u c = u e := by
  obtain ⟨u, rfl⟩ := rs2_surj u
  have a := aF2 hn dx u u
  unfold aF at a
  rw [h] at a
  simp only [Pi.zero_apply, zero_mul, sum_const_zero, neg_zero] at a
  have g0 : grad2 n n (per2 n u) (per2 n u) = 0 :=
    (div_eq_zero_iff.1 a.symm).resolve_right (by positivity)
  have cst := grad2_const hn (per2_wrap u) g0
  have q : ∀ c : cells2 n, rs2 n u c = per2 n u 0 0 := fun c => by
    rw [← cst c.1.1 c.1.2, per2_in ((mem_cells2 n c).1 c.2)]; rfl
  rw [q, q]

theorem pot2_iff (dx m : ℝ) (u φ : Int × Int → ℝ) :
    Potential2 dx m n u φ ↔ pL2 hn dx (rs2 n φ) = (fun _ => m) - rs2 n u := by
  constructor
  · intro h
    funext c
    exact h c ((mem_cells2 n c).1 c.2)
  · intro h c hc
    exact congrFun h ⟨c, (mem_cells2 n c).2 hc⟩

theorem gEn2 (p : CHParams ℝ) (dx : ℝ) (u φ : Int × Int → ℝ) :
    gEn (pL2 hn dx) p.eps2 p.sigma (rs2 n u) (rs2 n φ) = freeEnergy2 p dx n u φ := by
  unfold gEn freeEnergy2 energy2
  rw [aF2, aF2]
  have e : ∑ i, (rs2 n u i ^ 2 - 1) ^ 2 / 4 = sum2 n n fun i j => (per2 n u i j ^ 2 - 1) ^ 2 / 4 := by
    refine (sum_sub2 fun c => (u c ^ 2 - 1) ^ 2 / 4).trans (sum2_congr fun i j h1 h2 => ?_)
    rw [per2_in (c := (i, j)) ⟨h1, h2⟩]
  rw [e]

theorem chemPot2_per (p : CHParams ℝ) (dx : ℝ) (u φ : Int × Int → ℝ) :
    chemPot2 p dx n u φ = per2 n fun c => chemPot2 p dx n u φ c.1 c.2 := by
  have e := lap2_ext_periodic dx (n := n) fun i j => u (i, j)
  funext i j
  have q : lap2 dx (per2 n u) i j = lap2 dx (per2 n u) (i % n) (j % n) :=
    congrFun (congrFun e i) j
  have r : (per2 n fun c => chemPot2 p dx n u φ c.1 c.2) i j =
      chemPot2 p dx n u φ (i % n) (j % n) := rfl
  rw [r]
  unfold chemPot2
  rw [q, per2_wrap u i j, per2_wrap φ i j]

theorem gPot2 (p : CHParams ℝ) (dx : ℝ) (u φ : Int × Int → ℝ) :
    gPot (pL2 hn dx) p.eps2 p.sigma (rs2 n u) (rs2 n φ) =
      rs2 n fun c => chemPot2 p dx n u φ c.1 c.2 := by
  funext c
  have hc := (mem_cells2 n c).1 c.2
  have e1 := per2_in (u := u) hc
  have e2 := per2_in (u := φ) hc
  show u c ^ 3 - u c - p.eps2 * lap2 dx (per2 n u) c.1.1 c.1.2 + p.sigma * φ c =
    chemPot2 p dx n u φ c.1.1 c.1.2
  unfold chemPot2
  rw [e1, e2]

theorem diss2 (p : CHParams ℝ) (dx : ℝ) (u φ : Int × Int → ℝ) :
    aF (pL2 hn dx) (gPot (pL2 hn dx) p.eps2 p.sigma (rs2 n u) (rs2 n φ))
      (gPot (pL2 hn dx) p.eps2 p.sigma (rs2 n u) (rs2 n φ)) = dissipation2 p dx n u φ := by
  rw [gPot2, aF2, ← chemPot2_per]
  rfl

/-- The field of the abstract estimates. -/
noncomputable def absF2 (p : CHParams ℝ) (dx m0 : ℝ) (u : cells2 n → ℝ) : cells2 n → ℝ :=
  pL2 hn dx (fun i => u i ^ 3 - u i) - p.eps2 • pL2 hn dx (pL2 hn dx u) - p.sigma • (u - fun _ => m0)

theorem rs2_field (p : CHParams ℝ) (dx m0 : ℝ) (hσ : p.sigma = 0 ∨ p.m = m0) (t : ℝ) (u : Int × Int → ℝ) :
    rs2 n (chField2 p dx n t u) = absF2 hn p dx m0 (rs2 n u) := by
  funext c
  have h := chField2_abs p dx t u u (fun _ _ => rfl) hn c ((mem_cells2 n c).1 c.2)
  refine h.trans ?_
  have e : p.sigma • (rs2 n u - fun _ => p.m) = p.sigma • (rs2 n u - fun _ => m0) := by
    rcases hσ with h | h
    · rw [h, zero_smul, zero_smul]
    · rw [h]
  have e2 := congrFun e c
  simp only [Pi.smul_apply, Pi.sub_apply, smul_eq_mul] at e2
  simp only [absF2, Pi.sub_apply, Pi.smul_apply, smul_eq_mul]
  rw [← e2]
  rfl

include hn in
theorem pot2_exists {dx : ℝ} (hdx : 0 < dx) {m0 : ℝ} {u : Int × Int → ℝ} :
    (∃ φ, Potential2 dx m0 n u φ) ↔ sum2 n n (fun i j => u (i, j)) = ((n * n : Int) : ℝ) * m0 := by
  have hs : ∑ c : cells2 n, ((fun _ => m0) - rs2 n u : cells2 n → ℝ) c =
      ((n * n : Int) : ℝ) * m0 - sum2 n n (fun i j => u (i, j)) := by
    have := card_cells2 n (by omega)
    simp only [Pi.sub_apply, sum_sub_distrib, sum_const, nsmul_eq_mul]
    rw [show ∑ c, rs2 n u c = _ from sum_sub2 u, show (univ : Finset (cells2 n)).card = (cells2 n).card by
      rw [card_univ, Fintype.card_coe], this]
    push_cast; ring
  have hsum : ∀ v, ∑ i, pL2 hn dx v i = 0 := by
    intro v
    obtain ⟨v, rfl⟩ := rs2_surj v
    exact (sum_sub2 (plap2 n dx v)).trans (lap2_sum_zero dx hn fun i j => v (i, j))
  constructor
  · rintro ⟨φ, h⟩
    have h := hsum (rs2 n φ)
    rw [(pot2_iff hn dx m0 u φ).1 ‹_›, hs] at h
    linarith
  · intro h
    have : Nonempty (cells2 n) := ⟨⟨(0, 0), (mem_cells2 n _).2 ⟨⟨le_rfl, by omega⟩, le_rfl, by dsimp only; omega⟩⟩⟩
    obtain ⟨φ, hφ⟩ := pot_exists hsum (pL2_ker hn hdx) (w := (fun _ => m0) - rs2 n u) (by rw [hs, h, sub_self])
    obtain ⟨φ, rfl⟩ := rs2_surj φ
    exact ⟨φ, (pot2_iff hn dx m0 u φ).2 hφ⟩

include hn in
/-- Energy and dissipation do not depend on the potential chosen. -/
theorem pot2_indep (p : CHParams ℝ) {dx m0 : ℝ} {u φ ψ : Int × Int → ℝ} (hφ : Potential2 dx m0 n u φ)
    (hψ : Potential2 dx m0 n u ψ) : freeEnergy2 p dx n u φ = freeEnergy2 p dx n u ψ ∧
      dissipation2 p dx n u φ = dissipation2 p dx n u ψ := by
  have e := ((pot2_iff hn dx m0 u φ).1 hφ).trans ((pot2_iff hn dx m0 u ψ).1 hψ).symm
  rw [← gEn2 hn, ← gEn2 hn, ← diss2 hn, ← diss2 hn]
  exact ⟨gEn_indep (pL2_sym hn dx) _ e, gPot_indep (pL2_sym hn dx) _ e⟩

variable {p : CHParams ℝ} {dx m0 : ℝ} (hdx : 0 < dx) (he : 0 ≤ p.eps2) (hsg : 0 ≤ p.sigma) (hσ : p.sigma = 0 ∨ p.m = m0)
  {T : Tableau ℝ} (hT : T = ssprk3 ∨ T = bs23) {t d : Nat → ℝ} {u0 φ0 : Int × Int → ℝ} (hφ0 : Potential2 dx m0 n u0 φ0)
  {E0 : ℝ} (hE0 : freeEnergy2 p dx n u0 φ0 ≤ E0) {N : Nat}
  (hd : ∀ k, k < N → 0 ≤ d k ∧ d k * (8 / dx ^ 2 * (28 + 54 * Real.sqrt E0 + 8 * p.eps2 / dx ^ 2) + p.sigma) ≤ 1 / 2)
  {F : ℝ → (Int × Int → ℝ) → Int × Int → ℝ} (hF : F = chField2 p dx n)
  {u : Nat → Int × Int → ℝ} (hu : u = states T F t d u0)
include hn hdx he hsg hσ hT hφ0 hE0 hd hF hu

theorem energy2_main :
    (∀ k, k ≤ N → (∃ φ, Potential2 dx m0 n (u k) φ) ∧ ∀ c, In2 n c → u k c ^ 2 ≤ 1 + 2 * Real.sqrt E0) ∧
    (∀ k, k < N → ∀ φ ψ, Potential2 dx m0 n (u k) φ → Potential2 dx m0 n (u (k + 1)) ψ →
      freeEnergy2 p dx n (u (k + 1)) ψ + d k / 4 * dissipation2 p dx n (u k) φ ≤ freeEnergy2 p dx n (u k) φ ∧
      (sum2 n n fun i j => T.slope F (t k) (d k) (u k) (i, j) ^ 2) ≤ 16 / dx ^ 2 * dissipation2 p dx n (u k) φ) ∧
    ∀ k, k ≤ N → ∀ φ, Potential2 dx m0 n (u k) φ →
      (∑ a ∈ range k, d a * sum2 n n fun i j => T.slope F (t a) (d a) (u a) (i, j) ^ 2) ≤
        64 / dx ^ 2 * (E0 - freeEnergy2 p dx n (u k) φ) := by
  obtain ⟨S, ⟨o2, o3⟩, hS⟩ := rk_pair hT
  have hFt : ∀ t s, F t = F s := fun t s => by rw [hF]; rfl
  have hst := fun t dt y => hS F hFt t dt y
  have hmap := S.step_map (rs2 n) (F := F 0) (G := absF2 hn p dx m0)
    (fun v => by rw [hF]; exact rs2_field hn p dx m0 hσ 0 v)
  have hlam : 0 ≤ 8 / dx ^ 2 := by positivity
  have q0 : 0 ≤ Real.sqrt E0 := Real.sqrt_nonneg _
  obtain ⟨R, hR⟩ : ∃ R, R = Real.sqrt (1 + 2 * Real.sqrt E0) := ⟨_, rfl⟩
  have hR0 : 0 ≤ R := by rw [hR]; exact Real.sqrt_nonneg _
  have hR2 : R ^ 2 = 1 + 2 * Real.sqrt E0 := by rw [hR]; exact Real.sq_sqrt (by linarith)
  have hv0 : ∃ φ, pL2 hn dx φ = (fun _ => m0) - rs2 n (u 0) ∧ gEn (pL2 hn dx) p.eps2 p.sigma (rs2 n (u 0)) φ ≤ E0 :=
    ⟨rs2 n φ0, by rw [hu]; exact (pot2_iff hn dx m0 u0 φ0).1 hφ0, by rw [hu, gEn2]; exact hE0⟩
  have hv : ∀ k, k < N → rs2 n (u (k + 1)) = S.step (absF2 hn p dx m0) (d k) (rs2 n (u k)) := by
    intro k _
    rw [← (hmap _ _).1, ← (hst (t k) _ _).1, hu]
    rfl
  have hsl : ∀ k, (sum2 n n fun i j => T.slope F (t k) (d k) (u k) (i, j) ^ 2) =
      ∑ i, S.slope (absF2 hn p dx m0) (d k) (rs2 n (u k)) i ^ 2 := by
    intro k
    rw [← (hmap _ _).2, ← (hst (t k) _ _).2]
    exact (sum_sub2 fun c => T.slope F (t k) (d k) (u k) c ^ 2).symm
  have hm0 : |m0| ≤ R := by
    obtain ⟨φ, hp, hE⟩ := hv0
    have sup := gEn_sup (pL2_sym hn dx) (pL2_neg hn dx) he hsg hE hR0 hR2
    have hs := (pot2_exists hn hdx (m0 := m0) (u := u 0)).1 ⟨φ0, by rw [hu]; exact hφ0⟩
    rw [show (sum2 n n fun i j => u 0 (i, j)) = _ from (sum_sub2 (u 0)).symm] at hs
    have hc := card_cells2 n (by omega)
    have hpos : (0 : ℝ) < ((n * n : Int) : ℝ) := by
      exact_mod_cast Int.mul_pos (by omega) (by omega)
    have hb : |∑ c : cells2 n, u 0 c| ≤ ((n * n : Int) : ℝ) * R := by
      refine (abs_sum_le_sum_abs _ _).trans ((sum_le_sum fun c _ => sup c).trans (le_of_eq ?_))
      rw [sum_const, nsmul_eq_mul, show (univ : Finset (cells2 n)).card = (cells2 n).card by
        rw [card_univ, Fintype.card_coe], hc]
      push_cast; ring
    rw [hs, abs_mul, abs_of_pos hpos] at hb
    exact le_of_mul_le_mul_left hb hpos
  have hd' : ∀ k, k < N → 0 ≤ d k ∧ d k * (8 / dx ^ 2 * (27 * R ^ 2 + 1 + p.eps2 * (8 / dx ^ 2)) + p.sigma) ≤ 1 / 2 := by
    intro k hk'
    refine ⟨(hd k hk').1, le_trans (le_of_eq ?_) (hd k hk').2⟩
    rw [hR2]; ring
  have pot := energy_run_pot (pL2_sym hn dx) (pL2_neg hn dx) hlam (pL2_bnd hn hdx) (pL2_sup hn hdx) he hsg S o2 o3
    (F := absF2 hn p dx m0) (fun _ => rfl) hR0 hR2 hm0 (u := fun k => rs2 n (u k)) hd' hv hv0
  have sup := energy_run_sup (pL2_sym hn dx) (pL2_neg hn dx) hlam (pL2_bnd hn hdx) (pL2_sup hn hdx) he hsg S o2 o3
    (F := absF2 hn p dx m0) (fun _ => rfl) hR0 hR2 hm0 (u := fun k => rs2 n (u k)) hd' hv hv0
  refine ⟨fun k hk' => ⟨?_, fun c hc => ?_⟩, fun k hk' φ ψ hφ hψ => ?_, fun k hk' φ hφ => ?_⟩
  · obtain ⟨φ, hφ, -⟩ := pot k hk'
    obtain ⟨φ, rfl⟩ := rs2_surj φ
    exact ⟨φ, (pot2_iff hn dx m0 _ φ).2 hφ⟩
  · rw [← hR2]
    have h : |u k c| ≤ R := sup k hk' ⟨c, (mem_cells2 n c).2 hc⟩
    exact sq_le_sq' (by linarith [neg_abs_le (u k c)]) ((le_abs_self _).trans h)
  · obtain ⟨a, b⟩ := energy_run_step (pL2_sym hn dx) (pL2_neg hn dx) hlam (pL2_bnd hn hdx) (pL2_sup hn hdx) he
      hsg S o2 o3 (F := absF2 hn p dx m0) (fun _ => rfl) hR0 hR2 hm0 (u := fun k => rs2 n (u k)) hd' hv hv0 k hk'
      ((pot2_iff hn dx m0 _ φ).1 hφ) ((pot2_iff hn dx m0 _ ψ).1 hψ)
    rw [gEn2, gEn2, diss2] at a
    rw [diss2] at b
    rw [hsl]
    refine ⟨by linarith, b.trans (le_of_eq (by ring))⟩
  · have a := energy_run_sum (pL2_sym hn dx) (pL2_neg hn dx) hlam (pL2_bnd hn hdx) (pL2_sup hn hdx) he
      hsg S o2 o3 (F := absF2 hn p dx m0) (fun _ => rfl) hR0 hR2 hm0 (u := fun k => rs2 n (u k)) hd' hv hv0 k hk'
      _ ((pot2_iff hn dx m0 _ φ).1 hφ)
    rw [gEn2] at a
    rw [sum_congr rfl fun a _ => by rw [hsl a]]
    exact a.trans (le_of_eq (by ring))

end

/-! ### When the tolerance ends a run -/

theorem le_mul_card_filter {f : Nat} (hf : 0 < f) (n : Nat) : n ≤ ((range n).filter fun k => f ∣ k).card * f := by
  have : (range n).card ≤ (((range n).filter fun k => f ∣ k) ×ˢ range f).card := by
    refine Finset.card_le_card_of_injOn (fun k => (k / f * f, k % f)) ?_ ?_
    · intro k hk
      rw [coe_product, Set.mem_prod]
      have h1 : k < n := by simpa using hk
      have h2 : k / f * f ≤ k := Nat.div_mul_le_self k f
      simp only [coe_filter, mem_range, Set.mem_ofPred_eq, coe_range, Set.mem_Iio]
      exact ⟨⟨by omega, dvd_mul_left f _⟩, Nat.mod_lt _ hf⟩
    · intro a _ b _ h
      simp only [Prod.mk.injEq] at h
      have ha := Nat.div_add_mod' a f
      have hb := Nat.div_add_mod' b f
      omega
  rwa [card_range, card_product, card_range] at this

/-- With an absolute tolerance `a` and fixed step, a bound on the sum of the squared residuals bounds the number of steps. -/
theorem stops_count {o : TimeOpts ℝ} {f : Nat} (hf : 0 < f) {t0 dt : ℝ} {t d p r : Nat → ℝ} {N : Nat}
    (hm : Marching o.tfinal t0 dt t d p) (hp : ∀ k, p (k + 1) = d k) (hN : EndsAfter o f t p r N) (ha : 0 < o.absTol) (hdt : 0 ≤ dt)
    {S : ℝ} (hS : ∀ n, (∀ k, k < n → d k = dt) → ∑ k ∈ range n, d k * r k ^ 2 ≤ S) :
    ((N : ℝ) - 1) * (dt * o.absTol ^ 2) ≤ f * S := by
  obtain ⟨h1, -, hno⟩ := hN
  have hd : ∀ k, k < N - 1 → d k = dt := by
    intro k
    induction k with
    | zero => intro _; exact hm.d_zero
    | succ k ih =>
      intro hk
      have h := hno (k + 2) (by omega) (by omega)
      have hl : ¬ (o.tfinal ≤ t (k + 1) + p (k + 1)) := fun hl => h (Or.inl ⟨by omega, hl⟩)
      rw [hm.d_succ, if_neg hl, hp, ih (by omega)]
  have hr : ∀ k, k < N - 1 → f ∣ k → o.absTol ≤ r k := by
    intro k hk hfk
    have h := hno (k + 1) (by omega) (by omega)
    by_contra hc
    refine h (Or.inr (Or.inr (Or.inr ⟨ha.ne', ?_⟩)))
    have e : lastLogged f (k + 1) = k := by
      unfold lastLogged
      rw [Nat.add_sub_cancel]
      exact Nat.div_mul_cancel hfk
    rw [e]
    exact not_le.1 hc
  have h2 := hS (N - 1) hd
  have h3 : (((range (N - 1)).filter fun k => f ∣ k).card : ℝ) * (dt * o.absTol ^ 2) ≤ ∑ k ∈ range (N - 1), d k * r k ^ 2 := by
    rw [← nsmul_eq_mul, ← sum_const]
    refine (sum_le_sum fun k hk => ?_).trans (sum_le_sum_of_subset_of_nonneg (filter_subset _ _) fun k hk _ => ?_)
    · rw [mem_filter, mem_range] at hk
      rw [hd k hk.1]
      exact mul_le_mul_of_nonneg_left (pow_le_pow_left₀ ha.le (hr k hk.1 hk.2) 2) hdt
    · rw [hd k (mem_range.1 hk)]
      exact mul_nonneg hdt (sq_nonneg _)
  have h4 := le_mul_card_filter hf (N - 1)
  have h5 : ((N : ℝ) - 1) ≤ (((range (N - 1)).filter fun k => f ∣ k).card : ℝ) * f := by
    have : (((N - 1 : Nat)) : ℝ) ≤ ((((range (N - 1)).filter fun k => f ∣ k).card * f : Nat) : ℝ) := by exact_mod_cast h4
    rw [Nat.cast_sub h1] at this
    push_cast at this
    exact this
  have hfn : (0 : ℝ) ≤ f := Nat.cast_nonneg f
  calc ((N : ℝ) - 1) * (dt * o.absTol ^ 2)
      ≤ ((((range (N - 1)).filter fun k => f ∣ k).card : ℝ) * f) * (dt * o.absTol ^ 2) :=
        mul_le_mul_of_nonneg_right h5 (mul_nonneg hdt (sq_nonneg _))
    _ = f * ((((range (N - 1)).filter fun k => f ∣ k).card : ℝ) * (dt * o.absTol ^ 2)) := by ring
    _ ≤ f * S := mul_le_mul_of_nonneg_left (h3.trans h2) hfn

/-- Values whose squares have bounded sums tend to zero. -/
theorem residual_tendsto {r d : Nat → ℝ} {δ S : ℝ} (hδ : 0 < δ) (hd : ∀ k, δ ≤ d k)
    (hS : ∀ n, ∑ k ∈ range n, d k * r k ^ 2 ≤ S) : Filter.Tendsto r Filter.atTop (nhds 0) := by
  have hsum : Summable fun k => r k ^ 2 := by
    refine summable_of_sum_range_le (c := S / δ) (fun k => sq_nonneg _) fun n => ?_
    rw [le_div_iff₀ hδ, sum_mul]
    refine le_trans (sum_le_sum fun k _ => ?_) (hS n)
    rw [mul_comm]
    exact mul_le_mul_of_nonneg_right (hd k) (sq_nonneg _)
  have h := hsum.tendsto_atTop_zero
  have h2 := (Real.continuous_sqrt.tendsto 0).comp h
  rw [Real.sqrt_zero] at h2
  refine (tendsto_zero_iff_abs_tendsto_zero _).2 (h2.congr fun k => ?_)
  exact Real.sqrt_sq_eq_abs _

end Madg
