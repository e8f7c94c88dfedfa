/-
C88, C89: whole runs of the program with the multigrid integrator.
-/
import Verif.Proofs.MGMain
import Verif.Proofs.MGTotal
import Verif.Props.Program
import Verif.Props.InitCond
import Mathlib.Analysis.SpecificLimits.Basic

set_option linter.unusedSectionVars false
set_option linter.unusedVariables false

namespace Madg
open Spec

/-! ### Fields of a run -/

/-- Fields, numbers of cycles and slopes of a run exist and are unique. -/
theorem C88_sequences {C : Type} (S : Fas C ℝ) (n L : Nat) (tol : ℝ) (maxC : Nat) (nrm : (C → ℝ) → ℝ) (un : Bool)
    (e0 dt : Nat → ℝ) (u0 : C → ℝ) : ∃ u s c, FasRun S n L tol maxC nrm un e0 dt u0 u s c ∧
      ∀ u' s' c', FasRun S n L tol maxC nrm un e0 dt u0 u' s' c' → u' = u ∧ s' = s ∧ c' = c := by
  obtain ⟨u, s, c, h⟩ := fasRun_exists S n L tol maxC nrm un e0 dt u0
  refine ⟨u, s, c, h, fun u' s' c' h' => ?_⟩
  have key : ∀ k, u' k = u k := by
    intro k
    induction k with
    | zero => rw [h.start, h'.start]
    | succ k ih =>
      have a := h'.used k
      rw [ih] at a
      rw [h.next, h'.next, ih, a.unique (h.used k)]
  have kc : ∀ k, c' k = c k := fun k => by
    have a := h'.used k
    rw [key k] at a
    exact a.unique (h.used k)
  exact ⟨funext key, funext fun k => by rw [h.slope, h'.slope, key, kc], funext kc⟩

/-! ### Accuracy of the steady Poisson solver -/

theorem level_half {L : Nat} {n : Int} (hn : 1 ≤ n) (hd : 2 ^ L ∣ n) {ℓ : Nat} (hℓ : ℓ ≤ L) : 1 ≤ n / 2 ^ ℓ ∧ n / 2 ^ ℓ * 2 ^ ℓ = n ∧
    (ℓ < L → n / 2 ^ ℓ = 2 * (n / 2 ^ (ℓ + 1))) := by
  have hd' : ∀ j, j ≤ L → (2 : Int) ^ j ∣ n := fun j hj => (pow_dvd_pow 2 hj).trans hd
  have e := Int.ediv_mul_cancel (hd' ℓ hℓ)
  have p : (0 : Int) < 2 ^ ℓ := by positivity
  refine ⟨?_, e, fun h => ?_⟩
  · by_contra hc
    have : n / 2 ^ ℓ * 2 ^ ℓ ≤ 0 := Int.mul_nonpos_of_nonpos_of_nonneg (by omega) p.le
    omega
  · have e2 := Int.ediv_mul_cancel (hd' (ℓ + 1) h)
    refine Int.eq_of_mul_eq_mul_right p.ne' ?_
    rw [e]
    rw [pow_succ] at e2
    rw [pow_succ]
    linarith

section
variable (nx ny nz : Int) (hn : 1 ≤ nx ∧ 1 ≤ ny ∧ 1 ≤ nz) (e : Nat → Int → Int → Int → ℝ) (dx : Nat → ℝ) (mode : String)
  (cfl rf rc : ℝ) (hc : 0 < cfl) (hc1 : cfl ≤ 1 / 5) (S : Fas (Int × Int × Int) ℝ)
  (hS : S = poisFas (levelGrid ⟨nx, ny, nz, 2⟩) e dx mode cfl rf rc) (n : Nat) (h1 : 1 ≤ n) (L : Nat) (tol : ℝ) (maxC : Nat)
  (hmc : 1 ≤ maxC) (e0 dt : Nat → ℝ) (u0 : Int × Int × Int → ℝ) (u s : Nat → Int × Int × Int → ℝ) (c : Nat → Nat)
  (hr : FasRun S n L tol maxC (rms3 Real.sqrt nx ny nz) false e0 dt u0 u s c)

include hn hc hc1 hS h1 hmc hr

theorem steady_step (k : Nat) : 1 ≤ c k ∧ ∃ U : Nat → (Int × Int × Int → ℝ) × (Int × Int × Int → ℝ),
    U = S.iterate n L (if k = 0 then e0 else S.dt) (fun w x => poisRhs (dx 0) nx ny nz (e 0) (fun i j k => w (i, j, k)) x.1 x.2.1 x.2.2)
      (u k, S.F 0 (u k)) ∧ u (k + 1) = (U (c k)).1 ∧ s k = (U (c k)).2 := by
  have a := hr.used k
  refine ⟨?_, _, rfl, ?_, ?_⟩
  · by_contra h
    exact h (a.2.2 (by omega)).1
  all_goals
    have e1 : (fun (w : Int × Int × Int → ℝ) x => S.F 0 w x - if false = true then (w x - u k x) / dt k else 0) =
        fun w x => poisRhs (dx 0) nx ny nz (e 0) (fun i j k => w (i, j, k)) x.1 x.2.1 x.2.2 := by
      funext w x
      rw [hS]
      simp [poisFas, levelGrid]
    first
    | rw [hr.next, Fas.solve, e1]
    | rw [hr.slope, Fas.solve, e1]

/-- C88. After every step of a steady run the field differs from the solution of the discrete problem by at most
`8/5 (nz dx)²` times the residual reported for the step, in the root mean square: with any number of levels, both
prolongations, any relaxation, converged or not. -/
theorem C88_residual_certifies (hdx : 0 < dx 0) (us : Int × Int × Int → ℝ) (hus : PoisSolves (dx 0) nx ny nz (e 0) us) (k : Nat) :
    rms3 Real.sqrt nx ny nz (fun x => u (k + 1) x - us x) ≤ 8 / 5 * ((nz : ℝ) * dx 0) ^ 2 * rms3 Real.sqrt nx ny nz (s k) := by
  obtain ⟨hck, U, hU, hu, hs⟩ := steady_step nx ny nz hn e dx mode cfl rf rc hc hc1 S hS n h1 L tol maxC hmc e0 dt u0 u s c hr k
  obtain ⟨i, hi⟩ : ∃ i, c k = i + 1 := ⟨c k - 1, by omega⟩
  have g0 : levelGrid ⟨nx, ny, nz, 2⟩ 0 = ⟨nx, ny, nz, 2⟩ := by simp [levelGrid]
  have key := C80_residual_bounds_error (levelGrid ⟨nx, ny, nz, 2⟩) e dx mode cfl rf rc hdx.ne' hc hc1
    (by rw [g0]; exact hn.1) (by rw [g0]; exact hn.2.1) (by rw [g0]; exact hn.2.2) n h1 L (if k = 0 then e0 else S.dt) (u k, S.F 0 (u k)) U
    (by rw [hU, g0, hS]) us (by rw [g0]; exact hus) i
  rw [g0, ← hi, ← hu, ← hs] at key
  have hN : (0 : ℝ) < (nx : ℝ) * ny * nz := by
    have h1 : (0 : ℝ) < nx := by exact_mod_cast (show 0 < nx by omega)
    have h2 : (0 : ℝ) < ny := by exact_mod_cast (show 0 < ny by omega)
    have h3 : (0 : ℝ) < nz := by exact_mod_cast (show 0 < nz by omega)
    positivity
  unfold rms3
  rw [show 8 / 5 * ((nz : ℝ) * dx 0) ^ 2 = Real.sqrt (64 / 25 * ((nz : ℝ) * dx 0) ^ 4) by
    rw [show 64 / 25 * ((nz : ℝ) * dx 0) ^ 4 = (8 / 5 * ((nz : ℝ) * dx 0) ^ 2) ^ 2 by ring]
    exact (Real.sqrt_sq (by positivity)).symm, ← Real.sqrt_mul (by positivity)]
  refine Real.sqrt_le_sqrt ?_
  rw [← mul_div_assoc]
  exact div_le_div_of_nonneg_right key hN.le

/-- C88. On a uniform grid whose x and y lengths are multiples of `2π`, after every step of a steady run the field differs from
the exact solution `sin x cos y cos z` by at most `(nz dx)² (8/5 r + 5/16 dx²)`, `r` being the residual reported for the step. -/
theorem C88_accuracy (hdx : 0 < dx 0) (hdx1 : dx 0 ≤ 1) (xb yb zb : ℝ) (px py : ℤ)
    (hpx : (nx : ℝ) * dx 0 = px * (2 * Real.pi)) (hpy : (ny : ℝ) * dx 0 = py * (2 * Real.pi)) (ex : Int → Int → Int → ℝ)
    (hex : ∀ i j k : Int, ex i j k =
      Real.sin (xb + dx 0 * (i + 1 / 2)) * Real.cos (yb + dx 0 * (j + 1 / 2)) * Real.cos (zb + dx 0 * (k + 1 / 2)))
    (he : e 0 = ex) (k : Nat) :
    rms3 Real.sqrt nx ny nz (fun x => u (k + 1) x - ex x.1 x.2.1 x.2.2) ≤
      ((nz : ℝ) * dx 0) ^ 2 * (8 / 5 * rms3 Real.sqrt nx ny nz (s k) + 5 / 16 * dx 0 ^ 2) := by
  obtain ⟨us, hus, -⟩ := C80_unique_solution (dx 0) hdx.ne' nx ny nz hn.1 hn.2.1 hn.2.2 (e 0)
  have a := C88_residual_certifies nx ny nz hn e dx mode cfl rf rc hc hc1 S hS n h1 L tol maxC hmc e0 dt u0 u s c hr hdx us hus k
  have b := C82_discretization_error (dx 0) xb yb zb hdx hdx1 nx ny nz hn.1 hn.2.1 hn.2.2 px py hpx hpy (e 0)
    (fun i j k _ _ _ => by rw [he, hex]; simp only [mul_comm (dx 0)]) us hus
  have hN : (0 : ℝ) < (nx : ℝ) * ny * nz := by
    have h1 : (0 : ℝ) < nx := by exact_mod_cast (show 0 < nx by omega)
    have h2 : (0 : ℝ) < ny := by exact_mod_cast (show 0 < ny by omega)
    have h3 : (0 : ℝ) < nz := by exact_mod_cast (show 0 < nz by omega)
    positivity
  have t := rms_triangle (ni := nx) (nj := ny) (nk := nz) hN (fun i j l => u (k + 1) (i, j, l) - us (i, j, l))
    (fun i j l => us (i, j, l) - e 0 i j l)
  simp only [sub_add_sub_cancel] at t
  rw [he] at t b
  unfold rms3 at a ⊢
  refine t.trans ?_
  refine (add_le_add a b).trans (le_of_eq ?_)
  ring

omit hmc h1 in
/-- Cycles with the regular steps contract the energy. -/
theorem steady_contract (hmode : mode = "nearest") (hd : 2 ^ L ∣ nx ∧ 2 ^ L ∣ ny ∧ 2 ^ L ∣ nz) (hdx : dx 0 ≠ 0)
    (hdx2 : ∀ ℓ, ℓ < L → dx (ℓ + 1) = 2 * dx ℓ) (hrf : 0 ≤ rf ∧ rf ≤ 1) (hrc : 1 < L → 0 ≤ rc ∧ rc ≤ 1 / 2)
    (us : Int × Int × Int → ℝ) (hus : PoisSolves (dx 0) nx ny nz (e 0) us) (h1 : 1 ≤ n)
    (ys r : (Int × Int × Int → ℝ) × (Int × Int × Int → ℝ))
    (hr' : r = S.cycle n S.dt L 0 (fun w x => poisRhs (dx 0) nx ny nz (e 0) (fun i j k => w (i, j, k)) x.1 x.2.1 x.2.2) ys) :
    dirForm nx ny nz (r.1 - us) (r.1 - us) ≤
      (1 - cfl / (8 * (nz : ℝ) ^ 2)) ^ (2 * n) * dirForm nx ny nz (ys.1 - us) (ys.1 - us) ∧
    (cfl * dx 0 ^ 2) ^ 2 * ipL nx ny nz r.2 r.2 ≤ 4 * (nz : ℝ) ^ 2 * dirForm nx ny nz (ys.1 - us) (ys.1 - us) := by
  have g0 : levelGrid ⟨nx, ny, nz, 2⟩ 0 = ⟨nx, ny, nz, 2⟩ := by simp [levelGrid]
  have hdxn : ∀ ℓ, ℓ < L + 1 → dx ℓ ≠ 0 := by
    intro ℓ
    induction ℓ with
    | zero => exact fun _ => hdx
    | succ ℓ ih => intro h; rw [hdx2 ℓ (by omega)]; exact mul_ne_zero two_ne_zero (ih (by omega))
  have := cycle_contract (g := levelGrid ⟨nx, ny, nz, 2⟩) (dx := dx) (nlev := L + 1)
    (fun ℓ hℓ => ⟨(level_half hn.1 hd.1 (by omega)).1, (level_half hn.2.1 hd.2.1 (by omega)).1,
      (level_half hn.2.2 hd.2.2 (by omega)).1⟩)
    (fun ℓ hℓ => ⟨(level_half hn.1 hd.1 (by omega)).2.2 (by omega), (level_half hn.2.1 hd.2.1 (by omega)).2.2 (by omega),
      (level_half hn.2.2 hd.2.2 (by omega)).2.2 (by omega)⟩) hdxn (fun ℓ hℓ => hdx2 ℓ (by omega)) hc hc1 hrf e n h1 L (by omega) hrc
    (fun w x => poisRhs (dx 0) nx ny nz (e 0) (fun i j k => w (i, j, k)) x.1 x.2.1 x.2.2) us
    (fun w x hx => by
      rw [g0] at hx ⊢
      have := pois_phi hus w x hx
      simpa using this) ys r (by rw [hr', hS, hmode])
  rw [g0] at this
  exact this

/-- C88. With piecewise constant prolongation a steady run converges to the solution of the discrete problem: every step after the
first reduces the energy of the error by at least the factor `(1 - cfl / (8 nz²)) ^ (2 n)`, however few cycles it takes, and the fields
and the reported residuals converge. -/
theorem C88_converges (hmode : mode = "nearest") (hd : 2 ^ L ∣ nx ∧ 2 ^ L ∣ ny ∧ 2 ^ L ∣ nz) (hdx : dx 0 ≠ 0)
    (hdx2 : ∀ ℓ, ℓ < L → dx (ℓ + 1) = 2 * dx ℓ) (hrf : 0 ≤ rf ∧ rf ≤ 1) (hrc : 1 < L → 0 ≤ rc ∧ rc ≤ 1 / 2)
    (us : Int × Int × Int → ℝ) (hus : PoisSolves (dx 0) nx ny nz (e 0) us) (En : Nat → ℝ)
    (hEn : ∀ k, En k = poisEnergy (dx 0) nx ny nz (fun x => u k x - us x)) :
    (∀ k, En (k + 2) ≤ (1 - cfl / (8 * (nz : ℝ) ^ 2)) ^ (2 * n) * En (k + 1)) ∧
    (∀ i j k, (0 ≤ i ∧ i < nx) → (0 ≤ j ∧ j < ny) → (0 ≤ k ∧ k < nz) →
      Filter.Tendsto (fun q => u q (i, j, k)) Filter.atTop (nhds (us (i, j, k)))) ∧
    Filter.Tendsto (fun q => rms3 Real.sqrt nx ny nz (s q)) Filter.atTop (nhds 0) := by
  obtain ⟨hi, hj, hk⟩ := hn
  have hd2 : (0 : ℝ) < dx 0 ^ 2 := by positivity
  have hen : ∀ k, En k = dirForm nx ny nz (u k - us) (u k - us) / dx 0 ^ 2 := by
    intro k
    rw [hEn]
    have := congrArg Neg.neg (dir_green (dx 0) hi hj hk (u k - us) (u k - us))
    rw [neg_neg] at this
    exact this
  have en0 : ∀ k, 0 ≤ En k := fun k => by rw [hen]; exact div_nonneg (dirForm_nonneg _ _ _ _) hd2.le
  have hnz : (1 : ℝ) ≤ nz := by exact_mod_cast hk
  have hq : 0 < cfl / (8 * (nz : ℝ) ^ 2) ∧ cfl / (8 * (nz : ℝ) ^ 2) < 1 := by
    refine ⟨by positivity, ?_⟩
    rw [div_lt_one (by positivity)]
    have : (1 : ℝ) ≤ (nz : ℝ) ^ 2 := one_le_pow₀ hnz
    linarith
  obtain ⟨ρ, hρ⟩ : ∃ ρ, ρ = (1 - cfl / (8 * (nz : ℝ) ^ 2)) ^ (2 * n) := ⟨_, rfl⟩
  have ρ0 : 0 ≤ ρ := by rw [hρ]; exact pow_nonneg (by linarith [hq.2]) _
  have ρ1 : ρ < 1 := by rw [hρ]; exact pow_lt_one₀ (by linarith [hq.2]) (by linarith [hq.1]) (by omega)
  have N0 : (0 : ℝ) < (nx : ℝ) * ny * nz := by
    have h1 : (0 : ℝ) < nx := by exact_mod_cast (show 0 < nx by omega)
    have h2 : (0 : ℝ) < ny := by exact_mod_cast (show 0 < ny by omega)
    positivity
  -- one step
  have step : ∀ k, dirForm nx ny nz (u (k + 2) - us) (u (k + 2) - us) ≤ ρ * dirForm nx ny nz (u (k + 1) - us) (u (k + 1) - us) ∧
      (cfl * dx 0 ^ 2) ^ 2 * ipL nx ny nz (s (k + 1)) (s (k + 1)) ≤
        4 * (nz : ℝ) ^ 2 * dirForm nx ny nz (u (k + 1) - us) (u (k + 1) - us) := by
    intro k
    obtain ⟨hck, U, hU, hu, hs⟩ := steady_step nx ny nz ⟨hi, hj, hk⟩ e dx mode cfl rf rc hc hc1 S hS n h1 L tol maxC hmc e0 dt u0 u s c hr (k + 1)
    have cyc : ∀ i, U (i + 1) = S.cycle n S.dt L 0 (fun w x => poisRhs (dx 0) nx ny nz (e 0) (fun i j k => w (i, j, k)) x.1 x.2.1 x.2.2) (U i) := by
      intro i
      rw [hU]
      show S.cycle n (if i = 0 then _ else S.dt) L 0 _ _ = _
      rw [if_neg (Nat.succ_ne_zero k), ite_self]
    have con := fun i => steady_contract nx ny nz ⟨hi, hj, hk⟩ e dx mode cfl rf rc hc hc1 S hS n L tol maxC e0 dt u0 u s c hr hmode hd hdx hdx2
      hrf hrc us hus h1 (U i) (U (i + 1)) (cyc i)
    have u0' : (U 0).1 = u (k + 1) := by rw [hU]; rfl
    have dn := fun i => dirForm_nonneg nx ny nz ((U i).1 - us)
    have dec : ∀ i, dirForm nx ny nz ((U i).1 - us) ((U i).1 - us) ≤ dirForm nx ny nz (u (k + 1) - us) (u (k + 1) - us) := by
      intro i
      induction i with
      | zero => rw [u0']
      | succ i ih =>
        have := (con i).1
        rw [← hρ] at this
        exact (this.trans (mul_le_of_le_one_left (dn i) ρ1.le)).trans ih
    obtain ⟨i, hi'⟩ : ∃ i, c (k + 1) = i + 1 := ⟨c (k + 1) - 1, by omega⟩
    rw [hi'] at hu hs
    refine ⟨?_, ?_⟩
    · rw [hu]
      have := (con i).1
      rw [← hρ] at this
      exact this.trans (mul_le_mul_of_nonneg_left (dec i) ρ0)
    · rw [hs]
      exact (con i).2.trans (mul_le_mul_of_nonneg_left (dec i) (by positivity))
  have geo : ∀ k, dirForm nx ny nz (u (k + 1) - us) (u (k + 1) - us) ≤ ρ ^ k * dirForm nx ny nz (u 1 - us) (u 1 - us) := by
    intro k
    induction k with
    | zero => simp
    | succ k ih =>
      refine (step k).1.trans ?_
      rw [pow_succ', mul_assoc]
      exact mul_le_mul_of_nonneg_left ih ρ0
  have lim : Filter.Tendsto (fun k => dirForm nx ny nz (u (k + 1) - us) (u (k + 1) - us)) Filter.atTop (nhds 0) := by
    refine squeeze_zero (fun k => dirForm_nonneg _ _ _ _) geo ?_
    simpa using (tendsto_pow_atTop_nhds_zero_of_lt_one ρ0 ρ1).mul_const (dirForm nx ny nz (u 1 - us) (u 1 - us))
  refine ⟨fun k => ?_, fun i j k ha hb hc' => ?_, ?_⟩
  · rw [hen, hen, ← mul_div_assoc, ← hρ]
    exact div_le_div_of_nonneg_right (step k).1 hd2.le
  · rw [← Filter.tendsto_add_atTop_iff_nat 1]
    rw [tendsto_iff_norm_sub_tendsto_zero]
    have sq0 : Filter.Tendsto (fun q => (u (q + 1) (i, j, k) - us (i, j, k)) ^ 2) Filter.atTop (nhds 0) := by
      refine squeeze_zero (fun q => sq_nonneg _) (fun q => ?_) (by simpa using lim.const_mul ((nz : ℝ) ^ 2))
      have p1 := ipL_point (u (q + 1) - us) (c := (i, j, k)) ⟨ha, hb, hc'⟩
      exact p1.trans (dir_poincare hi hj hk _)
    have := sq0.sqrt
    simp only [Real.sqrt_sq_eq_abs, Real.sqrt_zero] at this
    exact this
  · rw [← Filter.tendsto_add_atTop_iff_nat 1]
    have z : Filter.Tendsto (fun q => ipL nx ny nz (s (q + 1)) (s (q + 1)) / ((nx : ℝ) * ny * nz)) Filter.atTop (nhds 0) := by
      have p2 : (0 : ℝ) < (cfl * dx 0 ^ 2) ^ 2 := by positivity
      have b := lim.const_mul (4 * (nz : ℝ) ^ 2 / (cfl * dx 0 ^ 2) ^ 2 / ((nx : ℝ) * ny * nz))
      rw [mul_zero] at b
      refine squeeze_zero (fun q => ?_) (fun q => ?_) b
      · rw [ipL_apply]; exact div_nonneg (sum3_nonneg fun i j k => mul_self_nonneg _) N0.le
      · rw [div_mul_eq_mul_div]
        refine div_le_div_of_nonneg_right ?_ N0.le
        rw [div_mul_eq_mul_div, le_div_iff₀ p2, mul_comm]
        exact (step q).2
    have := z.sqrt
    rw [Real.sqrt_zero] at this
    refine this.congr fun q => ?_
    unfold rms3
    rw [ipL_apply]
    simp only [← sq]

end

/-! ### Mean value of Cahn–Hilliard runs -/

/-- C89. On a triply periodic grid every step of the multigrid integrator keeps the mean, for both prolongations, any number of levels
and any relaxation, converged or not: every field of a run that starts with the prescribed mean has it. -/
theorem C89_mean (nx ny nz : Int) (hn : 1 ≤ nx ∧ 1 ≤ ny ∧ 1 ≤ nz) (dx : Nat → ℝ) (par : CHParams ℝ) (mode : String) (cfl rf rc : ℝ)
    (n : Nat) (L : Nat) (hd : 2 ^ L ∣ nx ∧ 2 ^ L ∣ ny ∧ 2 ^ L ∣ nz) (tol : ℝ) (maxC : Nat) (nrm : (Int × Int × Int → ℝ) → ℝ) (un : Bool)
    (e0 dt : Nat → ℝ) (draw : Nat → ℝ) (u s : Nat → Int × Int × Int → ℝ) (c : Nat → Nat)
    (hr : FasRun (chFas (levelGrid ⟨nx, ny, nz, 2⟩) .periodic .periodic .periodic dx par mode cfl rf rc) n L tol maxC nrm un e0 dt
      (initial3 draw par.m nx ny nz) u s c) (k : Nat) :
    sum3 nx ny nz (fun i j l => u k (i, j, l)) / ((nx * ny * nz : Int) : ℝ) = par.m := by
  obtain ⟨hF, hR, hT⟩ := chFas_lin (g := levelGrid ⟨nx, ny, nz, 2⟩) (dx := dx) (p := par) (mode := mode) (cfl := cfl) (rf := rf) (rc := rc)
    (top := L)
    (fun ℓ hℓ => ⟨(level_half hn.1 hd.1 hℓ).1, (level_half hn.2.1 hd.2.1 hℓ).1, (level_half hn.2.2 hd.2.2 hℓ).1⟩)
    (fun ℓ hℓ => ⟨(level_half hn.1 hd.1 hℓ.le).2.2 hℓ, (level_half hn.2.1 hd.2.1 hℓ.le).2.2 hℓ, (level_half hn.2.2 hd.2.2 hℓ.le).2.2 hℓ⟩)
    _ rfl
  have g0 : levelGrid ⟨nx, ny, nz, 2⟩ 0 = ⟨nx, ny, nz, 2⟩ := by simp [levelGrid]
  have h := fasRun_lin (L := fun ℓ => total3 (levelGrid ⟨nx, ny, nz, 2⟩ ℓ).ni (levelGrid ⟨nx, ny, nz, 2⟩ ℓ).nj (levelGrid ⟨nx, ny, nz, 2⟩ ℓ).nk)
    (M := fun ℓ => (((levelGrid ⟨nx, ny, nz, 2⟩ ℓ).ni * (levelGrid ⟨nx, ny, nz, 2⟩ ℓ).nj * (levelGrid ⟨nx, ny, nz, 2⟩ ℓ).nk : Int) : ℝ) * par.m)
    hF hR hT hr (by rw [g0]; exact initial3_total draw par.m hn) k
  rw [g0] at h
  have hpos : 0 < nx * ny * nz := Int.mul_pos (Int.mul_pos (by omega) (by omega)) (by omega)
  have hne : ((nx * ny * nz : Int) : ℝ) ≠ 0 := by exact_mod_cast hpos.ne'
  rw [div_eq_iff hne, mul_comm par.m]
  exact h

/-! ### Runs of the program -/

section
variable {A : Type} [DecidableEq A] (sz : A → Int) (E : Env ℝ) (o : RunOpts) (w : ProgArr A)
  (hcfl : o.useCfl = false) (hlf : o.logFreq ≠ 0) (hms : 0 < o.maxSteps) (hmax : o.maxSteps < 2147483648)
  (bx bY bz : BCType)
  (hbx : (o.sel.bcx, bx) ∈ [("periodic", BCType.periodic), ("neumann", .neumann), ("dirichlet", .dirichlet)])
  (hby : (o.sel.bcy, bY) ∈ [("periodic", BCType.periodic), ("neumann", .neumann), ("dirichlet", .dirichlet)])
  (hbz : (o.sel.bcz, bz) ∈ [("periodic", BCType.periodic), ("neumann", .neumann), ("dirichlet", .dirichlet)])
  (hdim : o.sel.dimension = 3)
  (nl : Nat) (hnl : o.mg.levels = nl) (hl : 1 ≤ nl ∧ nl ≤ 6) (ns : Nat) (hns : o.mg.nsmooth = ns) (hn1 : 1 ≤ ns)
  (hmode : o.mg.interp = "nearest" ∨ o.mg.interp = "linear")
  (hd : 2 ^ (nl - 1) ∣ o.nx ∧ 2 ^ (nl - 1) ∣ o.ny ∧ 2 ^ (nl - 1) ∣ o.nz)
  (hb : 2 ^ nl ≤ o.nx ∧ 2 ^ nl ≤ o.ny ∧ 2 ^ nl ≤ o.nz) (hw : ArraysMG sz w nl o.nx o.ny o.nz)
  (un : Bool) (hun : (un = true ∧ o.sel.integrator = "bdf1") ∨ (un = false ∧ o.sel.integrator = "steady"))
  (hz : un = true → 0 < o.dt0 ∧ o.tfinal ≠ o.t0 + o.dt0)
  (t d p : Nat → ℝ) (hm : Marching o.tfinal o.t0 o.dt0 t d p) (hp : ∀ k, p (k + 1) = d k)
  (dx : Nat → ℝ) (hdx : ∀ ℓ, dx ℓ = (o.box.xend - o.box.xbeg) / ((o.nx / 2 ^ ℓ : Int) : ℝ))
  (u s : Nat → Int × Int × Int → ℝ) (c : Nat → Nat) (W : Nat) (hW : W = max (Nat.log 10 o.maxSteps + 1) 4) (m : Mem A ℝ)

include hcfl hlf hms hmax hbx hby hbz hdim hnl hl hns hn1 hmode hd hb hw hun hz hm hp hdx hW

/-- C88. A run of the Poisson equation with the multigrid integrator, from any contents of the memory, under every schedule of its
loops and reductions: the field starts from zero, each step applies V-cycles of the full approximation scheme on the stated grids
until its residual has dropped as requested or the cycles are used up, and the log rows, file names and file contents are those of
the fields passed through. -/
theorem C88_run (heq : o.sel.equation = "poisson") (S : Fas (Int × Int × Int) ℝ)
    (hS : S = poisFas (levelGrid ⟨o.nx, o.ny, o.nz, 2⟩)
      (fun ℓ i j k => E.sn (o.box.xbeg + dx ℓ * (i + 1 / 2)) * E.cs (o.box.ybeg + dx ℓ * (j + 1 / 2)) *
        E.cs (o.box.zbeg + dx ℓ * (k + 1 / 2))) dx o.mg.interp o.mg.cfl o.mg.relax o.mg.coarseRelax)
    (hr : FasRun S ns (nl - 1) o.mg.relTol o.mg.maxCycles.toNat (rms3 E.rt o.nx o.ny o.nz) un (fun _ => 1 / 1000000) d
      (fun _ => 0) u s c) :
    RunsAs sz (program E o none w) m ⟨o.t0, o.tfinal, o.dt0, false, o.maxSteps, 0, o.relTol, o.absTol⟩
      o.logFreq.natAbs o.saveEvery.natAbs t d p (fun k => rms3 E.rt o.nx o.ny o.nz (s k))
      (fun k => Monitors3 E.rt E.big E.tiny (dx 0) o.nx o.ny o.nz (u (k + 1)))
      (stepName o.base W) (stepName (o.base ++ "_final".toList) W)
      (fun k => vts3 E.io o.box.xbeg o.box.ybeg o.box.zbeg (dx 0) o.nx o.ny o.nz (u (k + 1))) := by
  obtain rfl : dx = fun ℓ => (o.box.xend - o.box.xbeg) / ((o.nx / 2 ^ ℓ : Int) : ℝ) := funext hdx
  subst hW hS
  have hund : un = decide (o.sel.integrator ≠ "steady") := by
    rcases hun with ⟨rfl, h⟩ | ⟨rfl, h⟩ <;> rw [h] <;> decide
  rw [hund] at hr
  have h2 := (level_facts hl.1 hd hb).2 0 (by omega)
  have g0 : levelGrid ⟨o.nx, o.ny, o.nz, 2⟩ 0 = ⟨o.nx, o.ny, o.nz, 2⟩ := by simp [levelGrid]
  rw [g0] at h2
  dsimp only at h2
  have e0 : (o.nx / 2 ^ 0 : Int) = o.nx := by simp
  have hsz : sz w.rk.sol = (⟨o.nx, o.ny, o.nz, 2⟩ : Grid3).size := by
    show sz (named w (.field 0 .state)) = _
    rw [hw.fields 0 (by omega)]
    simp [Grid3.size]
  simp only [e0]
  exact run3_poisson (file := none) (domain_none E o (by omega)) (by rw [timeOpts_eq o hcfl hmax]) rfl hlf hms
    (by dsimp only; omega) (le_refl 0) hbx hby hbz hdim (by dsimp only; omega) hnl hl hns hn1 hmode hd hb hw
    (hun.elim (fun h => Or.inl h.2) fun h => Or.inr h.2)
    (fun h => hz (by rcases hun with h' | h'; exact h'.1; exact absurd h'.2 h)) heq
    (fun G hG hg m => by
      have := icPois_none E hG (sol := w.rk.sol) (by rw [hg]; exact hsz) (.d3 ⟨o.nx, o.ny, o.nz, 2⟩ w.rk.sol) m
      rw [hg] at this ⊢
      exact this) hm hp hr m

/-- C89. The same for the Cahn–Hilliard equation: the initial field is the random field with the prescribed mean, and the cycles are
those for the backward Euler equation of each step or for the steady equation. -/
theorem C89_run (heq : o.sel.equation = "cahn-hilliard") (hv : o.variant = 0 ∨ o.variant = 1 ∨ o.variant = 2)
    (S : Fas (Int × Int × Int) ℝ)
    (hS : S = chFas (levelGrid ⟨o.nx, o.ny, o.nz, 2⟩) bx bY bz dx o.par o.mg.interp o.mg.cfl o.mg.relax o.mg.coarseRelax)
    (hr : FasRun S ns (nl - 1) o.mg.relTol o.mg.maxCycles.toNat (rms3 E.rt o.nx o.ny o.nz) un (fun _ => 1 / 1000000) d
      (initial3 E.draw o.par.m o.nx o.ny o.nz) u s c) :
    RunsAs sz (program E o none w) m ⟨o.t0, o.tfinal, o.dt0, false, o.maxSteps, 0, o.relTol, o.absTol⟩
      o.logFreq.natAbs o.saveEvery.natAbs t d p (fun k => rms3 E.rt o.nx o.ny o.nz (s k))
      (fun k => Monitors3 E.rt E.big E.tiny (dx 0) o.nx o.ny o.nz (u (k + 1)))
      (stepName o.base W) (stepName (o.base ++ "_final".toList) W)
      (fun k => vts3 E.io o.box.xbeg o.box.ybeg o.box.zbeg (dx 0) o.nx o.ny o.nz (u (k + 1))) := by
  obtain rfl : dx = fun ℓ => (o.box.xend - o.box.xbeg) / ((o.nx / 2 ^ ℓ : Int) : ℝ) := funext hdx
  subst hW hS
  have hund : un = decide (o.sel.integrator ≠ "steady") := by
    rcases hun with ⟨rfl, h⟩ | ⟨rfl, h⟩ <;> rw [h] <;> decide
  rw [hund] at hr
  have h2 := (level_facts hl.1 hd hb).2 0 (by omega)
  have g0 : levelGrid ⟨o.nx, o.ny, o.nz, 2⟩ 0 = ⟨o.nx, o.ny, o.nz, 2⟩ := by simp [levelGrid]
  rw [g0] at h2
  dsimp only at h2
  have e0 : (o.nx / 2 ^ 0 : Int) = o.nx := by simp
  have hsz : sz w.rk.sol = (⟨o.nx, o.ny, o.nz, 2⟩ : Grid3).size := by
    show sz (named w (.field 0 .state)) = _
    rw [hw.fields 0 (by omega)]
    simp [Grid3.size]
  simp only [e0]
  exact run3_mg (file := none) (domain_none E o (by omega)) (by rw [timeOpts_eq o hcfl hmax]) rfl hlf hms
    (by dsimp only; omega) (le_refl 0) hbx hby hbz hdim (by dsimp only; omega) hnl hl hns hn1 hmode hd hb hw
    (hun.elim (fun h => Or.inl h.2) fun h => Or.inr h.2)
    (fun h => hz (by rcases hun with h' | h'; exact h'.1; exact absurd h'.2 h)) heq hv
    (fun G hG hg m => by
      have := ic3_none (sz := sz) (E := E) (o := o) hG (sol := w.rk.sol)
        (by rw [hg]; exact hsz) (.d3 ⟨o.nx, o.ny, o.nz, 2⟩ w.rk.sol) m
      rw [hg] at this ⊢
      exact this) hm hp hr m

omit hcfl hlf hms hmax hun hz hm hp hW in
/-- C88. End to end, for the steady problem on a box whose x and y lengths are multiples of `2π`: whatever the options of the multigrid
scheme, the field in each solution file differs from `sin x cos y cos z` by at most `(nz dx)² (8/5 r + 5/16 dx²)`, `r` being the residual
the run reports for that step. -/
theorem C88_solution_files (hcfl : o.useCfl = false) (hlf : o.logFreq ≠ 0) (hms : 0 < o.maxSteps) (hmax : o.maxSteps < 2147483648)
    (hm : Marching o.tfinal o.t0 o.dt0 t d p) (hp : ∀ k, p (k + 1) = d k) (hW : W = max (Nat.log 10 o.maxSteps + 1) 4)
    (heq : o.sel.equation = "poisson") (hint : o.sel.integrator = "steady") (hrt : E.rt = Real.sqrt) (hsn : E.sn = Real.sin)
    (hcs : E.cs = Real.cos) (hmc : 1 ≤ o.mg.maxCycles) (hc : 0 < o.mg.cfl) (hc1 : o.mg.cfl ≤ 1 / 5) (h0 : 0 < dx 0) (h1 : dx 0 ≤ 1)
    (px py : ℤ) (hpx : (o.nx : ℝ) * dx 0 = px * (2 * Real.pi)) (hpy : (o.ny : ℝ) * dx 0 = py * (2 * Real.pi)) :
    ∃ (u : Nat → Int × Int × Int → ℝ) (r : Nat → ℝ) (Q : Nat → ℝ × ℝ × ℝ → Prop),
      RunsAs sz (program E o none w) m ⟨o.t0, o.tfinal, o.dt0, false, o.maxSteps, 0, o.relTol, o.absTol⟩
        o.logFreq.natAbs o.saveEvery.natAbs t d p r Q (stepName o.base W) (stepName (o.base ++ "_final".toList) W)
        (fun k => vts3 E.io o.box.xbeg o.box.ybeg o.box.zbeg (dx 0) o.nx o.ny o.nz (u (k + 1))) ∧
      ∀ k, rms3 Real.sqrt o.nx o.ny o.nz (fun x => u (k + 1) x - Real.sin (o.box.xbeg + dx 0 * (x.1 + 1 / 2)) *
          Real.cos (o.box.ybeg + dx 0 * (x.2.1 + 1 / 2)) * Real.cos (o.box.zbeg + dx 0 * (x.2.2 + 1 / 2))) ≤
        ((o.nz : ℝ) * dx 0) ^ 2 * (8 / 5 * r k + 5 / 16 * dx 0 ^ 2) := by
  obtain ⟨S, hS⟩ : ∃ S, S = poisFas (levelGrid ⟨o.nx, o.ny, o.nz, 2⟩)
      (fun ℓ i j k => E.sn (o.box.xbeg + dx ℓ * (i + 1 / 2)) * E.cs (o.box.ybeg + dx ℓ * (j + 1 / 2)) *
        E.cs (o.box.zbeg + dx ℓ * (k + 1 / 2))) dx o.mg.interp o.mg.cfl o.mg.relax o.mg.coarseRelax := ⟨_, rfl⟩
  obtain ⟨u, s, c, hr, -⟩ := C88_sequences S ns (nl - 1) o.mg.relTol o.mg.maxCycles.toNat (rms3 E.rt o.nx o.ny o.nz) false
    (fun _ => 1 / 1000000) d (fun _ => 0)
  have h2 := (level_facts hl.1 hd hb).2 0 (by omega)
  have g0 : levelGrid ⟨o.nx, o.ny, o.nz, 2⟩ 0 = ⟨o.nx, o.ny, o.nz, 2⟩ := by simp [levelGrid]
  rw [g0] at h2
  dsimp only at h2
  refine ⟨u, _, _, C88_run sz E o w hcfl hlf hms hmax bx bY bz hbx hby hbz hdim nl hnl hl ns hns hn1 hmode hd hb hw false
    (Or.inr ⟨rfl, hint⟩) (fun h => absurd h Bool.false_ne_true) t d p hm hp dx hdx u s c W hW m heq S hS hr, fun k => ?_⟩
  rw [hrt] at hr ⊢
  have := C88_accuracy o.nx o.ny o.nz (by omega) _ dx o.mg.interp o.mg.cfl o.mg.relax o.mg.coarseRelax hc hc1 S hS ns hn1 (nl - 1)
    o.mg.relTol o.mg.maxCycles.toNat (by omega) _ d _ u s c hr h0 h1 o.box.xbeg o.box.ybeg o.box.zbeg px py hpx hpy _
    (fun i j k => by rw [hsn, hcs]) rfl k
  rw [hsn, hcs] at this
  exact this

end

/-- C89. A backward Euler run never delivers a result if its step size is zero, or if the final time is exactly one step after the
start and a second step is allowed: that step has size zero and its equation divides by it. -/
theorem C89_zero_step {A : Type} [DecidableEq A] (sz : A → Int) (E : Env ℝ) (o : RunOpts) (w : ProgArr A)
    (hmax : o.maxSteps < 2147483648) (hcfl : o.useCfl = false) (hdim : o.sel.dimension = 3)
    (heq : o.sel.equation = "cahn-hilliard" ∨ o.sel.equation = "poisson") (hint : o.sel.integrator = "bdf1")
    (h : o.dt0 = 0 ∨ (0 < o.dt0 ∧ o.tfinal = o.t0 + o.dt0 ∧ 2 ≤ o.maxSteps ∧ o.relTol = 0 ∧ o.absTol = 0)) (m : Mem A ℝ) (fuel : Nat)
    (hf : 2 ≤ fuel) (out : Except Err (RunResult ℝ × Mem A ℝ)) (hout : CmdOut sz (program E o none w fuel) m out) : ∃ e, out = .error e :=
  fails_program hf hdim heq hint (timeOpts_eq o hcfl hmax)
    (h.imp id fun ⟨a, b, c, d, e⟩ => ⟨a, b, by dsimp only; omega, d, e⟩) m out hout

/-! ### Concrete runs -/

/-- Arrays named after their purpose. -/
def mgDemoArr : ProgArr MGName :=
  ⟨⟨.coord 0 0, .coord 0 1, .coord 0 2, .coord 0 3, .coord 0 4, .coord 0 5⟩,
    ⟨.field 0 .state, .field 0 .dstate, .field 0 .k1, .field 0 .k2, .field 0 .k3, .field 0 .k4, .field 0 .stage⟩,
    .work 0 0, .work 0 1, .work 0 2, .work 0 3,
    ⟨fun ℓ ρ => .field ℓ ρ, fun ℓ => ⟨.coord ℓ 0, .coord ℓ 1, .coord ℓ 2, .coord ℓ 3, .coord ℓ 4, .coord ℓ 5⟩, fun ℓ x => .work ℓ x⟩⟩

/-- Their sizes on a grid of 8×8×4 cells and its coarsenings. -/
def mgDemoSize : MGName → Int
  | .field ℓ _ => (8 / 2 ^ ℓ + 4) * (8 / 2 ^ ℓ + 4) * (4 / 2 ^ ℓ + 4)
  | .coord ℓ x => if (x : Nat) < 3 then (8 / 2 ^ ℓ + 4) * (8 / 2 ^ ℓ + 4) * (4 / 2 ^ ℓ + 4)
    else (8 / 2 ^ ℓ + 5) * (8 / 2 ^ ℓ + 5) * (4 / 2 ^ ℓ + 5)
  | .work ℓ _ => (8 / 2 ^ ℓ + 4) * (8 / 2 ^ ℓ + 4) * (4 / 2 ^ ℓ + 4)

theorem mgDemo_arrays (L : Nat) : ArraysMG mgDemoSize mgDemoArr L 8 8 4 := by
  have e : named mgDemoArr = id := by
    funext a
    match a with
    | .field 0 ρ => cases ρ <;> rfl
    | .field (ℓ + 1) ρ => rfl
    | .coord 0 x => fin_cases x <;> rfl
    | .coord (ℓ + 1) x => fin_cases x <;> rfl
    | .work 0 x => fin_cases x <;> rfl
    | .work (ℓ + 1) x => rfl
  refine ⟨by rw [e]; exact Function.injective_id, ?_, ?_, ?_, ?_⟩ <;> rw [e]
  · intro ℓ _ ρ; rfl
  · intro ℓ _ x hx; simp [mgDemoSize, hx]
  · intro ℓ _ x hx; simp [mgDemoSize, not_lt.2 hx]
  · intro ℓ _ x; rfl

noncomputable def mgDemoOpts (equation integrator : String) : RunOpts :=
  { demoOpts integrator with
    sel := ⟨3, "periodic", "periodic", "dirichlet", equation, integrator, false⟩
    nx := 8
    ny := 8
    nz := 4
    box := ⟨-Real.pi, Real.pi, -Real.pi, -Real.pi⟩
    mg := ⟨2, 2, 5000, 1 / 1000000, 9 / 10, 1, 1 / 5, "nearest"⟩ }

/-- Steady Poisson problem on two levels. -/
example (io : RealText ℝ) (m : Mem MGName ℝ) : ∃ (t d p : Nat → ℝ) (u : Nat → Int × Int × Int → ℝ) (r : Nat → ℝ) (Q : Nat → ℝ × ℝ × ℝ → Prop), RunsAs mgDemoSize
      (program ⟨io, Real.sqrt, 0, 0, fun _ => 0, Real.sin, Real.cos⟩ (mgDemoOpts "poisson" "steady") none mgDemoArr) m
      ⟨0, 1, 1 / 10, false, 100, 0, 0, 0⟩ 1 5 t d p r Q (stepName ['s'] 4) (stepName "s_final".toList 4)
      (fun k => vts3 io (-Real.pi) (-Real.pi) (-Real.pi) (Real.pi / 4) 8 8 4 (u (k + 1))) ∧
    ∀ k, rms3 Real.sqrt 8 8 4 (fun x => u (k + 1) x - Real.sin (-Real.pi + Real.pi / 4 * (x.1 + 1 / 2)) *
        Real.cos (-Real.pi + Real.pi / 4 * (x.2.1 + 1 / 2)) * Real.cos (-Real.pi + Real.pi / 4 * (x.2.2 + 1 / 2))) ≤
      (((4 : ℤ) : ℝ) * (Real.pi / 4)) ^ 2 * (8 / 5 * r k + 5 / 16 * (Real.pi / 4) ^ 2) := by
  obtain ⟨t, d, p, ⟨hm, hp⟩, -⟩ := C85_sequences 1 0 (1 / 10)
  have hdx : ∀ ℓ : Nat, (fun ℓ : Nat => (Real.pi - -Real.pi) / (((8 : ℤ) / 2 ^ ℓ : Int) : ℝ)) ℓ =
      (Real.pi - -Real.pi) / (((8 : ℤ) / 2 ^ ℓ : Int) : ℝ) := fun _ => rfl
  have h0 : (Real.pi - -Real.pi) / (((8 : ℤ) / 2 ^ 0 : Int) : ℝ) = Real.pi / 4 := by norm_num; ring
  obtain ⟨u, r, Q, h, h'⟩ := C88_solution_files mgDemoSize ⟨io, Real.sqrt, 0, 0, fun _ => 0, Real.sin, Real.cos⟩
    (mgDemoOpts "poisson" "steady") mgDemoArr .periodic .periodic .dirichlet (by simp [mgDemoOpts]) (by simp [mgDemoOpts])
    (by simp [mgDemoOpts]) rfl 2 rfl (by omega) 2 rfl (by omega) (Or.inl rfl) (by simp [mgDemoOpts])
    (by simp [mgDemoOpts]) (mgDemo_arrays 2) t d p _ hdx 4 m rfl (by simp [mgDemoOpts, demoOpts]) (by simp [mgDemoOpts, demoOpts])
    (by simp [mgDemoOpts, demoOpts]) hm hp (by simp only [mgDemoOpts, demoOpts]; decide +kernel) rfl rfl rfl rfl rfl
    (by simp [mgDemoOpts]) (by simp [mgDemoOpts]) (by simp [mgDemoOpts])
    (by rw [h0]; positivity) (by rw [h0]; linarith [Real.pi_le_four]) 1 1
    (by rw [h0]; simp only [mgDemoOpts]; push_cast; ring) (by rw [h0]; simp only [mgDemoOpts]; push_cast; ring)
  dsimp only at h h'
  rw [h0] at h h'
  exact ⟨t, d, p, u, r, Q, h, h'⟩

/-- Backward Euler steps of the Cahn–Hilliard equation on two levels. -/
example (E : Env ℝ) (m : Mem MGName ℝ) : ∃ t d p r Q file, RunsAs mgDemoSize
      (program E (mgDemoOpts "cahn-hilliard" "bdf1") none mgDemoArr) m
      ⟨0, 1, 1 / 10, false, 100, 0, 0, 0⟩ 1 5 t d p r Q (stepName ['s'] 4) (stepName "s_final".toList 4) file := by
  obtain ⟨t, d, p, ⟨hm, hp⟩, -⟩ := C85_sequences 1 0 (1 / 10)
  have hdx : ∀ ℓ : Nat, (fun ℓ : Nat => (Real.pi - -Real.pi) / (((8 : ℤ) / 2 ^ ℓ : Int) : ℝ)) ℓ =
      (Real.pi - -Real.pi) / (((8 : ℤ) / 2 ^ ℓ : Int) : ℝ) := fun _ => rfl
  obtain ⟨u, s, c, hr, -⟩ := C88_sequences (chFas (levelGrid ⟨8, 8, 4, 2⟩) .periodic .periodic .dirichlet
    (fun ℓ : Nat => (Real.pi - -Real.pi) / (((8 : ℤ) / 2 ^ ℓ : Int) : ℝ)) ⟨1, 1, 1⟩ "nearest" (1 / 5) (9 / 10) 1) 2 1 (1 / 1000000) 5000
    (rms3 E.rt 8 8 4) true (fun _ => 1 / 1000000) d (initial3 E.draw 1 8 8 4)
  exact ⟨t, d, p, _, _, _, C89_run mgDemoSize E (mgDemoOpts "cahn-hilliard" "bdf1") mgDemoArr (by simp [mgDemoOpts, demoOpts])
    (by simp [mgDemoOpts, demoOpts]) (by simp [mgDemoOpts, demoOpts]) (by simp [mgDemoOpts, demoOpts]) .periodic .periodic .dirichlet
    (by simp [mgDemoOpts]) (by simp [mgDemoOpts]) (by simp [mgDemoOpts]) rfl 2 rfl (by omega) 2 rfl (by omega) (Or.inl rfl)
    (by simp [mgDemoOpts]) (by simp [mgDemoOpts]) (mgDemo_arrays 2) true (Or.inl ⟨rfl, rfl⟩)
    (fun _ => by simp only [mgDemoOpts, demoOpts]; norm_num) t d p hm hp _ hdx u s c 4
    (by simp only [mgDemoOpts, demoOpts]; decide +kernel) m rfl (by simp [mgDemoOpts, demoOpts]) _ rfl hr⟩

/-- The hypotheses of `C88_converges` hold together. -/
example : ∃ us : Int × Int × Int → ℝ, ∃ u s c, PoisSolves (1 : ℝ) 8 8 4 (fun _ _ _ => 1) us ∧
    FasRun (poisFas (levelGrid ⟨8, 8, 4, 2⟩) (fun _ _ _ _ => 1) (fun ℓ => 2 ^ ℓ) "nearest" (1 / 5) (9 / 10) (1 / 2)) 2 2 (1 / 100) 5
      (rms3 Real.sqrt 8 8 4) false (fun _ => 1 / 1000000) (fun _ => 0) (fun _ => 0) u s c ∧
    (∀ ℓ : Nat, ℓ < 2 → (2 : ℝ) ^ (ℓ + 1) = 2 * 2 ^ ℓ) ∧ ((2 : Int) ^ 2 ∣ 8 ∧ (2 : Int) ^ 2 ∣ 8 ∧ (2 : Int) ^ 2 ∣ 4) := by
  obtain ⟨us, hus, -⟩ := C80_unique_solution (1 : ℝ) one_ne_zero 8 8 4 (by decide) (by decide) (by decide) (fun _ _ _ => 1)
  obtain ⟨u, s, c, hr, -⟩ := C88_sequences (poisFas (levelGrid ⟨8, 8, 4, 2⟩) (fun _ _ _ _ => (1 : ℝ)) (fun ℓ => 2 ^ ℓ) "nearest" (1 / 5)
    (9 / 10) (1 / 2)) 2 2 (1 / 100) 5 (rms3 Real.sqrt 8 8 4) false (fun _ => 1 / 1000000) (fun _ => 0) (fun _ => 0)
  exact ⟨us, u, s, c, hus, hr, fun ℓ _ => by ring, by decide, by decide, by decide⟩

/-- A mean that is kept by a scheme with three levels. -/
example : ∃ u s c, FasRun (chFas (levelGrid ⟨8, 8, 4, 2⟩) .periodic .periodic .periodic (fun ℓ => 2 ^ ℓ) ⟨1, 1, 1⟩ "linear" (1 / 5) (9 / 10)
      (1 / 2)) 2 2 (1 / 100) 5 (rms3 Real.sqrt 8 8 4) true (fun _ => 1 / 1000000) (fun _ => 1 / 10)
      (initial3 (fun n => (n : ℝ)) 1 8 8 4) u s c ∧
    ∀ k, sum3 8 8 4 (fun i j l => u k (i, j, l)) / ((8 * 8 * 4 : Int) : ℝ) = 1 := by
  obtain ⟨u, s, c, hr, -⟩ := C88_sequences (chFas (levelGrid ⟨8, 8, 4, 2⟩) .periodic .periodic .periodic (fun ℓ => (2 : ℝ) ^ ℓ)
      ⟨1, 1, 1⟩ "linear" (1 / 5) (9 / 10) (1 / 2)) 2 2 (1 / 100) 5 (rms3 Real.sqrt 8 8 4) true (fun _ => 1 / 1000000) (fun _ => 1 / 10)
      (initial3 (fun n => (n : ℝ)) 1 8 8 4)
  exact ⟨u, s, c, hr, fun k => C89_mean 8 8 4 (by decide) (fun ℓ => 2 ^ ℓ) ⟨1, 1, 1⟩ "linear" (1 / 5) (9 / 10) (1 / 2) 2 2 (by decide) (1 / 100) 5
    _ true _ _ _ u s c hr k⟩

/-- Options that meet the hypotheses of `C89_zero_step`: one step of size 1 up to time 1. -/
example : ∃ o : RunOpts, o.maxSteps < 2147483648 ∧ o.useCfl = false ∧ o.sel.dimension = 3 ∧ o.sel.equation = "cahn-hilliard" ∧
    o.sel.integrator = "bdf1" ∧ 0 < o.dt0 ∧ o.tfinal = o.t0 + o.dt0 ∧ 2 ≤ o.maxSteps ∧ o.relTol = 0 ∧ o.absTol = 0 :=
  ⟨{ mgDemoOpts "cahn-hilliard" "bdf1" with dt0 := 1 }, by simp [mgDemoOpts, demoOpts], rfl, rfl, rfl, rfl, by simp,
    by simp [mgDemoOpts, demoOpts], by simp [mgDemoOpts, demoOpts], rfl, rfl⟩

end Madg
