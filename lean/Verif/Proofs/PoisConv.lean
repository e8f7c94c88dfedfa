/-
Convergence of the multigrid iteration for the Poisson problem, and what the residual says about the error.
-/
import Verif.Proofs.PoisCycle

set_option linter.unusedSectionVars false
set_option linter.unusedVariables false

namespace Madg
open Spec Finset
variable {K : Type} [Field K] [LinearOrder K] [IsStrictOrderedRing K]

theorem poisRhs_sub (dx : K) (ni nj nk : Int) (e : Int → Int → Int → K) (w v : Fld K) (c : Int × Int × Int) :
    poisRhs dx ni nj nk e (fun i j k => w (i, j, k)) c.1 c.2.1 c.2.2 - poisRhs dx ni nj nk e (fun i j k => v (i, j, k)) c.1 c.2.1 c.2.2 =
      lapL dx ni nj nk (w - v) c := by
  have hd : ∀ i j k, extDirichlet ni nj nk e (fun i j k => w (i, j, k)) i j k =
      extDirichlet ni nj nk e (fun i j k => v (i, j, k)) i j k + ext0 ni nj nk (w - v) i j k := by
    intro i j k
    unfold ext0 extDirichlet
    split <;> simp
  rw [lapL_apply]
  simp only [poisRhs, lap3, d2x, d2y, d2z, hd]
  ring

/-- The discrete Poisson problem has a solution. -/
theorem pois_solution {dx : K} (hdx : dx ≠ 0) {ni nj nk : Int} (hi : 1 ≤ ni) (hj : 1 ≤ nj) (hk : 1 ≤ nk)
    (e : Int → Int → Int → K) : ∃ u : Fld K, ∀ c, In3 ni nj nk c →
      poisRhs dx ni nj nk e (fun i j k => u (i, j, k)) c.1 c.2.1 c.2.2 = 0 := by
  obtain ⟨J, hJ⟩ := lapL_inverse hdx hi hj hk
  refine ⟨J (fun c => -poisRhs dx ni nj nk e (fun i j k => (0 : Fld K) (i, j, k)) c.1 c.2.1 c.2.2), fun c hc => ?_⟩
  have h := poisRhs_sub dx ni nj nk e (J (fun c => -poisRhs dx ni nj nk e (fun i j k => (0 : Fld K) (i, j, k)) c.1 c.2.1 c.2.2)) 0 c
  rw [sub_zero, hJ _ c hc] at h
  linear_combination h

/-- Two solutions agree on the interior. -/
theorem pois_unique {dx : K} (hdx : dx ≠ 0) {ni nj nk : Int} (hi : 1 ≤ ni) (hj : 1 ≤ nj) (hk : 1 ≤ nk)
    (e : Int → Int → Int → K) (u v : Fld K)
    (hu : ∀ c, In3 ni nj nk c → poisRhs dx ni nj nk e (fun i j k => u (i, j, k)) c.1 c.2.1 c.2.2 = 0)
    (hv : ∀ c, In3 ni nj nk c → poisRhs dx ni nj nk e (fun i j k => v (i, j, k)) c.1 c.2.1 c.2.2 = 0) :
    ∀ c, In3 ni nj nk c → u c = v c := by
  intro c hc
  have := lapL_injective hdx hi hj hk (u - v) (fun c hc => by rw [← poisRhs_sub dx ni nj nk e, hu c hc, hv c hc, sub_zero]) c hc
  exact sub_eq_zero.1 this

/-- The slope of the last pass bounds the error after it. -/
theorem slope_bound {dx cfl : K} (hdx : dx ≠ 0) (hc : 0 < cfl) (hc1 : cfl ≤ 1 / 5) {ni nj nk : Int} (hi : 1 ≤ ni) (hj : 1 ≤ nj)
    (hk : 1 ≤ nk) (w s : Fld K)
    (hs : ∀ c, In3 ni nj nk c → cfl * dx ^ 2 * s c = smo (-(cfl * dx ^ 2) • lapL dx ni nj nk) w c - w c) :
    ipL ni nj nk (smo (-(cfl * dx ^ 2) • lapL dx ni nj nk) w) (smo (-(cfl * dx ^ 2) • lapL dx ni nj nk) w) ≤
      64 / 25 * ((nk : K) * dx) ^ 4 * ipL ni nj nk s s := by
  set X := -(cfl * dx ^ 2) • lapL dx ni nj nk with hX
  have h := pois_symOp hdx hc.le hi hj hk (cfl := cfl)
  have up := pois_up hdx hc.le hc1 hi hj hk
  have low := pois_low hdx hc.le hi hj hk (cfl := cfl)
  rw [← hX] at h up low
  have hn : (0 : K) < (nk : K) := by exact_mod_cast (show 0 < nk by omega)
  have cp : 0 < cfl / (nk : K) ^ 2 := by positivity
  have a1 := low (smo X w)
  have a2 := h.smo_le up w
  have a3 := h.square cp low w
  have a4 := h.slope_lower w
  have a5 : ipL ni nj nk (smo X w - w) (smo X w - w) = (cfl * dx ^ 2) ^ 2 * ipL ni nj nk s s := by
    have : ipL ni nj nk (smo X w - w) (smo X w - w) = ipL ni nj nk ((cfl * dx ^ 2) • s) ((cfl * dx ^ 2) • s) :=
      ipL_congr (fun c hc => by simp only [Pi.sub_apply, Pi.smul_apply, smul_eq_mul]; exact (hs c hc).symm)
        (fun c hc => by simp only [Pi.sub_apply, Pi.smul_apply, smul_eq_mul]; exact (hs c hc).symm)
    rw [this]
    simp only [map_smul, LinearMap.smul_apply, smul_eq_mul]; ring
  have b1 : cfl / (nk : K) ^ 2 * (cfl / (nk : K) ^ 2 * ipL ni nj nk (smo X w) (smo X w)) ≤ 64 / 25 * ((cfl * dx ^ 2) ^ 2 * ipL ni nj nk s s) := by
    have := mul_le_mul_of_nonneg_left (a1.trans a2) cp.le
    linarith
  have e1 : cfl / (nk : K) ^ 2 * (cfl / (nk : K) ^ 2 * ipL ni nj nk (smo X w) (smo X w)) =
      (cfl / (nk : K) ^ 2) ^ 2 * ipL ni nj nk (smo X w) (smo X w) := by ring
  have e2 : 64 / 25 * ((cfl * dx ^ 2) ^ 2 * ipL ni nj nk s s) = (cfl / (nk : K) ^ 2) ^ 2 * (64 / 25 * ((nk : K) * dx) ^ 4 * ipL ni nj nk s s) := by
    field_simp
  rw [e1, e2] at b1
  exact le_of_mul_le_mul_left b1 (by positivity)

/-- Every cycle: its residual bounds its error, whatever the prolongation and the other levels. -/
theorem cycle_slope_bound {g : Nat → Grid3} {e : Nat → Int → Int → Int → K} {dx : Nat → K} {mode : String} {cfl rf rc : K}
    (hdx : dx 0 ≠ 0) (hc : 0 < cfl) (hc1 : cfl ≤ 1 / 5) (hi : 1 ≤ (g 0).ni) (hj : 1 ≤ (g 0).nj) (hk : 1 ≤ (g 0).nk)
    (n : Nat) (hn : 1 ≤ n) (δ : Nat → K) (d : Nat) (Φ : Fld K → Fld K) (us : Fld K)
    (hΦ : ∀ w c, In3 (g 0).ni (g 0).nj (g 0).nk c → Φ w c = lapL (dx 0) (g 0).ni (g 0).nj (g 0).nk (w - us) c)
    (ys r : Fld K × Fld K) (hr : r = (poisFas g e dx mode cfl rf rc).cycle n δ d 0 Φ ys) :
    ipL (g 0).ni (g 0).nj (g 0).nk (r.1 - us) (r.1 - us) ≤
      64 / 25 * (((g 0).nk : K) * dx 0) ^ 4 * ipL (g 0).ni (g 0).nj (g 0).nk r.2 r.2 := by
  have hL : ∀ u v : Fld K, (∀ c, In3 (g 0).ni (g 0).nj (g 0).nk c → u c = v c) →
      lapL (dx 0) (g 0).ni (g 0).nj (g 0).nk u = lapL (dx 0) (g 0).ni (g 0).nj (g 0).nk v :=
    fun u v h => lapL_congr (dx 0) hi hj h
  obtain ⟨p, hp⟩ := cycle_last (poisFas g e dx mode cfl rf rc) n hn δ d 0 Φ ys
  rw [← hr, show (poisFas g e dx mode cfl rf rc).dt 0 = cfl * dx 0 ^ 2 from rfl] at hp
  have e1 := bs23_err hL hΦ (cfl * dx 0 ^ 2) p
  have q1 : ∀ c, In3 (g 0).ni (g 0).nj (g 0).nk c → (r.1 - us) c =
      smo (-(cfl * dx 0 ^ 2) • lapL (dx 0) (g 0).ni (g 0).nj (g 0).nk) (p - us) c := fun c hc => by
    rw [Pi.sub_apply, hp]; exact e1 c hc
  have q2 : ∀ c, In3 (g 0).ni (g 0).nj (g 0).nk c → cfl * dx 0 ^ 2 * r.2 c =
      smo (-(cfl * dx 0 ^ 2) • lapL (dx 0) (g 0).ni (g 0).nj (g 0).nk) (p - us) c - (p - us) c := fun c hc => by
    rw [← e1 c hc, hp]
    simp only [Tableau.step, Pi.add_apply, Pi.smul_apply, Pi.sub_apply, smul_eq_mul]
    ring
  rw [ipL_congr q1 q1]
  exact slope_bound hdx hc hc1 hi hj hk _ _ q2

variable {g : Nat → Grid3} {dx : Nat → K} {cfl rf rc : K} {nlev : Nat}
  (hext : ∀ ℓ, ℓ < nlev → 1 ≤ (g ℓ).ni ∧ 1 ≤ (g ℓ).nj ∧ 1 ≤ (g ℓ).nk)
  (hfine : ∀ ℓ, ℓ + 1 < nlev → (g ℓ).ni = 2 * (g (ℓ + 1)).ni ∧ (g ℓ).nj = 2 * (g (ℓ + 1)).nj ∧ (g ℓ).nk = 2 * (g (ℓ + 1)).nk)
  (hdx : ∀ ℓ, ℓ < nlev → dx ℓ ≠ 0) (hdx2 : ∀ ℓ, ℓ + 1 < nlev → dx (ℓ + 1) = 2 * dx ℓ) (hc : 0 < cfl) (hc1 : cfl ≤ 1 / 5)
  (hrf : 0 ≤ rf ∧ rf ≤ 1)
include hext hfine hdx hdx2 hc hc1 hrf

/-- A cycle with the regular steps contracts the energy of the error, and its slope is bounded by the energy of the error before it. -/
theorem cycle_contract (e : Nat → Int → Int → Int → K) (n : Nat) (hn : 1 ≤ n) (d : Nat) (hd : d < nlev)
    (hrc : 1 < d → 0 ≤ rc ∧ rc ≤ 1 / 2) (Φ : Fld K → Fld K) (us : Fld K)
    (hΦ : ∀ w c, In3 (g 0).ni (g 0).nj (g 0).nk c → Φ w c = lapL (dx 0) (g 0).ni (g 0).nj (g 0).nk (w - us) c)
    (ys r : Fld K × Fld K)
    (hr : r = (poisFas g e dx "nearest" cfl rf rc).cycle n (poisFas g e dx "nearest" cfl rf rc).dt d 0 Φ ys) :
    dirForm (g 0).ni (g 0).nj (g 0).nk (r.1 - us) (r.1 - us) ≤
      (1 - cfl / (8 * ((g 0).nk : K) ^ 2)) ^ (2 * n) * dirForm (g 0).ni (g 0).nj (g 0).nk (ys.1 - us) (ys.1 - us) ∧
    (cfl * dx 0 ^ 2) ^ 2 * ipL (g 0).ni (g 0).nj (g 0).nk r.2 r.2 ≤
      4 * ((g 0).nk : K) ^ 2 * dirForm (g 0).ni (g 0).nj (g 0).nk (ys.1 - us) (ys.1 - us) := by
  have J' : ∀ ℓ, ∃ J : Fld K →ₗ[K] Fld K, ℓ < nlev → ∀ f c, In3 (g ℓ).ni (g ℓ).nj (g ℓ).nk c →
      lapL (dx ℓ) (g ℓ).ni (g ℓ).nj (g ℓ).nk (J f) c = f c := by
    intro ℓ
    by_cases h : ℓ < nlev
    · obtain ⟨J, hJ⟩ := lapL_inverse (hdx ℓ h) (hext ℓ h).1 (hext ℓ h).2.1 (hext ℓ h).2.2
      exact ⟨J, fun _ => hJ⟩
    · exact ⟨0, fun h' => absurd h' h⟩
  choose J hJ using J'
  have hQ := poisHier_ok (rf := rf) (rc := rc) hext hfine hdx hdx2 hc hJ hc1
  have hce := cycle_err (rf := rf) (rc := rc) hext hfine hdx hdx2 hc hJ e n d 0 Φ us ys (by omega) hΦ
  rw [← hr] at hce
  set Q := poisHier g dx cfl rf rc J with hQd
  have h0 : 0 < nlev := by omega
  obtain ⟨hi, hj, hk⟩ := hext 0 h0
  have hs := hQ.sym 0 h0
  have up := hQ.up 0 h0
  have hn0 : (0 : K) < ((g 0).nk : K) := by exact_mod_cast (show 0 < (g 0).nk by omega)
  have hn1 : (1 : K) ≤ ((g 0).nk : K) := by exact_mod_cast hk
  have cp : 0 < cfl / ((g 0).nk : K) ^ 2 := by positivity
  have low : ∀ u, cfl / ((g 0).nk : K) ^ 2 * Q.b 0 u u ≤ Q.b 0 u (Q.X 0 u) := pois_low (hdx 0 h0) hc.le hi hj hk
  have hsl := fun z hz => cycle_slope (rf := rf) (rc := rc) hext hfine hdx hdx2 hc hJ e n d hn hd Φ us ys hΦ z hz
  rw [← hr] at hsl
  rw [← hQd] at hsl
  set ρ := 1 - cfl / (8 * ((g 0).nk : K) ^ 2) with hρ
  have eρ : ρ = 1 - cfl / ((g 0).nk : K) ^ 2 / 8 := by rw [hρ]; field_simp
  have ρ0 : 0 ≤ ρ := by
    have : cfl / (8 * ((g 0).nk : K) ^ 2) ≤ 1 := by
      rw [div_le_one (by positivity)]
      have : (1 : K) ≤ ((g 0).nk : K) ^ 2 := one_le_pow₀ hn1
      linarith
    rw [hρ]; linarith
  have con : ∀ v, Q.b 0 (smo (Q.X 0) v) (Q.X 0 (smo (Q.X 0) v)) ≤ ρ * Q.b 0 v (Q.X 0 v) := fun v => by
    rw [eρ]; exact hs.smo_contract up cp low v
  have it := fun m v => hs.iter up ρ0 con m v
  have main : Q.b 0 (Q.err n d 0 (ys.1 - us)) (Q.X 0 (Q.err n d 0 (ys.1 - us))) ≤ ρ ^ (2 * n) * Q.b 0 (ys.1 - us) (Q.X 0 (ys.1 - us)) := by
    cases d with
    | zero =>
      have := it (n + n) (ys.1 - us)
      rw [← two_mul] at this
      rw [two_mul] at this ⊢
      exact this
    | succ d =>
      rw [Q.err_succ]
      refine (it n _).trans ?_
      have c1 := hQ.cgc_top (by norm_num : (0 : K) < 4) n d hd hrf
        (fun j h1 h2 => by
          have : Q.r j = rc := if_neg (by omega)
          rw [this]; exact hrc (by omega)) ((smo (Q.X 0) ^ n) (ys.1 - us))
      have c2 := it n (ys.1 - us)
      rw [two_mul, pow_add, mul_assoc]
      exact mul_le_mul_of_nonneg_left (c1.trans c2) (pow_nonneg ρ0 n)
  have en : ∀ u, Q.b 0 u (Q.X 0 u) = cfl * dirForm (g 0).ni (g 0).nj (g 0).nk u u := fun u => pois_en (hdx 0 h0) cfl hi hj hk u u
  have nonexp : ∀ m v, Q.b 0 ((smo (Q.X 0) ^ m) v) (Q.X 0 ((smo (Q.X 0) ^ m) v)) ≤ Q.b 0 v (Q.X 0 v) := fun m v => by
    refine (it m v).trans ?_
    have ρ1 : ρ ≤ 1 := by rw [eρ]; linarith
    exact mul_le_of_le_one_left (hs.low v) (pow_le_one₀ ρ0 ρ1)
  have sl : ∀ z, (∀ c, In3 (g 0).ni (g 0).nj (g 0).nk c → cfl * dx 0 ^ 2 * r.2 c = smo (Q.X 0) z c - z c) →
      Q.b 0 z (Q.X 0 z) ≤ Q.b 0 (ys.1 - us) (Q.X 0 (ys.1 - us)) →
      (cfl * dx 0 ^ 2) ^ 2 * ipL (g 0).ni (g 0).nj (g 0).nk r.2 r.2 ≤
        4 * ((g 0).nk : K) ^ 2 * dirForm (g 0).ni (g 0).nj (g 0).nk (ys.1 - us) (ys.1 - us) := by
    intro z h1 h2
    have a5 : (cfl * dx 0 ^ 2) ^ 2 * ipL (g 0).ni (g 0).nj (g 0).nk r.2 r.2 = Q.b 0 (smo (Q.X 0) z - z) (smo (Q.X 0) z - z) := by
      have : ipL (g 0).ni (g 0).nj (g 0).nk ((cfl * dx 0 ^ 2) • r.2) ((cfl * dx 0 ^ 2) • r.2) =
          ipL (g 0).ni (g 0).nj (g 0).nk (smo (Q.X 0) z - z) (smo (Q.X 0) z - z) :=
        ipL_congr (fun c hc => by simp only [Pi.sub_apply, Pi.smul_apply, smul_eq_mul]; exact h1 c hc)
          (fun c hc => by simp only [Pi.sub_apply, Pi.smul_apply, smul_eq_mul]; exact h1 c hc)
      change _ = ipL (g 0).ni (g 0).nj (g 0).nk (smo (Q.X 0) z - z) (smo (Q.X 0) z - z)
      rw [← this]
      simp only [map_smul, LinearMap.smul_apply, smul_eq_mul]; ring
    have b1 := hs.nonneg (smo (Q.X 0) z + z)
    have b2 := low (smo (Q.X 0) z)
    have b3 := low z
    have b4 := hs.smo_le up z
    have b5 : Q.b 0 (smo (Q.X 0) z - z) (smo (Q.X 0) z - z) ≤ 2 * (Q.b 0 (smo (Q.X 0) z) (smo (Q.X 0) z) + Q.b 0 z z) := by
      simp only [map_add, map_sub, LinearMap.add_apply, LinearMap.sub_apply] at b1 ⊢
      linarith
    have b6 : cfl / ((g 0).nk : K) ^ 2 * Q.b 0 (smo (Q.X 0) z - z) (smo (Q.X 0) z - z) ≤
        4 * Q.b 0 (ys.1 - us) (Q.X 0 (ys.1 - us)) := by
      have := mul_le_mul_of_nonneg_left b5 cp.le
      linarith
    rw [a5]
    rw [en] at b6
    have e2 : 4 * (cfl * dirForm (g 0).ni (g 0).nj (g 0).nk (ys.1 - us) (ys.1 - us)) =
        cfl / ((g 0).nk : K) ^ 2 * (4 * ((g 0).nk : K) ^ 2 * dirForm (g 0).ni (g 0).nj (g 0).nk (ys.1 - us) (ys.1 - us)) := by
      field_simp
    rw [e2] at b6
    exact le_of_mul_le_mul_left b6 cp
  have slope : (cfl * dx 0 ^ 2) ^ 2 * ipL (g 0).ni (g 0).nj (g 0).nk r.2 r.2 ≤
      4 * ((g 0).nk : K) ^ 2 * dirForm (g 0).ni (g 0).nj (g 0).nk (ys.1 - us) (ys.1 - us) := by
    cases d with
    | zero => exact sl _ (hsl _ rfl) (nonexp _ _)
    | succ d =>
      refine sl _ (hsl _ rfl) ((nonexp _ _).trans ?_)
      have c1 := hQ.cgc_top (by norm_num : (0 : K) < 4) n d hd hrf
        (fun j h1 h2 => by
          have : Q.r j = rc := if_neg (by omega)
          rw [this]; exact hrc (by omega)) ((smo (Q.X 0) ^ n) (ys.1 - us))
      exact c1.trans (nonexp n _)
  rw [en, en] at main
  have : dirForm (g 0).ni (g 0).nj (g 0).nk (r.1 - us) (r.1 - us) =
      dirForm (g 0).ni (g 0).nj (g 0).nk (Q.err n d 0 (ys.1 - us)) (Q.err n d 0 (ys.1 - us)) := by
    unfold dirForm
    rw [ext0_congr hi hj (u := r.1 - us) (v := Q.err n d 0 (ys.1 - us)) hce]
    congr 1
    refine sum_congr rfl fun i hi' => sum_congr rfl fun j hj' => ?_
    have h := hce (i, j, 0) ⟨by simpa using hi', by simpa using hj', ⟨le_rfl, by dsimp only; omega⟩⟩
    rw [Pi.sub_apply, h]
  rw [this]
  refine ⟨le_of_mul_le_mul_left ?_ hc, slope⟩
  calc _ ≤ _ := main
    _ = _ := by ring

end Madg
