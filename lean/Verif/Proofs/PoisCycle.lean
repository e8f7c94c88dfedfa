/-
Error propagation of the full approximation scheme for the Poisson problem.
-/
import Verif.Proofs.PoisLin
import Verif.Proofs.RK

set_option linter.unusedSectionVars false
set_option linter.unusedVariables false

namespace Madg
open Spec Finset
variable {K : Type} [Field K]

section
variable [LinearOrder K] [IsStrictOrderedRing K] {C : Type} {P : C → Prop} {L : (C → K) →ₗ[K] (C → K)}
  (hL : ∀ u v, (∀ c, P c → u c = v c) → L u = L v)
include hL

theorem smo_congr (δ : K) {u v : C → K} (h : ∀ c, P c → u c = v c) : ∀ c, P c → smo (-δ • L) u c = smo (-δ • L) v c := by
  intro c hc
  simp only [smo_apply, LinearMap.smul_apply, Pi.sub_apply, Pi.add_apply, Pi.smul_apply]
  rw [hL u v h, h c hc]

theorem smo_pow_congr (δ : K) (n : Nat) {u v : C → K} (h : ∀ c, P c → u c = v c) :
    ∀ c, P c → (smo (-δ • L) ^ n) u c = (smo (-δ • L) ^ n) v c := by
  induction n with
  | zero => simpa using h
  | succ n ih =>
    intro c hc
    rw [pow_succ', Module.End.mul_apply, Module.End.mul_apply]
    exact smo_congr hL δ ih c hc

variable {Φ : (C → K) → C → K} {us : C → K} (hΦ : ∀ w c, P c → Φ w c = L (w - us) c)
include hΦ

/-- The error after one pass. -/
theorem bs23_err (δ : K) (y : C → K) : ∀ c, P c →
    (bs23 : Tableau K).step (fun _ => Φ) 0 δ y c - us c = smo (-δ • L) (y - us) c := by
  intro c hc
  set e := y - us with he
  have k1 : ∀ c, P c → Φ y c = L e c := fun c hc => hΦ y c hc
  have k2 : ∀ c, P c → Φ (y + (δ * (1 / 2)) • Φ y) c = L (e + (δ * (1 / 2)) • L e) c := fun c hc => by
    rw [hΦ _ c hc, hL (y + (δ * (1 / 2)) • Φ y - us) (e + (δ * (1 / 2)) • L e) fun c hc => by
      simp only [Pi.sub_apply, Pi.add_apply, Pi.smul_apply, k1 c hc, he]; ring]
  have k3 : ∀ c, P c → Φ (y + δ • ((0 : K) • Φ y + (3 / 4 : K) • Φ (y + (δ * (1 / 2)) • Φ y))) c =
      L (e + (δ * (3 / 4)) • L (e + (δ * (1 / 2)) • L e)) c := fun c hc => by
    rw [hΦ _ c hc, hL (y + δ • ((0 : K) • Φ y + (3 / 4 : K) • Φ (y + (δ * (1 / 2)) • Φ y)) - us)
      (e + (δ * (3 / 4)) • L (e + (δ * (1 / 2)) • L e)) fun c hc => by
        simp only [Pi.sub_apply, Pi.add_apply, Pi.smul_apply, smul_eq_mul] at *; rw [show Φ (y + (δ * (1 / 2)) • Φ y) c = _ from k2 c hc]; simp only [he, Pi.sub_apply]; ring]
  rw [Tableau.step, bs23_slope, bs23_stage0, bs23_stage1, bs23_stage2]
  simp only [Pi.add_apply, Pi.smul_apply, smul_eq_mul]
  have e3 := k3 c hc
  have e2 := k2 c hc
  have e1 := k1 c hc
  rw [e1, e2, e3]
  simp only [smo_apply, LinearMap.smul_apply, map_add, map_smul, Pi.sub_apply, Pi.add_apply, Pi.smul_apply, smul_eq_mul, he]
  ring

/-- The error after `n` passes with the same step. -/
theorem smoothN_err (δ : K) (n : Nat) : ∀ ys : (C → K) × (C → K), ∀ c, P c →
    (smoothN Φ δ δ n ys).1 c - us c = (smo (-δ • L) ^ n) (ys.1 - us) c := by
  induction n with
  | zero => intro ys c _; rfl
  | succ n ih =>
    intro ys c hc
    rw [smoothN, ih _ c hc, pow_succ, Module.End.mul_apply]
    exact smo_pow_congr hL δ n (fun c hc => bs23_err hL hΦ δ ys.1 c hc) c hc

/-- The last of `n + 1` passes with the same step. -/
theorem smoothN_last_err (δ : K) (n : Nat) : ∀ ys : (C → K) × (C → K), ∀ c, P c →
    δ * (smoothN Φ δ δ (n + 1) ys).2 c = smo (-δ • L) ((smo (-δ • L) ^ n) (ys.1 - us)) c - (smo (-δ • L) ^ n) (ys.1 - us) c := by
  induction n with
  | zero =>
    intro ys c hc
    have := bs23_err hL hΦ δ ys.1 c hc
    simp only [pow_zero, Module.End.one_apply]
    rw [← this, smoothN, smoothN]
    simp only [Tableau.step, Pi.add_apply, Pi.smul_apply, Pi.sub_apply, smul_eq_mul]
    ring
  | succ n ih =>
    intro ys c hc
    rw [smoothN, ih _ c hc, pow_succ, Module.End.mul_apply]
    have e : ∀ c, P c → (((bs23 : Tableau K).step (fun _ => Φ) 0 δ ys.1, (bs23 : Tableau K).slope (fun _ => Φ) 0 δ ys.1).1 - us) c =
        smo (-δ • L) (ys.1 - us) c := fun c hc => bs23_err hL hΦ δ ys.1 c hc
    rw [smo_congr hL δ (smo_pow_congr hL δ n e) c hc, smo_pow_congr hL δ n e c hc]

end

/-- What the last pass of a sequence is. -/
theorem smoothN_last {C : Type} (Φ : (C → K) → C → K) (δ' : K) (n : Nat) : ∀ (δ : K) (ys : (C → K) × (C → K)),
    ∃ p, smoothN Φ δ δ' (n + 1) ys = ((bs23 : Tableau K).step (fun _ => Φ) 0 (if n = 0 then δ else δ') p,
      (bs23 : Tableau K).slope (fun _ => Φ) 0 (if n = 0 then δ else δ') p) := by
  induction n with
  | zero => intro δ ys; exact ⟨ys.1, rfl⟩
  | succ n ih =>
    intro δ ys
    obtain ⟨p, hp⟩ := ih δ' ((bs23 : Tableau K).step (fun _ => Φ) 0 δ ys.1, (bs23 : Tableau K).slope (fun _ => Φ) 0 δ ys.1)
    refine ⟨p, ?_⟩
    rw [smoothN, hp]
    simp

/-- A cycle ends with a pass with the level's regular step. -/
theorem cycle_last {C : Type} (S : Fas C K) (n : Nat) (hn : 1 ≤ n) (e : Nat → K) (d ℓ : Nat) (Φ : (C → K) → C → K)
    (ys : (C → K) × (C → K)) : ∃ p, S.cycle n e d ℓ Φ ys = ((bs23 : Tableau K).step (fun _ => Φ) 0 (S.dt ℓ) p,
      (bs23 : Tableau K).slope (fun _ => Φ) 0 (S.dt ℓ) p) := by
  cases d with
  | zero =>
    obtain ⟨p, hp⟩ := smoothN_last Φ (S.dt ℓ) (n + n - 1) (e ℓ) ys
    refine ⟨p, ?_⟩
    rw [Fas.cycle]
    rw [if_neg (by omega), show n + n - 1 + 1 = n + n by omega] at hp
    exact hp
  | succ d =>
    rw [Fas.cycle]
    obtain ⟨p, hp⟩ := smoothN_last Φ (S.dt ℓ) (n - 1) (S.dt ℓ) _
    rw [ite_self, show n - 1 + 1 = n by omega] at hp
    exact ⟨p, hp⟩

/-- The average as a linear map. -/
def avgL [CharZero K] : Fld K →ₗ[K] Fld K where
  toFun u c := avg8 (fun x y z => u (x, y, z)) c.1 c.2.1 c.2.2
  map_add' u v := by funext c; simp only [avg8, Pi.add_apply]; ring
  map_smul' a u := by funext c; simp only [avg8, Pi.smul_apply, smul_eq_mul, RingHom.id_apply]; ring

theorem avgL_congr [CharZero K] {ni nj nk : Int} {u v : Fld K} (h : ∀ c, In3 (2 * ni) (2 * nj) (2 * nk) c → u c = v c)
    (c : Int × Int × Int) (hc : In3 ni nj nk c) : avgL u c = avgL v c := by
  obtain ⟨i, j, k⟩ := c
  unfold In3 at hc
  dsimp only at hc
  have q : ∀ x y z, (x = 2 * i ∨ x = 2 * i + 1) → (y = 2 * j ∨ y = 2 * j + 1) → (z = 2 * k ∨ z = 2 * k + 1) →
      u (x, y, z) = v (x, y, z) := fun x y z hx hy hz => h (x, y, z) (by unfold In3; dsimp only; omega)
  change avg8 (fun x y z => u (x, y, z)) i j k = avg8 (fun x y z => v (x, y, z)) i j k
  unfold avg8
  dsimp only
  rw [q _ _ _ (Or.inl rfl) (Or.inl rfl) (Or.inl rfl), q _ _ _ (Or.inl rfl) (Or.inl rfl) (Or.inr rfl),
    q _ _ _ (Or.inl rfl) (Or.inr rfl) (Or.inl rfl), q _ _ _ (Or.inl rfl) (Or.inr rfl) (Or.inr rfl),
    q _ _ _ (Or.inr rfl) (Or.inl rfl) (Or.inl rfl), q _ _ _ (Or.inr rfl) (Or.inl rfl) (Or.inr rfl),
    q _ _ _ (Or.inr rfl) (Or.inr rfl) (Or.inl rfl), q _ _ _ (Or.inr rfl) (Or.inr rfl) (Or.inr rfl)]

/-- Piecewise constant prolongation as a linear map. -/
def nearL : Fld K →ₗ[K] Fld K where
  toFun w c := w (c.1 / 2, c.2.1 / 2, c.2.2 / 2)
  map_add' _ _ := rfl
  map_smul' _ _ := rfl

/-- The Poisson hierarchy, with inverses `J`. -/
def poisHier [CharZero K] (g : Nat → Grid3) (dx : Nat → K) (cfl rf rc : K) (J : Nat → Fld K →ₗ[K] Fld K) : Hier K (Fld K) where
  b ℓ := ipL (g ℓ).ni (g ℓ).nj (g ℓ).nk
  X ℓ := -(cfl * dx ℓ ^ 2) • lapL (dx ℓ) (g ℓ).ni (g ℓ).nj (g ℓ).nk
  R _ := avgL
  T _ := nearL
  I ℓ := -(4 / (cfl * dx ℓ ^ 2)) • J ℓ
  r ℓ := if ℓ = 0 then rf else rc

section
variable [LinearOrder K] [IsStrictOrderedRing K]

theorem pois_en {dx : K} (hdx : dx ≠ 0) (cfl : K) {ni nj nk : Int} (hi : 1 ≤ ni) (hj : 1 ≤ nj) (hk : 1 ≤ nk) (u v : Fld K) :
    ipL ni nj nk u ((-(cfl * dx ^ 2) • lapL dx ni nj nk) v) = cfl * dirForm ni nj nk u v := by
  rw [LinearMap.smul_apply, map_smul, dir_green dx hi hj hk, smul_eq_mul]
  field_simp

theorem pois_symOp {dx : K} (hdx : dx ≠ 0) {cfl : K} (hc : 0 ≤ cfl) {ni nj nk : Int} (hi : 1 ≤ ni) (hj : 1 ≤ nj) (hk : 1 ≤ nk) :
    SymOp (ipL ni nj nk) (-(cfl * dx ^ 2) • lapL dx ni nj nk) := by
  have hs : ∀ u v : Fld K, ipL ni nj nk u v = ipL ni nj nk v u := fun u v => by
    rw [ipL_apply, ipL_apply]; congr 1; funext i j k; ring
  refine ⟨hs, ipL_nonneg ni nj nk, fun u v => ?_, fun u => ?_⟩
  · rw [hs, pois_en hdx cfl hi hj hk, pois_en hdx cfl hi hj hk, dirForm_comm]
  · rw [pois_en hdx cfl hi hj hk]; exact mul_nonneg hc (dirForm_nonneg _ _ _ _)

theorem pois_up {dx : K} (hdx : dx ≠ 0) {cfl : K} (hc : 0 ≤ cfl) (hc1 : cfl ≤ 1 / 5) {ni nj nk : Int} (hi : 1 ≤ ni) (hj : 1 ≤ nj)
    (hk : 1 ≤ nk) (u : Fld K) : ipL ni nj nk u ((-(cfl * dx ^ 2) • lapL dx ni nj nk) u) ≤ 12 / 5 * ipL ni nj nk u u := by
  rw [pois_en hdx cfl hi hj hk]
  have h1 := dirForm_le hi hj hk u
  have h2 := mul_le_mul_of_nonneg_left h1 hc
  have h3 := mul_le_mul_of_nonneg_right hc1 (show 0 ≤ 12 * ipL ni nj nk u u by linarith [ipL_nonneg ni nj nk u])
  linarith

theorem pois_low {dx : K} (hdx : dx ≠ 0) {cfl : K} (hc : 0 ≤ cfl) {ni nj nk : Int} (hi : 1 ≤ ni) (hj : 1 ≤ nj)
    (hk : 1 ≤ nk) (u : Fld K) : cfl / (nk : K) ^ 2 * ipL ni nj nk u u ≤ ipL ni nj nk u ((-(cfl * dx ^ 2) • lapL dx ni nj nk) u) := by
  rw [pois_en hdx cfl hi hj hk]
  have h1 := mul_le_mul_of_nonneg_left (dir_poincare hi hj hk u) hc
  have hn : (0 : K) < (nk : K) ^ 2 := by
    have : (0 : K) < (nk : K) := by exact_mod_cast (show 0 < nk by omega)
    positivity
  rw [div_mul_eq_mul_div, div_le_iff₀ hn]
  linarith

variable {g : Nat → Grid3} {dx : Nat → K} {cfl rf rc : K} {nlev : Nat} {J : Nat → Fld K →ₗ[K] Fld K}
  (hext : ∀ ℓ, ℓ < nlev → 1 ≤ (g ℓ).ni ∧ 1 ≤ (g ℓ).nj ∧ 1 ≤ (g ℓ).nk)
  (hfine : ∀ ℓ, ℓ + 1 < nlev → (g ℓ).ni = 2 * (g (ℓ + 1)).ni ∧ (g ℓ).nj = 2 * (g (ℓ + 1)).nj ∧ (g ℓ).nk = 2 * (g (ℓ + 1)).nk)
  (hdx : ∀ ℓ, ℓ < nlev → dx ℓ ≠ 0) (hdx2 : ∀ ℓ, ℓ + 1 < nlev → dx (ℓ + 1) = 2 * dx ℓ) (hc0 : 0 < cfl)
  (hJ : ∀ ℓ, ℓ < nlev → ∀ f c, In3 (g ℓ).ni (g ℓ).nj (g ℓ).nk c → lapL (dx ℓ) (g ℓ).ni (g ℓ).nj (g ℓ).nk (J ℓ f) c = f c)
include hext hfine hdx hdx2 hc0 hJ

theorem poisHier_ok (hc1 : cfl ≤ 1 / 5) : (poisHier g dx cfl rf rc J).Ok nlev 4 := by
  refine ⟨fun ℓ hℓ => ?_, fun ℓ hℓ u => ?_, fun ℓ hℓ w v => ?_, fun ℓ hℓ w w' => ?_, fun ℓ hℓ w v => ?_⟩
  · exact pois_symOp (hdx ℓ hℓ) hc0.le (hext ℓ hℓ).1 (hext ℓ hℓ).2.1 (hext ℓ hℓ).2.2
  · exact pois_up (hdx ℓ hℓ) hc0.le hc1 (hext ℓ hℓ).1 (hext ℓ hℓ).2.1 (hext ℓ hℓ).2.2 u
  · obtain ⟨e1, e2, e3⟩ := hfine ℓ hℓ
    obtain ⟨h1, h2, h3⟩ := hext (ℓ + 1) hℓ
    change ipL (g ℓ).ni (g ℓ).nj (g ℓ).nk _ v = _
    rw [e1, e2, e3]
    exact near_adj (by omega) (by omega) (by omega) w v
  · obtain ⟨e1, e2, e3⟩ := hfine ℓ hℓ
    obtain ⟨h1, h2, h3⟩ := hext (ℓ + 1) hℓ
    change 4 * ipL (g (ℓ + 1)).ni (g (ℓ + 1)).nj (g (ℓ + 1)).nk w
      (avgL ((-(cfl * dx ℓ ^ 2) • lapL (dx ℓ) (g ℓ).ni (g ℓ).nj (g ℓ).nk) (nearL w'))) =
      2 * ipL (g (ℓ + 1)).ni (g (ℓ + 1)).nj (g (ℓ + 1)).nk w ((-(cfl * dx (ℓ + 1) ^ 2) •
        lapL (dx (ℓ + 1)) (g (ℓ + 1)).ni (g (ℓ + 1)).nj (g (ℓ + 1)).nk) w')
    have key : avgL (lapL (dx ℓ) (g ℓ).ni (g ℓ).nj (g ℓ).nk (nearL w')) =
        (2 : K) • lapL (dx (ℓ + 1)) (g (ℓ + 1)).ni (g (ℓ + 1)).nj (g (ℓ + 1)).nk w' := by
      funext c
      rw [e1, e2, e3, hdx2 ℓ hℓ]
      exact lap_near (dx ℓ) h1 h2 w' c
    rw [LinearMap.smul_apply, LinearMap.smul_apply, map_smul, key, map_smul, map_smul, map_smul, hdx2 ℓ hℓ]
    simp only [smul_eq_mul]
    ring
  · change ipL (g (ℓ + 1)).ni (g (ℓ + 1)).nj (g (ℓ + 1)).nk w ((-(cfl * dx (ℓ + 1) ^ 2) •
      lapL (dx (ℓ + 1)) (g (ℓ + 1)).ni (g (ℓ + 1)).nj (g (ℓ + 1)).nk) ((-(4 / (cfl * dx (ℓ + 1) ^ 2)) • J (ℓ + 1)) v)) =
      4 * ipL (g (ℓ + 1)).ni (g (ℓ + 1)).nj (g (ℓ + 1)).nk w v
    rw [LinearMap.smul_apply, LinearMap.smul_apply, map_smul, map_smul, map_smul]
    have e : ipL (g (ℓ + 1)).ni (g (ℓ + 1)).nj (g (ℓ + 1)).nk w
        (lapL (dx (ℓ + 1)) (g (ℓ + 1)).ni (g (ℓ + 1)).nj (g (ℓ + 1)).nk (J (ℓ + 1) v)) =
        ipL (g (ℓ + 1)).ni (g (ℓ + 1)).nj (g (ℓ + 1)).nk w v := ipL_congr (fun _ _ => rfl) (hJ _ hℓ v)
    have hd := hdx (ℓ + 1) hℓ
    rw [e, smul_eq_mul, smul_eq_mul]
    field_simp

/-- The error after the coarse grid correction, from the error propagation of the coarser levels. -/
theorem cycle_corr (e : Nat → Int → Int → Int → K) (n d ℓ : Nat) (S : Fas (Int × Int × Int) K)
    (hS : S = poisFas g e dx "nearest" cfl rf rc) (Φ : Fld K → Fld K) (us : Fld K) (ys : Fld K × Fld K)
    (hℓ : ℓ + (d + 1) < nlev)
    (hΦ : ∀ w c, In3 (g ℓ).ni (g ℓ).nj (g ℓ).nk c → Φ w c = lapL (dx ℓ) (g ℓ).ni (g ℓ).nj (g ℓ).nk (w - us) c)
    (ih : ∀ (Φ : Fld K → Fld K) (us : Fld K) (ys : Fld K × Fld K), ℓ + 1 + d < nlev →
      (∀ w c, In3 (g (ℓ + 1)).ni (g (ℓ + 1)).nj (g (ℓ + 1)).nk c → Φ w c = lapL (dx (ℓ + 1)) (g (ℓ + 1)).ni (g (ℓ + 1)).nj (g (ℓ + 1)).nk (w - us) c) →
      ∀ c, In3 (g (ℓ + 1)).ni (g (ℓ + 1)).nj (g (ℓ + 1)).nk c → (S.cycle n S.dt d (ℓ + 1) Φ ys).1 c - us c = (poisHier g dx cfl rf rc J).err n d (ℓ + 1) (ys.1 - us) c) (u1 v0 v : Fld K) (hu1 : u1 = (smoothN Φ (S.dt ℓ) (S.dt ℓ) n ys).1) (hv0 : v0 = S.R ℓ u1)
    (hv : v = (S.cycle n S.dt d (ℓ + 1) (fun v c => S.F (ℓ + 1) v c - S.F (ℓ + 1) v0 c + S.R ℓ (Φ u1) c) (v0, 0)).1) :
    ∀ c, In3 (g ℓ).ni (g ℓ).nj (g ℓ).nk c →
      ((fun c => u1 c + S.relax ℓ * S.T ℓ (fun c => v c - v0 c) c) - us) c =
        (poisHier g dx cfl rf rc J).cgc n d ℓ ((smo ((poisHier g dx cfl rf rc J).X ℓ) ^ n) (ys.1 - us)) c := by
  have hF : ∀ ℓ, ℓ < nlev → ∀ v v0 c, S.F ℓ v c - S.F ℓ v0 c = lapL (dx ℓ) (g ℓ).ni (g ℓ).nj (g ℓ).nk (v - v0) c := by
    intro ℓ hℓ v v0 c
    have hd : ∀ i j k, extDirichlet (g ℓ).ni (g ℓ).nj (g ℓ).nk (e ℓ) (fun i j k => v (i, j, k)) i j k =
        extDirichlet (g ℓ).ni (g ℓ).nj (g ℓ).nk (e ℓ) (fun i j k => v0 (i, j, k)) i j k + ext0 (g ℓ).ni (g ℓ).nj (g ℓ).nk (v - v0) i j k := by
      intro i j k
      unfold ext0 extDirichlet
      split <;> simp
    rw [lapL_apply]
    simp only [hS, poisFas, poisRhs, lap3, d2x, d2y, d2z, hd]
    ring
  have hL : ∀ u v : Fld K, (∀ c, In3 (g ℓ).ni (g ℓ).nj (g ℓ).nk c → u c = v c) →
      lapL (dx ℓ) (g ℓ).ni (g ℓ).nj (g ℓ).nk u = lapL (dx ℓ) (g ℓ).ni (g ℓ).nj (g ℓ).nk v :=
    fun u v h => lapL_congr (dx ℓ) (hext ℓ (by omega)).1 (hext ℓ (by omega)).2.1 h
  have hℓ1 : ℓ + 1 < nlev := by omega
  obtain ⟨e1, e2, e3⟩ := hfine ℓ hℓ1
  set Q := poisHier g dx cfl rf rc J with hQ
  -- the error before the correction
  set E := (smo (Q.X ℓ) ^ n) (ys.1 - us) with hE
  have s1 : ∀ c, In3 (g ℓ).ni (g ℓ).nj (g ℓ).nk c → (u1 - us) c = E c := fun c hc => by
    rw [hu1, hE, hQ, hS]; exact smoothN_err hL hΦ _ n ys c hc
  -- the coarse problem
  set y := Q.I (ℓ + 1) (Q.R ℓ (Q.X ℓ E)) with hy
  have hd0 := hdx ℓ (by omega)
  have hyL : ∀ c, In3 (g (ℓ + 1)).ni (g (ℓ + 1)).nj (g (ℓ + 1)).nk c →
      lapL (dx (ℓ + 1)) (g (ℓ + 1)).ni (g (ℓ + 1)).nj (g (ℓ + 1)).nk y c = avgL (lapL (dx ℓ) (g ℓ).ni (g ℓ).nj (g ℓ).nk E) c := by
    intro c hc
    have : y = J (ℓ + 1) (avgL (lapL (dx ℓ) (g ℓ).ni (g ℓ).nj (g ℓ).nk E)) := by
      rw [hy]
      change -(4 / (cfl * dx (ℓ + 1) ^ 2)) • J (ℓ + 1) (avgL (-(cfl * dx ℓ ^ 2) • lapL (dx ℓ) (g ℓ).ni (g ℓ).nj (g ℓ).nk E)) = _
      rw [map_smul, map_smul, smul_smul, hdx2 ℓ hℓ1]
      have : -(4 / (cfl * (2 * dx ℓ) ^ 2)) * -(cfl * dx ℓ ^ 2) = 1 := by field_simp; ring
      rw [this, one_smul]
    rw [this]
    exact hJ _ hℓ1 _ c hc
  have hRΦ : ∀ c, In3 (g (ℓ + 1)).ni (g (ℓ + 1)).nj (g (ℓ + 1)).nk c →
      S.R ℓ (Φ u1) c = avgL (lapL (dx ℓ) (g ℓ).ni (g ℓ).nj (g ℓ).nk E) c := by
    intro c hc
    have q : ∀ c, In3 (g ℓ).ni (g ℓ).nj (g ℓ).nk c → Φ u1 c = lapL (dx ℓ) (g ℓ).ni (g ℓ).nj (g ℓ).nk E c := fun c hc => by
      rw [hΦ u1 c hc, hL _ _ s1]
    rw [e1, e2, e3] at q ⊢
    rw [hS]
    exact avgL_congr q c hc
  have hcoarse := ih (fun v c => S.F (ℓ + 1) v c - S.F (ℓ + 1) v0 c + S.R ℓ (Φ u1) c) (v0 - y) (v0, 0) (by omega)
    (fun w c hc => by
      rw [hF (ℓ + 1) hℓ1, hRΦ c hc, ← hyL c hc, ← Pi.add_apply, ← map_add, show w - v0 + y = w - (v0 - y) by abel])
  rw [← hv] at hcoarse
  have hvv : ∀ c, In3 (g (ℓ + 1)).ni (g (ℓ + 1)).nj (g (ℓ + 1)).nk c → v c - v0 c = -(y c - Q.err n d (ℓ + 1) y c) := by
    intro c hc
    have h := hcoarse c hc
    rw [show (v0, (0 : Fld K)).1 - (v0 - y) = y by simp] at h
    simp only [Pi.sub_apply] at h
    linear_combination h
  intro c hc
  obtain ⟨i, j, k⟩ := c
  unfold In3 at hc
  dsimp only at hc
  have hT : S.T ℓ (fun c => v c - v0 c) (i, j, k) = -(y (i / 2, j / 2, k / 2) - Q.err n d (ℓ + 1) y (i / 2, j / 2, k / 2)) := by
    have : S.T ℓ (fun c => v c - v0 c) (i, j, k) = (fun c => v c - v0 c) (i / 2, j / 2, k / 2) := by
      rw [hS]; simp only [poisFas, if_true]
    rw [this]
    exact hvv _ (by unfold In3; dsimp only; omega)
  rw [Q.cgc_apply, ← hy]
  have s := s1 (i, j, k) (by unfold In3; dsimp only; omega)
  simp only [Pi.sub_apply, Pi.smul_apply, smul_eq_mul] at s ⊢
  rw [hT, ← s]
  have : Q.T ℓ (y - Q.err n d (ℓ + 1) y) (i, j, k) = y (i / 2, j / 2, k / 2) - Q.err n d (ℓ + 1) y (i / 2, j / 2, k / 2) := rfl
  rw [this, show Q.r ℓ = S.relax ℓ by rw [hS]; rfl]
  ring

/-- Error propagation of the cycles on all levels. -/
theorem cycle_err (e : Nat → Int → Int → Int → K) (n d : Nat) : ∀ (ℓ : Nat) (Φ : Fld K → Fld K) (us : Fld K) (ys : Fld K × Fld K),
    ℓ + d < nlev →
    (∀ w c, In3 (g ℓ).ni (g ℓ).nj (g ℓ).nk c → Φ w c = lapL (dx ℓ) (g ℓ).ni (g ℓ).nj (g ℓ).nk (w - us) c) →
    ∀ c, In3 (g ℓ).ni (g ℓ).nj (g ℓ).nk c →
      ((poisFas g e dx "nearest" cfl rf rc).cycle n (poisFas g e dx "nearest" cfl rf rc).dt d ℓ Φ ys).1 c - us c =
        (poisHier g dx cfl rf rc J).err n d ℓ (ys.1 - us) c := by
  set S := poisFas g e dx "nearest" cfl rf rc with hS
  induction d with
  | zero =>
    intro ℓ Φ us ys hℓ hΦ c hc
    rw [Fas.cycle]
    have hL : ∀ u v : Fld K, (∀ c, In3 (g ℓ).ni (g ℓ).nj (g ℓ).nk c → u c = v c) →
        lapL (dx ℓ) (g ℓ).ni (g ℓ).nj (g ℓ).nk u = lapL (dx ℓ) (g ℓ).ni (g ℓ).nj (g ℓ).nk v :=
      fun u v h => lapL_congr (dx ℓ) (hext ℓ (by omega)).1 (hext ℓ (by omega)).2.1 h
    exact smoothN_err hL hΦ (S.dt ℓ) (n + n) ys c hc
  | succ d ih =>
    intro ℓ Φ us ys hℓ hΦ c hc
    have hL : ∀ u v : Fld K, (∀ c, In3 (g ℓ).ni (g ℓ).nj (g ℓ).nk c → u c = v c) →
        lapL (dx ℓ) (g ℓ).ni (g ℓ).nj (g ℓ).nk u = lapL (dx ℓ) (g ℓ).ni (g ℓ).nj (g ℓ).nk v :=
      fun u v h => lapL_congr (dx ℓ) (hext ℓ (by omega)).1 (hext ℓ (by omega)).2.1 h
    have h2 := cycle_corr (rf := rf) (rc := rc) hext hfine hdx hdx2 hc0 hJ e n d ℓ S hS Φ us ys hℓ hΦ (ih (ℓ + 1)) _ _ _ rfl rfl rfl
    rw [Fas.cycle, smoothN_err hL hΦ (S.dt ℓ) n _ c hc, Hier.err_succ]
    exact smo_pow_congr hL (S.dt ℓ) n h2 c hc

/-- The slope of the last pass of a cycle, from the error before that pass, whose energy is at most that of the error before the
cycle. -/
theorem cycle_slope (e : Nat → Int → Int → Int → K) (n d : Nat) (hn : 1 ≤ n) (hd : d < nlev) (Φ : Fld K → Fld K) (us : Fld K)
    (ys : Fld K × Fld K)
    (hΦ : ∀ w c, In3 (g 0).ni (g 0).nj (g 0).nk c → Φ w c = lapL (dx 0) (g 0).ni (g 0).nj (g 0).nk (w - us) c)
    (z : Fld K) (hz : z = match d with
      | 0 => (smo ((poisHier g dx cfl rf rc J).X 0) ^ (n + n - 1)) (ys.1 - us)
      | d + 1 => (smo ((poisHier g dx cfl rf rc J).X 0) ^ (n - 1)) ((poisHier g dx cfl rf rc J).cgc n d 0
          ((smo ((poisHier g dx cfl rf rc J).X 0) ^ n) (ys.1 - us)))) :
    ∀ c, In3 (g 0).ni (g 0).nj (g 0).nk c →
      cfl * dx 0 ^ 2 * ((poisFas g e dx "nearest" cfl rf rc).cycle n (poisFas g e dx "nearest" cfl rf rc).dt d 0 Φ ys).2 c =
        smo ((poisHier g dx cfl rf rc J).X 0) z c - z c := by
  intro c hc
  have hL : ∀ u v : Fld K, (∀ c, In3 (g 0).ni (g 0).nj (g 0).nk c → u c = v c) →
      lapL (dx 0) (g 0).ni (g 0).nj (g 0).nk u = lapL (dx 0) (g 0).ni (g 0).nj (g 0).nk v :=
    fun u v h => lapL_congr (dx 0) (hext 0 (by omega)).1 (hext 0 (by omega)).2.1 h
  set S := poisFas g e dx "nearest" cfl rf rc with hS
  have hX : (poisHier g dx cfl rf rc J).X 0 = -(cfl * dx 0 ^ 2) • lapL (dx 0) (g 0).ni (g 0).nj (g 0).nk := rfl
  have hdt : S.dt 0 = cfl * dx 0 ^ 2 := rfl
  cases d with
  | zero =>
    rw [Fas.cycle, hz, hX]
    dsimp only
    have := smoothN_last_err hL hΦ (cfl * dx 0 ^ 2) (n + n - 1) ys c hc
    rw [show n + n - 1 + 1 = n + n by omega] at this
    exact this
  | succ d =>
    have h2 := cycle_corr (rf := rf) (rc := rc) hext hfine hdx hdx2 hc0 hJ e n d 0 S hS Φ us ys (by omega) hΦ
      (fun Φ us ys h1 h2 c hc => cycle_err (rf := rf) (rc := rc) hext hfine hdx hdx2 hc0 hJ e n d 1 Φ us ys h1 h2 c hc)
      _ _ _ rfl rfl rfl
    rw [Fas.cycle, hz]
    dsimp only
    have := smoothN_last_err hL hΦ (cfl * dx 0 ^ 2) (n - 1) (fun c => (smoothN Φ (S.dt 0) (S.dt 0) n ys).1 c + S.relax 0 *
      S.T 0 (fun c => (S.cycle n S.dt d (0 + 1) (fun v c => S.F (0 + 1) v c - S.F (0 + 1) (S.R 0 (smoothN Φ (S.dt 0) (S.dt 0) n ys).1) c +
        S.R 0 (Φ (smoothN Φ (S.dt 0) (S.dt 0) n ys).1) c) (S.R 0 (smoothN Φ (S.dt 0) (S.dt 0) n ys).1, 0)).1 c -
        S.R 0 (smoothN Φ (S.dt 0) (S.dt 0) n ys).1 c) c, 0) c hc
    rw [show n - 1 + 1 = n by omega] at this
    rw [hdt] at this ⊢
    rw [this, hX]
    rw [hX, hdt] at h2
    rw [smo_congr hL (cfl * dx 0 ^ 2) (smo_pow_congr hL (cfl * dx 0 ^ 2) (n - 1) h2) c hc, smo_pow_congr hL (cfl * dx 0 ^ 2) (n - 1) h2 c hc]

end

end Madg
