/-
Explicit 2D runs in rounded arithmetic as noisy runs of the exact scheme.
-/
import Verif.Proofs.RoundConv
import Verif.Proofs.RoundCH2
import Verif.Proofs.RoundGen

set_option linter.unusedSectionVars false
set_option linter.unusedVariables false

namespace Madg
open Spec

theorem chField2_cast (p : CHParams ℚ) (dx : ℚ) (n : Int) (t : ℚ) (s : ℝ) (y : Int × Int → ℚ)
    (c : Int × Int) : ((chField2 p dx n t y c : ℚ) : ℝ) =
      chField2 (realParams p) dx n s (fun c => (y c : ℝ)) c := by
  simp only [chField2, chRhs2, bih2, lap2, ext2, realParams]
  push_cast
  ring

section
variable {A : Type} [DecidableEq A] {rnd : ℚ → ℚ} {un τ : ℚ} (hr : Rounds rnd un τ)
  {n : Int} (hn : 1 ≤ n) {M : ℚ} (hM2 : 2 ≤ M)
  {p : CHParams (Fl rnd)} {dx : Fl rnd} (hdx : Spacing τ dx.val) (h34 : (1 + un) ^ 34 ≤ 5 / 4)
  {loc : Int × Int → Int} {w : RKArr A} {t dt : Fl rnd} {m m' : Mem A (Fl rnd)} (hdt : 2 * τ ≤ dt.val)
  (hd : dt.val * rhsSize (valuesOf p) dx.val M ≤ M / 4)
  (b1 : ∀ c, In2 n c → |(m w.sol (loc c)).val| ≤ M / 2)
include hr hn hM2 hdx h34 hdt hd b1

/-- An error bound in rational numbers, in real numbers. -/
theorem cast_err2 {e : ℚ} {x y : ℝ} {x' : ℚ} {y' : ℚ} (h : |x' - y'| ≤ ((1 + un) ^ 34 - 1) * (2 * M + |dt.val| * rhsSize (valuesOf p) dx.val M))
    (hx : x = x') (hy : (y' : ℝ) = y) : |x - y| ≤ ((9 / 4 * ((1 + un) ^ 34 - 1) : ℚ) : ℝ) * (M : ℝ) := by
  have ρ := sub_nonneg.2 (Near.one_le hr.unit.1 34)
  have d0 : |dt.val| = dt.val := abs_of_nonneg (by have := hr.tiny.1; linarith)
  rw [d0] at h
  rw [hx, ← hy, ← Rat.cast_sub, ← Rat.cast_abs, ← Rat.cast_mul, Rat.cast_le]
  refine h.trans ?_
  calc ((1 + un) ^ 34 - 1) * (2 * M + dt.val * rhsSize (valuesOf p) dx.val M) ≤ ((1 + un) ^ 34 - 1) * (2 * M + M / 4) :=
        mul_le_mul_of_nonneg_left (by linarith) ρ
    _ = 9 / 4 * ((1 + un) ^ 34 - 1) * M := by ring

theorem rk3_noisy2 (q : Rk3Post (In2 n) loc (chFieldA2 p dx n) w t dt m m') :
    NoisyCells ssp3c (cells2 n) (chField2 (realParams (valuesOf p)) (dx.val : ℝ) n 0)
      (((9 / 4 * ((1 + un) ^ 34 - 1) : ℚ) : ℝ) * (M : ℝ)) (dt.val : ℝ) (fun c => ((m w.sol (loc c)).val : ℝ))
      (fun c => ((m' w.sol (loc c)).val : ℝ)) := by
  have hM : 1 ≤ M := by linarith
  have d0 : |dt.val| = dt.val := abs_of_nonneg (by have := hr.tiny.1; linarith)
  obtain ⟨x1, x2, x3⟩ := Gen.rk3_stages hr (rhsSize_ge hr (le_refl (1 : Int)) (le_refl (1 : Int)) (le_refl (1 : Int)) hM hdx (p := p)) (FE := chField2 (valuesOf p) dx.val n 0) (fun t y hy c _ => near_field2 hr hn hM hdx hy c) hM h34 hM2 (by rw [d0]; exact hdt) (by rw [d0]; exact hd) q b1
  obtain ⟨y2, y3, e2, e3, e4⟩ := Gen.rk3_errors hr (rhsSize_ge hr (le_refl (1 : Int)) (le_refl (1 : Int)) (le_refl (1 : Int)) hM hdx (p := p)) (FE := chField2 (valuesOf p) dx.val n 0) (fun t y hy c _ => near_field2 hr hn hM hdx hy c) hM (by rw [d0]; exact hdt) q x1 x2 x3
  refine ⟨fun c => (y2 c : ℝ), fun c => (y3 c : ℝ), fun c hc => ?_, fun c hc => ?_, fun c hc => ?_⟩
  · have h := (mem_cells2 n c).1 hc
    refine cast_err2 hr hn hM2 hdx h34 hdt hd b1 (e := 0) (e2 c h) rfl ?_
    push_cast
    rw [chField2_cast _ _ _ 0 0]
    simp only [ssp3c, one_mul]
  · have h := (mem_cells2 n c).1 hc
    refine cast_err2 hr hn hM2 hdx h34 hdt hd b1 (e := 0) (e3 c h) rfl ?_
    push_cast
    rw [chField2_cast _ _ _ 0 0, chField2_cast _ _ _ 0 0]
    simp only [ssp3c]
  · have h := (mem_cells2 n c).1 hc
    refine cast_err2 hr hn hM2 hdx h34 hdt hd b1 (e := 0) (e4 c h) rfl ?_
    push_cast
    rw [chField2_cast _ _ _ 0 0, chField2_cast _ _ _ 0 0, chField2_cast _ _ _ 0 0]
    simp only [ssp3c]

theorem ode23_noisy2 (q : Ode23Post (In2 n) loc (chFieldA2 p dx n) w t dt m m') :
    NoisyCells bs3c (cells2 n) (chField2 (realParams (valuesOf p)) (dx.val : ℝ) n 0)
      (((9 / 4 * ((1 + un) ^ 34 - 1) : ℚ) : ℝ) * (M : ℝ)) (dt.val : ℝ) (fun c => ((m w.sol (loc c)).val : ℝ))
      (fun c => ((m' w.sol (loc c)).val : ℝ)) := by
  have hM : 1 ≤ M := by linarith
  have d0 : |dt.val| = dt.val := abs_of_nonneg (by have := hr.tiny.1; linarith)
  obtain ⟨x1, x2, x3⟩ := Gen.ode23_stages hr (rhsSize_ge hr (le_refl (1 : Int)) (le_refl (1 : Int)) (le_refl (1 : Int)) hM hdx (p := p)) (FE := chField2 (valuesOf p) dx.val n 0) (fun t y hy c _ => near_field2 hr hn hM hdx hy c) hM h34 hM2 (by rw [d0]; exact hdt) (by rw [d0]; exact hd) q b1
  obtain ⟨y2, y3, e2, e3, e4⟩ := Gen.ode23_errors hr (rhsSize_ge hr (le_refl (1 : Int)) (le_refl (1 : Int)) (le_refl (1 : Int)) hM hdx (p := p)) (FE := chField2 (valuesOf p) dx.val n 0) (fun t y hy c _ => near_field2 hr hn hM hdx hy c) hM (by rw [d0]; exact hdt) q x1 x2 x3
  refine ⟨fun c => (y2 c : ℝ), fun c => (y3 c : ℝ), fun c hc => ?_, fun c hc => ?_, fun c hc => ?_⟩
  · have h := (mem_cells2 n c).1 hc
    refine cast_err2 hr hn hM2 hdx h34 hdt hd b1 (e := 0) (e2 c h) rfl ?_
    push_cast
    rw [chField2_cast _ _ _ 0 0]
    simp only [bs3c]
  · have h := (mem_cells2 n c).1 hc
    refine cast_err2 hr hn hM2 hdx h34 hdt hd b1 (e := 0) (e3 c h) rfl ?_
    push_cast
    rw [chField2_cast _ _ _ 0 0, chField2_cast _ _ _ 0 0]
    simp only [bs3c]
  · have h := (mem_cells2 n c).1 hc
    refine cast_err2 hr hn hM2 hdx h34 hdt hd b1 (e := 0) (e4 c h) rfl ?_
    push_cast
    rw [chField2_cast _ _ _ 0 0, chField2_cast _ _ _ 0 0, chField2_cast _ _ _ 0 0]
    simp only [bs3c]

end


/-- As `field2_converges`, for chains of noisy steps. -/
theorem chain2_converges (p : CHParams ℝ) (he : 0 < p.eps2) {L : Fin 2 → ℝ} (hL : ∀ a, 0 < L a) {T : ℝ}
    {u : ℝ → (Fin 2 → ℝ) → ℝ} (hu : CHSolution p L T u) (a : ℝ) (ha : 0 ≤ a) :
    ∃ (Cst h0 : ℝ) (Mx : ℕ), 0 ≤ Cst ∧ 0 < h0 ∧ 2 ≤ Mx ∧ ∀ (n : Int) (hn : 1 ≤ n)
      (dx : ℝ) (hdx1 : dx ≤ h0) (e : ∀ a, n * dx = L a) (o : Fin 2 → ℝ)
      (Tb : RK3c) (Q : (Int × Int → ℝ) → ℝ → (Int × Int → ℝ) → Prop) (ρ : ℝ) (hρ : 0 ≤ ρ) (dts : List ℝ)
      (hQ : ∀ dt ∈ dts, ∀ c c', (∀ s ∈ cells2 n, |c s| ≤ (Mx : ℝ) / 2) → Q c dt c' →
        NoisyCells Tb (cells2 n) (chField2 p dx n 0) (ρ * Mx) dt c c')
      (hdts : ∀ dt ∈ dts, 0 ≤ dt ∧ 4608 * p.eps2 * dt ≤ dx ^ 4) (hsum : dts.sum ≤ T) (hlen : dts.length * ρ ≤ a * dx ^ 2)
      (y y' : Int × Int → ℝ) (hy : ∀ c, In2 n c → |y c - u 0 (centre2 o dx c.1 c.2)| ≤ a * dx ^ 2)
      (hch : Chain Q dts y y'),
      (sum2 n n fun i j => (y' (i, j) - u dts.sum (centre2 o dx i j)) ^ 2) ≤
        ((n * n : Int) : ℝ) * (Cst * dx ^ 2) ^ 2 := by
  obtain ⟨Cst, h0, Mx, c0, h00, M2, H⟩ := chain_converges p he hL hu a (L 0 * L 1) ha (mul_nonneg (hL 0).le (hL 1).le)
  refine ⟨Cst, min h0 1, Mx, c0, by positivity, M2, ?_⟩
  intro n hn dx hdx1 e o Tb Q ρ hρ dts hQ hdts hsum hlen y y' hy hch
  have hdx : 0 < dx := by
    have h := hL 0
    rw [← e 0] at h
    exact (mul_pos_iff_of_pos_left (by exact_mod_cast (by omega : (0 : Int) < n))).1 h
  have d1 : dx ≤ 1 := hdx1.trans (min_le_right _ _)
  have hc := card_cells2 n (by omega)
  have vol0 : 0 ≤ L 0 * L 1 := mul_nonneg (hL 0).le (hL 1).le
  let F : (Int × Int → ℝ) → Int × Int → ℝ := fun v =>
    plap2 n dx (fun c => v c ^ 3 - v c) - p.eps2 • plap2 n dx (plap2 n dx v) - p.sigma • (v - fun _ => p.m)
  have key := H _ (cells2 n) (plap2 n dx) (fun c => centre2 o dx c.1 c.2) dx hdx (hdx1.trans (min_le_left _ _))
    (plap2_sym hn dx)
    (fun v => (plap2_bnd hn hdx v).trans (mul_le_mul_of_nonneg_right
      (div_le_div_of_nonneg_right (by norm_num) (by positivity)) (Real.sqrt_nonneg _)))
    (by
      have : ((cells2 n).card : ℝ) * dx ^ 4 = (L 0 * L 1 * dx) * dx := by rw [hc, ← e 0, ← e 1]; ring
      rw [this]
      exact mul_le_mul_of_nonneg_right (by nlinarith) hdx.le) F (fun _ => rfl)
    (fun t h1 h2 c hcm => by
      have hp := hu.periodic t h1 h2
      have ex : pext2 n (fun c => u t (centre2 o dx c.1 c.2)) = fun i j => u t (centre2 o dx i j) := by
        funext i j
        exact wrap2_sample hp e o i j
      have := chField2_abs p dx 0 _ (fun c => u t (centre2 o dx c.1 c.2)) (fun _ _ => rfl) hn c
        ((mem_cells2 n c).1 hcm)
      refine this.symm.trans ?_
      show chRhs2 p dx (pext2 n fun c => u t (centre2 o dx c.1 c.2)) c.1 c.2 = _
      rw [ex]
      unfold chRhs2 bih2
      rw [lap2_sample, lap2_sample o dx (dlap dx (u t)), lap2_sample o dx (fun y => u t y ^ 3 - u t y)])
    Tb Q ρ hρ dts
    (fun dt hdt c c' hc hq => (hQ dt hdt c c' hc hq).congr fun v c hcm =>
      chField2_abs p dx 0 v v (fun _ _ => rfl) hn c ((mem_cells2 n c).1 hcm))
    hdts hsum hlen y y' (fun c hcm => hy c ((mem_cells2 n c).1 hcm)) hch
  have sq := pow_le_pow_left₀ (Real.sqrt_nonneg _) key 2
  rw [Real.sq_sqrt (Finset.sum_nonneg fun _ _ => sq_nonneg _), sum_cells2] at sq
  refine (le_of_eq (sum2_congr fun i j h1 h2 => rfl)).trans (sq.trans (le_of_eq ?_))
  rw [mul_pow, mul_pow, Real.sq_sqrt (Nat.cast_nonneg _), hc]; push_cast; ring

end Madg
