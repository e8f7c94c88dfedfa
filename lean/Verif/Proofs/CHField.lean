/-
Convergence of explicit runs of the semi-discrete Cahn–Hilliard equation on periodic grids.
-/
import Verif.Proofs.CHFull
import Verif.Proofs.CHLap
import Verif.Props.Consistency

set_option linter.unusedVariables false

namespace Madg
open Spec

theorem field3_converges (p : CHParams ℝ) (he : 0 < p.eps2) {L : Fin 3 → ℝ} (hL : ∀ a, 0 < L a) {T : ℝ}
    {u : ℝ → (Fin 3 → ℝ) → ℝ} (hu : CHSolution p L T u) (a : ℝ) (ha : 0 ≤ a) :
    ∃ Cst h0, 0 ≤ Cst ∧ 0 < h0 ∧ ∀ (ni nj nk : Int) (hi : 1 ≤ ni) (hj : 1 ≤ nj) (hk : 1 ≤ nk)
      (dx : ℝ) (hdx1 : dx ≤ h0) (e0 : ni * dx = L 0) (e1 : nj * dx = L 1) (e2 : nk * dx = L 2) (o : Fin 3 → ℝ)
      (Tb : RK3c) (dts : List ℝ) (hdts : ∀ dt ∈ dts, 0 ≤ dt ∧ 4608 * p.eps2 * dt ≤ dx ^ 4) (hsum : dts.sum ≤ T)
      (y : Int × Int × Int → ℝ) (hy : ∀ c, In3 ni nj nk c → |y c - u 0 (centre3 o dx c.1 c.2.1 c.2.2)| ≤ a * dx ^ 2),
      (sum3 ni nj nk fun i j k => (Tb.run (chField3 p dx .periodic .periodic .periodic ni nj nk 0) dts y (i, j, k) -
        u dts.sum (centre3 o dx i j k)) ^ 2) ≤ ((ni * nj * nk : Int) : ℝ) * (Cst * dx ^ 2) ^ 2 := by
  obtain ⟨Cst, h0, c0, h00, H⟩ := cell_converges p he hL hu a (L 0 * L 1 * L 2) ha
    (mul_nonneg (mul_nonneg (hL 0).le (hL 1).le) (hL 2).le)
  refine ⟨Cst, h0, c0, h00, ?_⟩
  intro ni nj nk hi hj hk dx hdx1 e0 e1 e2 o Tb dts hdts hsum y hy
  have hdx : 0 < dx := by
    have h := hL 0
    rw [← e0] at h
    exact (mul_pos_iff_of_pos_left (by exact_mod_cast (by omega : (0 : Int) < ni))).1 h
  have hc := card_cells3 ni nj nk (by omega) (by omega) (by omega)
  let F : (Int × Int × Int → ℝ) → Int × Int × Int → ℝ := fun v =>
    plap3 ni nj nk dx (fun c => v c ^ 3 - v c) - p.eps2 • plap3 ni nj nk dx (plap3 ni nj nk dx v) - p.sigma • (v - fun _ => p.m)
  have key := H _ (cells3 ni nj nk) (plap3 ni nj nk dx) (fun c => centre3 o dx c.1 c.2.1 c.2.2) dx hdx hdx1
    (plap3_sym hi hj hk dx) (plap3_bnd hi hj hk hdx)
    (by rw [hc, ← e0, ← e1, ← e2]; exact le_of_eq (by ring)) F (fun _ => rfl)
    (fun t h1 h2 c hcm => by
      have hp := hu.periodic t h1 h2
      have ex : pext3 ni nj nk (fun c => u t (centre3 o dx c.1 c.2.1 c.2.2)) = fun i j k => u t (centre3 o dx i j k) := by
        funext i j k
        exact wrap3_sample hp e0 e1 e2 o i j k
      have := chField3_abs p dx 0 _ (fun c => u t (centre3 o dx c.1 c.2.1 c.2.2)) (fun _ _ => rfl) hi hj hk c
        ((mem_cells3 ni nj nk c).1 hcm)
      refine this.symm.trans ?_
      show chRhs3 p dx (pext3 ni nj nk fun c => u t (centre3 o dx c.1 c.2.1 c.2.2)) c.1 c.2.1 c.2.2 = _
      rw [ex]
      unfold chRhs3 bih3
      rw [lap3_sample, lap3_sample o dx (dlap dx (u t)), lap3_sample o dx (fun y => u t y ^ 3 - u t y)])
    Tb dts hdts hsum y (fun c hcm => hy c ((mem_cells3 ni nj nk c).1 hcm))
  have hrun : ∀ c, In3 ni nj nk c → Tb.run (chField3 p dx .periodic .periodic .periodic ni nj nk 0) dts y c = Tb.run F dts y c :=
    RK3c.run_congr Tb (In3 ni nj nk) (fun u v huv c hc => chField3_abs p dx 0 u v huv hi hj hk c hc) dts y y fun _ _ => rfl
  have sq := pow_le_pow_left₀ (Real.sqrt_nonneg _) key 2
  rw [Real.sq_sqrt (Finset.sum_nonneg fun _ _ => sq_nonneg _), sum_cells3] at sq
  refine (le_of_eq (sum3_congr fun i j k h1 h2 h3 => ?_)).trans (sq.trans (le_of_eq ?_))
  · rw [hrun (i, j, k) ⟨h1, h2, h3⟩]; rfl
  · rw [mul_pow, mul_pow, Real.sq_sqrt (Nat.cast_nonneg _), hc]; push_cast; ring

theorem field2_converges (p : CHParams ℝ) (he : 0 < p.eps2) {L : Fin 2 → ℝ} (hL : ∀ a, 0 < L a) {T : ℝ}
    {u : ℝ → (Fin 2 → ℝ) → ℝ} (hu : CHSolution p L T u) (a : ℝ) (ha : 0 ≤ a) :
    ∃ Cst h0, 0 ≤ Cst ∧ 0 < h0 ∧ ∀ (n : Int) (hn : 1 ≤ n)
      (dx : ℝ) (hdx1 : dx ≤ h0) (e : ∀ a, n * dx = L a) (o : Fin 2 → ℝ)
      (Tb : RK3c) (dts : List ℝ) (hdts : ∀ dt ∈ dts, 0 ≤ dt ∧ 4608 * p.eps2 * dt ≤ dx ^ 4) (hsum : dts.sum ≤ T)
      (y : Int × Int → ℝ) (hy : ∀ c, In2 n c → |y c - u 0 (centre2 o dx c.1 c.2)| ≤ a * dx ^ 2),
      (sum2 n n fun i j => (Tb.run (chField2 p dx n 0) dts y (i, j) - u dts.sum (centre2 o dx i j)) ^ 2) ≤
        ((n * n : Int) : ℝ) * (Cst * dx ^ 2) ^ 2 := by
  obtain ⟨Cst, h0, c0, h00, H⟩ := cell_converges p he hL hu a (L 0 * L 1) ha (mul_nonneg (hL 0).le (hL 1).le)
  refine ⟨Cst, min h0 1, c0, by positivity, ?_⟩
  intro n hn dx hdx1 e o Tb dts hdts hsum y hy
  have hdx : 0 < dx := by
    have h := hL 0
    rw [← e 0] at h
    exact (mul_pos_iff_of_pos_left (by exact_mod_cast (by omega : (0 : Int) < n))).1 h
  have d1 : dx ≤ 1 := hdx1.trans (min_le_right _ _)
  have hc := card_cells2 n (by omega)
  have vol0 : 0 ≤ L 0 * L 1 := mul_nonneg (hL 0).le (hL 1).le
  let F : (Int × Int → ℝ) → Int × Int → ℝ := fun v =>
    plap2 n dx (fun c => v c ^ 3 - v c) - p.eps2 • plap2 n dx (plap2 n dx v) - p.sigma • (v - fun _ => p.m)
  have key := H _ (cells2 n) (plap2 n dx) (fun c => centre2 o dx c.1 c.2) dx hdx (hdx1.trans (min_le_left _ _))
    (plap2_sym hn dx)
    (fun v => (plap2_bnd hn hdx v).trans (mul_le_mul_of_nonneg_right
      (div_le_div_of_nonneg_right (by norm_num) (by positivity)) (Real.sqrt_nonneg _)))
    (by
      have : ((cells2 n).card : ℝ) * dx ^ 4 = (L 0 * L 1 * dx) * dx := by rw [hc, ← e 0, ← e 1]; ring
      rw [this]
      exact mul_le_mul_of_nonneg_right (by nlinarith) hdx.le) F (fun _ => rfl)
    (fun t h1 h2 c hcm => by
      have hp := hu.periodic t h1 h2
      have ex : pext2 n (fun c => u t (centre2 o dx c.1 c.2)) = fun i j => u t (centre2 o dx i j) := by
        funext i j
        exact wrap2_sample hp e o i j
      have := chField2_abs p dx 0 _ (fun c => u t (centre2 o dx c.1 c.2)) (fun _ _ => rfl) hn c
        ((mem_cells2 n c).1 hcm)
      refine this.symm.trans ?_
      show chRhs2 p dx (pext2 n fun c => u t (centre2 o dx c.1 c.2)) c.1 c.2 = _
      rw [ex]
      unfold chRhs2 bih2
      rw [lap2_sample, lap2_sample o dx (dlap dx (u t)), lap2_sample o dx (fun y => u t y ^ 3 - u t y)])
    Tb dts hdts hsum y (fun c hcm => hy c ((mem_cells2 n c).1 hcm))
  have hrun : ∀ c, In2 n c → Tb.run (chField2 p dx n 0) dts y c = Tb.run F dts y c :=
    RK3c.run_congr Tb (In2 n) (fun u v huv c hc => chField2_abs p dx 0 u v huv hn c hc) dts y y fun _ _ => rfl
  have sq := pow_le_pow_left₀ (Real.sqrt_nonneg _) key 2
  rw [Real.sq_sqrt (Finset.sum_nonneg fun _ _ => sq_nonneg _), sum_cells2] at sq
  refine (le_of_eq (sum2_congr fun i j h1 h2 => ?_)).trans (sq.trans (le_of_eq ?_))
  · rw [hrun (i, j) ⟨h1, h2⟩]; rfl
  · rw [mul_pow, mul_pow, Real.sq_sqrt (Nat.cast_nonneg _), hc]; push_cast; ring

end Madg
