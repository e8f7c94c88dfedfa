/-
The periodic grid Laplacians as symmetric bounded operators on fields.
-/
import Verif.Proofs.CHGrid
import Verif.Proofs.Sums
import Verif.Spec.Semi

set_option linter.unusedVariables false

namespace Madg
open Spec Finset

theorem RK3c.run_congr {C : Type} (T : RK3c) (P : C → Prop) {F G : (C → ℝ) → C → ℝ}
    (h : ∀ u v : C → ℝ, (∀ c, P c → u c = v c) → ∀ c, P c → F u c = G v c) (dts : List ℝ) (u v : C → ℝ)
    (huv : ∀ c, P c → u c = v c) : ∀ c, P c → T.run F dts u c = T.run G dts v c := by
  induction dts generalizing u v with
  | nil => exact huv
  | cons dt dts ih =>
    refine ih _ _ fun c hc => ?_
    have k1 := h u v huv
    have e2 : ∀ c, P c → T.y2 F dt u c = T.y2 G dt v c := fun c hc => by
      simp only [RK3c.y2, Pi.add_apply, Pi.smul_apply, huv c hc, k1 c hc]
    have k2 := h _ _ e2
    have e3 : ∀ c, P c → T.y3 F dt u c = T.y3 G dt v c := fun c hc => by
      simp only [RK3c.y3, Pi.add_apply, Pi.smul_apply, huv c hc, k1 c hc, k2 c hc]
    have k3 := h _ _ e3
    simp only [RK3c.step, Pi.add_apply, Pi.smul_apply, huv c hc, k1 c hc, k2 c hc, k3 c hc]

theorem sum_wrap_add {n : Int} (hn : 0 ≤ n) (h : Int → ℝ) : ∑ i ∈ Ico 0 n, h ((i + 1) % n) = ∑ i ∈ Ico 0 n, h (i % n) := by
  have := sum_tele hn fun i => h (i % n)
  rw [sum_sub_distrib] at this
  simp at this
  linarith

theorem sum_wrap_sub {n : Int} (hn : 0 ≤ n) (h : Int → ℝ) : ∑ i ∈ Ico 0 n, h ((i - 1) % n) = ∑ i ∈ Ico 0 n, h (i % n) := by
  have := sum_tele hn fun i => h ((i - 1) % n)
  rw [sum_sub_distrib] at this
  have e : h ((n - 1) % n) = h ((0 - 1) % n) := by
    congr 1
    rw [show n - 1 = -1 + n by ring, Int.add_emod_right, zero_sub]
  rw [e, sub_self] at this
  simp only [add_sub_cancel_right] at this
  linarith

/-! ### Three dimensions -/

section
variable (ni nj nk : Int)

/-- Interior cells as a finite set. -/
noncomputable def cells3 : Finset (Int × Int × Int) := Ico 0 ni ×ˢ Ico 0 nj ×ˢ Ico 0 nk

theorem mem_cells3 (c : Int × Int × Int) : c ∈ cells3 ni nj nk ↔ In3 ni nj nk c := by
  simp only [cells3, mem_product, mem_Ico, In3]

theorem sum_cells3 (f : Int × Int × Int → ℝ) : ∑ c ∈ cells3 ni nj nk, f c = sum3 ni nj nk fun i j k => f (i, j, k) := by
  simp only [cells3, sum_product, sum3]

theorem card_cells3 (hi : 0 ≤ ni) (hj : 0 ≤ nj) (hk : 0 ≤ nk) : ((cells3 ni nj nk).card : ℝ) = ni * nj * nk := by
  have := sum_cells3 ni nj nk fun _ => (1 : ℝ)
  rw [sum3_const ni nj nk hi hj hk] at this
  simp only [sum_const, nsmul_eq_mul, mul_one] at this
  rw [this]; push_cast; ring

/-- Periodic extension of a field. -/
def pext3 (u : Int × Int × Int → ℝ) : Int → Int → Int → ℝ := ext3 .periodic .periodic .periodic ni nj nk fun i j k => u (i, j, k)

/-- Periodic Laplacian of a field. -/
noncomputable def plap3 (dx : ℝ) : (Int × Int × Int → ℝ) →ₗ[ℝ] (Int × Int × Int → ℝ) where
  toFun u c := lap3 dx (pext3 ni nj nk u) c.1 c.2.1 c.2.2
  map_add' u v := by
    funext c
    simp only [lap3, d2x, d2y, d2z, pext3, ext3, Pi.add_apply]; ring
  map_smul' r u := by
    funext c
    simp only [lap3, d2x, d2y, d2z, pext3, ext3, Pi.smul_apply, smul_eq_mul, RingHom.id_apply]; ring

variable {ni nj nk} (hi : 1 ≤ ni) (hj : 1 ≤ nj) (hk : 1 ≤ nk)

theorem pext3_in {u : Int × Int × Int → ℝ} {i j k : Int} (h1 : 0 ≤ i ∧ i < ni) (h2 : 0 ≤ j ∧ j < nj) (h3 : 0 ≤ k ∧ k < nk) :
    pext3 ni nj nk u i j k = u (i, j, k) := by
  simp only [pext3, ext3, extIdx, wrapIdx]
  rw [Int.emod_eq_of_lt h1.1 h1.2, Int.emod_eq_of_lt h2.1 h2.2, Int.emod_eq_of_lt h3.1 h3.2]

include hi hj hk

theorem plap3_sym (dx : ℝ) (u v : Int × Int × Int → ℝ) :
    ∑ c ∈ cells3 ni nj nk, plap3 ni nj nk dx u c * v c = ∑ c ∈ cells3 ni nj nk, u c * plap3 ni nj nk dx v c := by
  rw [sum_cells3, sum_cells3]
  have h := lap3_symm dx hi hj hk .periodic .periodic .periodic (fun i j k => u (i, j, k)) fun i j k => v (i, j, k)
  refine Eq.trans (sum3_congr fun i j k h1 h2 h3 => ?_) (h.symm.trans (sum3_congr fun i j k h1 h2 h3 => ?_))
  · have := pext3_in (u := v) h1 h2 h3
    unfold pext3 at this
    rw [this]; rfl
  · have := pext3_in (u := u) h1 h2 h3
    unfold pext3 at this
    rw [this]; rfl

theorem plap3_bnd {dx : ℝ} (hdx : 0 < dx) (u : Int × Int × Int → ℝ) :
    cellNorm (cells3 ni nj nk) (plap3 ni nj nk dx u) ≤ 12 / dx ^ 2 * cellNorm (cells3 ni nj nk) u := by
  have e : 12 / dx ^ 2 * cellNorm (cells3 ni nj nk) u = Real.sqrt ((12 / dx ^ 2) ^ 2 * ∑ c ∈ cells3 ni nj nk, u c ^ 2) := by
    rw [Real.sqrt_mul (sq_nonneg _), Real.sqrt_sq (by positivity)]; rfl
  rw [e]
  refine Real.sqrt_le_sqrt ?_
  rw [sum_cells3, sum_cells3]
  set U := pext3 ni nj nk u with hU
  obtain ⟨N, hN⟩ : ∃ N, N = sum3 ni nj nk fun i j k => U i j k ^ 2 := ⟨_, rfl⟩
  have eN : (sum3 ni nj nk fun i j k => u (i, j, k) ^ 2) = N := by
    rw [hN]
    exact sum3_congr fun i j k h1 h2 h3 => by rw [hU, pext3_in h1 h2 h3]
  have x1 : (sum3 ni nj nk fun i j k => U (i + 1) j k ^ 2) = N := by
    rw [hN, sum3_comm_x, sum3_comm_x]
    exact sum_congr rfl fun j _ => sum_congr rfl fun k _ => sum_wrap_add (by omega) fun i => u (i, j % nj, k % nk) ^ 2
  have x2 : (sum3 ni nj nk fun i j k => U (i - 1) j k ^ 2) = N := by
    rw [hN, sum3_comm_x, sum3_comm_x]
    exact sum_congr rfl fun j _ => sum_congr rfl fun k _ => sum_wrap_sub (by omega) fun i => u (i, j % nj, k % nk) ^ 2
  have y1 : (sum3 ni nj nk fun i j k => U i (j + 1) k ^ 2) = N := by
    rw [hN, sum3_comm_y, sum3_comm_y]
    exact sum_congr rfl fun i _ => sum_congr rfl fun k _ => sum_wrap_add (by omega) fun j => u (i % ni, j, k % nk) ^ 2
  have y2 : (sum3 ni nj nk fun i j k => U i (j - 1) k ^ 2) = N := by
    rw [hN, sum3_comm_y, sum3_comm_y]
    exact sum_congr rfl fun i _ => sum_congr rfl fun k _ => sum_wrap_sub (by omega) fun j => u (i % ni, j, k % nk) ^ 2
  have z1 : (sum3 ni nj nk fun i j k => U i j (k + 1) ^ 2) = N := by
    rw [hN]; unfold sum3
    exact sum_congr rfl fun i _ => sum_congr rfl fun j _ => sum_wrap_add (by omega) fun k => u (i % ni, j % nj, k) ^ 2
  have z2 : (sum3 ni nj nk fun i j k => U i j (k - 1) ^ 2) = N := by
    rw [hN]; unfold sum3
    exact sum_congr rfl fun i _ => sum_congr rfl fun j _ => sum_wrap_sub (by omega) fun k => u (i % ni, j % nj, k) ^ 2
  rw [eN]
  have pw : ∀ i j k, (plap3 ni nj nk dx u (i, j, k)) ^ 2 ≤ 12 / dx ^ 4 * (U (i + 1) j k ^ 2 + U (i - 1) j k ^ 2 +
      (U i (j + 1) k ^ 2 + U i (j - 1) k ^ 2) + (U i j (k + 1) ^ 2 + U i j (k - 1) ^ 2) + 6 * U i j k ^ 2) := by
    intro i j k
    have e : plap3 ni nj nk dx u (i, j, k) = (d2x U i j k + d2y U i j k + d2z U i j k) / dx ^ 2 := rfl
    rw [e, div_pow, div_mul_eq_mul_div, ← pow_mul]
    refine div_le_div_of_nonneg_right ?_ (by positivity)
    unfold d2x d2y d2z
    generalize U (i + 1) j k = a1
    generalize U (i - 1) j k = a2
    generalize U i (j + 1) k = a3
    generalize U i (j - 1) k = a4
    generalize U i j (k + 1) = a5
    generalize U i j (k - 1) = a6
    generalize U i j k = a0
    have c6 : (a1 + a2 + a3 + a4 + a5 + a6) ^ 2 ≤ 6 * (a1 ^ 2 + a2 ^ 2 + a3 ^ 2 + a4 ^ 2 + a5 ^ 2 + a6 ^ 2) := by
      have p3 : ∀ x y z : ℝ, (x + y + z) ^ 2 ≤ 3 * (x ^ 2 + y ^ 2 + z ^ 2) := fun x y z => by
        nlinarith [sq_nonneg (x - y), sq_nonneg (x - z), sq_nonneg (y - z)]
      have q1 := p3 (a1 + a2) (a3 + a4) (a5 + a6)
      have q2 := sq_add_le2 a1 a2
      have q3 := sq_add_le2 a3 a4
      have q4 := sq_add_le2 a5 a6
      have : a1 + a2 + a3 + a4 + a5 + a6 = (a1 + a2) + (a3 + a4) + (a5 + a6) := by ring
      rw [this]
      linarith
    have c7 := sq_add_le2 (a1 + a2 + a3 + a4 + a5 + a6) (-(6 * a0))
    have : a1 - 2 * a0 + a2 + (a3 - 2 * a0 + a4) + (a5 - 2 * a0 + a6) = (a1 + a2 + a3 + a4 + a5 + a6) + -(6 * a0) := by ring
    rw [this]
    nlinarith
  calc (sum3 ni nj nk fun i j k => (plap3 ni nj nk dx u (i, j, k)) ^ 2)
      ≤ sum3 ni nj nk fun i j k => 12 / dx ^ 4 * (U (i + 1) j k ^ 2 + U (i - 1) j k ^ 2 +
        (U i (j + 1) k ^ 2 + U i (j - 1) k ^ 2) + (U i j (k + 1) ^ 2 + U i j (k - 1) ^ 2) + 6 * U i j k ^ 2) :=
        sum_le_sum fun i _ => sum_le_sum fun j _ => sum_le_sum fun k _ => pw i j k
    _ = 12 / dx ^ 4 * (N + N + (N + N) + (N + N) + 6 * N) := by
        rw [sum3_mul, sum3_add, sum3_add, sum3_add, sum3_add, sum3_add, sum3_add, x1, x2, y1, y2, z1, z2, sum3_mul, ← hN]
    _ = (12 / dx ^ 2) ^ 2 * N := by field_simp; ring

omit hi hj hk in
/-- On interior cells the semi-discrete right-hand side is the abstract one. -/
theorem chField3_abs (p : CHParams ℝ) (dx t : ℝ) (u v : Int × Int × Int → ℝ) (huv : ∀ c, In3 ni nj nk c → u c = v c)
    (hi : 1 ≤ ni) (hj : 1 ≤ nj) (hk : 1 ≤ nk) (c : Int × Int × Int) (hc : In3 ni nj nk c) :
    chField3 p dx .periodic .periodic .periodic ni nj nk t u c =
      (plap3 ni nj nk dx (fun c => v c ^ 3 - v c) - p.eps2 • plap3 ni nj nk dx (plap3 ni nj nk dx v) -
        p.sigma • (v - fun _ => p.m) : Int × Int × Int → ℝ) c := by
  have e1 : pext3 ni nj nk u = pext3 ni nj nk v := by
    funext i j k
    exact huv _ ⟨⟨Int.emod_nonneg _ (by omega), Int.emod_lt_of_pos _ (by omega)⟩,
      ⟨Int.emod_nonneg _ (by omega), Int.emod_lt_of_pos _ (by omega)⟩, Int.emod_nonneg _ (by omega), Int.emod_lt_of_pos _ (by omega)⟩
  have e2 := lap3_ext_periodic dx (ni := ni) (nj := nj) (nk := nk) .periodic .periodic .periodic (by decide) (by decide) (by decide)
    fun i j k => v (i, j, k)
  have e3 : lap3 dx (pext3 ni nj nk v) = pext3 ni nj nk (plap3 ni nj nk dx v) := e2
  have e4 : chField3 p dx .periodic .periodic .periodic ni nj nk t u c = chRhs3 p dx (pext3 ni nj nk u) c.1 c.2.1 c.2.2 := rfl
  rw [e4, e1]
  unfold chRhs3 bih3
  rw [e3, pext3_in hc.1 hc.2.1 hc.2.2]
  simp only [Pi.sub_apply, Pi.smul_apply, smul_eq_mul]
  have e5 : (fun x y z => pext3 ni nj nk v x y z ^ 3 - pext3 ni nj nk v x y z) = pext3 ni nj nk fun c => v c ^ 3 - v c := rfl
  rw [e5]
  have e6 : ∀ w : Int × Int × Int → ℝ, lap3 dx (pext3 ni nj nk w) c.1 c.2.1 c.2.2 = plap3 ni nj nk dx w c := fun w => rfl
  rw [e6, e6]
  ring

end

/-! ### Two dimensions -/

section
variable (n : Int)

/-- Interior cells as a finite set. -/
noncomputable def cells2 : Finset (Int × Int) := Ico 0 n ×ˢ Ico 0 n

theorem mem_cells2 (c : Int × Int) : c ∈ cells2 n ↔ In2 n c := by
  simp only [cells2, mem_product, mem_Ico, In2]

theorem sum_cells2 (f : Int × Int → ℝ) : ∑ c ∈ cells2 n, f c = sum2 n n fun i j => f (i, j) := by
  simp only [cells2, sum_product, sum2]

theorem card_cells2 (hn : 0 ≤ n) : ((cells2 n).card : ℝ) = n * n := by
  have := sum_cells2 n fun _ => (1 : ℝ)
  rw [sum2_const n n hn hn] at this
  simp only [sum_const, nsmul_eq_mul, mul_one] at this
  rw [this]; push_cast; ring

/-- Periodic extension of a field. -/
def pext2 (u : Int × Int → ℝ) : Int → Int → ℝ := ext2 n fun i j => u (i, j)

/-- Periodic Laplacian of a field. -/
noncomputable def plap2 (dx : ℝ) : (Int × Int → ℝ) →ₗ[ℝ] (Int × Int → ℝ) where
  toFun u c := lap2 dx (pext2 n u) c.1 c.2
  map_add' u v := by
    funext c
    simp only [lap2, pext2, ext2, Pi.add_apply]; ring
  map_smul' r u := by
    funext c
    simp only [lap2, pext2, ext2, Pi.smul_apply, smul_eq_mul, RingHom.id_apply]; ring

variable {n} (hn : 1 ≤ n)

theorem pext2_in {u : Int × Int → ℝ} {i j : Int} (h1 : 0 ≤ i ∧ i < n) (h2 : 0 ≤ j ∧ j < n) : pext2 n u i j = u (i, j) := by
  simp only [pext2, ext2, wrapIdx]
  rw [Int.emod_eq_of_lt h1.1 h1.2, Int.emod_eq_of_lt h2.1 h2.2]

include hn

theorem plap2_sym (dx : ℝ) (u v : Int × Int → ℝ) :
    ∑ c ∈ cells2 n, plap2 n dx u c * v c = ∑ c ∈ cells2 n, u c * plap2 n dx v c := by
  rw [sum_cells2, sum_cells2]
  have h := lap2_symm dx hn (fun i j => u (i, j)) fun i j => v (i, j)
  refine Eq.trans (sum2_congr fun i j h1 h2 => ?_) (h.symm.trans (sum2_congr fun i j h1 h2 => ?_))
  · have := pext2_in (u := v) h1 h2
    unfold pext2 at this
    rw [this]; rfl
  · have := pext2_in (u := u) h1 h2
    unfold pext2 at this
    rw [this]; rfl

theorem plap2_bnd {dx : ℝ} (hdx : 0 < dx) (u : Int × Int → ℝ) :
    cellNorm (cells2 n) (plap2 n dx u) ≤ 8 / dx ^ 2 * cellNorm (cells2 n) u := by
  have e : 8 / dx ^ 2 * cellNorm (cells2 n) u = Real.sqrt ((8 / dx ^ 2) ^ 2 * ∑ c ∈ cells2 n, u c ^ 2) := by
    rw [Real.sqrt_mul (sq_nonneg _), Real.sqrt_sq (by positivity)]; rfl
  rw [e]
  refine Real.sqrt_le_sqrt ?_
  rw [sum_cells2, sum_cells2]
  set U := pext2 n u with hU
  obtain ⟨N, hN⟩ : ∃ N, N = sum2 n n fun i j => U i j ^ 2 := ⟨_, rfl⟩
  have eN : (sum2 n n fun i j => u (i, j) ^ 2) = N := by
    rw [hN]
    exact sum2_congr fun i j h1 h2 => by rw [hU, pext2_in h1 h2]
  have x1 : (sum2 n n fun i j => U (i + 1) j ^ 2) = N := by
    rw [hN, sum2_comm, sum2_comm]
    exact sum_congr rfl fun j _ => sum_wrap_add (by omega) fun i => u (i, j % n) ^ 2
  have x2 : (sum2 n n fun i j => U (i - 1) j ^ 2) = N := by
    rw [hN, sum2_comm, sum2_comm]
    exact sum_congr rfl fun j _ => sum_wrap_sub (by omega) fun i => u (i, j % n) ^ 2
  have y1 : (sum2 n n fun i j => U i (j + 1) ^ 2) = N := by
    rw [hN]; unfold sum2
    exact sum_congr rfl fun i _ => sum_wrap_add (by omega) fun j => u (i % n, j) ^ 2
  have y2 : (sum2 n n fun i j => U i (j - 1) ^ 2) = N := by
    rw [hN]; unfold sum2
    exact sum_congr rfl fun i _ => sum_wrap_sub (by omega) fun j => u (i % n, j) ^ 2
  rw [eN]
  have pw : ∀ i j, (plap2 n dx u (i, j)) ^ 2 ≤ 8 / dx ^ 4 * (U (i + 1) j ^ 2 + U (i - 1) j ^ 2 +
      (U i (j + 1) ^ 2 + U i (j - 1) ^ 2) + 4 * U i j ^ 2) := by
    intro i j
    have e : plap2 n dx u (i, j) = ((U (i + 1) j - 2 * U i j + U (i - 1) j) + (U i (j + 1) - 2 * U i j + U i (j - 1))) / dx ^ 2 := rfl
    rw [e, div_pow, div_mul_eq_mul_div, ← pow_mul]
    refine div_le_div_of_nonneg_right ?_ (by positivity)
    generalize U (i + 1) j = a1
    generalize U (i - 1) j = a2
    generalize U i (j + 1) = a3
    generalize U i (j - 1) = a4
    generalize U i j = a0
    have q1 := sq_add_le2 (a1 + a2) (a3 + a4)
    have q2 := sq_add_le2 a1 a2
    have q3 := sq_add_le2 a3 a4
    have c7 := sq_add_le2 ((a1 + a2) + (a3 + a4)) (-(4 * a0))
    have : a1 - 2 * a0 + a2 + (a3 - 2 * a0 + a4) = ((a1 + a2) + (a3 + a4)) + -(4 * a0) := by ring
    rw [this]
    nlinarith
  calc (sum2 n n fun i j => (plap2 n dx u (i, j)) ^ 2)
      ≤ sum2 n n fun i j => 8 / dx ^ 4 * (U (i + 1) j ^ 2 + U (i - 1) j ^ 2 +
        (U i (j + 1) ^ 2 + U i (j - 1) ^ 2) + 4 * U i j ^ 2) :=
        sum_le_sum fun i _ => sum_le_sum fun j _ => pw i j
    _ = 8 / dx ^ 4 * (N + N + (N + N) + 4 * N) := by
        rw [sum2_mul, sum2_add, sum2_add, sum2_add, sum2_add, x1, x2, y1, y2, sum2_mul, ← hN]
    _ = (8 / dx ^ 2) ^ 2 * N := by field_simp; ring

omit hn in
/-- On interior cells the semi-discrete right-hand side is the abstract one. -/
theorem chField2_abs (p : CHParams ℝ) (dx t : ℝ) (u v : Int × Int → ℝ) (huv : ∀ c, In2 n c → u c = v c)
    (hn : 1 ≤ n) (c : Int × Int) (hc : In2 n c) :
    chField2 p dx n t u c =
      (plap2 n dx (fun c => v c ^ 3 - v c) - p.eps2 • plap2 n dx (plap2 n dx v) - p.sigma • (v - fun _ => p.m) : Int × Int → ℝ) c := by
  have e1 : pext2 n u = pext2 n v := by
    funext i j
    exact huv _ ⟨⟨Int.emod_nonneg _ (by omega), Int.emod_lt_of_pos _ (by omega)⟩, Int.emod_nonneg _ (by omega), Int.emod_lt_of_pos _ (by omega)⟩
  have e3 : lap2 dx (pext2 n v) = pext2 n (plap2 n dx v) := lap2_ext_periodic dx (n := n) fun i j => v (i, j)
  have e4 : chField2 p dx n t u c = chRhs2 p dx (pext2 n u) c.1 c.2 := rfl
  rw [e4, e1]
  unfold chRhs2 bih2
  rw [e3, pext2_in hc.1 hc.2]
  simp only [Pi.sub_apply, Pi.smul_apply, smul_eq_mul]
  have e5 : (fun x y => pext2 n v x y ^ 3 - pext2 n v x y) = pext2 n fun c => v c ^ 3 - v c := rfl
  rw [e5]
  have e6 : ∀ w : Int × Int → ℝ, lap2 dx (pext2 n w) c.1 c.2 = plap2 n dx w c := fun w => rfl
  rw [e6, e6]
  ring

end
end Madg
