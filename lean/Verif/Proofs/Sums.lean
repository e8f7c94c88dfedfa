/-
Summation by parts on extended fields.
-/
import Verif.Spec.Sums
import Verif.Proofs.CH3
import Verif.Proofs.CH2
import Mathlib.Algebra.BigOperators.Ring.Finset
import Mathlib.Algebra.BigOperators.Field
import Mathlib.Tactic.LinearCombination

set_option linter.unusedSectionVars false
set_option linter.unusedVariables false

namespace Madg
open Spec Finset
variable {K : Type} [Field K]

theorem Ico_succ_int (N : Nat) : Ico (0 : Int) ((N : Int) + 1) = insert (N : Int) (Ico (0 : Int) N) := by
  ext x; simp only [mem_Ico, mem_insert]; omega

theorem sum_tele {n : Int} (hn : 0 ≤ n) (F : Int → K) : ∑ i ∈ Ico 0 n, (F (i + 1) - F i) = F n - F 0 := by
  obtain ⟨N, rfl⟩ := Int.eq_ofNat_of_zero_le hn
  clear hn
  induction N with
  | zero => simp
  | succ N ih =>
    push_cast at *
    rw [Ico_succ_int, sum_insert (by simp), ih]; ring

/-- Boundary condition under which summation by parts has no boundary terms. -/
def Flux0 (n : Int) (v u : Int → K) : Prop := v n * (u n - u (n - 1)) = v 0 * (u 0 - u (-1))

theorem green1 {n : Int} (hn : 0 ≤ n) {v u : Int → K} (h : Flux0 n v u) :
    ∑ i ∈ Ico 0 n, v i * (u (i + 1) - 2 * u i + u (i - 1)) =
      -∑ i ∈ Ico 0 n, (v (i + 1) - v i) * (u (i + 1) - u i) := by
  have ht := sum_tele hn fun i => v i * (u i - u (i - 1))
  unfold Flux0 at h
  simp only [zero_sub] at ht
  rw [h, sub_self] at ht
  rw [eq_neg_iff_add_eq_zero, ← sum_add_distrib, ← ht]
  refine sum_congr rfl fun i _ => ?_
  have : i + 1 - 1 = i := by omega
  rw [this]; ring

theorem extIdx_edge (bc : BCType) {n : Int} (hn : 1 ≤ n) (w w' : Int → K) :
    Flux0 n (fun i => w (extIdx bc n i)) (fun i => w' (extIdx bc n i)) := by
  have hper : Flux0 n (fun i => w (wrapIdx n i)) (fun i => w' (wrapIdx n i)) := by
    unfold Flux0 wrapIdx
    have h1 : n % n = 0 % n := by simp
    have h2 : (n - 1) % n = (-1) % n := by
      have := Int.add_emod_left n (-1); rw [← sub_eq_add_neg] at this; exact this
    simp only [h1, h2]
  cases bc
  · exact hper
  · unfold Flux0 extIdx clampIdx
    have h1 : max 0 (min n (n - 1)) = n - 1 := by omega
    have h2 : max 0 (min (n - 1) (n - 1)) = n - 1 := by omega
    have h3 : max 0 (min 0 (n - 1)) = 0 := by omega
    have h4 : max 0 (min (-1) (n - 1)) = 0 := by omega
    simp only [h1, h2, h3, h4, sub_self, mul_zero]
  · exact hper

theorem sum3_add (ni nj nk : Int) (f g : Int → Int → Int → K) :
    sum3 ni nj nk (fun i j k => f i j k + g i j k) = sum3 ni nj nk f + sum3 ni nj nk g := by
  simp only [sum3, sum_add_distrib]

theorem sum3_sub (ni nj nk : Int) (f g : Int → Int → Int → K) :
    sum3 ni nj nk (fun i j k => f i j k - g i j k) = sum3 ni nj nk f - sum3 ni nj nk g := by
  simp only [sum3, sum_sub_distrib]

theorem sum3_mul (ni nj nk : Int) (a : K) (f : Int → Int → Int → K) :
    sum3 ni nj nk (fun i j k => a * f i j k) = a * sum3 ni nj nk f := by
  simp only [sum3, mul_sum]

theorem sum3_div (ni nj nk : Int) (a : K) (f : Int → Int → Int → K) :
    sum3 ni nj nk (fun i j k => f i j k / a) = sum3 ni nj nk f / a := by
  simp only [sum3, sum_div]

theorem sum3_neg (ni nj nk : Int) (f : Int → Int → Int → K) :
    sum3 ni nj nk (fun i j k => -f i j k) = -sum3 ni nj nk f := by
  simp only [sum3, sum_neg_distrib]

theorem sum3_congr {ni nj nk : Int} {f g : Int → Int → Int → K}
    (h : ∀ i j k, (0 ≤ i ∧ i < ni) → (0 ≤ j ∧ j < nj) → (0 ≤ k ∧ k < nk) → f i j k = g i j k) :
    sum3 ni nj nk f = sum3 ni nj nk g := by
  unfold sum3
  refine sum_congr rfl fun i hi => sum_congr rfl fun j hj => sum_congr rfl fun k hk => ?_
  exact h i j k (by simpa using hi) (by simpa using hj) (by simpa using hk)

theorem sum3_const (ni nj nk : Int) (hi : 0 ≤ ni) (hj : 0 ≤ nj) (hk : 0 ≤ nk) (a : K) :
    sum3 ni nj nk (fun _ _ _ => a) = ((ni * nj * nk : Int) : K) * a := by
  simp only [sum3, sum_const, Int.card_Ico, sub_zero, nsmul_eq_mul]
  have h : ∀ n : Int, 0 ≤ n → ((n.toNat : Nat) : K) = (n : K) := by
    intro n hn
    rw [← Int.cast_natCast, Int.toNat_of_nonneg hn]
  rw [h _ hi, h _ hj, h _ hk]
  push_cast; ring

theorem sum3_comm_x (ni nj nk : Int) (f : Int → Int → Int → K) :
    sum3 ni nj nk f = ∑ j ∈ Ico 0 nj, ∑ k ∈ Ico 0 nk, ∑ i ∈ Ico 0 ni, f i j k := by
  unfold sum3
  rw [sum_comm]
  refine sum_congr rfl fun j _ => ?_
  rw [sum_comm]

theorem sum3_comm_y (ni nj nk : Int) (f : Int → Int → Int → K) :
    sum3 ni nj nk f = ∑ i ∈ Ico 0 ni, ∑ k ∈ Ico 0 nk, ∑ j ∈ Ico 0 nj, f i j k := by
  unfold sum3
  refine sum_congr rfl fun j _ => ?_
  rw [sum_comm]

/-- Green's identity for extended fields, any mix of boundary conditions. -/
theorem green3 (dx : K) {ni nj nk : Int} (hi : 1 ≤ ni) (hj : 1 ≤ nj) (hk : 1 ≤ nk) (bx bY bz : BCType)
    (v u : Int → Int → Int → K) :
    sum3 ni nj nk (fun i j k => ext3 bx bY bz ni nj nk v i j k * lap3 dx (ext3 bx bY bz ni nj nk u) i j k) =
      -(grad3 ni nj nk (ext3 bx bY bz ni nj nk v) (ext3 bx bY bz ni nj nk u) / dx ^ 2) := by
  set V := ext3 bx bY bz ni nj nk v with hV
  set U := ext3 bx bY bz ni nj nk u with hU
  have hx : sum3 ni nj nk (fun i j k => V i j k * d2x U i j k) =
      -sum3 ni nj nk (fun i j k => (V (i + 1) j k - V i j k) * (U (i + 1) j k - U i j k)) := by
    rw [sum3_comm_x, sum3_comm_x, ← sum_neg_distrib]
    refine sum_congr rfl fun j _ => ?_
    rw [← sum_neg_distrib]
    refine sum_congr rfl fun k _ => ?_
    exact green1 (v := fun i => V i j k) (u := fun i => U i j k) (by omega) (extIdx_edge bx hi
      (fun i => v i (extIdx bY nj j) (extIdx bz nk k)) (fun i => u i (extIdx bY nj j) (extIdx bz nk k)))
  have hy : sum3 ni nj nk (fun i j k => V i j k * d2y U i j k) =
      -sum3 ni nj nk (fun i j k => (V i (j + 1) k - V i j k) * (U i (j + 1) k - U i j k)) := by
    rw [sum3_comm_y, sum3_comm_y, ← sum_neg_distrib]
    refine sum_congr rfl fun i _ => ?_
    rw [← sum_neg_distrib]
    refine sum_congr rfl fun k _ => ?_
    exact green1 (v := fun j => V i j k) (u := fun j => U i j k) (by omega) (extIdx_edge bY hj
      (fun j => v (extIdx bx ni i) j (extIdx bz nk k)) (fun j => u (extIdx bx ni i) j (extIdx bz nk k)))
  have hz : sum3 ni nj nk (fun i j k => V i j k * d2z U i j k) =
      -sum3 ni nj nk (fun i j k => (V i j (k + 1) - V i j k) * (U i j (k + 1) - U i j k)) := by
    unfold sum3
    rw [← sum_neg_distrib]
    refine sum_congr rfl fun i _ => ?_
    rw [← sum_neg_distrib]
    refine sum_congr rfl fun j _ => ?_
    exact green1 (v := fun k => V i j k) (u := fun k => U i j k) (by omega) (extIdx_edge bz hk
      (fun k => v (extIdx bx ni i) (extIdx bY nj j) k) (fun k => u (extIdx bx ni i) (extIdx bY nj j) k))
  have e : (fun i j k => V i j k * lap3 dx U i j k) = fun i j k =>
      ((V i j k * d2x U i j k + V i j k * d2y U i j k) + V i j k * d2z U i j k) / dx ^ 2 := by
    funext i j k; unfold lap3; ring
  rw [e, sum3_div, sum3_add, sum3_add, hx, hy, hz]
  unfold grad3
  rw [sum3_add, sum3_add]
  ring

theorem grad3_comm (ni nj nk : Int) (v u : Int → Int → Int → K) : grad3 ni nj nk v u = grad3 ni nj nk u v := by
  unfold grad3; congr 1; funext i j k; ring

theorem lap3_sum_zero (dx : K) {ni nj nk : Int} (hi : 1 ≤ ni) (hj : 1 ≤ nj) (hk : 1 ≤ nk) (bx bY bz : BCType)
    (u : Int → Int → Int → K) : sum3 ni nj nk (lap3 dx (ext3 bx bY bz ni nj nk u)) = 0 := by
  have := green3 dx hi hj hk bx bY bz (fun _ _ _ => 1) u
  simp only [ext3, one_mul, grad3, sub_self, zero_mul, add_zero] at this
  have h0 : sum3 ni nj nk (fun _ _ _ => (0 : K)) = 0 := by simp [sum3]
  rw [h0] at this
  simpa using this

theorem lap3_symm (dx : K) {ni nj nk : Int} (hi : 1 ≤ ni) (hj : 1 ≤ nj) (hk : 1 ≤ nk) (bx bY bz : BCType)
    (v u : Int → Int → Int → K) :
    sum3 ni nj nk (fun i j k => ext3 bx bY bz ni nj nk v i j k * lap3 dx (ext3 bx bY bz ni nj nk u) i j k) =
    sum3 ni nj nk (fun i j k => lap3 dx (ext3 bx bY bz ni nj nk v) i j k * ext3 bx bY bz ni nj nk u i j k) := by
  rw [green3 dx hi hj hk, grad3_comm, ← green3 dx hi hj hk]
  congr 1; funext i j k; ring

/-- On a periodic axis, the pointwise Laplacian of a periodic extension is again a periodic extension. -/
theorem lap3_ext_periodic (dx : K) {ni nj nk : Int} (bx bY bz : BCType)
    (hx : bx ≠ .neumann) (hy : bY ≠ .neumann) (hz : bz ≠ .neumann) (u : Int → Int → Int → K) :
    lap3 dx (ext3 bx bY bz ni nj nk u) = ext3 bx bY bz ni nj nk (lap3 dx (ext3 bx bY bz ni nj nk u)) := by
  have hw : ∀ (b : BCType), b ≠ .neumann → ∀ n i, extIdx b n i = i % n := by
    intro b hb n i; cases b
    · rfl
    · exact absurd rfl hb
    · rfl
  funext i j k
  simp only [lap3, d2x, d2y, d2z, ext3, hw bx hx, hw bY hy, hw bz hz, Int.emod_emod_of_dvd,
    dvd_refl, Int.emod_add_emod, Int.emod_sub_emod]

theorem bih3_green (dx : K) {ni nj nk : Int} (hi : 1 ≤ ni) (hj : 1 ≤ nj) (hk : 1 ≤ nk) (bx bY bz : BCType)
    (hx : bx ≠ .neumann) (hy : bY ≠ .neumann) (hz : bz ≠ .neumann) (v u : Int → Int → Int → K) :
    sum3 ni nj nk (fun i j k => ext3 bx bY bz ni nj nk v i j k * bih3 dx (ext3 bx bY bz ni nj nk u) i j k) =
    sum3 ni nj nk (fun i j k => lap3 dx (ext3 bx bY bz ni nj nk v) i j k *
      lap3 dx (ext3 bx bY bz ni nj nk u) i j k) := by
  unfold bih3
  have e := lap3_ext_periodic dx (ni := ni) (nj := nj) (nk := nk) bx bY bz hx hy hz u
  have h := lap3_symm dx hi hj hk bx bY bz v (lap3 dx (ext3 bx bY bz ni nj nk u))
  rw [← e] at h
  exact h

theorem bih3_sum_zero (dx : K) {ni nj nk : Int} (hi : 1 ≤ ni) (hj : 1 ≤ nj) (hk : 1 ≤ nk) (bx bY bz : BCType)
    (hx : bx ≠ .neumann) (hy : bY ≠ .neumann) (hz : bz ≠ .neumann) (u : Int → Int → Int → K) :
    sum3 ni nj nk (bih3 dx (ext3 bx bY bz ni nj nk u)) = 0 := by
  unfold bih3
  rw [lap3_ext_periodic dx (ni := ni) (nj := nj) (nk := nk) bx bY bz hx hy hz u]
  exact lap3_sum_zero dx hi hj hk bx bY bz _

/-! ### Two dimensions -/

theorem sum2_add (ni nj : Int) (f g : Int → Int → K) :
    sum2 ni nj (fun i j => f i j + g i j) = sum2 ni nj f + sum2 ni nj g := by
  simp only [sum2, sum_add_distrib]

theorem sum2_sub (ni nj : Int) (f g : Int → Int → K) :
    sum2 ni nj (fun i j => f i j - g i j) = sum2 ni nj f - sum2 ni nj g := by
  simp only [sum2, sum_sub_distrib]

theorem sum2_mul (ni nj : Int) (a : K) (f : Int → Int → K) :
    sum2 ni nj (fun i j => a * f i j) = a * sum2 ni nj f := by
  simp only [sum2, mul_sum]

theorem sum2_div (ni nj : Int) (a : K) (f : Int → Int → K) :
    sum2 ni nj (fun i j => f i j / a) = sum2 ni nj f / a := by
  simp only [sum2, sum_div]

theorem sum2_congr {ni nj : Int} {f g : Int → Int → K}
    (h : ∀ i j, (0 ≤ i ∧ i < ni) → (0 ≤ j ∧ j < nj) → f i j = g i j) : sum2 ni nj f = sum2 ni nj g := by
  unfold sum2
  refine sum_congr rfl fun i hi => sum_congr rfl fun j hj => ?_
  exact h i j (by simpa using hi) (by simpa using hj)

theorem sum2_const (ni nj : Int) (hi : 0 ≤ ni) (hj : 0 ≤ nj) (a : K) :
    sum2 ni nj (fun _ _ => a) = ((ni * nj : Int) : K) * a := by
  simp only [sum2, sum_const, Int.card_Ico, sub_zero, nsmul_eq_mul]
  have h : ∀ n : Int, 0 ≤ n → ((n.toNat : Nat) : K) = (n : K) := by
    intro n hn
    rw [← Int.cast_natCast, Int.toNat_of_nonneg hn]
  rw [h _ hi, h _ hj]
  push_cast; ring

theorem sum2_comm (ni nj : Int) (f : Int → Int → K) :
    sum2 ni nj f = ∑ j ∈ Ico 0 nj, ∑ i ∈ Ico 0 ni, f i j := by
  unfold sum2
  rw [sum_comm]

theorem green2 (dx : K) {n : Int} (hn : 1 ≤ n) (v u : Int → Int → K) :
    sum2 n n (fun i j => ext2 n v i j * lap2 dx (ext2 n u) i j) =
      -(grad2 n n (ext2 n v) (ext2 n u) / dx ^ 2) := by
  set V := ext2 n v with hV
  set U := ext2 n u with hU
  have hx : sum2 n n (fun i j => V i j * (U (i + 1) j - 2 * U i j + U (i - 1) j)) =
      -sum2 n n (fun i j => (V (i + 1) j - V i j) * (U (i + 1) j - U i j)) := by
    rw [sum2_comm, sum2_comm, ← sum_neg_distrib]
    refine sum_congr rfl fun j _ => ?_
    exact green1 (v := fun i => V i j) (u := fun i => U i j) (by omega) (extIdx_edge .periodic hn
      (fun i => v i (wrapIdx n j)) (fun i => u i (wrapIdx n j)))
  have hy : sum2 n n (fun i j => V i j * (U i (j + 1) - 2 * U i j + U i (j - 1))) =
      -sum2 n n (fun i j => (V i (j + 1) - V i j) * (U i (j + 1) - U i j)) := by
    unfold sum2
    rw [← sum_neg_distrib]
    refine sum_congr rfl fun i _ => ?_
    exact green1 (v := fun j => V i j) (u := fun j => U i j) (by omega) (extIdx_edge .periodic hn
      (fun j => v (wrapIdx n i) j) (fun j => u (wrapIdx n i) j))
  have e : (fun i j => V i j * lap2 dx U i j) = fun i j =>
      (V i j * (U (i + 1) j - 2 * U i j + U (i - 1) j) + V i j * (U i (j + 1) - 2 * U i j + U i (j - 1))) /
        dx ^ 2 := by
    funext i j; unfold lap2; ring
  rw [e, sum2_div, sum2_add, hx, hy]
  unfold grad2
  rw [sum2_add]
  ring

theorem grad2_comm (ni nj : Int) (v u : Int → Int → K) : grad2 ni nj v u = grad2 ni nj u v := by
  unfold grad2; congr 1; funext i j; ring

theorem lap2_sum_zero (dx : K) {n : Int} (hn : 1 ≤ n) (u : Int → Int → K) :
    sum2 n n (lap2 dx (ext2 n u)) = 0 := by
  have := green2 dx hn (fun _ _ => 1) u
  simp only [ext2, one_mul, grad2, sub_self, zero_mul, add_zero] at this
  have h0 : sum2 n n (fun _ _ => (0 : K)) = 0 := by simp [sum2]
  rw [h0] at this
  simpa using this

theorem lap2_symm (dx : K) {n : Int} (hn : 1 ≤ n) (v u : Int → Int → K) :
    sum2 n n (fun i j => ext2 n v i j * lap2 dx (ext2 n u) i j) =
    sum2 n n (fun i j => lap2 dx (ext2 n v) i j * ext2 n u i j) := by
  rw [green2 dx hn, grad2_comm, ← green2 dx hn]
  congr 1; funext i j; ring

theorem lap2_ext_periodic (dx : K) {n : Int} (u : Int → Int → K) :
    lap2 dx (ext2 n u) = ext2 n (lap2 dx (ext2 n u)) := by
  funext i j
  simp only [lap2, ext2, wrapIdx, Int.emod_emod_of_dvd,
    dvd_refl, Int.emod_add_emod, Int.emod_sub_emod]

theorem bih2_green (dx : K) {n : Int} (hn : 1 ≤ n) (v u : Int → Int → K) :
    sum2 n n (fun i j => ext2 n v i j * bih2 dx (ext2 n u) i j) =
    sum2 n n (fun i j => lap2 dx (ext2 n v) i j * lap2 dx (ext2 n u) i j) := by
  unfold bih2
  have e := lap2_ext_periodic dx (n := n) u
  have h := lap2_symm dx hn v (lap2 dx (ext2 n u))
  rw [← e] at h
  exact h

theorem bih2_sum_zero (dx : K) {n : Int} (hn : 1 ≤ n) (u : Int → Int → K) :
    sum2 n n (bih2 dx (ext2 n u)) = 0 := by
  unfold bih2
  rw [lap2_ext_periodic dx (n := n) u]
  exact lap2_sum_zero dx hn _

/-! ### Right-hand side balances -/

theorem chRhs3_sum (p : CHParams K) (dx : K) {ni nj nk : Int} (hi : 1 ≤ ni) (hj : 1 ≤ nj) (hk : 1 ≤ nk)
    (bx bY bz : BCType) (u : Int → Int → Int → K) :
    sum3 ni nj nk (chRhs3 p dx (ext3 bx bY bz ni nj nk u)) =
      -p.eps2 * sum3 ni nj nk (bih3 dx (ext3 bx bY bz ni nj nk u)) -
        p.sigma * sum3 ni nj nk (fun i j k => ext3 bx bY bz ni nj nk u i j k - p.m) := by
  have e : chRhs3 p dx (ext3 bx bY bz ni nj nk u) = fun i j k =>
      (-p.eps2 * bih3 dx (ext3 bx bY bz ni nj nk u) i j k +
        lap3 dx (ext3 bx bY bz ni nj nk fun x y z => u x y z ^ 3 - u x y z) i j k) -
      p.sigma * (ext3 bx bY bz ni nj nk u i j k - p.m) := rfl
  rw [e, sum3_sub, sum3_add, sum3_mul, sum3_mul]
  have h0 := lap3_sum_zero dx hi hj hk bx bY bz (fun x y z => u x y z ^ 3 - u x y z)
  rw [show sum3 ni nj nk (fun i j k =>
    lap3 dx (ext3 bx bY bz ni nj nk fun x y z => u x y z ^ 3 - u x y z) i j k) = 0 from h0]
  rw [add_zero]

theorem chRhs2_sum (p : CHParams K) (dx : K) {n : Int} (hn : 1 ≤ n) (u : Int → Int → K) :
    sum2 n n (chRhs2 p dx (ext2 n u)) = -p.sigma * sum2 n n (fun i j => ext2 n u i j - p.m) := by
  have e : chRhs2 p dx (ext2 n u) = fun i j =>
      (-p.eps2 * bih2 dx (ext2 n u) i j + lap2 dx (ext2 n fun x y => u x y ^ 3 - u x y) i j) -
      p.sigma * (ext2 n u i j - p.m) := rfl
  rw [e, sum2_sub, sum2_add, sum2_mul, sum2_mul]
  have h0 := lap2_sum_zero dx hn (fun x y => u x y ^ 3 - u x y)
  have h1 := bih2_sum_zero dx hn u
  rw [show sum2 n n (fun i j => lap2 dx (ext2 n fun x y => u x y ^ 3 - u x y) i j) = 0 from h0,
    show sum2 n n (fun i j => bih2 dx (ext2 n u) i j) = 0 from h1]
  rw [mul_zero, zero_add, zero_sub, neg_mul]

/-! ### Biharmonic drift with Neumann axes -/

theorem sum_d2 {n : Int} (hn : 0 ≤ n) (L : Int → K) :
    ∑ i ∈ Ico 0 n, (L (i + 1) - 2 * L i + L (i - 1)) = (L n - L (n - 1)) - (L 0 - L (-1)) := by
  rw [← zero_sub, ← sum_tele hn fun i => L i - L (i - 1)]
  refine sum_congr rfl fun i _ => ?_
  have : i + 1 - 1 = i := by omega
  rw [this]; ring

/-- Drift contributed by one axis to the sum of the biharmonic, in units of `dx⁻⁴`. -/
def axisDrift (b : BCType) (n : Int) (u : Int → K) : K :=
  if b = .neumann then (u (n - 1) - u (n - 2)) - (u 1 - u 0) else 0

theorem ext_clamp_facts {n : Int} (hn : 1 ≤ n) :
    extIdx .neumann n n = extIdx .neumann n (n - 1) ∧ extIdx .neumann n (n + 1) = extIdx .neumann n (n - 1) ∧
    extIdx .neumann n (-1) = extIdx .neumann n 0 ∧ extIdx .neumann n (-2) = extIdx .neumann n 0 := by
  simp only [extIdx, clampIdx]; omega

theorem ext_wrap_facts {b : BCType} (hb : b ≠ .neumann) {n : Int} :
    extIdx b n n = extIdx b n 0 ∧ (∀ x, extIdx b n (n + x) = extIdx b n x) := by
  have hw : ∀ i, extIdx b n i = i % n := by
    intro i; cases b
    · rfl
    · exact absurd rfl hb
    · rfl
  simp only [hw]
  exact ⟨by simp, fun x => Int.add_emod_left n x⟩

theorem axis_flux (b : BCType) {n : Int} (hn : 1 ≤ n) (w : Int → K) (r : Int → K) (dx : K) (L : Int → K)
    (hL : ∀ i, L i = ((w (extIdx b n (i + 1)) - 2 * w (extIdx b n i) + w (extIdx b n (i - 1))) +
      r (extIdx b n i)) / dx ^ 2) :
    (L n - L (n - 1)) - (L 0 - L (-1)) = axisDrift b n (fun i => w (extIdx b n i)) / dx ^ 2 := by
  unfold axisDrift
  by_cases hb : b = .neumann
  · subst hb
    obtain ⟨h1, h2, h3, h4⟩ := ext_clamp_facts hn
    rw [if_pos rfl, hL, hL, hL, hL]
    have e1 : n - 1 + 1 = n := by omega
    have e2 : n - 1 - 1 = n - 2 := by omega
    have e3 : (-1 : Int) + 1 = 0 := by omega
    have e4 : (-1 : Int) - 1 = -2 := by omega
    have e5 : (0 : Int) - 1 = -1 := by omega
    have e6 : (0 : Int) + 1 = 1 := by omega
    rw [e1, e2, e3, e4, e5, e6, h1, h2, h3, h4]
    ring
  · obtain ⟨h1, h2⟩ := ext_wrap_facts hb (n := n)
    rw [if_neg hb, hL, hL, hL, hL]
    have e1 : n - 1 + 1 = n := by omega
    have e2 : n - 1 - 1 = n + -2 := by omega
    have e2' : n - 1 = n + -1 := by omega
    have e3 : (-1 : Int) + 1 = 0 := by omega
    have e4 : (-1 : Int) - 1 = -2 := by omega
    have e5 : (0 : Int) - 1 = -1 := by omega
    have e6 : (0 : Int) + 1 = 1 := by omega
    rw [e1, e2, e2', e3, e4, e5, e6, h2, h2, h2, h1]
    ring

/-- Sum of the biharmonic over the interior for any mix of boundary conditions. -/
theorem bih3_sum (dx : K) {ni nj nk : Int} (hi : 1 ≤ ni) (hj : 1 ≤ nj) (hk : 1 ≤ nk) (bx bY bz : BCType)
    (u : Int → Int → Int → K) :
    sum3 ni nj nk (bih3 dx (ext3 bx bY bz ni nj nk u)) =
      ((∑ j ∈ Ico 0 nj, ∑ k ∈ Ico 0 nk, axisDrift bx ni fun i => ext3 bx bY bz ni nj nk u i j k) +
       (∑ i ∈ Ico 0 ni, ∑ k ∈ Ico 0 nk, axisDrift bY nj fun j => ext3 bx bY bz ni nj nk u i j k) +
       (∑ i ∈ Ico 0 ni, ∑ j ∈ Ico 0 nj, axisDrift bz nk fun k => ext3 bx bY bz ni nj nk u i j k)) / dx ^ 4 := by
  set U := ext3 bx bY bz ni nj nk u with hU
  set L := lap3 dx U with hL
  have e : bih3 dx U = fun i j k => ((d2x L i j k + d2y L i j k) + d2z L i j k) / dx ^ 2 := by
    funext i j k; unfold bih3; rw [← hL]; rfl
  rw [e, sum3_div, sum3_add, sum3_add]
  have hx : sum3 ni nj nk (fun i j k => d2x L i j k) =
      (∑ j ∈ Ico 0 nj, ∑ k ∈ Ico 0 nk, axisDrift bx ni fun i => U i j k) / dx ^ 2 := by
    rw [sum3_comm_x, sum_div]
    refine sum_congr rfl fun j _ => ?_
    rw [sum_div]
    refine sum_congr rfl fun k _ => ?_
    have := sum_d2 (n := ni) (by omega) fun i => L i j k
    simp only [d2x]
    rw [this]
    refine axis_flux bx hi (fun i => u i (extIdx bY nj j) (extIdx bz nk k))
      (fun i => (u i (extIdx bY nj (j + 1)) (extIdx bz nk k) - 2 * u i (extIdx bY nj j) (extIdx bz nk k) +
          u i (extIdx bY nj (j - 1)) (extIdx bz nk k)) +
        (u i (extIdx bY nj j) (extIdx bz nk (k + 1)) - 2 * u i (extIdx bY nj j) (extIdx bz nk k) +
          u i (extIdx bY nj j) (extIdx bz nk (k - 1)))) dx (fun i => L i j k) ?_
    intro i
    simp only [hL, lap3, d2x, d2y, d2z, hU, ext3]; ring
  have hy : sum3 ni nj nk (fun i j k => d2y L i j k) =
      (∑ i ∈ Ico 0 ni, ∑ k ∈ Ico 0 nk, axisDrift bY nj fun j => U i j k) / dx ^ 2 := by
    rw [sum3_comm_y, sum_div]
    refine sum_congr rfl fun i _ => ?_
    rw [sum_div]
    refine sum_congr rfl fun k _ => ?_
    have := sum_d2 (n := nj) (by omega) fun j => L i j k
    simp only [d2y]
    rw [this]
    refine axis_flux bY hj (fun j => u (extIdx bx ni i) j (extIdx bz nk k))
      (fun j => (u (extIdx bx ni (i + 1)) j (extIdx bz nk k) - 2 * u (extIdx bx ni i) j (extIdx bz nk k) +
          u (extIdx bx ni (i - 1)) j (extIdx bz nk k)) +
        (u (extIdx bx ni i) j (extIdx bz nk (k + 1)) - 2 * u (extIdx bx ni i) j (extIdx bz nk k) +
          u (extIdx bx ni i) j (extIdx bz nk (k - 1)))) dx (fun j => L i j k) ?_
    intro j
    simp only [hL, lap3, d2x, d2y, d2z, hU, ext3]; ring
  have hz : sum3 ni nj nk (fun i j k => d2z L i j k) =
      (∑ i ∈ Ico 0 ni, ∑ j ∈ Ico 0 nj, axisDrift bz nk fun k => U i j k) / dx ^ 2 := by
    unfold sum3
    rw [sum_div]
    refine sum_congr rfl fun i _ => ?_
    rw [sum_div]
    refine sum_congr rfl fun j _ => ?_
    have := sum_d2 (n := nk) (by omega) fun k => L i j k
    simp only [d2z]
    rw [this]
    refine axis_flux bz hk (fun k => u (extIdx bx ni i) (extIdx bY nj j) k)
      (fun k => (u (extIdx bx ni (i + 1)) (extIdx bY nj j) k - 2 * u (extIdx bx ni i) (extIdx bY nj j) k +
          u (extIdx bx ni (i - 1)) (extIdx bY nj j) k) +
        (u (extIdx bx ni i) (extIdx bY nj (j + 1)) k - 2 * u (extIdx bx ni i) (extIdx bY nj j) k +
          u (extIdx bx ni i) (extIdx bY nj (j - 1)) k)) dx (fun k => L i j k) ?_
    intro k
    simp only [hL, lap3, d2x, d2y, d2z, hU, ext3]; ring
  rw [hx, hy, hz]
  ring

theorem ext3_of_int {bx bY bz : BCType} {ni nj nk : Int} (u : Int → Int → Int → K) {i j k : Int}
    (hi : 0 ≤ i ∧ i < ni) (hj : 0 ≤ j ∧ j < nj) (hk : 0 ≤ k ∧ k < nk) :
    ext3 bx bY bz ni nj nk u i j k = u i j k := by
  unfold ext3
  rw [extIdx_of_int hi.1 hi.2, extIdx_of_int hj.1 hj.2, extIdx_of_int hk.1 hk.2]

theorem ext2_of_int {n : Int} (u : Int → Int → K) {i j : Int} (hi : 0 ≤ i ∧ i < n) (hj : 0 ≤ j ∧ j < n) :
    ext2 n u i j = u i j := by
  unfold ext2
  rw [wrapIdx_of_int hi.1 hi.2, wrapIdx_of_int hj.1 hj.2]

end Madg
