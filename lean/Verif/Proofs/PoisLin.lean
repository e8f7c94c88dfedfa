/-
The discrete Laplacian, periodic in x and y and with homogeneous Dirichlet values in z.
-/
import Verif.Proofs.TransferSum
import Verif.Spec.PoisFAS
import Verif.Spec.Semi
import Verif.Proofs.VCycle
import Mathlib.LinearAlgebra.FiniteDimensional.Basic
import Mathlib.LinearAlgebra.FiniteDimensional.Lemmas
import Mathlib.Algebra.Order.BigOperators.Ring.Finset
import Mathlib.Algebra.Order.BigOperators.Group.Finset

set_option linter.unusedSectionVars false
set_option linter.unusedVariables false

namespace Madg
open Spec Finset

section
variable {K : Type} [Field K]

/-- Fields on all integer triples; only the interior values matter. -/
abbrev Fld (K : Type) := Int × Int × Int → K

/-- Zero continuation in z, periodic in x and y. -/
def ext0 (ni nj nk : Int) (v : Fld K) : Int → Int → Int → K :=
  extDirichlet ni nj nk (fun _ _ _ => 0) fun i j k => v (i, j, k)

theorem ext0_int {ni nj nk : Int} (v : Fld K) {i j k : Int} (hi : 0 ≤ i ∧ i < ni) (hj : 0 ≤ j ∧ j < nj) (hk : 0 ≤ k ∧ k < nk) :
    ext0 ni nj nk v i j k = v (i, j, k) := by
  unfold ext0 extDirichlet
  rw [if_pos hk, wrapIdx_of_int hi.1 hi.2, wrapIdx_of_int hj.1 hj.2]

theorem ext0_out {ni nj nk : Int} (v : Fld K) {i j k : Int} (hk : ¬ (0 ≤ k ∧ k < nk)) : ext0 ni nj nk v i j k = 0 := by
  unfold ext0 extDirichlet; rw [if_neg hk]

theorem ext0_add (ni nj nk : Int) (u v : Fld K) (i j k : Int) :
    ext0 ni nj nk (u + v) i j k = ext0 ni nj nk u i j k + ext0 ni nj nk v i j k := by
  unfold ext0 extDirichlet; split <;> simp

theorem ext0_smul (ni nj nk : Int) (a : K) (v : Fld K) (i j k : Int) :
    ext0 ni nj nk (a • v) i j k = a * ext0 ni nj nk v i j k := by
  unfold ext0 extDirichlet; split <;> simp

/-- The interior product. -/
def ipL (ni nj nk : Int) : Fld K →ₗ[K] Fld K →ₗ[K] K :=
  LinearMap.mk₂ K (fun u v => sum3 ni nj nk fun i j k => u (i, j, k) * v (i, j, k))
    (fun u u' v => by rw [← sum3_add]; congr 1; funext i j k; simp only [Pi.add_apply]; ring)
    (fun a u v => by rw [smul_eq_mul, ← sum3_mul]; congr 1; funext i j k; simp only [Pi.smul_apply, smul_eq_mul]; ring)
    (fun u v v' => by rw [← sum3_add]; congr 1; funext i j k; simp only [Pi.add_apply]; ring)
    (fun a u v => by rw [smul_eq_mul, ← sum3_mul]; congr 1; funext i j k; simp only [Pi.smul_apply, smul_eq_mul]; ring)

theorem ipL_apply (ni nj nk : Int) (u v : Fld K) : ipL ni nj nk u v = sum3 ni nj nk fun i j k => u (i, j, k) * v (i, j, k) := rfl

theorem ipL_congr {ni nj nk : Int} {u u' v v' : Fld K} (hu : ∀ c, In3 ni nj nk c → u c = u' c)
    (hv : ∀ c, In3 ni nj nk c → v c = v' c) : ipL ni nj nk u v = ipL ni nj nk u' v' := by
  rw [ipL_apply, ipL_apply]
  exact sum3_congr fun i j k a b c => by rw [hu (i, j, k) ⟨a, b, c⟩, hv (i, j, k) ⟨a, b, c⟩]

/-- The discrete Laplacian. -/
def lapL (dx : K) (ni nj nk : Int) : Fld K →ₗ[K] Fld K where
  toFun v c := lap3 dx (ext0 ni nj nk v) c.1 c.2.1 c.2.2
  map_add' u v := by
    funext c
    simp only [lap3, d2x, d2y, d2z, ext0_add, Pi.add_apply]; ring
  map_smul' a v := by
    funext c
    simp only [lap3, d2x, d2y, d2z, ext0_smul, Pi.smul_apply, smul_eq_mul, RingHom.id_apply]; ring

theorem lapL_apply (dx : K) (ni nj nk : Int) (v : Fld K) (c : Int × Int × Int) :
    lapL dx ni nj nk v c = lap3 dx (ext0 ni nj nk v) c.1 c.2.1 c.2.2 := rfl

theorem ext0_congr {ni nj nk : Int} (hi : 1 ≤ ni) (hj : 1 ≤ nj) {u v : Fld K} (h : ∀ c, In3 ni nj nk c → u c = v c) :
    ext0 ni nj nk u = ext0 ni nj nk v := by
  funext i j k
  unfold ext0 extDirichlet
  split
  · next hk => exact h (_, _, _) ⟨wrapIdx_range _ hi, wrapIdx_range _ hj, hk⟩
  · rfl

theorem lapL_congr (dx : K) {ni nj nk : Int} (hi : 1 ≤ ni) (hj : 1 ≤ nj) {u v : Fld K}
    (h : ∀ c, In3 ni nj nk c → u c = v c) : lapL dx ni nj nk u = lapL dx ni nj nk v := by
  funext c
  rw [lapL_apply, lapL_apply, ext0_congr hi hj h]

/-- The Dirichlet form in units of the spacing. -/
def dirForm (ni nj nk : Int) (v u : Fld K) : K :=
  grad3 ni nj nk (ext0 ni nj nk v) (ext0 ni nj nk u) + ∑ i ∈ Ico 0 ni, ∑ j ∈ Ico 0 nj, v (i, j, 0) * u (i, j, 0)

theorem green_edge {n : Int} (hn : 0 ≤ n) (v u : Int → K) (hv : v n = 0) (hu : u (-1) = 0) :
    ∑ i ∈ Ico 0 n, v i * (u (i + 1) - 2 * u i + u (i - 1)) =
      -(∑ i ∈ Ico 0 n, (v (i + 1) - v i) * (u (i + 1) - u i) + v 0 * u 0) := by
  have ht := sum_tele hn fun i => v i * (u i - u (i - 1))
  simp only [zero_sub] at ht
  rw [hv, hu] at ht
  rw [eq_neg_iff_add_eq_zero, ← add_assoc, ← sum_add_distrib]
  have : ∑ i ∈ Ico 0 n, (v i * (u (i + 1) - 2 * u i + u (i - 1)) + (v (i + 1) - v i) * (u (i + 1) - u i)) =
      ∑ i ∈ Ico 0 n, (v (i + 1) * (u (i + 1) - u (i + 1 - 1)) - v i * (u i - u (i - 1))) :=
    sum_congr rfl fun i _ => by rw [show i + 1 - 1 = i by omega]; ring
  rw [this, ht]; ring

/-- Green's identity. -/
theorem dir_green (dx : K) {ni nj nk : Int} (hi : 1 ≤ ni) (hj : 1 ≤ nj) (hk : 1 ≤ nk) (v u : Fld K) :
    ipL ni nj nk v (lapL dx ni nj nk u) = -(dirForm ni nj nk v u / dx ^ 2) := by
  set V := ext0 ni nj nk v with hV
  set U := ext0 ni nj nk u with hU
  have e0 : ipL ni nj nk v (lapL dx ni nj nk u) = sum3 ni nj nk fun i j k => V i j k * lap3 dx U i j k := by
    rw [ipL_apply]
    exact sum3_congr fun i j k a b c => by rw [lapL_apply, hV, ext0_int v a b c]
  have hx : sum3 ni nj nk (fun i j k => V i j k * d2x U i j k) =
      -sum3 ni nj nk (fun i j k => (V (i + 1) j k - V i j k) * (U (i + 1) j k - U i j k)) := by
    rw [sum3_comm_x, sum3_comm_x, ← sum_neg_distrib]
    refine sum_congr rfl fun j _ => ?_
    rw [← sum_neg_distrib]
    refine sum_congr rfl fun k hk' => ?_
    have hk0 : 0 ≤ k ∧ k < nk := by simpa using hk'
    refine green1 (v := fun i => V i j k) (u := fun i => U i j k) (by omega) ?_
    have := extIdx_edge (K := K) .periodic hi (fun i => v (i, wrapIdx nj j, k)) (fun i => u (i, wrapIdx nj j, k))
    simp only [hV, hU, ext0, extDirichlet, if_pos hk0]
    exact this
  have hy : sum3 ni nj nk (fun i j k => V i j k * d2y U i j k) =
      -sum3 ni nj nk (fun i j k => (V i (j + 1) k - V i j k) * (U i (j + 1) k - U i j k)) := by
    rw [sum3_comm_y, sum3_comm_y, ← sum_neg_distrib]
    refine sum_congr rfl fun i _ => ?_
    rw [← sum_neg_distrib]
    refine sum_congr rfl fun k hk' => ?_
    have hk0 : 0 ≤ k ∧ k < nk := by simpa using hk'
    refine green1 (v := fun j => V i j k) (u := fun j => U i j k) (by omega) ?_
    have := extIdx_edge (K := K) .periodic hj (fun j => v (wrapIdx ni i, j, k)) (fun j => u (wrapIdx ni i, j, k))
    simp only [hV, hU, ext0, extDirichlet, if_pos hk0]
    exact this
  have hz : sum3 ni nj nk (fun i j k => V i j k * d2z U i j k) =
      -(sum3 ni nj nk (fun i j k => (V i j (k + 1) - V i j k) * (U i j (k + 1) - U i j k)) +
        ∑ i ∈ Ico 0 ni, ∑ j ∈ Ico 0 nj, v (i, j, 0) * u (i, j, 0)) := by
    unfold sum3
    rw [← sum_add_distrib, ← sum_neg_distrib]
    refine sum_congr rfl fun i hi' => ?_
    rw [← sum_add_distrib, ← sum_neg_distrib]
    refine sum_congr rfl fun j hj' => ?_
    have hi0 : 0 ≤ i ∧ i < ni := by simpa using hi'
    have hj0 : 0 ≤ j ∧ j < nj := by simpa using hj'
    have := green_edge (n := nk) (by omega) (fun k => V i j k) (fun k => U i j k) (ext0_out v (by omega)) (ext0_out u (by omega))
    rw [show V i j 0 = v (i, j, 0) from ext0_int v hi0 hj0 (by omega), show U i j 0 = u (i, j, 0) from ext0_int u hi0 hj0 (by omega)] at this
    exact this
  have e : (fun i j k => V i j k * lap3 dx U i j k) = fun i j k =>
      ((V i j k * d2x U i j k + V i j k * d2y U i j k) + V i j k * d2z U i j k) / dx ^ 2 := by
    funext i j k; unfold lap3; ring
  rw [e0, e, sum3_div, sum3_add, sum3_add, hx, hy, hz]
  unfold dirForm grad3
  rw [sum3_add, sum3_add]
  ring

theorem dirForm_comm (ni nj nk : Int) (v u : Fld K) : dirForm ni nj nk v u = dirForm ni nj nk u v := by
  unfold dirForm
  rw [grad3_comm]
  congr 1
  exact sum_congr rfl fun i _ => sum_congr rfl fun j _ => mul_comm _ _

/-- Piecewise constant prolongation, extended, is the coarse extension at the parent. -/
theorem ext0_near {ni nj nk : Int} (hi : 1 ≤ ni) (hj : 1 ≤ nj) (w : Fld K) (x y z : Int) :
    ext0 (2 * ni) (2 * nj) (2 * nk) (fun c => w (c.1 / 2, c.2.1 / 2, c.2.2 / 2)) x y z = ext0 ni nj nk w (x / 2) (y / 2) (z / 2) := by
  have hw : ∀ (n a : Int), wrapIdx (2 * n) a / 2 = wrapIdx n (a / 2) := by
    intro n a
    unfold wrapIdx
    have h1 := Int.emod_add_mul_ediv a (2 * n)
    have h2 : a / (2 * n) = a / 2 / n := by rw [Int.ediv_ediv_of_nonneg (by omega)]
    have h3 := Int.emod_add_mul_ediv (a / 2) n
    rw [h2] at h1
    have h4 : a % (2 * n) = a - 2 * (n * (a / 2 / n)) := by linarith [mul_assoc (2 : Int) n (a / 2 / n)]
    rw [h4]
    omega
  unfold ext0 extDirichlet
  by_cases hz : 0 ≤ z ∧ z < 2 * nk
  · rw [if_pos hz, if_pos (by omega)]; dsimp only; rw [hw, hw]
  · rw [if_neg hz, if_neg (by omega)]

/-- The average of the fine Laplacian of a piecewise constant field is twice the coarse Laplacian. -/
theorem lap_near [CharZero K] (dx : K) {ni nj nk : Int} (hi : 1 ≤ ni) (hj : 1 ≤ nj) (w : Fld K) (c : Int × Int × Int) :
    avg8 (fun x y z => lapL dx (2 * ni) (2 * nj) (2 * nk) (fun c => w (c.1 / 2, c.2.1 / 2, c.2.2 / 2)) (x, y, z)) c.1 c.2.1 c.2.2 =
      2 * lapL (2 * dx) ni nj nk w c := by
  obtain ⟨i, j, k⟩ := c
  simp only [lapL_apply, avg8, lap3, d2x, d2y, d2z, ext0_near hi hj]
  have a1 : ∀ t : Int, 2 * t / 2 = t := by intro t; omega
  have a2 : ∀ t : Int, (2 * t + 1) / 2 = t := by intro t; omega
  have a3 : ∀ t : Int, (2 * t + 1 + 1) / 2 = t + 1 := by intro t; omega
  have a4 : ∀ t : Int, (2 * t - 1) / 2 = t - 1 := by intro t; omega
  have a5 : ∀ t : Int, (2 * t + 1 - 1) / 2 = t := by intro t; omega
  simp only [a1, a2, a3, a4, a5]
  by_cases h : dx = 0
  · subst h; simp
  · field_simp
    ring

/-- The transfers are adjoint up to the factor 8. -/
theorem near_adj [CharZero K] {ni nj nk : Int} (hi : 0 ≤ ni) (hj : 0 ≤ nj) (hk : 0 ≤ nk) (w v : Fld K) :
    ipL (2 * ni) (2 * nj) (2 * nk) (fun c => w (c.1 / 2, c.2.1 / 2, c.2.2 / 2)) v =
      8 * ipL ni nj nk w (fun c => avg8 (fun x y z => v (x, y, z)) c.1 c.2.1 c.2.2) := by
  rw [ipL_apply, ipL_apply]
  have := sum3_pairs hi hj hk fun x y z => w (x / 2, y / 2, z / 2) * v (x, y, z)
  rw [eq_div_iff (by norm_num)] at this
  rw [← this, mul_comm]
  congr 2
  funext i j k
  have a1 : ∀ t : Int, 2 * t / 2 = t := by intro t; omega
  have a2 : ∀ t : Int, (2 * t + 1) / 2 = t := by intro t; omega
  simp only [avg8, a1, a2]
  ring

end

section
variable {K : Type} [Field K] [LinearOrder K] [IsStrictOrderedRing K]

theorem sum3_nonneg {ni nj nk : Int} {f : Int → Int → Int → K} (h : ∀ i j k, 0 ≤ f i j k) : 0 ≤ sum3 ni nj nk f :=
  sum_nonneg fun _ _ => sum_nonneg fun _ _ => sum_nonneg fun _ _ => h _ _ _

theorem ipL_nonneg (ni nj nk : Int) (v : Fld K) : 0 ≤ ipL ni nj nk v v := by
  rw [ipL_apply]; exact sum3_nonneg fun i j k => mul_self_nonneg _

theorem ipL_point {ni nj nk : Int} (v : Fld K) {c : Int × Int × Int} (hc : In3 ni nj nk c) : v c ^ 2 ≤ ipL ni nj nk v v := by
  obtain ⟨i, j, k⟩ := c
  obtain ⟨hi, hj, hk⟩ := hc
  rw [ipL_apply, sq]
  unfold sum3
  refine le_trans ?_ (single_le_sum (f := fun i => ∑ j ∈ Ico 0 nj, ∑ k ∈ Ico 0 nk, v (i, j, k) * v (i, j, k))
    (fun _ _ => sum_nonneg fun _ _ => sum_nonneg fun _ _ => mul_self_nonneg _) (mem_Ico.2 hi))
  refine le_trans ?_ (single_le_sum (f := fun j => ∑ k ∈ Ico 0 nk, v (i, j, k) * v (i, j, k))
    (fun _ _ => sum_nonneg fun _ _ => mul_self_nonneg _) (mem_Ico.2 hj))
  exact single_le_sum (f := fun k => v (i, j, k) * v (i, j, k)) (fun _ _ => mul_self_nonneg _) (mem_Ico.2 hk)

theorem dirForm_nonneg (ni nj nk : Int) (v : Fld K) : 0 ≤ dirForm ni nj nk v v := by
  unfold dirForm grad3
  exact add_nonneg (sum3_nonneg fun i j k => by
    have a := mul_self_nonneg (ext0 ni nj nk v (i + 1) j k - ext0 ni nj nk v i j k)
    have b := mul_self_nonneg (ext0 ni nj nk v i (j + 1) k - ext0 ni nj nk v i j k)
    have c := mul_self_nonneg (ext0 ni nj nk v i j (k + 1) - ext0 ni nj nk v i j k)
    linarith) (sum_nonneg fun _ _ => sum_nonneg fun _ _ => mul_self_nonneg _)

/-- Differences along a periodic line. -/
theorem diff_per {n : Int} (hn : 0 ≤ n) (u : Int → K) (h : u n = u 0) :
    ∑ i ∈ Ico 0 n, (u (i + 1) - u i) * (u (i + 1) - u i) ≤ 4 * ∑ i ∈ Ico 0 n, u i * u i := by
  have s := sum_shift hn (fun i => u i * u i) (by rw [h])
  calc _ ≤ ∑ i ∈ Ico 0 n, (2 * (u (i + 1) * u (i + 1)) + 2 * (u i * u i)) :=
        sum_le_sum fun i _ => by nlinarith [mul_self_nonneg (u (i + 1) + u i)]
    _ = 4 * ∑ i ∈ Ico 0 n, u i * u i := by rw [sum_add_distrib, ← mul_sum, ← mul_sum, s]; ring

/-- Differences along a line with zero ends. -/
theorem diff_dir {n : Int} (hn : 0 ≤ n) (u : Int → K) (h : u n = 0) :
    ∑ i ∈ Ico 0 n, (u (i + 1) - u i) * (u (i + 1) - u i) + u 0 * u 0 ≤ 4 * ∑ i ∈ Ico 0 n, u i * u i := by
  have s := sum_tele hn (fun i => u i * u i)
  rw [sum_sub_distrib, h] at s
  have : ∑ i ∈ Ico 0 n, (u (i + 1) - u i) * (u (i + 1) - u i) ≤
      ∑ i ∈ Ico 0 n, (2 * (u (i + 1) * u (i + 1)) + 2 * (u i * u i)) :=
    sum_le_sum fun i _ => by nlinarith [mul_self_nonneg (u (i + 1) + u i)]
  rw [sum_add_distrib, ← mul_sum, ← mul_sum] at this
  nlinarith [mul_self_nonneg (u 0)]

/-- A sum of squares is at most the squared length times the sum of squared differences. -/
theorem line_poincare {n : Int} (hn : 0 ≤ n) (u : Int → K) :
    ∑ i ∈ Ico 0 n, u i * u i ≤ (n : K) ^ 2 * (∑ i ∈ Ico 0 n, (u (i + 1) - u i) * (u (i + 1) - u i) + u 0 * u 0) := by
  obtain ⟨N, rfl⟩ := Int.eq_ofNat_of_zero_le hn
  set D : K := ∑ i ∈ Ico (0 : Int) N, (u (i + 1) - u i) * (u (i + 1) - u i) + u 0 * u 0 with hD
  -- partial sums
  have part : ∀ m : Nat, m ≤ N → u m * u m ≤
      ((m : K) + 1) * (∑ i ∈ Ico (0 : Int) m, (u (i + 1) - u i) * (u (i + 1) - u i) + u 0 * u 0) := by
    intro m
    induction m with
    | zero => intro _; simp
    | succ m ih =>
      intro hm
      have h := ih (by omega)
      push_cast
      rw [Ico_succ_int, sum_insert (by simp)]
      set S := ∑ i ∈ Ico (0 : Int) m, (u (i + 1) - u i) * (u (i + 1) - u i) + u 0 * u 0 with hS
      set a := u m
      set d := u ((m : Int) + 1) - a with hd
      have e : u ((m : Int) + 1) = a + d := by rw [hd]; ring
      rw [e, show d * d + ∑ i ∈ Ico (0 : Int) m, (u (i + 1) - u i) * (u (i + 1) - u i) + u 0 * u 0 =
        S + d * d by rw [hS]; ring]
      have mp : (0 : K) < (m : K) + 1 := by positivity
      have q : 0 ≤ (a - ((m : K) + 1) * d) ^ 2 := sq_nonneg _
      have h1 : (a + d) * (a + d) * ((m : K) + 1) ≤ ((m : K) + 1 + 1) * (S + d * d) * ((m : K) + 1) := by nlinarith
      exact le_of_mul_le_mul_right h1 mp
  have bound : ∀ i ∈ Ico (0 : Int) N, u i * u i ≤ (N : K) * D := by
    intro i hi
    rw [mem_Ico] at hi
    obtain ⟨m, rfl⟩ := Int.eq_ofNat_of_zero_le hi.1
    have hm : m < N := by exact_mod_cast hi.2
    refine (part m hm.le).trans ?_
    have h1 : (m : K) + 1 ≤ N := by exact_mod_cast hm
    have h2 : ∑ i ∈ Ico (0 : Int) m, (u (i + 1) - u i) * (u (i + 1) - u i) + u 0 * u 0 ≤ D := by
      rw [hD]
      have := sum_le_sum_of_subset_of_nonneg (s := Ico (0 : Int) m) (t := Ico (0 : Int) N)
        (f := fun i => (u (i + 1) - u i) * (u (i + 1) - u i)) (Ico_subset_Ico_right (by omega)) (fun _ _ _ => mul_self_nonneg _)
      linarith
    have h3 : 0 ≤ ∑ i ∈ Ico (0 : Int) m, (u (i + 1) - u i) * (u (i + 1) - u i) + u 0 * u 0 :=
      add_nonneg (sum_nonneg fun _ _ => mul_self_nonneg _) (mul_self_nonneg _)
    calc _ ≤ (N : K) * (∑ i ∈ Ico (0 : Int) m, (u (i + 1) - u i) * (u (i + 1) - u i) + u 0 * u 0) :=
          mul_le_mul_of_nonneg_right h1 h3
      _ ≤ _ := mul_le_mul_of_nonneg_left h2 (Nat.cast_nonneg _)
  calc _ ≤ ∑ i ∈ Ico (0 : Int) N, (N : K) * D := sum_le_sum bound
    _ = _ := by simp [sum_const, Int.card_Ico]; ring

/-- Parts of the Dirichlet form, axis by axis. -/
theorem dirForm_split {ni nj nk : Int} (v : Fld K) : dirForm ni nj nk v v =
    (∑ j ∈ Ico 0 nj, ∑ k ∈ Ico 0 nk, ∑ i ∈ Ico 0 ni, (ext0 ni nj nk v (i + 1) j k - ext0 ni nj nk v i j k) *
        (ext0 ni nj nk v (i + 1) j k - ext0 ni nj nk v i j k)) +
    (∑ i ∈ Ico 0 ni, ∑ k ∈ Ico 0 nk, ∑ j ∈ Ico 0 nj, (ext0 ni nj nk v i (j + 1) k - ext0 ni nj nk v i j k) *
        (ext0 ni nj nk v i (j + 1) k - ext0 ni nj nk v i j k)) +
    (∑ i ∈ Ico 0 ni, ∑ j ∈ Ico 0 nj, (∑ k ∈ Ico 0 nk, (ext0 ni nj nk v i j (k + 1) - ext0 ni nj nk v i j k) *
        (ext0 ni nj nk v i j (k + 1) - ext0 ni nj nk v i j k) + v (i, j, 0) * v (i, j, 0))) := by
  unfold dirForm grad3
  rw [sum3_add, sum3_add, sum3_comm_x, sum3_comm_y]
  simp only [sum_add_distrib]
  unfold sum3
  ring

theorem ip_ext {ni nj nk : Int} (v : Fld K) :
    ipL ni nj nk v v = sum3 ni nj nk fun i j k => ext0 ni nj nk v i j k * ext0 ni nj nk v i j k := by
  rw [ipL_apply]
  exact sum3_congr fun i j k a b c => by rw [ext0_int v a b c]

theorem dirForm_le {ni nj nk : Int} (hi : 1 ≤ ni) (hj : 1 ≤ nj) (hk : 1 ≤ nk) (v : Fld K) :
    dirForm ni nj nk v v ≤ 12 * ipL ni nj nk v v := by
  have wrap : ∀ n : Int, wrapIdx n n = wrapIdx n 0 := by intro n; unfold wrapIdx; simp
  have hx : ∑ j ∈ Ico 0 nj, ∑ k ∈ Ico 0 nk, ∑ i ∈ Ico 0 ni, (ext0 ni nj nk v (i + 1) j k - ext0 ni nj nk v i j k) *
        (ext0 ni nj nk v (i + 1) j k - ext0 ni nj nk v i j k) ≤ 4 * ipL ni nj nk v v := by
    rw [ip_ext, sum3_comm_x, mul_sum]
    refine sum_le_sum fun j _ => ?_
    rw [mul_sum]
    exact sum_le_sum fun k _ => diff_per (by omega) (fun i => ext0 ni nj nk v i j k) (by simp only [ext0, extDirichlet, wrap ni])
  have hy : ∑ i ∈ Ico 0 ni, ∑ k ∈ Ico 0 nk, ∑ j ∈ Ico 0 nj, (ext0 ni nj nk v i (j + 1) k - ext0 ni nj nk v i j k) *
        (ext0 ni nj nk v i (j + 1) k - ext0 ni nj nk v i j k) ≤ 4 * ipL ni nj nk v v := by
    rw [ip_ext, sum3_comm_y, mul_sum]
    refine sum_le_sum fun i _ => ?_
    rw [mul_sum]
    exact sum_le_sum fun k _ => diff_per (by omega) (fun j => ext0 ni nj nk v i j k) (by simp only [ext0, extDirichlet, wrap nj])
  have hz : ∑ i ∈ Ico 0 ni, ∑ j ∈ Ico 0 nj, (∑ k ∈ Ico 0 nk, (ext0 ni nj nk v i j (k + 1) - ext0 ni nj nk v i j k) *
        (ext0 ni nj nk v i j (k + 1) - ext0 ni nj nk v i j k) + v (i, j, 0) * v (i, j, 0)) ≤ 4 * ipL ni nj nk v v := by
    rw [ip_ext]
    unfold sum3
    rw [mul_sum]
    refine sum_le_sum fun i hi' => ?_
    rw [mul_sum]
    refine sum_le_sum fun j hj' => ?_
    have := diff_dir (n := nk) (by omega) (fun k => ext0 ni nj nk v i j k) (ext0_out v (by omega))
    rw [show ext0 ni nj nk v i j 0 = v (i, j, 0) from ext0_int v (by simpa using hi') (by simpa using hj') (by omega)] at this
    exact this
  rw [dirForm_split]
  linarith

theorem dir_poincare {ni nj nk : Int} (hi : 1 ≤ ni) (hj : 1 ≤ nj) (hk : 1 ≤ nk) (v : Fld K) :
    ipL ni nj nk v v ≤ (nk : K) ^ 2 * dirForm ni nj nk v v := by
  have hz : ipL ni nj nk v v ≤ (nk : K) ^ 2 * ∑ i ∈ Ico 0 ni, ∑ j ∈ Ico 0 nj, (∑ k ∈ Ico 0 nk,
      (ext0 ni nj nk v i j (k + 1) - ext0 ni nj nk v i j k) * (ext0 ni nj nk v i j (k + 1) - ext0 ni nj nk v i j k) +
        v (i, j, 0) * v (i, j, 0)) := by
    rw [ip_ext]
    unfold sum3
    rw [mul_sum]
    refine sum_le_sum fun i hi' => ?_
    rw [mul_sum]
    refine sum_le_sum fun j hj' => ?_
    have := line_poincare (n := nk) (by omega) (fun k => ext0 ni nj nk v i j k)
    rw [show ext0 ni nj nk v i j 0 = v (i, j, 0) from ext0_int v (by simpa using hi') (by simpa using hj') (by omega)] at this
    exact this
  rw [dirForm_split]
  refine hz.trans (mul_le_mul_of_nonneg_left ?_ (sq_nonneg _))
  have h1 : 0 ≤ ∑ j ∈ Ico 0 nj, ∑ k ∈ Ico 0 nk, ∑ i ∈ Ico 0 ni, (ext0 ni nj nk v (i + 1) j k - ext0 ni nj nk v i j k) *
        (ext0 ni nj nk v (i + 1) j k - ext0 ni nj nk v i j k) :=
    sum_nonneg fun _ _ => sum_nonneg fun _ _ => sum_nonneg fun _ _ => mul_self_nonneg _
  have h2 : 0 ≤ ∑ i ∈ Ico 0 ni, ∑ k ∈ Ico 0 nk, ∑ j ∈ Ico 0 nj, (ext0 ni nj nk v i (j + 1) k - ext0 ni nj nk v i j k) *
        (ext0 ni nj nk v i (j + 1) k - ext0 ni nj nk v i j k) :=
    sum_nonneg fun _ _ => sum_nonneg fun _ _ => sum_nonneg fun _ _ => mul_self_nonneg _
  linarith

/-- The Laplacian determines the interior. -/
theorem lapL_injective {dx : K} (hdx : dx ≠ 0) {ni nj nk : Int} (hi : 1 ≤ ni) (hj : 1 ≤ nj) (hk : 1 ≤ nk) (v : Fld K)
    (h : ∀ c, In3 ni nj nk c → lapL dx ni nj nk v c = 0) : ∀ c, In3 ni nj nk c → v c = 0 := by
  intro c hc
  have g := dir_green dx hi hj hk v v
  have z : ipL ni nj nk v (lapL dx ni nj nk v) = ipL ni nj nk v 0 := ipL_congr (fun _ _ => rfl) h
  rw [z, map_zero] at g
  have d0 : dirForm ni nj nk v v = 0 := by
    have : dirForm ni nj nk v v / dx ^ 2 = 0 := by linarith
    rcases div_eq_zero_iff.1 this with h | h
    · exact h
    · exact absurd h (pow_ne_zero 2 hdx)
  have p := dir_poincare hi hj hk v
  rw [d0, mul_zero] at p
  have := ipL_point v hc
  have : v c ^ 2 ≤ 0 := this.trans p
  exact pow_eq_zero_iff (two_ne_zero) |>.1 (le_antisymm this (sq_nonneg _))

/-- A linear right inverse of the Laplacian on the interior. -/
theorem lapL_inverse {dx : K} (hdx : dx ≠ 0) {ni nj nk : Int} (hi : 1 ≤ ni) (hj : 1 ≤ nj) (hk : 1 ≤ nk) :
    ∃ J : Fld K →ₗ[K] Fld K, ∀ f c, In3 ni nj nk c → lapL dx ni nj nk (J f) c = f c := by
  classical
  let B : Finset (Int × Int × Int) := Ico 0 ni ×ˢ Ico 0 nj ×ˢ Ico 0 nk
  have memB : ∀ c, c ∈ B ↔ In3 ni nj nk c := by
    intro c; simp [B, In3, mem_product]
  let ex : (B → K) →ₗ[K] Fld K :=
    { toFun := fun w c => if h : c ∈ B then w ⟨c, h⟩ else 0
      map_add' := fun u v => by funext c; simp only [Pi.add_apply]; split <;> simp
      map_smul' := fun a u => by funext c; simp only [Pi.smul_apply, RingHom.id_apply]; split <;> simp }
  let re : Fld K →ₗ[K] (B → K) :=
    { toFun := fun w c => w c
      map_add' := fun _ _ => rfl
      map_smul' := fun _ _ => rfl }
  let f : (B → K) →ₗ[K] (B → K) := re ∘ₗ lapL dx ni nj nk ∘ₗ ex
  have inj : Function.Injective f := by
    rw [← LinearMap.ker_eq_bot, LinearMap.ker_eq_bot']
    intro w hw
    have z := lapL_injective hdx hi hj hk (ex w) (fun c hc => congrFun hw ⟨c, (memB c).2 hc⟩)
    funext c
    have := z c ((memB c).1 c.2)
    simpa [ex] using this
  refine ⟨ex ∘ₗ (LinearEquiv.ofInjectiveEndo f inj).symm.toLinearMap ∘ₗ re, fun w c hc => ?_⟩
  have := (LinearEquiv.ofInjectiveEndo f inj).apply_symm_apply (re w)
  exact congrFun this ⟨c, (memB c).2 hc⟩

end

end Madg
