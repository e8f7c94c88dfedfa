/-
Relabelling symmetries of the spec operators, and the energy derivative.
-/
import Verif.Proofs.Sums
import Mathlib.Analysis.Calculus.Deriv.Pow
import Mathlib.Analysis.Calculus.Deriv.Add
import Mathlib.Analysis.Calculus.Deriv.Mul
import Mathlib.Algebra.Order.BigOperators.Group.Finset
import Mathlib.Tactic.Positivity
import Mathlib.Tactic.Linarith

set_option linter.unusedSectionVars false
set_option linter.unusedVariables false

namespace Madg
open Spec Finset
section
variable {K : Type} [Field K]

theorem chRhs3_relabel (p : CHParams K) (dx : K) (φ : Int → Int → Int → Int × Int × Int)
    (h : ∀ u : Int → Int → Int → K,
      lap3 dx (fun i j k => u (φ i j k).1 (φ i j k).2.1 (φ i j k).2.2) =
        fun i j k => lap3 dx u (φ i j k).1 (φ i j k).2.1 (φ i j k).2.2)
    (u : Int → Int → Int → K) (i j k : Int) :
    chRhs3 p dx (fun i j k => u (φ i j k).1 (φ i j k).2.1 (φ i j k).2.2) i j k =
      chRhs3 p dx u (φ i j k).1 (φ i j k).2.1 (φ i j k).2.2 := by
  unfold chRhs3 bih3
  rw [h u, h (lap3 dx u), h (fun x y z => u x y z ^ 3 - u x y z)]

theorem lap3_translate (dx : K) (a b c : Int) (u : Int → Int → Int → K) :
    lap3 dx (fun i j k => u (i + a) (j + b) (k + c)) = fun i j k => lap3 dx u (i + a) (j + b) (k + c) := by
  funext i j k
  simp only [lap3, d2x, d2y, d2z]
  have e : ∀ x y : Int, x + 1 + y = x + y + 1 := by intros; omega
  have e' : ∀ x y : Int, x - 1 + y = x + y - 1 := by intros; omega
  simp only [e, e']

theorem lap3_reflect_x (dx : K) (n : Int) (u : Int → Int → Int → K) :
    lap3 dx (fun i j k => u (n - 1 - i) j k) = fun i j k => lap3 dx u (n - 1 - i) j k := by
  funext i j k
  simp only [lap3, d2x, d2y, d2z]
  have e : n - 1 - (i + 1) = n - 1 - i - 1 := by omega
  have e' : n - 1 - (i - 1) = n - 1 - i + 1 := by omega
  rw [e, e']; ring

theorem lap3_reflect_y (dx : K) (n : Int) (u : Int → Int → Int → K) :
    lap3 dx (fun i j k => u i (n - 1 - j) k) = fun i j k => lap3 dx u i (n - 1 - j) k := by
  funext i j k
  simp only [lap3, d2x, d2y, d2z]
  have e : n - 1 - (j + 1) = n - 1 - j - 1 := by omega
  have e' : n - 1 - (j - 1) = n - 1 - j + 1 := by omega
  rw [e, e']; ring

theorem lap3_reflect_z (dx : K) (n : Int) (u : Int → Int → Int → K) :
    lap3 dx (fun i j k => u i j (n - 1 - k)) = fun i j k => lap3 dx u i j (n - 1 - k) := by
  funext i j k
  simp only [lap3, d2x, d2y, d2z]
  have e : n - 1 - (k + 1) = n - 1 - k - 1 := by omega
  have e' : n - 1 - (k - 1) = n - 1 - k + 1 := by omega
  rw [e, e']; ring

theorem lap3_swap_xy (dx : K) (u : Int → Int → Int → K) :
    lap3 dx (fun i j k => u j i k) = fun i j k => lap3 dx u j i k := by
  funext i j k; simp only [lap3, d2x, d2y, d2z]; ring

theorem lap3_swap_yz (dx : K) (u : Int → Int → Int → K) :
    lap3 dx (fun i j k => u i k j) = fun i j k => lap3 dx u i k j := by
  funext i j k; simp only [lap3, d2x, d2y, d2z]; ring

theorem extIdx_reflect (b : BCType) {n : Int} (hn : 1 ≤ n) (i : Int) :
    extIdx b n (n - 1 - i) = n - 1 - extIdx b n i := by
  have hw : (n - 1 - i) % n = n - 1 - i % n := by
    have h := Int.emod_add_mul_ediv i n
    have h0 := Int.emod_nonneg i (by omega : n ≠ 0)
    have h1 := Int.emod_lt_of_pos i (by omega : 0 < n)
    have e : n - 1 - i = (n - 1 - i % n) + n * (-(i / n)) := by linear_combination h
    rw [e, Int.add_mul_emod_self_left]
    exact Int.emod_eq_of_lt (by omega) (by omega)
  cases b
  · exact hw
  · simp only [extIdx, clampIdx]; omega
  · exact hw

theorem extIdx_wrap {b : BCType} (hb : b ≠ .neumann) (n i : Int) : extIdx b n i = i % n := by
  cases b
  · rfl
  · exact absurd rfl hb
  · rfl

theorem lap3_neg (dx : K) (u : Int → Int → Int → K) :
    lap3 dx (fun i j k => -u i j k) = fun i j k => -lap3 dx u i j k := by
  funext i j k; simp only [lap3, d2x, d2y, d2z]; ring

theorem chRhs3_neg (p : CHParams K) (dx : K) (u : Int → Int → Int → K) (i j k : Int) :
    chRhs3 ⟨p.eps2, p.sigma, -p.m⟩ dx (fun i j k => -u i j k) i j k = -chRhs3 p dx u i j k := by
  have e : (fun x y z => (-u x y z) ^ 3 - -u x y z) = fun x y z => -(u x y z ^ 3 - u x y z) := by
    funext x y z; ring
  unfold chRhs3 bih3
  rw [e, lap3_neg, lap3_neg, lap3_neg]
  ring

theorem lap3_const (dx a : K) : lap3 dx (fun _ _ _ => a) = fun _ _ _ => 0 := by
  funext i j k
  simp only [lap3, d2x, d2y, d2z]
  ring

theorem chRhs3_const (p : CHParams K) (dx a : K) (i j k : Int) :
    chRhs3 p dx (fun _ _ _ => a) i j k = -p.sigma * (a - p.m) := by
  unfold chRhs3 bih3
  rw [lap3_const, lap3_const, lap3_const]; ring

theorem lap2_const (dx a : K) : lap2 dx (fun _ _ => a) = fun _ _ => 0 := by
  funext i j
  simp only [lap2]
  ring

theorem chRhs2_const (p : CHParams K) (dx a : K) (i j : Int) :
    chRhs2 p dx (fun _ _ => a) i j = -p.sigma * (a - p.m) := by
  unfold chRhs2 bih2
  rw [lap2_const, lap2_const, lap2_const]; ring

theorem lap3_linear (dx a b : K) (u v : Int → Int → Int → K) (i j k : Int) :
    lap3 dx (fun i j k => a * u i j k + b * v i j k) i j k = a * lap3 dx u i j k + b * lap3 dx v i j k := by
  simp only [lap3, d2x, d2y, d2z]; ring

theorem lap2_linear (dx a b : K) (u v : Int → Int → K) (i j : Int) :
    lap2 dx (fun i j => a * u i j + b * v i j) i j = a * lap2 dx u i j + b * lap2 dx v i j := by
  simp only [lap2]; ring

/-! ### Two dimensions -/

theorem chRhs2_relabel (p : CHParams K) (dx : K) (φ : Int → Int → Int × Int)
    (h : ∀ u : Int → Int → K, lap2 dx (fun i j => u (φ i j).1 (φ i j).2) =
        fun i j => lap2 dx u (φ i j).1 (φ i j).2)
    (u : Int → Int → K) (i j : Int) :
    chRhs2 p dx (fun i j => u (φ i j).1 (φ i j).2) i j = chRhs2 p dx u (φ i j).1 (φ i j).2 := by
  unfold chRhs2 bih2
  rw [h u, h (lap2 dx u), h (fun x y => u x y ^ 3 - u x y)]

theorem lap2_translate (dx : K) (a b : Int) (u : Int → Int → K) :
    lap2 dx (fun i j => u (i + a) (j + b)) = fun i j => lap2 dx u (i + a) (j + b) := by
  funext i j
  simp only [lap2]
  have e : ∀ x y : Int, x + 1 + y = x + y + 1 := by intros; omega
  have e' : ∀ x y : Int, x - 1 + y = x + y - 1 := by intros; omega
  simp only [e, e']

theorem lap2_reflect_x (dx : K) (n : Int) (u : Int → Int → K) :
    lap2 dx (fun i j => u (n - 1 - i) j) = fun i j => lap2 dx u (n - 1 - i) j := by
  funext i j
  simp only [lap2]
  have e : n - 1 - (i + 1) = n - 1 - i - 1 := by omega
  have e' : n - 1 - (i - 1) = n - 1 - i + 1 := by omega
  rw [e, e']; ring

theorem lap2_swap (dx : K) (u : Int → Int → K) :
    lap2 dx (fun i j => u j i) = fun i j => lap2 dx u j i := by
  funext i j; simp only [lap2]; ring

theorem chRhs2_neg (p : CHParams K) (dx : K) (u : Int → Int → K) (i j : Int) :
    chRhs2 ⟨p.eps2, p.sigma, -p.m⟩ dx (fun i j => -u i j) i j = -chRhs2 p dx u i j := by
  have e : (fun x y => (-u x y) ^ 3 - -u x y) = fun x y => -(u x y ^ 3 - u x y) := by
    funext x y; ring
  have hn : ∀ v : Int → Int → K, lap2 dx (fun i j => -v i j) = fun i j => -lap2 dx v i j := by
    intro v; funext i j; simp only [lap2]; ring
  unfold chRhs2 bih2
  rw [e, hn, hn, hn]
  ring

end

/-! ### Energy -/

theorem hasDerivAt_sum3 (ni nj nk : Int) (F : Real → Int → Int → Int → Real) (F' : Int → Int → Int → Real)
    (h : ∀ i j k, HasDerivAt (fun t => F t i j k) (F' i j k) 0) :
    HasDerivAt (fun t => sum3 ni nj nk (F t)) (sum3 ni nj nk F') 0 := by
  unfold sum3
  exact HasDerivAt.fun_sum fun i _ => HasDerivAt.fun_sum fun j _ => HasDerivAt.fun_sum fun k _ => h i j k

theorem hasDerivAt_sum2 (ni nj : Int) (F : Real → Int → Int → Real) (F' : Int → Int → Real)
    (h : ∀ i j, HasDerivAt (fun t => F t i j) (F' i j) 0) :
    HasDerivAt (fun t => sum2 ni nj (F t)) (sum2 ni nj F') 0 := by
  unfold sum2
  exact HasDerivAt.fun_sum fun i _ => HasDerivAt.fun_sum fun j _ => h i j

theorem hasDerivAt_line (a b : Real) : HasDerivAt (fun t : Real => a + t * b) b 0 := by
  simpa using ((hasDerivAt_id (0 : Real)).mul_const b).const_add a

theorem hasDerivAt_well (a b : Real) :
    HasDerivAt (fun t : Real => ((a + t * b) ^ 2 - 1) ^ 2 / 4) ((a ^ 3 - a) * b) 0 := by
  have h := ((((hasDerivAt_line a b).fun_pow 2).sub_const 1).fun_pow 2).div_const 4
  refine h.congr_deriv ?_
  simp; ring

theorem hasDerivAt_sq (a b : Real) :
    HasDerivAt (fun t : Real => (a + t * b) * (a + t * b)) (2 * (a * b)) 0 := by
  have h := (hasDerivAt_line a b).fun_mul (hasDerivAt_line a b)
  refine h.congr_deriv ?_
  simp; ring

theorem energy3_deriv (eps2 dx : Real) (ni nj nk : Int) (C V : Int → Int → Int → Real) :
    HasDerivAt (fun t : Real => energy3 eps2 dx ni nj nk fun i j k => C i j k + t * V i j k)
      (sum3 ni nj nk (fun i j k => (C i j k ^ 3 - C i j k) * V i j k) +
        eps2 * (grad3 ni nj nk C V / dx ^ 2)) 0 := by
  unfold energy3
  have h1 := hasDerivAt_sum3 ni nj nk (fun t i j k => ((C i j k + t * V i j k) ^ 2 - 1) ^ 2 / 4) _
    fun i j k => hasDerivAt_well (C i j k) (V i j k)
  have h2 : HasDerivAt (fun t : Real => grad3 ni nj nk (fun i j k => C i j k + t * V i j k)
      fun i j k => C i j k + t * V i j k) (2 * grad3 ni nj nk C V) 0 := by
    unfold grad3
    rw [← sum3_mul]
    refine hasDerivAt_sum3 ni nj nk _ _ fun i j k => ?_
    have e : ∀ a b c d : Real, HasDerivAt (fun t : Real => (a + t * b - (c + t * d)) * (a + t * b - (c + t * d)))
        (2 * ((a - c) * (b - d))) 0 := by
      intro a b c d
      have := hasDerivAt_sq (a - c) (b - d)
      refine this.congr_of_eventuallyEq (Filter.Eventually.of_forall fun t => ?_)
      simp only; ring
    refine (((e _ _ _ _).add (e _ _ _ _)).add (e _ _ _ _)).congr_deriv ?_
    ring
  refine (h1.add (((h2.div_const (dx ^ 2)).const_mul (eps2 / 2)))).congr_deriv ?_
  ring

theorem energy2_deriv (eps2 dx : Real) (ni nj : Int) (C V : Int → Int → Real) :
    HasDerivAt (fun t : Real => energy2 eps2 dx ni nj fun i j => C i j + t * V i j)
      (sum2 ni nj (fun i j => (C i j ^ 3 - C i j) * V i j) + eps2 * (grad2 ni nj C V / dx ^ 2)) 0 := by
  unfold energy2
  have h1 := hasDerivAt_sum2 ni nj (fun t i j => ((C i j + t * V i j) ^ 2 - 1) ^ 2 / 4) _
    fun i j => hasDerivAt_well (C i j) (V i j)
  have h2 : HasDerivAt (fun t : Real => grad2 ni nj (fun i j => C i j + t * V i j)
      fun i j => C i j + t * V i j) (2 * grad2 ni nj C V) 0 := by
    unfold grad2
    rw [← sum2_mul]
    refine hasDerivAt_sum2 ni nj _ _ fun i j => ?_
    have e : ∀ a b c d : Real, HasDerivAt (fun t : Real => (a + t * b - (c + t * d)) * (a + t * b - (c + t * d)))
        (2 * ((a - c) * (b - d))) 0 := by
      intro a b c d
      have := hasDerivAt_sq (a - c) (b - d)
      refine this.congr_of_eventuallyEq (Filter.Eventually.of_forall fun t => ?_)
      simp only; ring
    refine ((e _ _ _ _).add (e _ _ _ _)).congr_deriv ?_
    ring
  refine (h1.add (((h2.div_const (dx ^ 2)).const_mul (eps2 / 2)))).congr_deriv ?_
  ring

theorem grad3_nonneg (ni nj nk : Int) (u : Int → Int → Int → Real) : 0 ≤ grad3 ni nj nk u u := by
  unfold grad3 sum3
  refine sum_nonneg fun i _ => sum_nonneg fun j _ => sum_nonneg fun k _ => ?_
  nlinarith [mul_self_nonneg (u (i + 1) j k - u i j k), mul_self_nonneg (u i (j + 1) k - u i j k),
    mul_self_nonneg (u i j (k + 1) - u i j k)]

theorem grad2_nonneg (ni nj : Int) (u : Int → Int → Real) : 0 ≤ grad2 ni nj u u := by
  unfold grad2 sum2
  refine sum_nonneg fun i _ => sum_nonneg fun j _ => ?_
  nlinarith [mul_self_nonneg (u (i + 1) j - u i j), mul_self_nonneg (u i (j + 1) - u i j)]

end Madg
