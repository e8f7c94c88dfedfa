/-
Second differences of monomials.
-/
import Verif.Spec.Poly
import Mathlib.Algebra.MvPolynomial.CommRing
import Mathlib.Tactic.IntervalCases
import Mathlib.Tactic.LinearCombination
import Mathlib.Tactic.FieldSimp

namespace Madg
open Spec MvPolynomial
variable {K : Type} [Field K]

theorem lap3_add (dx : K) (u v : Int → Int → Int → K) (i j k : Int) :
    lap3 dx (fun x y z => u x y z + v x y z) i j k = lap3 dx u i j k + lap3 dx v i j k := by
  unfold lap3 d2x d2y d2z; ring

theorem bih3_add (dx : K) (u v : Int → Int → Int → K) (i j k : Int) :
    bih3 dx (fun x y z => u x y z + v x y z) i j k = bih3 dx u i j k + bih3 dx v i j k := by
  unfold bih3
  rw [← lap3_add]
  congr 1
  funext x y z
  exact lap3_add dx u v x y z

theorem sample_add (P Q : MvPolynomial (Fin 3) K) (o : Fin 3 → K) (dx : K) :
    sample (P + Q) o dx = fun i j k => sample P o dx i j k + sample Q o dx i j k := by
  funext i j k; simp [sample]

theorem sample_zero (o : Fin 3 → K) (dx : K) : sample (0 : MvPolynomial (Fin 3) K) o dx = fun _ _ _ => 0 := by
  funext i j k; simp [sample]

theorem polyLap_add (P Q : MvPolynomial (Fin 3) K) : polyLap (P + Q) = polyLap P + polyLap Q := by
  unfold polyLap; simp only [map_add]; ring

/-- `a (a - 1) x ^ (a - 2)`. -/
def dd (a : ℕ) (x : K) : K := (a : K) * ((a - 1 : ℕ) : K) * x ^ (a - 2)

theorem sample_monomial (s : Fin 3 →₀ ℕ) (c : K) (o : Fin 3 → K) (dx : K) (i j k : Int) :
    sample (monomial s c) o dx i j k = c * ((o 0 + (i : K) * dx) ^ s 0 * (o 1 + (j : K) * dx) ^ s 1 * (o 2 + (k : K) * dx) ^ s 2) := by
  unfold sample
  rw [eval_monomial, Finsupp.prod_fintype _ _ (by intro i; simp), Fin.prod_univ_three]
  rfl

theorem eval_dd (s : Fin 3 →₀ ℕ) (c : K) (t : Fin 3) (x : Fin 3 → K) :
    eval x (pderiv t (pderiv t (monomial s c))) = c * (dd (s t) (x t) * ∏ r ∈ Finset.univ.erase t, x r ^ s r) := by
  rw [pderiv_monomial, pderiv_monomial, eval_monomial, Finsupp.prod_fintype _ _ (by intro i; simp),
    ← Finset.mul_prod_erase Finset.univ _ (Finset.mem_univ t)]
  have e1 : ∏ r ∈ Finset.univ.erase t, x r ^ ((s - Finsupp.single t 1 - Finsupp.single t 1 : Fin 3 →₀ ℕ) r) =
      ∏ r ∈ Finset.univ.erase t, x r ^ s r := by
    refine Finset.prod_congr rfl fun r hr => ?_
    have : t ≠ r := (Finset.ne_of_mem_erase hr).symm
    simp [this]
  rw [e1]
  simp only [Finsupp.coe_tsub, Pi.sub_apply, Finsupp.single_eq_same, dd, Nat.sub_sub]
  ring

theorem eval_lap_monomial (s : Fin 3 →₀ ℕ) (c : K) (o : Fin 3 → K) (dx : K) (i j k : Int) :
    sample (polyLap (monomial s c)) o dx i j k = c * (
      dd (s 0) (o 0 + (i : K) * dx) * (o 1 + (j : K) * dx) ^ s 1 * (o 2 + (k : K) * dx) ^ s 2 +
      (o 0 + (i : K) * dx) ^ s 0 * dd (s 1) (o 1 + (j : K) * dx) * (o 2 + (k : K) * dx) ^ s 2 +
      (o 0 + (i : K) * dx) ^ s 0 * (o 1 + (j : K) * dx) ^ s 1 * dd (s 2) (o 2 + (k : K) * dx)) := by
  unfold sample polyLap
  simp only [map_add, eval_dd]
  have e0 : (Finset.univ.erase (0 : Fin 3)) = {1, 2} := by decide
  have e1 : (Finset.univ.erase (1 : Fin 3)) = {0, 2} := by decide
  have e2 : (Finset.univ.erase (2 : Fin 3)) = {0, 1} := by decide
  rw [e0, e1, e2, Finset.prod_pair (by decide), Finset.prod_pair (by decide), Finset.prod_pair (by decide)]
  simp only [gridPt]
  ring

/-- Exactness of the second difference in one variable. -/
theorem dd_exact {dx : K} (hdx : dx ≠ 0) {a : ℕ} (ha : a ≤ 3) (x : K) :
    ((x + dx) ^ a - 2 * x ^ a + (x - dx) ^ a) / dx ^ 2 = dd a x := by
  unfold dd
  interval_cases a <;> field_simp <;> norm_num <;> ring

theorem lap_monomial {dx : K} (hdx : dx ≠ 0) (s : Fin 3 →₀ ℕ) (hs : s 0 + s 1 + s 2 ≤ 3) (c : K) (o : Fin 3 → K) (i j k : Int) :
    lap3 dx (sample (monomial s c) o dx) i j k = sample (polyLap (monomial s c)) o dx i j k := by
  rw [eval_lap_monomial, ← dd_exact hdx (a := s 0) (by omega), ← dd_exact hdx (a := s 1) (by omega), ← dd_exact hdx (a := s 2) (by omega)]
  simp only [lap3, d2x, d2y, d2z, sample_monomial]
  push_cast
  have ep : ∀ (q : K) (n : Int), q + ((n : K) + 1) * dx = q + (n : K) * dx + dx := fun q n => by ring
  have em : ∀ (q : K) (n : Int), q + ((n : K) - 1) * dx = q + (n : K) * dx - dx := fun q n => by ring
  simp only [ep, em]
  ring

/-- Linear functionals agreeing on low-degree monomials agree on low-degree polynomials. -/
theorem poly_ext_deg {n : ℕ} {F G : MvPolynomial (Fin 3) K → K} (hF : ∀ P Q, F (P + Q) = F P + F Q) (hG : ∀ P Q, G (P + Q) = G P + G Q)
    (h : ∀ (s : Fin 3 →₀ ℕ) (c : K), s 0 + s 1 + s 2 ≤ n → F (monomial s c) = G (monomial s c))
    {P : MvPolynomial (Fin 3) K} (hP : P.totalDegree ≤ n) : F P = G P := by
  have hF0 : F 0 = 0 := by have := hF 0 0; rw [add_zero] at this; exact left_eq_add.1 this
  have hG0 : G 0 = 0 := by have := hG 0 0; rw [add_zero] at this; exact left_eq_add.1 this
  have key : ∀ T : Finset (Fin 3 →₀ ℕ), T ⊆ P.support → F (∑ v ∈ T, monomial v (coeff v P)) = G (∑ v ∈ T, monomial v (coeff v P)) := by
    intro T
    induction T using Finset.induction_on with
    | empty => intro _; rw [Finset.sum_empty, hF0, hG0]
    | insert v T hv ih =>
      intro hT
      rw [Finset.sum_insert hv, hF, hG, ih fun x hx => hT (Finset.mem_insert_of_mem hx), h]
      have hd := le_totalDegree (hT (Finset.mem_insert_self v T))
      have e : (v.sum fun _ e => e) = v 0 + v 1 + v 2 := by
        rw [Finsupp.sum_fintype _ _ (by intro _; rfl), Fin.sum_univ_three]
      omega
  have := key P.support (Finset.Subset.refl _)
  rwa [← P.as_sum] at this

theorem lap_poly {dx : K} (hdx : dx ≠ 0) {P : MvPolynomial (Fin 3) K} (hP : P.totalDegree ≤ 3) (o : Fin 3 → K) (i j k : Int) :
    lap3 dx (sample P o dx) i j k = sample (polyLap P) o dx i j k := by
  refine poly_ext_deg (F := fun P => lap3 dx (sample P o dx) i j k) (G := fun P => sample (polyLap P) o dx i j k) ?_ ?_ ?_ hP
  · intro P Q; simp only [sample_add]; exact lap3_add dx _ _ i j k
  · intro P Q; simp only [polyLap_add, sample_add]
  · intro s c hs; exact lap_monomial hdx s hs c o i j k

/-! ### Biharmonic -/

/-- `a (a-1) (a-2) (a-3) x ^ (a-4)`. -/
def d4 (a : ℕ) (x : K) : K := (a : K) * ((a - 1 : ℕ) : K) * ((a - 2 : ℕ) : K) * ((a - 3 : ℕ) : K) * x ^ (a - 4)

theorem d4_exact {dx : K} (hdx : dx ≠ 0) {a : ℕ} (ha : a ≤ 5) (x : K) :
    ((x + dx + dx) ^ a - 4 * (x + dx) ^ a + 6 * x ^ a - 4 * (x - dx) ^ a + (x - dx - dx) ^ a) / dx ^ 4 = d4 a x := by
  unfold d4
  interval_cases a <;> field_simp <;> norm_num <;> ring

/-- Mixed fourth difference. -/
theorem dd_mixed {dx : K} (hdx : dx ≠ 0) {a b : ℕ} (hab : a + b ≤ 5) (x y : K) :
    ((x + dx) ^ a - 2 * x ^ a + (x - dx) ^ a) / dx ^ 2 * (((y + dx) ^ b - 2 * y ^ b + (y - dx) ^ b) / dx ^ 2) = dd a x * dd b y := by
  by_cases h : a ≤ 3 ∧ b ≤ 3
  · rw [dd_exact hdx h.1, dd_exact hdx h.2]
  · have : a ≤ 1 ∨ b ≤ 1 := by omega
    rcases this with h | h
    · rw [dd_exact hdx (a := a) (by omega)]
      have : dd a x = 0 := by unfold dd; interval_cases a <;> simp
      rw [this, zero_mul, zero_mul]
    · rw [dd_exact hdx (a := b) (by omega)]
      have : dd b y = 0 := by unfold dd; interval_cases b <;> simp
      rw [this, mul_zero, mul_zero]

theorem polyLap_monomial (s : Fin 3 →₀ ℕ) (c : K) : polyLap (monomial s c) =
    monomial (s - Finsupp.single 0 2) (c * ((s 0 : K) * ((s 0 - 1 : ℕ) : K))) +
    monomial (s - Finsupp.single 1 2) (c * ((s 1 : K) * ((s 1 - 1 : ℕ) : K))) +
    monomial (s - Finsupp.single 2 2) (c * ((s 2 : K) * ((s 2 - 1 : ℕ) : K))) := by
  have h : ∀ t : Fin 3, pderiv t (pderiv t (monomial s c)) = monomial (s - Finsupp.single t 2) (c * ((s t : K) * ((s t - 1 : ℕ) : K))) := by
    intro t
    rw [pderiv_monomial, pderiv_monomial, tsub_tsub, ← Finsupp.single_add]
    simp only [Finsupp.coe_tsub, Pi.sub_apply, Finsupp.single_eq_same, mul_assoc]
  unfold polyLap
  rw [h, h, h]

theorem dd_pow (a : ℕ) (x : K) : (a : K) * ((a - 1 : ℕ) : K) * dd (a - 2) x = d4 a x := by
  unfold dd d4
  rw [show a - 2 - 1 = a - 3 by omega, show a - 2 - 2 = a - 4 by omega]
  ring

theorem sample_bilap_monomial (s : Fin 3 →₀ ℕ) (c : K) (o : Fin 3 → K) (dx : K) (i j k : Int) (x y z : K)
    (hx : x = o 0 + (i : K) * dx) (hy : y = o 1 + (j : K) * dx) (hz : z = o 2 + (k : K) * dx) :
    sample (polyLap (polyLap (monomial s c))) o dx i j k = c * (
      d4 (s 0) x * y ^ s 1 * z ^ s 2 + x ^ s 0 * d4 (s 1) y * z ^ s 2 + x ^ s 0 * y ^ s 1 * d4 (s 2) z +
      2 * (dd (s 0) x * dd (s 1) y) * z ^ s 2 + 2 * (dd (s 0) x * dd (s 2) z) * y ^ s 1 + 2 * (dd (s 1) y * dd (s 2) z) * x ^ s 0) := by
  rw [polyLap_monomial, polyLap_add, polyLap_add]
  simp only [sample_add, eval_lap_monomial]
  rw [← hx, ← hy, ← hz, ← dd_pow (s 0), ← dd_pow (s 1), ← dd_pow (s 2)]
  simp only [Finsupp.coe_tsub, Pi.sub_apply, Finsupp.single_apply]
  simp only [Fin.isValue, if_true, show ((0 : Fin 3) = 1) = False from by simp, show ((0 : Fin 3) = 2) = False from by simp,
    show ((1 : Fin 3) = 0) = False from by simp, show ((1 : Fin 3) = 2) = False from by simp,
    show ((2 : Fin 3) = 0) = False from by simp, show ((2 : Fin 3) = 1) = False from by simp, if_false, Nat.sub_zero]
  have e : ∀ (a : ℕ) (q : K), dd a q = (a : K) * ((a - 1 : ℕ) : K) * q ^ (a - 2) := fun _ _ => rfl
  rw [e (s 0), e (s 1), e (s 2)]
  ring

theorem bih_monomial {dx : K} (hdx : dx ≠ 0) (s : Fin 3 →₀ ℕ) (hs : s 0 + s 1 + s 2 ≤ 5) (c : K) (o : Fin 3 → K) (i j k : Int) :
    bih3 dx (sample (monomial s c) o dx) i j k = sample (polyLap (polyLap (monomial s c))) o dx i j k := by
  rw [sample_bilap_monomial s c o dx i j k _ _ _ rfl rfl rfl, ← d4_exact hdx (a := s 0) (by omega), ← d4_exact hdx (a := s 1) (by omega),
    ← d4_exact hdx (a := s 2) (by omega), ← dd_mixed hdx (a := s 0) (b := s 1) (by omega), ← dd_mixed hdx (a := s 0) (b := s 2) (by omega),
    ← dd_mixed hdx (a := s 1) (b := s 2) (by omega)]
  simp only [bih3, lap3, d2x, d2y, d2z, sample_monomial]
  push_cast
  have ep : ∀ (q : K) (n : Int), q + ((n : K) + 1) * dx = q + (n : K) * dx + dx := fun q n => by ring
  have em : ∀ (q : K) (n : Int), q + ((n : K) - 1) * dx = q + (n : K) * dx - dx := fun q n => by ring
  have epp : ∀ (q : K) (n : Int), q + ((n : K) + 1 + 1) * dx = q + (n : K) * dx + dx + dx := fun q n => by ring
  have emm : ∀ (q : K) (n : Int), q + ((n : K) - 1 - 1) * dx = q + (n : K) * dx - dx - dx := fun q n => by ring
  have epm : ∀ (q : K) (n : Int), q + ((n : K) + 1 - 1) * dx = q + (n : K) * dx := fun q n => by ring
  have emp : ∀ (q : K) (n : Int), q + ((n : K) - 1 + 1) * dx = q + (n : K) * dx := fun q n => by ring
  simp only [ep, em, epp, emm, epm, emp]
  generalize o 0 + (i : K) * dx = x
  generalize o 1 + (j : K) * dx = y
  generalize o 2 + (k : K) * dx = z
  generalize (x + dx + dx) ^ s 0 = x2
  generalize (x + dx) ^ s 0 = x1
  generalize (x - dx - dx) ^ s 0 = x2'
  generalize (x - dx) ^ s 0 = x1'
  generalize x ^ s 0 = x0
  generalize (y + dx + dx) ^ s 1 = y2
  generalize (y + dx) ^ s 1 = y1
  generalize (y - dx - dx) ^ s 1 = y2'
  generalize (y - dx) ^ s 1 = y1'
  generalize y ^ s 1 = y0
  generalize (z + dx + dx) ^ s 2 = z2
  generalize (z + dx) ^ s 2 = z1
  generalize (z - dx - dx) ^ s 2 = z2'
  generalize (z - dx) ^ s 2 = z1'
  generalize z ^ s 2 = z0
  ring

theorem bih_poly {dx : K} (hdx : dx ≠ 0) {P : MvPolynomial (Fin 3) K} (hP : P.totalDegree ≤ 5) (o : Fin 3 → K) (i j k : Int) :
    bih3 dx (sample P o dx) i j k = sample (polyLap (polyLap P)) o dx i j k := by
  refine poly_ext_deg (F := fun P => bih3 dx (sample P o dx) i j k) (G := fun P => sample (polyLap (polyLap P)) o dx i j k) ?_ ?_ ?_ hP
  · intro P Q; simp only [sample_add]; exact bih3_add dx _ _ i j k
  · intro P Q; simp only [polyLap_add, sample_add]
  · intro s c hs; exact bih_monomial hdx s hs c o i j k

end Madg
