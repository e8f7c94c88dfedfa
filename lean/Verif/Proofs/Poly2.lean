/-
Two-dimensional polynomial exactness, from the three-dimensional one.
-/
import Verif.Proofs.Poly
import Verif.Spec.Poly2
import Mathlib.Algebra.MvPolynomial.Rename

namespace Madg
open Spec MvPolynomial
variable {K : Type} [Field K]

/-- A polynomial in two variables read as one in three. -/
noncomputable def lift2 (P : MvPolynomial (Fin 2) K) : MvPolynomial (Fin 3) K := rename Fin.castSucc P

theorem lift2_add (P Q : MvPolynomial (Fin 2) K) : lift2 (P + Q) = lift2 P + lift2 Q := by simp [lift2]

theorem lift2_pderiv (t : Fin 2) (P : MvPolynomial (Fin 2) K) : pderiv t.castSucc (lift2 P) = lift2 (pderiv t P) := by
  induction P using MvPolynomial.induction_on with
  | C a => simp [lift2]
  | add p q hp hq => rw [lift2_add, map_add, hp, hq, map_add, lift2_add]
  | mul_X p n hp =>
    have e : lift2 (p * X n) = lift2 p * X n.castSucc := by simp [lift2]
    have hX : lift2 (pderiv t (X n : MvPolynomial (Fin 2) K)) = pderiv t.castSucc (X n.castSucc) := by
      by_cases h : n = t
      · subst h; simp [lift2]
      · rw [pderiv_X_of_ne h, pderiv_X_of_ne (fun e => h (Fin.castSucc_injective 2 e))]; simp [lift2]
    rw [e, Derivation.leibniz, Derivation.leibniz, hp, lift2_add, ← hX]
    simp [lift2]

theorem lift2_pderiv_two (P : MvPolynomial (Fin 2) K) : pderiv 2 (lift2 P) = 0 := by
  induction P using MvPolynomial.induction_on with
  | C a => simp [lift2]
  | add p q hp hq => rw [lift2_add, map_add, hp, hq, add_zero]
  | mul_X p n hp =>
    have e : lift2 (p * X n) = lift2 p * X n.castSucc := by simp [lift2]
    rw [e, Derivation.leibniz, hp, pderiv_X_of_ne]
    · simp
    · intro h
      match n with
      | 0 => exact absurd h (by decide)
      | 1 => exact absurd h (by decide)

theorem lift2_polyLap (P : MvPolynomial (Fin 2) K) : polyLap (lift2 P) = lift2 (polyLap2 P) := by
  unfold polyLap polyLap2
  have h0 := lift2_pderiv 0 P
  have h1 := lift2_pderiv 1 P
  have h00 := lift2_pderiv 0 (pderiv 0 P)
  have h11 := lift2_pderiv 1 (pderiv 1 P)
  have e0 : (0 : Fin 2).castSucc = (0 : Fin 3) := rfl
  have e1 : (1 : Fin 2).castSucc = (1 : Fin 3) := rfl
  rw [e0] at h0 h00
  rw [e1] at h1 h11
  rw [h0, h00, h1, h11, lift2_pderiv_two, map_zero, add_zero, lift2_add]

theorem sample_lift2 (P : MvPolynomial (Fin 2) K) (o : Fin 3 → K) (dx : K) (i j k : Int) :
    sample (lift2 P) o dx i j k = sample2 P (fun t => o t.castSucc) dx i j := by
  unfold sample sample2 lift2
  rw [eval_rename]
  congr 2
  funext t
  match t with
  | 0 => rfl
  | 1 => rfl

theorem lap3_of_lap2 (dx : K) (u : Int → Int → K) : lap3 dx (fun i j _ => u i j) = fun i j _ => lap2 dx u i j := by
  funext i j k
  unfold lap3 lap2 d2x d2y d2z
  congr 1
  ring

theorem bih3_of_bih2 (dx : K) (u : Int → Int → K) : bih3 dx (fun i j _ => u i j) = fun i j _ => bih2 dx u i j := by
  unfold bih3 bih2
  rw [lap3_of_lap2, lap3_of_lap2]

/-- Origins in three dimensions extending one in two. -/
def up3 (o : Fin 2 → K) : Fin 3 → K := fun t =>
  match t with
  | 0 => o 0
  | 1 => o 1
  | 2 => 0

theorem up3_castSucc (o : Fin 2 → K) : (fun t : Fin 2 => up3 o t.castSucc) = o := by
  funext t
  match t with
  | 0 => rfl
  | 1 => rfl

theorem lap2_poly {dx : K} (hdx : dx ≠ 0) {P : MvPolynomial (Fin 2) K} (hP : P.totalDegree ≤ 3) (o : Fin 2 → K) (i j : Int) :
    lap2 dx (sample2 P o dx) i j = sample2 (polyLap2 P) o dx i j := by
  have hd : (lift2 P).totalDegree ≤ 3 := (totalDegree_rename_le _ P).trans hP
  have h := lap_poly hdx hd (up3 o) i j 0
  have e : sample (lift2 P) (up3 o) dx = fun i j _ => sample2 P o dx i j := by
    funext i j k; rw [sample_lift2, up3_castSucc]
  rw [e, lap3_of_lap2, lift2_polyLap, sample_lift2, up3_castSucc] at h
  exact h

theorem bih2_poly {dx : K} (hdx : dx ≠ 0) {P : MvPolynomial (Fin 2) K} (hP : P.totalDegree ≤ 5) (o : Fin 2 → K) (i j : Int) :
    bih2 dx (sample2 P o dx) i j = sample2 (polyLap2 (polyLap2 P)) o dx i j := by
  have hd : (lift2 P).totalDegree ≤ 5 := (totalDegree_rename_le _ P).trans hP
  have h := bih_poly hdx hd (up3 o) i j 0
  have e : sample (lift2 P) (up3 o) dx = fun i j _ => sample2 P o dx i j := by
    funext i j k; rw [sample_lift2, up3_castSucc]
  rw [e, bih3_of_bih2, lift2_polyLap, lift2_polyLap, sample_lift2, up3_castSucc] at h
  exact h

end Madg
