/-
The 2D Cahn–Hilliard right-hand side in floating-point arithmetic with overflow.
-/
import Verif.Proofs.IeeeCH
import Verif.Proofs.CH2A

set_option linter.unusedSectionVars false
set_option linter.unusedVariables false

namespace Madg
open Spec
variable {F : IeeeFmt} (hp : 4 ≤ F.prec) (he : F.emin ≤ 0) (hm : 8 ≤ F.emax)
include hp he hm

/-- The biharmonic stencil. -/
theorem Same.bih2 {M : ℚ} (hM : 0 ≤ M) (hX : 700000 * M < (2 : ℚ) ^ F.emax)
    {f : Int → Int → Ieee F} {f' : Int → Int → Fl F.toFloatFmt.round} (hf : ∀ x y : Int, Same (f x y) (f' x y) M)
    {d : Ieee F} {d' : Fl F.toFloatFmt.round} {D : ℚ} (hd : Same d d' 8) (hD : 0 < D) (hl : D / 8 ≤ |d'.val|)
    (hX2 : 11200000 * (M / D) < (2 : ℚ) ^ F.emax) :
    Same (Geom2.biharmExpr f d) (Geom2.biharmExpr f' d') (11200000 * (M / D)) := by
  have b256 := emax_big hp he hm
  have c20 : Same (20 : Ieee F) (20 : Fl F.toFloatFmt.round) 40 :=
    (Same.nat (F := F) (by omega) 20 (by push_cast; linarith)).mono (by norm_num)
  have t20 := c20.mul' (by omega) (hf 0 0) (q := 80 * M) (by linarith) (by linarith)
  have t8 : ∀ x y, Same (8 * f x y) (8 * f' x y) (16 * M) := fun x y =>
    (Same.ofNat (F := F) hp he hm 8 (by norm_num)).1.mul' (by omega) (hf x y) (by push_cast; linarith) (by linarith)
  have t2 : ∀ x y, Same (2 * f x y) (2 * f' x y) (4 * M) := fun x y =>
    (Same.ofNat (F := F) hp he hm 2 (by norm_num)).1.mul' (by omega) (hf x y) (by push_cast; linarith) (by linarith)
  have t1 : Same (1 * f 0 (-2)) (1 * f' 0 (-2)) (2 * M) := (Same.one (F := F) hp he hm).mul' (by omega) (hf 0 (-2)) (by linarith) (by linarith)
  have s1 := (hf 0 2).add' (by omega) (t2 (-1) 1) (q := 10 * M) (by linarith) (by linarith)
  have s2 := s1.sub' (by omega) (t8 0 1) (q := 52 * M) (by linarith) (by linarith)
  have s3 := s2.add' (by omega) (t2 1 1) (q := 112 * M) (by linarith) (by linarith)
  have s4 := s3.add' (by omega) (hf (-2) 0) (q := 226 * M) (by linarith) (by linarith)
  have s5 := s4.sub' (by omega) (t8 (-1) 0) (q := 484 * M) (by linarith) (by linarith)
  have s6 := s5.add' (by omega) t20 (q := 1128 * M) (by linarith) (by linarith)
  have s7 := s6.sub' (by omega) (t8 1 0) (q := 2288 * M) (by linarith) (by linarith)
  have s8 := s7.add' (by omega) (hf 2 0) (q := 4578 * M) (by linarith) (by linarith)
  have s9 := s8.add' (by omega) (t2 (-1) (-1)) (q := 9164 * M) (by linarith) (by linarith)
  have s10 := s9.sub' (by omega) (t8 0 (-1)) (q := 18360 * M) (by linarith) (by linarith)
  have s11 := s10.add' (by omega) (t2 1 (-1)) (q := 36728 * M) (by linarith) (by linarith)
  have s12 := s11.add' (by omega) t1 (q := 700000 * M) (by linarith) hX
  exact s12.div' (by omega) hd (show 0 < D / 8 by linarith) hl (le_of_eq (by ring)) hX2

/-- The Laplacian of any field of ordinary numbers. -/
theorem Same.lap2 {M : ℚ} (hM : 0 ≤ M) {f : Int → Int → Ieee F} {f' : Int → Int → Fl F.toFloatFmt.round}
    (hf : ∀ x y : Int, Same (f x y) (f' x y) M) (hX : 212 * M < (2 : ℚ) ^ F.emax)
    {d : Ieee F} {d' : Fl F.toFloatFmt.round} {D : ℚ} (hd : Same d d' 2) (hD : 0 < D) (hl : D / 2 ≤ |d'.val|)
    (hX2 : 848 * (M / D) < (2 : ℚ) ^ F.emax) : Same (Geom2.lapExpr f d) (Geom2.lapExpr f' d') (848 * (M / D)) := by
  have b256 := emax_big hp he hm
  have MD : 0 ≤ M / D := div_nonneg hM hD.le
  have t2 := (Same.ofNat (F := F) hp he hm 2 (by norm_num)).1.mul' (by omega) (hf 0 0) (q := 4 * M) (by push_cast; linarith) (by linarith)
  have line : ∀ {a b : Ieee F} {a' b' : Fl F.toFloatFmt.round}, Same a a' M → Same b b' M →
      Same ((a - 2 * f 0 0 + b) / d) ((a' - 2 * f' 0 0 + b') / d') (88 * (M / D)) := by
    intro a b a' b' ha hb
    have s1 := ha.sub' (by omega) t2 (q := 10 * M) (by linarith) (by linarith)
    have s2 := s1.add' (by omega) hb (q := 22 * M) (by linarith) (by linarith)
    exact s2.div' (by omega) hd (show 0 < D / 2 by linarith) hl (le_of_eq (by ring)) (by linarith)
  exact (line (hf (-1) 0) (hf 1 0)).add' (by omega) (line (hf 0 (-1)) (hf 0 1)) (by linarith) hX2

variable {u τ : ℚ} (hr : Rounds F.toFloatFmt.round u τ)
include hr

/-- The right-hand side. -/
theorem Same.ch2 {E M : ℚ} (hE : 1 ≤ E) (hM : 1 ≤ M) {p : CHParams (Ieee F)} {p' : CHParams (Fl F.toFloatFmt.round)}
    (h1 : Same p.eps2 p'.eps2 E) (h2 : Same p.sigma p'.sigma E) (h3 : Same p.m p'.m E) {dx : Ieee F} {dx' : Fl F.toFloatFmt.round}
    (hdx : Same dx dx' 1) (hs : Spacing τ dx'.val) (hX : chSize E M dx'.val < (2 : ℚ) ^ F.emax)
    {f : Int → Int → Ieee F} {f' : Int → Int → Fl F.toFloatFmt.round} (hf : ∀ x y : Int, Same (f x y) (f' x y) M)
    (i j : Int) : Same (chA2 p dx f i j) (chA2 p' dx' f' i j) (chSize E M dx'.val) := by
  have b256 := emax_big hp he hm
  have d0 := hs.1
  have d1 : dx'.val ≤ 1 := (le_abs_self _).trans hdx.le
  have fc := hs.facts hr
  have t0 := hr.tiny.1
  obtain ⟨D, hD⟩ : ∃ D, D = dx'.val ^ 4 := ⟨_, rfl⟩
  have D0 : 0 < D := by rw [hD]; positivity
  have D1 : D ≤ 1 := by rw [hD]; exact pow_le_one₀ d0.le d1
  have D2 : D ≤ dx'.val ^ 2 := by rw [hD]; exact pow_le_pow_of_le_one d0.le d1 (by norm_num)
  obtain ⟨Z, hZ⟩ : ∃ Z, Z = M ^ 3 := ⟨_, rfl⟩
  have MZ : M ≤ Z := by rw [hZ]; exact le_self_pow₀ hM (by norm_num)
  obtain ⟨a, ha⟩ : ∃ a, a = E * Z / D := ⟨_, rfl⟩
  obtain ⟨b, hb⟩ : ∃ b, b = E * E / D := ⟨_, rfl⟩
  have hQ : chSize E M dx'.val = 2 ^ 27 * (a + b) := by
    rw [ha, hb, hD, hZ]
    unfold chSize
    ring
  rw [hQ] at hX ⊢
  have ZD : Z / D ≤ a := by rw [ha]; exact div_le_div_of_nonneg_right (by nlinarith) D0.le
  have Z1 : Z ≤ Z / D := by rw [le_div_iff₀ D0]; nlinarith
  have MD : M / D ≤ Z / D := div_le_div_of_nonneg_right MZ D0.le
  have EMa : E * (M / D) ≤ a := by rw [ha, mul_div_assoc]; exact mul_le_mul_of_nonneg_left MD (by linarith)
  have EM : E * M ≤ a := (mul_le_mul_of_nonneg_left (MZ.trans Z1) (by linarith)).trans (by rw [ha, mul_div_assoc])
  have EE : E * E ≤ b := by rw [hb, le_div_iff₀ D0]; nlinarith
  have E1 : E ≤ E * E := by nlinarith
  have b0 : 0 ≤ b := by linarith [mul_nonneg (by linarith : 0 ≤ E) (by linarith : 0 ≤ E)]
  have a0 : 0 ≤ a := by linarith
  have ld2 : dx'.val ^ 2 / 2 ≤ (dx' * dx').val := by
    rw [pow_two]
    exact half_le_round hr (by positivity) (by rw [← pow_two]; linarith [fc.1])
  have s2 : Same (dx * dx) (dx' * dx') 2 := hdx.mul' (by omega) hdx (by norm_num) (by linarith)
  have l4 : D / 8 ≤ |(dx' * dx' * dx' * dx').val| := by
    refine le_trans ?_ (le_abs_self _)
    rw [hD]
    have l3 : dx'.val ^ 3 / 4 ≤ (dx' * dx' * dx').val := by
      have q : dx'.val ^ 3 / 2 ≤ (dx' * dx').val * dx'.val := by
        calc dx'.val ^ 3 / 2 = dx'.val ^ 2 / 2 * dx'.val := by ring
          _ ≤ _ := by gcongr
      exact le_trans (by linarith) (half_le_round hr (x := (dx' * dx').val * dx'.val) (by nlinarith [pow_pos d0 3]) (by linarith [fc.2.1]))
    have q : dx'.val ^ 4 / 4 ≤ (dx' * dx' * dx').val * dx'.val := by
      calc dx'.val ^ 4 / 4 = dx'.val ^ 3 / 4 * dx'.val := by ring
        _ ≤ _ := by gcongr
    exact le_trans (by linarith) (half_le_round hr (x := (dx' * dx' * dx').val * dx'.val) (by linarith [hs.2.1]) (by linarith [hs.2.1]))
  have s4 : Same (dx * dx * dx * dx) (dx' * dx' * dx' * dx') 8 :=
    (s2.mul' (by omega) hdx (q := 4) (by norm_num) (by linarith)).mul' (by omega) hdx (by norm_num) (by linarith)
  have hb1 := Same.bih2 hp he hm (M := M) (by linarith) (by linarith) (f := fun x y => f (i + x) (j + y))
    (f' := fun x y => f' (i + x) (j + y)) (fun x y => hf _ _) s4 D0 l4 (by linarith)
  have x1 := (h1.neg).mul' (by omega) hb1 (q := 24000000 * a) (by linarith) (by linarith)
  have hg : ∀ x y, Same (f x y ^ 3 - f x y) (f' x y ^ 3 - f' x y) (6 * Z) := fun x y => by
    have c := (hf x y).pow (by omega) 3 (by rw [← hZ]; linarith)
    rw [← hZ] at c
    exact c.sub' (by omega) (hf x y) (by linarith) (by linarith)
  have zd2 : 6 * Z / dx'.val ^ 2 ≤ 6 * (Z / D) := by
    rw [mul_div_assoc]
    exact mul_le_mul_of_nonneg_left (div_le_div_of_nonneg_left (by linarith) D0 D2) (by norm_num)
  have hl1 := Same.lap2 hp he hm (M := 6 * Z) (by linarith) (f := fun x y => f (i + x) (j + y) ^ 3 - f (i + x) (j + y))
    (f' := fun x y => f' (i + x) (j + y) ^ 3 - f' (i + x) (j + y)) (fun x y => hg _ _) (by linarith) s2
    (by positivity) (ld2.trans (le_abs_self _)) (by linarith)
  have x2 := x1.add' (by omega) hl1 (q := 48100000 * a) (by linarith) (by linarith)
  have x3 := h2.mul' (by omega) ((hf i j).sub' (by omega) h3 (q := 2 * (M + E)) le_rfl (by linarith)) (q := 4 * (a + b)) (by linarith)
    (by linarith)
  exact x2.sub' (by omega) x3 (by linarith) hX

end Madg
