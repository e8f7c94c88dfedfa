/-
The Cahn–Hilliard right-hand side and the stages of the explicit methods in floating-point arithmetic with overflow: while the states
stay bounded nothing overflows and the values are those of rounded arithmetic.
-/
import Verif.Proofs.IeeePois
import Verif.Proofs.RoundConv

set_option linter.unusedSectionVars false
set_option linter.unusedVariables false

namespace Madg
open Spec
variable {F : IeeeFmt}

section
variable (hp : 4 ≤ F.prec) (he : F.emin ≤ 0) (hm : 8 ≤ F.emax)
include hp he hm

/-- The numerator of the biharmonic stencil. -/
theorem Same.bih {M : ℚ} (hM : 0 ≤ M) (hX : 700000 * M < (2 : ℚ) ^ F.emax)
    {f : Int → Int → Int → Ieee F} {f' : Int → Int → Int → Fl F.toFloatFmt.round} (hf : ∀ x y z : Int, Same (f x y z) (f' x y z) M)
    {d : Ieee F} {d' : Fl F.toFloatFmt.round} {D : ℚ} (hd : Same d d' 8) (hD : 0 < D) (hl : D / 8 ≤ |d'.val|)
    (hX2 : 11200000 * (M / D) < (2 : ℚ) ^ F.emax) :
    Same (Geom3.biharmExpr f d) (Geom3.biharmExpr f' d') (11200000 * (M / D)) := by
  have b256 := emax_big hp he hm
  have six : ∀ {a1 a2 a3 a4 a5 a6 : Ieee F} {x1 x2 x3 x4 x5 x6 : Fl F.toFloatFmt.round}, Same a1 x1 M → Same a2 x2 M → Same a3 x3 M →
      Same a4 x4 M → Same a5 x5 M → Same a6 x6 M →
      Same (a1 + a2 + a3 + a4 + a5 + a6) (x1 + x2 + x3 + x4 + x5 + x6) (94 * M) := by
    intro a1 a2 a3 a4 a5 a6 x1 x2 x3 x4 x5 x6 h1 h2 h3 h4 h5 h6
    have s1 := h1.add' (by omega) h2 (q := 4 * M) (by linarith) (by linarith)
    have s2 := s1.add' (by omega) h3 (q := 10 * M) (by linarith) (by linarith)
    have s3 := s2.add' (by omega) h4 (q := 22 * M) (by linarith) (by linarith)
    have s4 := s3.add' (by omega) h5 (q := 46 * M) (by linarith) (by linarith)
    exact s4.add' (by omega) h6 (q := 94 * M) (by linarith) (by linarith)
  have c42 : Same (42 : Ieee F) (42 : Fl F.toFloatFmt.round) 84 :=
    (Same.nat (F := F) (by omega) 42 (by push_cast; linarith)).mono (by norm_num)
  have c12 := (Same.ofNat (F := F) hp he hm 12 (by norm_num)).1
  have c2 := (Same.ofNat (F := F) hp he hm 2 (by norm_num)).1
  have t0 := c42.mul' (by omega) (hf 0 0 0) (q := 168 * M) (by linarith) (by linarith)
  have t1 := c12.mul' (by omega) (six (hf 1 0 0) (hf 0 1 0) (hf 0 0 1) (hf (-1) 0 0) (hf 0 (-1) 0) (hf 0 0 (-1))) (q := 2256 * M)
    (by push_cast; linarith) (by linarith)
  have t2 := t0.sub' (by omega) t1 (q := 4848 * M) (by linarith) (by linarith)
  have t3 := t2.add' (by omega) (hf 2 0 0) (q := 9698 * M) (by linarith) (by linarith)
  have t4 := t3.add' (by omega) (hf 0 2 0) (q := 19398 * M) (by linarith) (by linarith)
  have t5 := t4.add' (by omega) (hf 0 0 2) (q := 38798 * M) (by linarith) (by linarith)
  have t6 := t5.add' (by omega) (hf (-2) 0 0) (q := 77598 * M) (by linarith) (by linarith)
  have t7 := t6.add' (by omega) (hf 0 (-2) 0) (q := 155198 * M) (by linarith) (by linarith)
  have t8 := t7.add' (by omega) (hf 0 0 (-2)) (q := 310398 * M) (by linarith) (by linarith)
  have r0 := six (hf (-1) (-1) 0) (hf (-1) 1 0) (hf 1 (-1) 0) (hf 1 1 0) (hf (-1) 0 (-1)) (hf 1 0 (-1))
  have r1 := r0.add' (by omega) (hf 0 (-1) (-1)) (q := 190 * M) (by linarith) (by linarith)
  have r2 := r1.add' (by omega) (hf 0 1 (-1)) (q := 382 * M) (by linarith) (by linarith)
  have r3 := r2.add' (by omega) (hf (-1) 0 1) (q := 766 * M) (by linarith) (by linarith)
  have r4 := r3.add' (by omega) (hf 1 0 1) (q := 1534 * M) (by linarith) (by linarith)
  have r5 := r4.add' (by omega) (hf 0 (-1) 1) (q := 3070 * M) (by linarith) (by linarith)
  have r6 := r5.add' (by omega) (hf 0 1 1) (q := 6142 * M) (by linarith) (by linarith)
  have r7 := c2.mul' (by omega) r6 (q := 24568 * M) (by push_cast; linarith) (by linarith)
  have n := t8.add' (by omega) r7 (q := 700000 * M) (by linarith) hX
  exact n.div' (by omega) hd (show 0 < D / 8 by linarith) hl (le_of_eq (by ring)) hX2

/-- The Laplacian of any field of ordinary numbers. -/
theorem Same.lap {M : ℚ} (hM : 0 ≤ M) {f : Int → Int → Int → Ieee F} {f' : Int → Int → Int → Fl F.toFloatFmt.round}
    (hf : ∀ x y z : Int, Same (f x y z) (f' x y z) M) (hX : 212 * M < (2 : ℚ) ^ F.emax)
    {d : Ieee F} {d' : Fl F.toFloatFmt.round} {D : ℚ} (hd : Same d d' 2) (hD : 0 < D) (hl : D / 2 ≤ |d'.val|)
    (hX2 : 848 * (M / D) < (2 : ℚ) ^ F.emax) : Same (Geom3.lapExpr f d) (Geom3.lapExpr f' d') (848 * (M / D)) := by
  have b256 := emax_big hp he hm
  have s1 := (hf (-1) 0 0).add' (by omega) (hf 1 0 0) (q := 4 * M) (by linarith) (by linarith)
  have s2 := s1.add' (by omega) (hf 0 (-1) 0) (q := 10 * M) (by linarith) (by linarith)
  have s3 := s2.add' (by omega) (hf 0 1 0) (q := 22 * M) (by linarith) (by linarith)
  have s4 := s3.add' (by omega) (hf 0 0 (-1)) (q := 46 * M) (by linarith) (by linarith)
  have s5 := s4.add' (by omega) (hf 0 0 1) (q := 94 * M) (by linarith) (by linarith)
  have six := (Same.ofNat (F := F) hp he hm 6 (by norm_num)).1
  have s6 := six.mul' (by omega) (hf 0 0 0) (q := 12 * M) (by push_cast; linarith) (by linarith)
  have s7 := s5.sub' (by omega) s6 (q := 212 * M) (by linarith) (by linarith)
  exact s7.div' (by omega) hd (show 0 < D / 2 by linarith) hl (le_of_eq (by ring)) hX2

/-- Size of the intermediate results of a step: parameters of size at most `E`, states of size at most `M`. -/
def chSize (E M dx : ℚ) : ℚ := 2 ^ 27 * (E * (M ^ 3 + E) / dx ^ 4)

variable {u τ : ℚ} (hr : Rounds F.toFloatFmt.round u τ)
include hr

/-- The right-hand side. -/
theorem Same.ch {E M : ℚ} (hE : 1 ≤ E) (hM : 1 ≤ M) {p : CHParams (Ieee F)} {p' : CHParams (Fl F.toFloatFmt.round)}
    (h1 : Same p.eps2 p'.eps2 E) (h2 : Same p.sigma p'.sigma E) (h3 : Same p.m p'.m E) {dx : Ieee F} {dx' : Fl F.toFloatFmt.round}
    (hdx : Same dx dx' 1) (hs : Spacing τ dx'.val) (hX : chSize E M dx'.val < (2 : ℚ) ^ F.emax)
    {f : Int → Int → Int → Ieee F} {f' : Int → Int → Int → Fl F.toFloatFmt.round} (hf : ∀ x y z : Int, Same (f x y z) (f' x y z) M)
    (v : Int) (i j k : Int) : Same (chA p dx (dx4A v dx) f i j k) (chA p' dx' (dx4A v dx') f' i j k) (chSize E M dx'.val) := by
  have b256 := emax_big hp he hm
  have d0 := hs.1
  have d1 : dx'.val ≤ 1 := (le_abs_self _).trans hdx.le
  have fc := hs.facts hr
  have t0 := hr.tiny.1
  obtain ⟨D, hD⟩ : ∃ D, D = dx'.val ^ 4 := ⟨_, rfl⟩
  have D0 : 0 < D := by rw [hD]; positivity
  have D1 : D ≤ 1 := by rw [hD]; exact pow_le_one₀ d0.le d1
  have D2 : D ≤ dx'.val ^ 2 := by rw [hD]; exact pow_le_pow_of_le_one d0.le d1 (by norm_num)
  obtain ⟨Z, hZ⟩ : ∃ Z, Z = M ^ 3 := ⟨_, rfl⟩
  have MZ : M ≤ Z := by rw [hZ]; exact le_self_pow₀ hM (by norm_num)
  obtain ⟨a, ha⟩ : ∃ a, a = E * Z / D := ⟨_, rfl⟩
  obtain ⟨b, hb⟩ : ∃ b, b = E * E / D := ⟨_, rfl⟩
  have hQ : chSize E M dx'.val = 2 ^ 27 * (a + b) := by
    rw [ha, hb, hD, hZ]
    unfold chSize
    ring
  rw [hQ] at hX ⊢
  have ZD : Z / D ≤ a := by rw [ha]; exact div_le_div_of_nonneg_right (by nlinarith) D0.le
  have Z1 : Z ≤ Z / D := by rw [le_div_iff₀ D0]; nlinarith
  have MD : M / D ≤ Z / D := div_le_div_of_nonneg_right MZ D0.le
  have EMa : E * (M / D) ≤ a := by rw [ha, mul_div_assoc]; exact mul_le_mul_of_nonneg_left MD (by linarith)
  have EM : E * M ≤ a := (mul_le_mul_of_nonneg_left (MZ.trans Z1) (by linarith)).trans (by rw [ha, mul_div_assoc])
  have EE : E * E ≤ b := by rw [hb, le_div_iff₀ D0]; nlinarith
  have E1 : E ≤ E * E := by nlinarith
  have b0 : 0 ≤ b := by linarith [mul_nonneg (by linarith : 0 ≤ E) (by linarith : 0 ≤ E)]
  have a0 : 0 ≤ a := by linarith
  have ld2 : dx'.val ^ 2 / 2 ≤ (dx' * dx').val := by
    rw [pow_two]
    exact half_le_round hr (by positivity) (by rw [← pow_two]; linarith [fc.1])
  have s2 : Same (dx * dx) (dx' * dx') 2 := hdx.mul' (by omega) hdx (by norm_num) (by linarith)
  have l4 : D / 8 ≤ |(dx4A v dx').val| := by
    refine le_trans ?_ (le_abs_self _)
    rw [hD]
    unfold dx4A
    split
    · have l3 : dx'.val ^ 3 / 4 ≤ (dx' * dx' * dx').val := by
        have q : dx'.val ^ 3 / 2 ≤ (dx' * dx').val * dx'.val := by
          calc dx'.val ^ 3 / 2 = dx'.val ^ 2 / 2 * dx'.val := by ring
            _ ≤ _ := by gcongr
        exact le_trans (by linarith) (half_le_round hr (x := (dx' * dx').val * dx'.val) (by nlinarith [pow_pos d0 3]) (by linarith [fc.2.1]))
      have q : dx'.val ^ 4 / 4 ≤ (dx' * dx' * dx').val * dx'.val := by
        calc dx'.val ^ 4 / 4 = dx'.val ^ 3 / 4 * dx'.val := by ring
          _ ≤ _ := by gcongr
      exact le_trans (by linarith) (half_le_round hr (x := (dx' * dx' * dx').val * dx'.val) (by linarith [hs.2.1]) (by linarith [hs.2.1]))
    · have q : dx'.val ^ 4 / 4 ≤ (dx' * dx').val * (dx' * dx').val := by
        calc dx'.val ^ 4 / 4 = dx'.val ^ 2 / 2 * (dx'.val ^ 2 / 2) := by ring
          _ ≤ _ := mul_le_mul ld2 ld2 (by positivity) (le_trans (by positivity) ld2)
      exact le_trans (by linarith) (half_le_round hr (x := (dx' * dx').val * (dx' * dx').val) (by linarith [hs.2.1]) (by linarith [hs.2.1]))
  have s4 : Same (dx4A v dx) (dx4A v dx') 8 := by
    unfold dx4A
    split
    · exact (s2.mul' (by omega) hdx (q := 4) (by norm_num) (by linarith)).mul' (by omega) hdx (by norm_num) (by linarith)
    · exact s2.mul' (by omega) s2 (by norm_num) (by linarith)
  have hb1 := Same.bih hp he hm (M := M) (by linarith) (by linarith) (f := fun x y z => f (i + x) (j + y) (k + z))
    (f' := fun x y z => f' (i + x) (j + y) (k + z)) (fun x y z => hf _ _ _) s4 D0 l4 (by linarith)
  have x1 := (h1.neg).mul' (by omega) hb1 (q := 24000000 * a) (by linarith) (by linarith)
  have hg : ∀ x y z, Same (f x y z ^ 3 - f x y z) (f' x y z ^ 3 - f' x y z) (6 * Z) := fun x y z => by
    have c := (hf x y z).pow (by omega) 3 (by rw [← hZ]; linarith)
    rw [← hZ] at c
    exact c.sub' (by omega) (hf x y z) (by linarith) (by linarith)
  have zd2 : 6 * Z / dx'.val ^ 2 ≤ 6 * (Z / D) := by
    rw [mul_div_assoc]
    exact mul_le_mul_of_nonneg_left (div_le_div_of_nonneg_left (by linarith) D0 D2) (by norm_num)
  have hl1 := Same.lap hp he hm (M := 6 * Z) (by linarith) (f := fun x y z => f (i + x) (j + y) (k + z) ^ 3 - f (i + x) (j + y) (k + z))
    (f' := fun x y z => f' (i + x) (j + y) (k + z) ^ 3 - f' (i + x) (j + y) (k + z)) (fun x y z => hg _ _ _) (by linarith) s2
    (by positivity) (ld2.trans (le_abs_self _)) (by linarith)
  have x2 := x1.add' (by omega) hl1 (q := 48100000 * a) (by linarith) (by linarith)
  have x3 := h2.mul' (by omega) ((hf i j k).sub' (by omega) h3 (q := 2 * (M + E)) le_rfl (by linarith)) (q := 4 * (a + b)) (by linarith)
    (by linarith)
  exact x2.sub' (by omega) x3 (by linarith) hX

end

section
variable {C : Type} (hp : 4 ≤ F.prec) (he : F.emin ≤ 0) (hm : 8 ≤ F.emax) {P : C → Prop} {M Q : ℚ}
  {G : (C → Ieee F) → C → Ieee F} {G' : (C → Fl F.toFloatFmt.round) → C → Fl F.toFloatFmt.round}
  (hG : ∀ (a : C → Ieee F) (x : C → Fl F.toFloatFmt.round), (∀ c, P c → Same (a c) (x c) M) → ∀ c, P c → Same (G a c) (G' x c) Q)
  (hM : 1 ≤ M) (hQ : M ≤ Q) (hX : 64 * Q < (2 : ℚ) ^ F.emax) {dt : Ieee F} {dt' : Fl F.toFloatFmt.round} (hdt : Same dt dt' 1)
  {a : C → Ieee F} {x : C → Fl F.toFloatFmt.round} (ha : ∀ c, P c → Same (a c) (x c) M)
include hp he hm hG hM hQ hX hdt ha

theorem Same.rk3_bounded (t : Ieee F) (t' : Fl F.toFloatFmt.round) (b2 : ∀ c, P c → |(x c + dt' * 1 * G' x c).val| ≤ M)
    (b3 : ∀ c, P c → |(x c + dt' * (1 / 4 * G' x c + 1 / 4 * G' (fun c => x c + dt' * 1 * G' x c) c)).val| ≤ M) (c : C) (hc : P c) :
    Same ((ssprk3Method fun _ => G).step t dt a c) ((ssprk3Method fun _ => G').step t' dt' x c) (64 * Q) := by
  have k1 := hG a x ha
  have one := Same.one (F := F) hp he hm
  have u2 : ∀ c, P c → Same (a c + dt * 1 * G a c) (x c + dt' * 1 * G' x c) M := fun c hc =>
    ((ha c hc).add' (by omega) ((hdt.mul' (by omega) one (q := 2) (by linarith) (by linarith)).mul' (by omega) (k1 c hc) (q := 4 * Q)
      (by linarith) (by linarith)) (q := 10 * Q) (by linarith) (by linarith)).bound (b2 c hc)
  have k2 := hG _ _ u2
  have quarter := one.frac hp he hm (by norm_num) 4 (by norm_num)
  have u3 : ∀ c, P c → Same (a c + dt * (1 / 4 * G a c + 1 / 4 * G (fun c => a c + dt * 1 * G a c) c))
      (x c + dt' * (1 / 4 * G' x c + 1 / 4 * G' (fun c => x c + dt' * 1 * G' x c) c)) M := fun c hc => by
    have q1 := quarter.mul' (by omega) (k1 c hc) (q := Q) (by push_cast; linarith) (by linarith)
    have q2 := quarter.mul' (by omega) (k2 c hc) (q := Q) (by push_cast; linarith) (by linarith)
    have q3 := q1.add' (by omega) q2 (q := 4 * Q) (by linarith) (by linarith)
    have q4 := hdt.mul' (by omega) q3 (q := 8 * Q) (by linarith) (by linarith)
    exact ((ha c hc).add' (by omega) q4 (q := 18 * Q) (by linarith) (by linarith)).bound (b3 c hc)
  have k3 := hG _ _ u3
  have sixth := one.frac hp he hm (by norm_num) 6 (by norm_num)
  have third := (Same.ofNat (F := F) hp he hm 2 (by norm_num)).1.frac hp he hm (by norm_num) 3 (by norm_num)
  have r1 := sixth.mul' (by omega) (k1 c hc) (q := Q) (by push_cast; linarith) (by linarith)
  have r2 := sixth.mul' (by omega) (k2 c hc) (q := Q) (by push_cast; linarith) (by linarith)
  have r3 := third.mul' (by omega) (k3 c hc) (q := 3 * Q) (by push_cast; linarith) (by linarith)
  have r4 := (r1.add' (by omega) r2 (q := 4 * Q) (by linarith) (by linarith)).add' (by omega) r3 (q := 14 * Q)
    (by linarith) (by linarith)
  have r5 := hdt.mul' (by omega) r4 (q := 28 * Q) (by linarith) (by linarith)
  exact (ha c hc).add' (by omega) r5 (by linarith) (by linarith)

theorem Same.bs23_bounded (b2 : ∀ c, P c → |(x c + dt' * (1 / 2) * G' x c).val| ≤ M)
    (b3 : ∀ c, P c → |(x c + dt' * (0 * G' x c + 3 / 4 * G' (fun c => x c + dt' * (1 / 2) * G' x c) c)).val| ≤ M) (c : C) (hc : P c) :
    Same (a c + dt * bs23Slope G dt a c) (x c + dt' * bs23Slope G' dt' x c) (64 * Q) := by
  have k1 := hG a x ha
  have one := Same.one (F := F) hp he hm
  have half := one.frac hp he hm (by norm_num) 2 (by norm_num)
  have u2 : ∀ c, P c → Same (a c + dt * (1 / 2) * G a c) (x c + dt' * (1 / 2) * G' x c) M := fun c hc =>
    ((ha c hc).add' (by omega) ((hdt.mul' (by omega) half (q := 2) (by push_cast; linarith) (by linarith)).mul' (by omega) (k1 c hc)
      (q := 4 * Q) (by linarith) (by linarith)) (q := 10 * Q) (by linarith) (by linarith)).bound (b2 c hc)
  have k2 := hG _ _ u2
  have tq := (Same.ofNat (F := F) hp he hm 3 (by norm_num)).1.frac hp he hm (by norm_num) 4 (by norm_num)
  have u3 : ∀ c, P c → Same (a c + dt * (0 * G a c + 3 / 4 * G (fun c => a c + dt * (1 / 2) * G a c) c))
      (x c + dt' * (0 * G' x c + 3 / 4 * G' (fun c => x c + dt' * (1 / 2) * G' x c) c)) M := fun c hc => by
    have q1 := Same.zero.mul' (by omega) (k1 c hc) (q := 0) (by linarith) (by linarith)
    have q2 := tq.mul' (by omega) (k2 c hc) (q := 3 * Q) (by push_cast; linarith) (by linarith)
    have q3 := q1.add' (by omega) q2 (q := 6 * Q) (by linarith) (by linarith)
    have q4 := hdt.mul' (by omega) q3 (q := 12 * Q) (by linarith) (by linarith)
    exact ((ha c hc).add' (by omega) q4 (q := 26 * Q) (by linarith) (by linarith)).bound (b3 c hc)
  have k3 := hG _ _ u3
  have w1 := (Same.ofNat (F := F) hp he hm 2 (by norm_num)).1.frac hp he hm (by norm_num) 9 (by norm_num)
  have w2 := one.frac hp he hm (by norm_num) 3 (by norm_num)
  have w3 := (Same.ofNat (F := F) hp he hm 4 (by norm_num)).1.frac hp he hm (by norm_num) 9 (by norm_num)
  have r1 := w1.mul' (by omega) (k1 c hc) (q := 8 / 9 * Q) (by push_cast; linarith) (by linarith)
  have r2 := w2.mul' (by omega) (k2 c hc) (q := 4 / 3 * Q) (by push_cast; linarith) (by linarith)
  have r3 := w3.mul' (by omega) (k3 c hc) (q := 16 / 9 * Q) (by push_cast; linarith) (by linarith)
  have r4 := (r1.add' (by omega) r2 (q := 40 / 9 * Q) (by linarith) (by linarith)).add' (by omega) r3 (q := 112 / 9 * Q)
    (by linarith) (by linarith)
  have r5 := hdt.mul' (by omega) r4 (q := 224 / 9 * Q) (by linarith) (by linarith)
  exact (ha c hc).add' (by omega) r5 (by linarith) (by linarith)

end

end Madg
