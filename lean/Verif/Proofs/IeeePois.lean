/-
The Poisson problem in floating-point arithmetic with overflow: nothing overflows.
-/
import Verif.Proofs.IeeeFl
import Verif.Spec.PoisOps
import Verif.Spec.RunEach
import Mathlib.Tactic.NormNum

set_option linter.unusedSectionVars false

namespace Madg
open Spec
variable {F : IeeeFmt}

namespace Same
variable {a b : Ieee F} {x y : Fl F.toFloatFmt.round} {s r q : ℚ}

theorem add' (hp : 1 ≤ F.prec) (h : Same a x s) (h' : Same b y r) (hq : 2 * (s + r) ≤ q) (hl : q < (2 : ℚ) ^ F.emax) :
    Same (a + b) (x + y) q := (h.add hp h' (hq.trans_lt hl)).mono hq

theorem sub' (hp : 1 ≤ F.prec) (h : Same a x s) (h' : Same b y r) (hq : 2 * (s + r) ≤ q) (hl : q < (2 : ℚ) ^ F.emax) :
    Same (a - b) (x - y) q := (h.sub hp h' (hq.trans_lt hl)).mono hq

theorem mul' (hp : 1 ≤ F.prec) (h : Same a x s) (h' : Same b y r) (hq : 2 * (s * r) ≤ q) (hl : q < (2 : ℚ) ^ F.emax) :
    Same (a * b) (x * y) q := (h.mul hp h' (hq.trans_lt hl)).mono hq

theorem div' {l : ℚ} (hp : 1 ≤ F.prec) (h : Same a x s) (h' : Same b y r) (hl0 : 0 < l) (hy : l ≤ |y.val|) (hq : 2 * (s / l) ≤ q)
    (hl : q < (2 : ℚ) ^ F.emax) : Same (a / b) (x / y) q := (h.div hp h' hl0 hy (hq.trans_lt hl)).mono hq

end Same

section
variable (hp : 4 ≤ F.prec) (he : F.emin ≤ 0) (hm : 8 ≤ F.emax)
include hp he hm

theorem emax_big : (256 : ℚ) ≤ (2 : ℚ) ^ F.emax := by
  have : (2 : ℚ) ^ (8 : Int) ≤ 2 ^ F.emax := zpow_le_zpow_right₀ (by norm_num) hm
  norm_num at this
  exact this

theorem small_float {n : Nat} (hn : n < 16) : F.toFloatFmt.round (n : ℚ) = n := by
  refine FloatFmt.round_float _ ⟨n, 0, ?_, he, by norm_num⟩
  have : (2 : Int) ^ 4 ≤ 2 ^ F.prec := pow_le_pow_right₀ (by norm_num) hp
  rw [abs_of_nonneg (by positivity)]
  have : (n : Int) < 16 := by exact_mod_cast hn
  linarith

theorem Same.lit {n : Nat} (hn : n < 16) : Same (n : Ieee F) (n : Fl F.toFloatFmt.round) n ∧ (n : Fl F.toFloatFmt.round).val = n := by
  have e : (n : Fl F.toFloatFmt.round).val = n := small_float hp he hm hn
  have b := emax_big hp he hm
  have n16 : (n : ℚ) < 16 := by exact_mod_cast hn
  refine ⟨(Same.nat (F := F) (by omega) n (by linarith)).bound ?_, e⟩
  rw [e, abs_of_nonneg (Nat.cast_nonneg (α := ℚ) n)]

theorem Same.one : Same (1 : Ieee F) (1 : Fl F.toFloatFmt.round) 1 := by
  have h := (Same.lit (F := F) hp he hm (n := 1) (by norm_num))
  have e1 : ((1 : Nat) : Ieee F) = 1 := by
    show Ieee.ofRat false ((1 : Nat) : ℚ) = Ieee.ofRat false 1
    rw [Nat.cast_one]
  have e2 : ((1 : Nat) : Fl F.toFloatFmt.round) = 1 := by
    have := h.2
    rw [Nat.cast_one] at this
    exact congrArg Fl.mk this
  rw [e1, e2] at h
  exact (h.1).mono (by norm_num)

theorem Same.ofNat (n : Nat) [n.AtLeastTwo] (hn : n < 16) :
    Same (OfNat.ofNat n : Ieee F) (OfNat.ofNat n : Fl F.toFloatFmt.round) n ∧ (OfNat.ofNat n : Fl F.toFloatFmt.round).val = n :=
  Same.lit hp he hm hn

/-- Literal fractions. -/
theorem Same.frac {a : Ieee F} {x : Fl F.toFloatFmt.round} {s : ℚ} (h : Same a x s) (hs : s ≤ 8) (n : Nat) [n.AtLeastTwo] (hn : n < 16) :
    Same (a / OfNat.ofNat n) (x / OfNat.ofNat n) (2 * (s / n)) := by
  obtain ⟨h1, h2⟩ := Same.ofNat (F := F) hp he hm n hn
  have n2 : 2 ≤ n := Nat.AtLeastTwo.prop
  have hn2 : (2 : ℚ) ≤ n := by exact_mod_cast n2
  refine h.div (by omega) h1 (by linarith) ?_ ?_
  · rw [h2, abs_of_nonneg (by linarith)]
  · have := emax_big hp he hm
    have : s / n ≤ s := div_le_self h.nonneg (by linarith)
    linarith

theorem Same.centre {b dx : Ieee F} {b' dx' : Fl F.toFloatFmt.round} {L n : ℚ} (hb : Same b b' L) (hdx : Same dx dx' 1)
    (hX : 16 * (L + 4 * n) < (2 : ℚ) ^ F.emax) {i : Int} (hi : |(i : ℚ)| ≤ n) (hi1 : |((i + 1 : Int) : ℚ)| ≤ n) :
    Same (centreOps b dx i) (centreOps b' dx' i) (16 * (L + 4 * n)) := by
  have L0 := hb.nonneg
  have n0 : 0 ≤ n := (abs_nonneg _).trans hi
  have face : ∀ j : Int, |(j : ℚ)| ≤ n → Same (b + dx * (j : Ieee F)) (b' + dx' * (j : Fl F.toFloatFmt.round)) (2 * (L + 4 * n)) := by
    intro j hj
    have h1 := (Same.int (F := F) (by omega) j (by linarith)).mono (show 2 * |(j : ℚ)| ≤ 2 * n by linarith)
    exact hb.add' (by omega) (hdx.mul' (by omega) h1 (q := 4 * n) (by linarith) (by linarith)) le_rfl (by linarith)
  have h := (face i hi).add' (by omega) (face (i + 1) hi1) (q := 8 * (L + 4 * n)) (by linarith) (by linarith)
  exact (((Same.one hp he hm).frac hp he hm (by norm_num) 2 (by norm_num)).mul' (by omega) h
    (by push_cast; linarith) hX)

/-- Same with the functions in place of sine and cosine. -/
theorem Same.exact {sn cs : Ieee F → Ieee F} {sn' cs' : Fl F.toFloatFmt.round → Fl F.toFloatFmt.round} {a b c : Ieee F}
    {x y z : Fl F.toFloatFmt.round} (h1 : Same (sn a) (sn' x) 1) (h2 : Same (cs b) (cs' y) 1) (h3 : Same (cs c) (cs' z) 1) :
    Same (sn a * cs b * cs c) (sn' x * cs' y * cs' z) 4 := by
  have := emax_big hp he hm
  exact (h1.mul' (by omega) h2 (q := 2) (by norm_num) (by linarith)).mul' (by omega) h3 (by norm_num) (by linarith)

/-- The stencil. -/
theorem Same.pois {M D : ℚ} (hM : 4 ≤ M) (hD : 0 < D) (hD1 : D ≤ 1) (hX : 1800 * (M / D) < (2 : ℚ) ^ F.emax)
    {f : Int → Int → Int → Ieee F} {f' : Int → Int → Int → Fl F.toFloatFmt.round}
    (hf : ∀ x y z : Int, x.natAbs + y.natAbs + z.natAbs ≤ 1 → Same (f x y z) (f' x y z) M) {dx : Ieee F} {dx' : Fl F.toFloatFmt.round}
    (hdx : Same dx dx' 1) (hl : D / 2 ≤ |(dx' * dx').val|) {a b c : Ieee F} {x y z : Fl F.toFloatFmt.round}
    (h1 : Same a x 1) (h2 : Same b y 1) (h3 : Same c z 1) :
    Same ((f (-1) 0 0 + f 1 0 0 + f 0 (-1) 0 + f 0 1 0 + f 0 0 (-1) + f 0 0 1 - 6 * f 0 0 0) / (dx * dx) + 3 * a * b * c)
      ((f' (-1) 0 0 + f' 1 0 0 + f' 0 (-1) 0 + f' 0 1 0 + f' 0 0 (-1) + f' 0 0 1 - 6 * f' 0 0 0) / (dx' * dx') + 3 * x * y * z)
      (1800 * (M / D)) := by
  have hQ : M ≤ M / D := by rw [le_div_iff₀ hD]; nlinarith
  have b256 := emax_big hp he hm
  have s1 := (hf (-1) 0 0 (by decide)).add' (by omega) (hf 1 0 0 (by decide)) (q := 4 * M) (by linarith) (by linarith)
  have s2 := s1.add' (by omega) (hf 0 (-1) 0 (by decide)) (q := 10 * M) (by linarith) (by linarith)
  have s3 := s2.add' (by omega) (hf 0 1 0 (by decide)) (q := 22 * M) (by linarith) (by linarith)
  have s4 := s3.add' (by omega) (hf 0 0 (-1) (by decide)) (q := 46 * M) (by linarith) (by linarith)
  have s5 := s4.add' (by omega) (hf 0 0 1 (by decide)) (q := 94 * M) (by linarith) (by linarith)
  have six := (Same.ofNat (F := F) hp he hm 6 (by norm_num)).1
  have s6 := six.mul' (by omega) (hf 0 0 0 (by decide)) (q := 12 * M) (by push_cast; linarith) (by linarith)
  have s7 := s5.sub' (by omega) s6 (q := 212 * M) (by linarith) (by linarith)
  have d := hdx.mul' (by omega) hdx (q := 2) (by norm_num) (by linarith)
  have s8 := s7.div' (by omega) d (show 0 < D / 2 by linarith) hl (q := 848 * (M / D)) (by
    rw [le_iff_eq_or_lt]; left; field_simp; norm_num) (by linarith)
  have three := (Same.ofNat (F := F) hp he hm 3 (by norm_num)).1
  have t1 := three.mul' (by omega) h1 (q := 6) (by norm_num) (by linarith)
  have t2 := t1.mul' (by omega) h2 (q := 12) (by norm_num) (by linarith)
  have t3 := t2.mul' (by omega) h3 (q := 24) (by norm_num) (by linarith)
  exact s8.add' (by omega) t3 (by linarith) hX

end

section
variable {C : Type} (hp : 4 ≤ F.prec) (he : F.emin ≤ 0) (hm : 8 ≤ F.emax) {P : C → Prop} {D X : ℚ} (hD : 0 < D) (hD1 : D ≤ 1)
  {G : (C → Ieee F) → C → Ieee F} {G' : (C → Fl F.toFloatFmt.round) → C → Fl F.toFloatFmt.round}
  (hG : ∀ (a : C → Ieee F) (x : C → Fl F.toFloatFmt.round) (M : ℚ), 4 ≤ M → 1800 * (M / D) < (2 : ℚ) ^ F.emax →
    (∀ c, P c → Same (a c) (x c) M) → ∀ c, P c → Same (G a c) (G' x c) (1800 * (M / D)))
  {M : ℚ} (hM : 4 ≤ M) (hX : 2 ^ 45 * (M / D) < (2 : ℚ) ^ F.emax) {dt : Ieee F} {dt' : Fl F.toFloatFmt.round} (hdt : Same dt dt' D)
  {a : C → Ieee F} {x : C → Fl F.toFloatFmt.round} (ha : ∀ c, P c → Same (a c) (x c) M)
include hp he hm hD hD1 hG hM hX hdt ha

theorem Same.rk3 (t : Ieee F) (t' : Fl F.toFloatFmt.round) (c : C) (hc : P c) :
    Same ((ssprk3Method fun _ => G).step t dt a c) ((ssprk3Method fun _ => G').step t' dt' x c) (2 ^ 45 * M) := by
  have hQ : M ≤ M / D := by rw [le_div_iff₀ hD]; nlinarith
  obtain ⟨Q, hQd⟩ : ∃ Q, Q = M / D := ⟨_, rfl⟩
  have hDQ : D * Q = M := by rw [hQd]; field_simp
  have hsc : ∀ k : ℚ, 1800 * (k * M / D) = 1800 * k * Q := fun k => by rw [hQd]; ring
  rw [← hQd] at hQ hX
  have k1 : ∀ c, P c → Same (G a c) (G' x c) (1800 * Q) := fun c hc => by
    have := hG a x M hM (by rw [← hQd]; linarith) ha c hc
    rwa [← hQd] at this
  have one := Same.one (F := F) hp he hm
  have u2 : ∀ c, P c → Same (a c + dt * 1 * G a c) (x c + dt' * 1 * G' x c) (15000 * M) := fun c hc =>
    (ha c hc).add' (by omega) ((hdt.mul' (by omega) one (q := 2 * D) (by linarith) (by linarith)).mul' (by omega) (k1 c hc) (q := 7200 * M)
      (by rw [← hDQ]; linarith) (by linarith)) (by linarith) (by linarith)
  have k2 : ∀ c, P c → Same (G (fun c => a c + dt * 1 * G a c) c) (G' (fun c => x c + dt' * 1 * G' x c) c) (27000000 * Q) := fun c hc => by
    have := hG _ _ (15000 * M) (by linarith) (by rw [hsc]; linarith) u2 c hc
    rw [hsc] at this
    exact this.mono (by linarith)
  have quarter := one.frac hp he hm (by norm_num) 4 (by norm_num)
  have u3 : ∀ c, P c → Same (a c + dt * (1 / 4 * G a c + 1 / 4 * G (fun c => a c + dt * 1 * G a c) c))
      (x c + dt' * (1 / 4 * G' x c + 1 / 4 * G' (fun c => x c + dt' * 1 * G' x c) c)) (240000000 * M) := fun c hc => by
    have q1 := quarter.mul' (by omega) (k1 c hc) (q := 1800 * Q) (by push_cast; linarith) (by linarith)
    have q2 := quarter.mul' (by omega) (k2 c hc) (q := 27000000 * Q) (by push_cast; linarith) (by linarith)
    have q3 := q1.add' (by omega) q2 (q := 55000000 * Q) (by linarith) (by linarith)
    have q4 := hdt.mul' (by omega) q3 (q := 110000000 * M) (by rw [← hDQ]; linarith) (by linarith)
    exact (ha c hc).add' (by omega) q4 (by linarith) (by linarith)
  have k3 := fun c hc => by
    have := hG _ _ (240000000 * M) (by linarith) (by rw [hsc]; linarith) u3 c hc
    rw [hsc] at this
    exact this
  have sixth := one.frac hp he hm (by norm_num) 6 (by norm_num)
  have third := (Same.ofNat (F := F) hp he hm 2 (by norm_num)).1.frac hp he hm (by norm_num) 3 (by norm_num)
  have r1 := sixth.mul' (by omega) (k1 c hc) (q := 1800 * Q) (by push_cast; linarith) (by linarith)
  have r2 := sixth.mul' (by omega) (k2 c hc) (q := 27000000 * Q) (by push_cast; linarith) (by linarith)
  have r3 := third.mul' (by omega) (k3 c hc) (q := 1200000000000 * Q) (by push_cast; linarith) (by linarith)
  have r4 := (r1.add' (by omega) r2 (q := 55000000 * Q) (by linarith) (by linarith)).add' (by omega) r3 (q := 2500000000000 * Q)
    (by linarith) (by linarith)
  have r5 := hdt.mul' (by omega) r4 (q := 5000000000000 * M) (by rw [← hDQ]; linarith) (by linarith)
  exact (ha c hc).add' (by omega) r5 (by linarith) (by linarith)

theorem Same.bs23 (c : C) (hc : P c) :
    Same (a c + dt * bs23Slope G dt a c) (x c + dt' * bs23Slope G' dt' x c) (2 ^ 45 * M) := by
  have hQ : M ≤ M / D := by rw [le_div_iff₀ hD]; nlinarith
  obtain ⟨Q, hQd⟩ : ∃ Q, Q = M / D := ⟨_, rfl⟩
  have hDQ : D * Q = M := by rw [hQd]; field_simp
  have hsc : ∀ k : ℚ, 1800 * (k * M / D) = 1800 * k * Q := fun k => by rw [hQd]; ring
  rw [← hQd] at hQ hX
  have k1 : ∀ c, P c → Same (G a c) (G' x c) (1800 * Q) := fun c hc => by
    have := hG a x M hM (by rw [← hQd]; linarith) ha c hc
    rwa [← hQd] at this
  have one := Same.one (F := F) hp he hm
  have half := one.frac hp he hm (by norm_num) 2 (by norm_num)
  have u2 : ∀ c, P c → Same (a c + dt * (1 / 2) * G a c) (x c + dt' * (1 / 2) * G' x c) (15000 * M) := fun c hc =>
    (ha c hc).add' (by omega) ((hdt.mul' (by omega) half (q := 2 * D) (by push_cast; linarith) (by linarith)).mul' (by omega) (k1 c hc)
      (q := 7200 * M) (by rw [← hDQ]; linarith) (by linarith)) (by linarith) (by linarith)
  have k2 : ∀ c, P c → Same (G (fun c => a c + dt * (1 / 2) * G a c) c) (G' (fun c => x c + dt' * (1 / 2) * G' x c) c) (27000000 * Q) :=
    fun c hc => by
    have := hG _ _ (15000 * M) (by linarith) (by rw [hsc]; linarith) u2 c hc
    rw [hsc] at this
    exact this.mono (by linarith)
  have tq := (Same.ofNat (F := F) hp he hm 3 (by norm_num)).1.frac hp he hm (by norm_num) 4 (by norm_num)
  have u3 : ∀ c, P c → Same (a c + dt * (0 * G a c + 3 / 4 * G (fun c => a c + dt * (1 / 2) * G a c) c))
      (x c + dt' * (0 * G' x c + 3 / 4 * G' (fun c => x c + dt' * (1 / 2) * G' x c) c)) (660000000 * M) := fun c hc => by
    have q1 := Same.zero.mul' (by omega) (k1 c hc) (q := 0) (by linarith) (by linarith)
    have q2 := tq.mul' (by omega) (k2 c hc) (q := 81000000 * Q) (by push_cast; linarith) (by linarith)
    have q3 := q1.add' (by omega) q2 (q := 162000000 * Q) (by linarith) (by linarith)
    have q4 := hdt.mul' (by omega) q3 (q := 324000000 * M) (by rw [← hDQ]; linarith) (by linarith)
    exact (ha c hc).add' (by omega) q4 (by linarith) (by linarith)
  have k3 := fun c hc => by
    have := hG _ _ (660000000 * M) (by linarith) (by rw [hsc]; linarith) u3 c hc
    rw [hsc] at this
    exact this
  have w1 := (Same.ofNat (F := F) hp he hm 2 (by norm_num)).1.frac hp he hm (by norm_num) 9 (by norm_num)
  have w2 := one.frac hp he hm (by norm_num) 3 (by norm_num)
  have w3 := (Same.ofNat (F := F) hp he hm 4 (by norm_num)).1.frac hp he hm (by norm_num) 9 (by norm_num)
  have r1 := w1.mul' (by omega) (k1 c hc) (q := 1800 * Q) (by push_cast; linarith) (by linarith)
  have r2 := w2.mul' (by omega) (k2 c hc) (q := 37000000 * Q) (by push_cast; linarith) (by linarith)
  have r3 := w3.mul' (by omega) (k3 c hc) (q := 2200000000000 * Q) (by push_cast; linarith) (by linarith)
  have r4 := (r1.add' (by omega) r2 (q := 75000000 * Q) (by linarith) (by linarith)).add' (by omega) r3 (q := 4500000000000 * Q)
    (by linarith) (by linarith)
  have r5 := hdt.mul' (by omega) r4 (q := 9000000000000 * M) (by rw [← hDQ]; linarith) (by linarith)
  exact (ha c hc).add' (by omega) r5 (by linarith) (by linarith)

end

end Madg
