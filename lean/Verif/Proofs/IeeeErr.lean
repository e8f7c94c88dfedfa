/-
Error estimates of the Bogacki–Shampine method in floating-point arithmetic with overflow.
-/
import Verif.Proofs.IeeePid
import Verif.Proofs.BlowUp

set_option linter.unusedSectionVars false

namespace Madg
open Spec
variable {F : IeeeFmt}

section
variable (hp : 4 ≤ F.prec) (he : F.emin ≤ 0) (hm : 8 ≤ F.emax)
include hp he hm

theorem Same.seven24 : Same ((7 : Ieee F) / 24) ((7 : Fl F.toFloatFmt.round) / 24) 1 := by
  have b := emax_big hp he hm
  have e : F.toFloatFmt.round ((24 : Nat) : ℚ) = (24 : Nat) := by
    refine FloatFmt.round_float _ ⟨3, 3, ?_, by omega, by norm_num⟩
    have : (2 : Int) ^ 4 ≤ 2 ^ F.prec := pow_le_pow_right₀ (by norm_num) hp
    norm_num at this ⊢
    omega
  have h24 : Same (24 : Ieee F) (24 : Fl F.toFloatFmt.round) (2 * (24 : Nat)) := Same.nat (F := F) (by omega) 24 (by push_cast; linarith)
  have v : ((24 : Fl F.toFloatFmt.round)).val = 24 := by
    have : ((24 : Nat) : Fl F.toFloatFmt.round).val = ((24 : Nat) : ℚ) := e
    exact this.trans (by norm_num)
  exact ((Same.ofNat (F := F) hp he hm 7 (by norm_num)).1).div' (by omega) h24 (l := 24) (by norm_num) (by rw [v]; norm_num) (by norm_num) (by linarith)

variable {k1 k2 k3 k4 : Ieee F} {x1 x2 x3 x4 : Fl F.toFloatFmt.round} {S : ℚ}
  (h1 : Same k1 x1 S) (h2 : Same k2 x2 S) (h3 : Same k3 x3 S) (h4 : Same k4 x4 S) (hX : 64 * S < (2 : ℚ) ^ F.emax)
include h1 h2 h3 h4 hX

theorem Same.slope23 : Same (2 / 9 * k1 + 1 / 3 * k2 + 4 / 9 * k3) (2 / 9 * x1 + 1 / 3 * x2 + 4 / 9 * x3) (16 * S) := by
  have S0 := h1.nonneg
  have one := Same.one (F := F) hp he hm
  have w1 := (Same.ofNat (F := F) hp he hm 2 (by norm_num)).1.frac hp he hm (by norm_num) 9 (by norm_num)
  have w2 := one.frac hp he hm (by norm_num) 3 (by norm_num)
  have w3 := (Same.ofNat (F := F) hp he hm 4 (by norm_num)).1.frac hp he hm (by norm_num) 9 (by norm_num)
  have r1 := w1.mul' (by omega) h1 (q := 8 / 9 * S) (by push_cast; linarith) (by linarith)
  have r2 := w2.mul' (by omega) h2 (q := 4 / 3 * S) (by push_cast; linarith) (by linarith)
  have r3 := w3.mul' (by omega) h3 (q := 16 / 9 * S) (by push_cast; linarith) (by linarith)
  exact (r1.add' (by omega) r2 (q := 40 / 9 * S) (by linarith) (by linarith)).add' (by omega) r3 (by linarith) (by linarith)

theorem Same.hat23 : Same (7 / 24 * k1 + 1 / 4 * k2 + 1 / 3 * k3 + 1 / 8 * k4) (7 / 24 * x1 + 1 / 4 * x2 + 1 / 3 * x3 + 1 / 8 * x4) (40 * S) := by
  have S0 := h1.nonneg
  have one := Same.one (F := F) hp he hm
  have w1 := Same.seven24 (F := F) hp he hm
  have w2 := one.frac hp he hm (by norm_num) 4 (by norm_num)
  have w3 := one.frac hp he hm (by norm_num) 3 (by norm_num)
  have w4 := one.frac hp he hm (by norm_num) 8 (by norm_num)
  have r1 := w1.mul' (by omega) h1 (q := 2 * S) (by linarith) (by linarith)
  have r2 := w2.mul' (by omega) h2 (q := S) (by push_cast; linarith) (by linarith)
  have r3 := w3.mul' (by omega) h3 (q := 4 / 3 * S) (by push_cast; linarith) (by linarith)
  have r4 := w4.mul' (by omega) h4 (q := 1 / 2 * S) (by push_cast; linarith) (by linarith)
  have s1 := r1.add' (by omega) r2 (q := 6 * S) (by linarith) (by linarith)
  have s2 := s1.add' (by omega) r3 (q := 15 * S) (by linarith) (by linarith)
  exact s2.add' (by omega) r4 (by linarith) (by linarith)

end

/-- Absolute values of ordinary numbers. -/
theorem Rg.abs {a : Ieee F} (ha : Ordinary a) {S : ℚ} (hS : |value a| ≤ S) : Rg (absBy a) 0 S := by
  obtain ⟨n1, n2⟩ := Ieee.neg_ordinary ha
  have h := Ieee.lt_ordinary ha n1
  unfold absBy
  rw [abs_le] at hS
  split
  · next h' =>
    rw [h, n2] at h'
    exact ⟨n1, by rw [n2]; linarith, by rw [n2]; linarith⟩
  · next h' =>
    rw [h, n2] at h'
    exact ⟨ha, by linarith, hS.2⟩

section
variable (hp : 4 ≤ F.prec) (he : F.emin ≤ 0) (hm : 8 ≤ F.emax)
include hp he hm

theorem gap_ok {C : Type} {cells : List C} {pad : Nat} {x y : C → Ieee F} {S : ℚ} (hS : 0 ≤ S)
    (hx : ∀ c ∈ cells, Ordinary (x c) ∧ |value (x c)| ≤ S) (hy : ∀ c ∈ cells, Ordinary (y c) ∧ |value (y c)| ≤ S)
    (hX : 4 * S < (2 : ℚ) ^ F.emax) {s : Ieee F} (h : letI : Max (Ieee F) := byLess; LargestGap cells pad x y s) : Rg s 0 (4 * S) := by
  unfold LargestGap at h
  refine comb_closed (P := fun r => Rg r 0 (4 * S)) (fun a b ha hb => ?_) h ?_
  · show Rg (if a < b then b else a) 0 (4 * S)
    split
    · exact hb
    · exact ha
  · intro r hr
    rcases List.mem_cons.1 hr with rfl | hr
    · exact ⟨trivial, le_rfl, by show (0 : ℚ) ≤ 4 * S; linarith⟩
    rcases List.mem_append.1 hr with hr | hr
    · obtain ⟨c, hc, rfl⟩ := List.mem_map.1 hr
      obtain ⟨a1, a2⟩ := hx c hc
      obtain ⟨b1, b2⟩ := hy c hc
      have := (Same.of a1 a2).sub' (by omega) (Same.of b1 b2) (q := 4 * S) (by linarith) hX
      exact Rg.abs this.ord (by rw [this.val]; exact this.le)
    · obtain rfl := List.eq_of_mem_replicate hr
      have b := emax_big hp he hm
      have z := Same.zero (F := F)
      have z1 := Same.slope23 hp he hm z z z z (by linarith)
      have z2 := Same.hat23 hp he hm z z z z (by linarith)
      have := z1.sub' (by omega) z2 (q := 0) (by norm_num) (by linarith)
      exact (Rg.abs (S := 0) this.ord (by rw [this.val]; exact this.le)).mono le_rfl (by linarith)

/-- The error estimate of a step. -/
theorem err_ok {C : Type} {G : (C → Ieee F) → C → Ieee F} {cells : List C} {pad : Nat} {dt : Ieee F} {a : C → Ieee F} {S D : ℚ} (hS : 0 ≤ S)
    (hx : ∀ c ∈ cells, Ordinary (bs23Slope G dt a c) ∧ |value (bs23Slope G dt a c)| ≤ S)
    (hy : ∀ c ∈ cells, Ordinary (bs23SlopeHat G dt a c) ∧ |value (bs23SlopeHat G dt a c)| ≤ S)
    (hX : 4 * S < (2 : ℚ) ^ F.emax) (hdt : Rg dt 0 D) (hX2 : 8 * (D * S) < (2 : ℚ) ^ F.emax) {e : Ieee F}
    (h : ∃ s, (letI : Max (Ieee F) := byLess; LargestGap cells pad (bs23Slope G dt a) (bs23SlopeHat G dt a) s) ∧
      e = if 0 < dt * s then dt * s else 0) : Rg e 0 (8 * (D * S)) := by
  obtain ⟨s, hs, rfl⟩ := h
  have g := gap_ok hp he hm hS hx hy hX hs
  have D0 := hdt.lo.trans hdt.hi
  have p0 := mul_nonneg hdt.lo g.lo
  have r := F.toFloatFmt.round_double (value dt * value s)
  rw [abs_of_nonneg p0] at r
  have p1 := mul_le_mul hdt.hi g.hi g.lo D0
  have m := Ieee.mul_ordinary (F := F) (by omega) hdt.ord g.ord (by linarith)
  split
  · refine ⟨m.1, ?_, ?_⟩
    · rw [m.2]; exact F.toFloatFmt.round_nonneg p0
    · rw [m.2]; linarith [le_abs_self (F.toFloatFmt.round (value dt * value s))]
  · exact ⟨trivial, le_rfl, by show (0 : ℚ) ≤ _; positivity⟩

end

section
variable {C : Type} (hp : 4 ≤ F.prec) (he : F.emin ≤ 0) (hm : 8 ≤ F.emax) {P : C → Prop} {D : ℚ} (hD : 0 < D) (hD1 : D ≤ 1)
  {G : (C → Ieee F) → C → Ieee F} {G' : (C → Fl F.toFloatFmt.round) → C → Fl F.toFloatFmt.round}
  (hG : ∀ (a : C → Ieee F) (x : C → Fl F.toFloatFmt.round) (M : ℚ), 4 ≤ M → 1800 * (M / D) < (2 : ℚ) ^ F.emax →
    (∀ c, P c → Same (a c) (x c) M) → ∀ c, P c → Same (G a c) (G' x c) (1800 * (M / D)))
  {M : ℚ} (hM : 4 ≤ M) (hX : 2 ^ 64 * (M / D) < (2 : ℚ) ^ F.emax) {dt : Ieee F} {dt' : Fl F.toFloatFmt.round} (hdt : Same dt dt' D)
  {a : C → Ieee F} {x : C → Fl F.toFloatFmt.round} (ha : ∀ c, P c → Same (a c) (x c) M)
include hp he hm hD hD1 hG hM hX hdt ha

/-- Both slopes of a step of the Poisson problem. -/
theorem Same.bs23_slopes : (∀ c, P c → Ordinary (bs23Slope G dt a c) ∧ |value (bs23Slope G dt a c)| ≤ 2 ^ 62 * (M / D)) ∧
    ∀ c, P c → Ordinary (bs23SlopeHat G dt a c) ∧ |value (bs23SlopeHat G dt a c)| ≤ 2 ^ 62 * (M / D) := by
  have new := fun c hc => Same.bs23 hp he hm hD hD1 hG hM (by have : 0 ≤ M / D := by positivity
                                                              linarith) hdt ha c hc
  have hQ : M ≤ M / D := by rw [le_div_iff₀ hD]; nlinarith
  obtain ⟨Q, hQd⟩ : ∃ Q, Q = M / D := ⟨_, rfl⟩
  have hDQ : D * Q = M := by rw [hQd]; field_simp
  have hsc : ∀ k : ℚ, 1800 * (k * M / D) = 1800 * k * Q := fun k => by rw [hQd]; ring
  rw [← hQd] at hQ hX ⊢
  have k1 : ∀ c, P c → Same (G a c) (G' x c) (1800 * Q) := fun c hc => by
    have := hG a x M hM (by rw [← hQd]; linarith) ha c hc
    rwa [← hQd] at this
  have one := Same.one (F := F) hp he hm
  have half := one.frac hp he hm (by norm_num) 2 (by norm_num)
  have u2 : ∀ c, P c → Same (a c + dt * (1 / 2) * G a c) (x c + dt' * (1 / 2) * G' x c) (15000 * M) := fun c hc =>
    (ha c hc).add' (by omega) ((hdt.mul' (by omega) half (q := 2 * D) (by push_cast; linarith) (by linarith)).mul' (by omega) (k1 c hc)
      (q := 7200 * M) (by rw [← hDQ]; linarith) (by linarith)) (by linarith) (by linarith)
  have k2 : ∀ c, P c → Same (G (fun c => a c + dt * (1 / 2) * G a c) c) (G' (fun c => x c + dt' * (1 / 2) * G' x c) c) (27000000 * Q) :=
    fun c hc => by
    have := hG _ _ (15000 * M) (by linarith) (by rw [hsc]; linarith) u2 c hc
    rw [hsc] at this
    exact this.mono (by linarith)
  have tq := (Same.ofNat (F := F) hp he hm 3 (by norm_num)).1.frac hp he hm (by norm_num) 4 (by norm_num)
  have u3 : ∀ c, P c → Same (a c + dt * (0 * G a c + 3 / 4 * G (fun c => a c + dt * (1 / 2) * G a c) c))
      (x c + dt' * (0 * G' x c + 3 / 4 * G' (fun c => x c + dt' * (1 / 2) * G' x c) c)) (660000000 * M) := fun c hc => by
    have q1 := Same.zero.mul' (by omega) (k1 c hc) (q := 0) (by linarith) (by linarith)
    have q2 := tq.mul' (by omega) (k2 c hc) (q := 81000000 * Q) (by push_cast; linarith) (by linarith)
    have q3 := q1.add' (by omega) q2 (q := 162000000 * Q) (by linarith) (by linarith)
    have q4 := hdt.mul' (by omega) q3 (q := 324000000 * M) (by rw [← hDQ]; linarith) (by linarith)
    exact (ha c hc).add' (by omega) q4 (by linarith) (by linarith)
  have k3 : ∀ c, P c → Same (G (fun c => a c + dt * (0 * G a c + 3 / 4 * G (fun c => a c + dt * (1 / 2) * G a c) c)) c)
      (G' (fun c => x c + dt' * (0 * G' x c + 3 / 4 * G' (fun c => x c + dt' * (1 / 2) * G' x c) c)) c) (2 ^ 56 * Q) := fun c hc => by
    have := hG _ _ (660000000 * M) (by linarith) (by rw [hsc]; linarith) u3 c hc
    rw [hsc] at this
    exact this.mono (by linarith)
  have k4 : ∀ c, P c → Same (G (fun c => a c + dt * bs23Slope G dt a c) c) (G' (fun c => x c + dt' * bs23Slope G' dt' x c) c) (2 ^ 56 * Q) := by
    intro c hc
    have := hG _ _ (2 ^ 45 * M) (by linarith) (by rw [hsc]; linarith) new c hc
    rw [hsc] at this
    exact this.mono (by linarith)
  have b1 := fun c hc => (k1 c hc).mono (show 1800 * Q ≤ 2 ^ 56 * Q by linarith)
  have b2 := fun c hc => (k2 c hc).mono (show 27000000 * Q ≤ 2 ^ 56 * Q by linarith)
  refine ⟨fun c hc => ?_, fun c hc => ?_⟩
  · have := Same.slope23 hp he hm (b1 c hc) (b2 c hc) (k3 c hc) (k4 c hc) (by linarith)
    exact ⟨this.ord, by
      have e := this.val
      have l := this.le
      rw [← e] at l
      exact l.trans (by linarith)⟩
  · have := Same.hat23 hp he hm (b1 c hc) (b2 c hc) (k3 c hc) (k4 c hc) (by linarith)
    exact ⟨this.ord, by
      have e := this.val
      have l := this.le
      rw [← e] at l
      exact l.trans (by linarith)⟩

end

end Madg
