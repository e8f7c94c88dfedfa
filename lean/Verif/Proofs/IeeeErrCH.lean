/-
Error estimates of Cahn–Hilliard steps in floating-point arithmetic with overflow.
-/
import Verif.Proofs.IeeeErr
import Verif.Proofs.IeeeConv

set_option linter.unusedSectionVars false

namespace Madg
open Spec
variable {F : IeeeFmt}

section
variable {C : Type} (hp : 4 ≤ F.prec) (he : F.emin ≤ 0) (hm : 8 ≤ F.emax) {P : C → Prop} {M Q : ℚ}
  {G : (C → Ieee F) → C → Ieee F} {G' : (C → Fl F.toFloatFmt.round) → C → Fl F.toFloatFmt.round}
  (hG : ∀ (a : C → Ieee F) (x : C → Fl F.toFloatFmt.round), (∀ c, P c → Same (a c) (x c) M) → ∀ c, P c → Same (G a c) (G' x c) Q)
  (hM : 1 ≤ M) (hQ : M ≤ Q) (hX : 64 * Q < (2 : ℚ) ^ F.emax) {dt : Ieee F} {dt' : Fl F.toFloatFmt.round} (hdt : Same dt dt' 1)
  {a : C → Ieee F} {x : C → Fl F.toFloatFmt.round} (ha : ∀ c, P c → Same (a c) (x c) M)
include hp he hm hG hM hQ hX hdt ha

/-- Both slopes of a step whose stages and result are bounded. -/
theorem Same.bs23_slopes_bounded (b2 : ∀ c, P c → |(x c + dt' * (1 / 2) * G' x c).val| ≤ M)
    (b3 : ∀ c, P c → |(x c + dt' * (0 * G' x c + 3 / 4 * G' (fun c => x c + dt' * (1 / 2) * G' x c) c)).val| ≤ M)
    (b4 : ∀ c, P c → |value (a c + dt * bs23Slope G dt a c)| ≤ M) :
    (∀ c, P c → Ordinary (bs23Slope G dt a c) ∧ |value (bs23Slope G dt a c)| ≤ 40 * Q) ∧
    ∀ c, P c → Ordinary (bs23SlopeHat G dt a c) ∧ |value (bs23SlopeHat G dt a c)| ≤ 40 * Q := by
  have Q0 : 0 ≤ Q := by linarith
  have new := Same.bs23_bounded hp he hm hG hM hQ hX hdt ha b2 b3
  have u4 : ∀ c, P c → Same (a c + dt * bs23Slope G dt a c) (x c + dt' * bs23Slope G' dt' x c) M := fun c hc =>
    (new c hc).bound (by rw [← (new c hc).val]; exact b4 c hc)
  have k1 := hG a x ha
  have one := Same.one (F := F) hp he hm
  have half := one.frac hp he hm (by norm_num) 2 (by norm_num)
  have u2 : ∀ c, P c → Same (a c + dt * (1 / 2) * G a c) (x c + dt' * (1 / 2) * G' x c) M := fun c hc =>
    ((ha c hc).add' (by omega) ((hdt.mul' (by omega) half (q := 2) (by push_cast; linarith) (by linarith)).mul' (by omega) (k1 c hc)
      (q := 4 * Q) (by linarith) (by linarith)) (q := 10 * Q) (by linarith) (by linarith)).bound (b2 c hc)
  have k2 := hG _ _ u2
  have tq := (Same.ofNat (F := F) hp he hm 3 (by norm_num)).1.frac hp he hm (by norm_num) 4 (by norm_num)
  have u3 : ∀ c, P c → Same (a c + dt * (0 * G a c + 3 / 4 * G (fun c => a c + dt * (1 / 2) * G a c) c))
      (x c + dt' * (0 * G' x c + 3 / 4 * G' (fun c => x c + dt' * (1 / 2) * G' x c) c)) M := fun c hc => by
    have q1 := Same.zero.mul' (by omega) (k1 c hc) (q := 0) (by linarith) (by linarith)
    have q2 := tq.mul' (by omega) (k2 c hc) (q := 3 * Q) (by push_cast; linarith) (by linarith)
    have q3 := q1.add' (by omega) q2 (q := 6 * Q) (by linarith) (by linarith)
    have q4 := hdt.mul' (by omega) q3 (q := 12 * Q) (by linarith) (by linarith)
    exact ((ha c hc).add' (by omega) q4 (q := 26 * Q) (by linarith) (by linarith)).bound (b3 c hc)
  have k3 := hG _ _ u3
  have k4 := hG _ _ u4
  refine ⟨fun c hc => ?_, fun c hc => ?_⟩
  · have := Same.slope23 hp he hm (k1 c hc) (k2 c hc) (k3 c hc) (k4 c hc) hX
    refine ⟨this.ord, ?_⟩
    have e := this.val
    have l := this.le
    rw [← e] at l
    exact l.trans (by linarith)
  · have := Same.hat23 hp he hm (k1 c hc) (k2 c hc) (k3 c hc) (k4 c hc) hX
    refine ⟨this.ord, ?_⟩
    have e := this.val
    have l := this.le
    rwa [← e] at l

end

section
variable (hp : 4 ≤ F.prec) (he : F.emin ≤ 0) (hm : 8 ≤ F.emax) {u τ : ℚ} (hr : Rounds F.toFloatFmt.round u τ)
  {ni nj nk : Int} (hi : 1 ≤ ni) (hj : 1 ≤ nj) (hk : 1 ≤ nk) {E M : ℚ} (hE : 1 ≤ E) (hM2 : 2 ≤ M)
  {p : CHParams (Ieee F)} {p' : CHParams (Fl F.toFloatFmt.round)}
  (h1 : Same p.eps2 p'.eps2 E) (h2 : Same p.sigma p'.sigma E) (h3 : Same p.m p'.m E) {dx : Ieee F} {dx' : Fl F.toFloatFmt.round}
  (hdx : Same dx dx' 1) (hs : Spacing τ dx'.val) (hX : 64 * chSize E M dx'.val < (2 : ℚ) ^ F.emax) {v : Int} (h34 : (1 + u) ^ 34 ≤ 5 / 4)
  {dt : Ieee F} {dt' : Fl F.toFloatFmt.round} (hdt : Same dt dt' 1) (hdt2 : 2 * τ ≤ dt'.val)
  (hd : dt'.val * rhsSize (valuesOf p') dx'.val M ≤ M / 4)
  {a : Int × Int × Int → Ieee F} {x : Int × Int × Int → Fl F.toFloatFmt.round} (ha : ∀ c, In3 ni nj nk c → Same (a c) (x c) (M / 2))
include hp he hm hr hi hj hk hE hM2 h1 h2 h3 hdx hs hX h34 hdt hdt2 hd ha

/-- Both slopes of a Cahn–Hilliard step with a bounded result. -/
theorem ieee_bs23_slopes (b4 : ∀ c, In3 ni nj nk c →
      |value (a c + dt * bs23Slope (chFieldA v p dx .periodic .periodic .periodic ni nj nk 0) dt a c)| ≤ M) :
    (∀ c, In3 ni nj nk c → Ordinary (bs23Slope (chFieldA v p dx .periodic .periodic .periodic ni nj nk 0) dt a c) ∧
      |value (bs23Slope (chFieldA v p dx .periodic .periodic .periodic ni nj nk 0) dt a c)| ≤ 40 * chSize E M dx'.val) ∧
    ∀ c, In3 ni nj nk c → Ordinary (bs23SlopeHat (chFieldA v p dx .periodic .periodic .periodic ni nj nk 0) dt a c) ∧
      |value (bs23SlopeHat (chFieldA v p dx .periodic .periodic .periodic ni nj nk 0) dt a c)| ≤ 40 * chSize E M dx'.val := by
  obtain ⟨m, m', q, hm0, hs0, hk1, hk2⟩ := ode23_post_of (chFieldA v p' dx' .periodic .periodic .periodic ni nj nk) (In3 ni nj nk) 0 dt' x
    (fun _ _ => rfl)
  have b1 : ∀ c, In3 ni nj nk c → |(m 0 (cellLoc c)).val| ≤ M / 2 := fun c hc => by rw [hm0]; exact (ha c hc).le
  have d0 : |dt'.val| = dt'.val := abs_of_nonneg (by have := hr.tiny.1; linarith)
  obtain ⟨-, x2, x3⟩ := ode23_stages hr hi hj hk (by linarith) hs h34 hM2 (by rw [d0]; exact hdt2) (by rw [d0]; exact hd) q b1
  have sz := chSize_ge hr hi hj hk hE hM2 hdx hs
  refine Same.bs23_slopes_bounded (P := In3 ni nj nk) hp he hm (M := M) (Q := chSize E M dx'.val)
    (G := chFieldA v p dx .periodic .periodic .periodic ni nj nk 0) (G' := chFieldA v p' dx' .periodic .periodic .periodic ni nj nk 0)
    (fun a x hax c _ => same_field hp he hm hr hi hj hk hE hM2 h1 h2 h3 hdx hs hX a x hax 0 0 _ _ _ c)
    (by linarith) sz.1 hX hdt (fun c hc => (ha c hc).mono (by linarith)) (fun c hc => ?_) (fun c hc => ?_) b4
  · have := x2 c hc
    dsimp only at this
    rw [hm0, hk1] at this
    exact this
  · have := x3 c hc
    dsimp only at this
    rw [hm0, hk1, hk2] at this
    exact this

end

end Madg
