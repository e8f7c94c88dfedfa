/-
Error estimates of 2D Cahn–Hilliard steps in floating-point arithmetic with overflow.
-/
import Verif.Proofs.IeeeErrCH
import Verif.Proofs.IeeeConv2

set_option linter.unusedSectionVars false
set_option linter.unusedVariables false

namespace Madg
open Spec
variable {F : IeeeFmt}

section
variable (hp : 4 ≤ F.prec) (he : F.emin ≤ 0) (hm : 8 ≤ F.emax) {u τ : ℚ} (hr : Rounds F.toFloatFmt.round u τ)
  {n : Int} (hn : 1 ≤ n) {E M : ℚ} (hE : 1 ≤ E) (hM2 : 2 ≤ M)
  {p : CHParams (Ieee F)} {p' : CHParams (Fl F.toFloatFmt.round)}
  (h1 : Same p.eps2 p'.eps2 E) (h2 : Same p.sigma p'.sigma E) (h3 : Same p.m p'.m E) {dx : Ieee F} {dx' : Fl F.toFloatFmt.round}
  (hdx : Same dx dx' 1) (hs : Spacing τ dx'.val) (hX : 64 * chSize E M dx'.val < (2 : ℚ) ^ F.emax) (h34 : (1 + u) ^ 34 ≤ 5 / 4)
  {dt : Ieee F} {dt' : Fl F.toFloatFmt.round} (hdt : Same dt dt' 1) (hdt2 : 2 * τ ≤ dt'.val)
  (hd : dt'.val * rhsSize (valuesOf p') dx'.val M ≤ M / 4)
  {a : Int × Int → Ieee F} {x : Int × Int → Fl F.toFloatFmt.round} (ha : ∀ c, In2 n c → Same (a c) (x c) (M / 2))
include hp he hm hr hn hE hM2 h1 h2 h3 hdx hs hX h34 hdt hdt2 hd ha

/-- Both slopes of a 2D Cahn–Hilliard step with a bounded result. -/
theorem ieee_bs23_slopes2 (b4 : ∀ c, In2 n c →
      |value (a c + dt * bs23Slope (chFieldA2 p dx n 0) dt a c)| ≤ M) :
    (∀ c, In2 n c → Ordinary (bs23Slope (chFieldA2 p dx n 0) dt a c) ∧
      |value (bs23Slope (chFieldA2 p dx n 0) dt a c)| ≤ 40 * chSize E M dx'.val) ∧
    ∀ c, In2 n c → Ordinary (bs23SlopeHat (chFieldA2 p dx n 0) dt a c) ∧
      |value (bs23SlopeHat (chFieldA2 p dx n 0) dt a c)| ≤ 40 * chSize E M dx'.val := by
  obtain ⟨m, m', q, hm0, hs0, hk1, hk2⟩ := ode23_post_of2 (chFieldA2 p' dx' n) (In2 n) 0 dt' x
    (fun _ _ => rfl)
  have b1 : ∀ c, In2 n c → |(m 0 (cellLoc2 c)).val| ≤ M / 2 := fun c hc => by rw [hm0]; exact (ha c hc).le
  have d0 : |dt'.val| = dt'.val := abs_of_nonneg (by have := hr.tiny.1; linarith)
  obtain ⟨-, x2, x3⟩ := Gen.ode23_stages hr (rhsSize_ge hr (le_refl (1 : Int)) (le_refl (1 : Int)) (le_refl (1 : Int)) (show 1 ≤ M by linarith) hs (p := p')) (FE := chField2 (valuesOf p') dx'.val n 0)
    (fun t y hy c _ => near_field2 hr hn (by linarith) hs hy c) (by linarith) h34 hM2 (by rw [d0]; exact hdt2) (by rw [d0]; exact hd) q b1
  have sz := chSize_ge hr (le_refl (1 : Int)) (le_refl (1 : Int)) (le_refl (1 : Int)) hE hM2 hdx hs
  refine Same.bs23_slopes_bounded (P := In2 n) hp he hm (M := M) (Q := chSize E M dx'.val)
    (G := chFieldA2 p dx n 0) (G' := chFieldA2 p' dx' n 0)
    (fun a x hax c _ => same_field2 hp he hm hr hn hE hM2 h1 h2 h3 hdx hs hX a x hax 0 0 c)
    (by linarith) sz.1 hX hdt (fun c hc => (ha c hc).mono (by linarith)) (fun c hc => ?_) (fun c hc => ?_) b4
  · have := x2 c hc
    dsimp only at this
    rw [hm0, hk1] at this
    exact this
  · have := x3 c hc
    dsimp only at this
    rw [hm0, hk1, hk2] at this
    exact this

end

end Madg
