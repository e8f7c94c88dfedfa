/-
Convergence of three-stage Runge–Kutta runs towards a reference curve that satisfies the equation approximately.
-/
import Verif.Proofs.CHStab

set_option linter.unusedVariables false

namespace Madg
variable {V : Type} [SeminormedAddCommGroup V] [InnerProductSpace ℝ V]
namespace RK3c
variable (T : RK3c) {O : CHOp V} {Λ dt : ℝ}

/-- Local error of one step started on the reference curve. -/
theorem step_consistent (hS : O.Step Λ dt) {u p2 p3 p v : V} {ρ : ℝ} (hρ : 0 ≤ ρ)
    (k1 : ‖O.F u - v‖ ≤ ρ) (k2 : ‖O.F p2 - v‖ ≤ ρ) (k3 : ‖O.F p3 - v‖ ≤ ρ)
    (t2 : ‖p2 - u - (T.a21 * dt) • v‖ ≤ dt * ρ) (t3 : ‖p3 - u - ((T.a31 + T.a32) * dt) • v‖ ≤ dt * ρ)
    (t : ‖p - u - dt • v‖ ≤ dt * ρ)
    (l2 : ‖T.y2 O.F dt u - p2‖ ≤ 3 * (dt * ρ) → ‖O.phi (T.y2 O.F dt u) - O.phi p2‖ ≤ Λ * ‖T.y2 O.F dt u - p2‖)
    (l3 : ‖T.y3 O.F dt u - p3‖ ≤ 3 * (dt * ρ) → ‖O.phi (T.y3 O.F dt u) - O.phi p3‖ ≤ Λ * ‖T.y3 O.F dt u - p3‖) :
    ‖T.y2 O.F dt u - p2‖ ≤ 3 * (dt * ρ) ∧ ‖T.y3 O.F dt u - p3‖ ≤ 3 * (dt * ρ) ∧
      ‖T.step O.F dt u - p‖ ≤ 3 * (dt * ρ) := by
  have hdt := hS.dt0
  have x0 : 0 ≤ dt * ρ := mul_nonneg hdt hρ
  have sm : ∀ {x : V} {y : ℝ}, ‖x‖ ≤ y → ‖dt • x‖ ≤ dt * y := fun {x y} h => by
    rw [norm_smul, Real.norm_of_nonneg hdt]; exact mul_le_mul_of_nonneg_left h hdt
  have d1 := sm k1
  have d2 := sm k2
  have d3 := sm k3
  have y2 : ‖T.y2 O.F dt u - p2‖ ≤ 2 * (dt * ρ) := by
    have e : T.y2 O.F dt u - p2 = T.a21 • (dt • (O.F u - v)) - (p2 - u - (T.a21 * dt) • v) := by
      simp only [RK3c.y2]; module
    rw [e]
    refine (norm_sub_le _ _).trans ?_
    have := norm1 T.h21 T.c2 d1
    linarith
  have y2' : ‖T.y2 O.F dt u - p2‖ ≤ 3 * (dt * ρ) := by linarith
  have m2 : ‖dt • (O.F (T.y2 O.F dt u) - v)‖ ≤ 5 / 4 * (dt * ρ) := by
    have h := hS.lip_D (l2 y2')
    rw [← O.F_sub] at h
    have e : dt • (O.F (T.y2 O.F dt u) - v) = dt • (O.F (T.y2 O.F dt u) - O.F p2) + dt • (O.F p2 - v) := by module
    rw [e]
    refine (norm_add_le _ _).trans ?_
    linarith
  have y3 : ‖T.y3 O.F dt u - p3‖ ≤ 9 / 4 * (dt * ρ) := by
    have e : T.y3 O.F dt u - p3 = (T.a31 • (dt • (O.F u - v)) + T.a32 • (dt • (O.F (T.y2 O.F dt u) - v))) -
        (p3 - u - ((T.a31 + T.a32) * dt) • v) := by
      simp only [RK3c.y3]; module
    rw [e]
    refine (norm_sub_le _ _).trans ?_
    have := norm2 T.h31 T.h32 T.c3 (X := 5 / 4 * (dt * ρ)) (by linarith) (d1.trans (by linarith)) m2
    linarith
  have y3' : ‖T.y3 O.F dt u - p3‖ ≤ 3 * (dt * ρ) := by linarith
  have m3 : ‖dt • (O.F (T.y3 O.F dt u) - v)‖ ≤ 2 * (dt * ρ) := by
    have h := hS.lip_D (l3 y3')
    rw [← O.F_sub] at h
    have e : dt • (O.F (T.y3 O.F dt u) - v) = dt • (O.F (T.y3 O.F dt u) - O.F p3) + dt • (O.F p3 - v) := by module
    rw [e]
    refine (norm_add_le _ _).trans ?_
    linarith
  refine ⟨y2', y3', ?_⟩
  have e : T.step O.F dt u - p = (T.b1 • (dt • (O.F u - v)) + T.b2 • (dt • (O.F (T.y2 O.F dt u) - v)) +
      T.b3 • (dt • (O.F (T.y3 O.F dt u) - v))) - (p - u - dt • v) := by
    have hb : dt • v = (T.b1 * dt + T.b2 * dt + T.b3 * dt) • v := by
      rw [← add_mul, ← add_mul, T.sum, one_mul]
    rw [hb]
    simp only [RK3c.step]; module
  rw [e]
  refine (norm_sub_le _ _).trans ?_
  have := T.norm3 (X := 2 * (dt * ρ)) (d1.trans (by linarith)) (m2.trans (by linarith)) m3
  linarith

/-- Error after one step. `B` is a set on which the nonlinearity is Lipschitz; it contains the ball of radius `r` about the
reference values. -/
theorem step_error (hS : O.Step Λ dt) {u p2 p3 p v c : V} {ρ r : ℝ} (hρ : 0 ≤ ρ)
    (k1 : ‖O.F u - v‖ ≤ ρ) (k2 : ‖O.F p2 - v‖ ≤ ρ) (k3 : ‖O.F p3 - v‖ ≤ ρ)
    (t2 : ‖p2 - u - (T.a21 * dt) • v‖ ≤ dt * ρ) (t3 : ‖p3 - u - ((T.a31 + T.a32) * dt) • v‖ ≤ dt * ρ)
    (t : ‖p - u - dt • v‖ ≤ dt * ρ) (B : V → Prop)
    (hB : ∀ x y, B x → B y → ‖O.phi x - O.phi y‖ ≤ Λ * ‖x - y‖)
    (n1 : ∀ x, ‖x - u‖ ≤ r → B x) (n2 : ∀ x, ‖x - p2‖ ≤ r → B x) (n3 : ∀ x, ‖x - p3‖ ≤ r → B x)
    (hr : 3 * (dt * ρ) ≤ r / 2) (hc : ‖c - u‖ ≤ r / 4) :
    ‖T.step O.F dt c - p‖ ≤ (1 + 3 / 2 * (Λ ^ 2 / O.e2 + |O.sg|) * dt) * ‖c - u‖ + 3 * (dt * ρ) := by
  have x0 : 0 ≤ dt * ρ := mul_nonneg hS.dt0 hρ
  have r0 : 0 ≤ r := by linarith
  have self : ∀ q : V, ‖q - q‖ ≤ r := fun q => by rw [sub_self, norm_zero]; exact r0
  obtain ⟨y2, y3, hs⟩ := T.step_consistent hS hρ k1 k2 k3 t2 t3 t
    (fun h => hB _ _ (n2 _ (by linarith)) (n2 _ (self _))) (fun h => hB _ _ (n3 _ (by linarith)) (n3 _ (self _)))
  have hp1 := hB c u (n1 _ (by linarith)) (n1 _ (self _))
  have f2 := T.e2_le hS hp1
  have tri : ∀ x y z : V, ‖x - z‖ ≤ ‖x - y‖ + ‖y - z‖ := norm_sub_le_norm_sub_add_norm_sub
  have hp2 := hB (T.y2 O.F dt c) (T.y2 O.F dt u)
    (n2 _ ((tri _ (T.y2 O.F dt u) _).trans (by linarith))) (n2 _ (by linarith))
  have f3 := T.e3_le hS hp1 hp2
  have hp3 := hB (T.y3 O.F dt c) (T.y3 O.F dt u)
    (n3 _ ((tri _ (T.y3 O.F dt u) _).trans (by linarith))) (n3 _ (by linarith))
  have st := T.step_stable hS hp1 hp2 hp3
  exact (tri _ (T.step O.F dt u) _).trans (add_le_add st hs)

/-- Several steps. -/
def run {U : Type} [AddCommGroup U] [Module ℝ U] (F : U → U) : List ℝ → U → U
  | [], y => y
  | dt :: dts, y => run F dts (T.step F dt y)

/-- Error of a run. `w` is the reference curve and `w'` its velocity, known on `[0, Tm]`. -/
theorem run_error {w w' : ℝ → V} {Tm ρ0 M δ r : ℝ} (hρ0 : 0 ≤ ρ0) (hM : 0 ≤ M) (hδ : 0 ≤ δ)
    (hF : ∀ t, 0 ≤ t → t ≤ Tm → ‖O.F (w t) - w' t‖ ≤ ρ0)
    (hw : ∀ t s, 0 ≤ t → t ≤ s → s ≤ Tm → ‖w s - w t - (s - t) • w' t‖ ≤ M * (s - t) ^ 2)
    (hw' : ∀ t s, 0 ≤ t → t ≤ s → s ≤ Tm → ‖w' s - w' t‖ ≤ M * (s - t))
    (B : V → Prop) (hB : ∀ x y, B x → B y → ‖O.phi x - O.phi y‖ ≤ Λ * ‖x - y‖)
    (near : ∀ t, 0 ≤ t → t ≤ Tm → ∀ x, ‖x - w t‖ ≤ r → B x) (hr : 3 * (δ * (ρ0 + M * δ)) ≤ r / 2) :
    ∀ (dts : List ℝ) (t0 : ℝ) (c : V), (∀ dt ∈ dts, O.Step Λ dt ∧ dt ≤ δ) → 0 ≤ t0 → t0 + dts.sum ≤ Tm →
      Real.exp (3 / 2 * (Λ ^ 2 / O.e2 + |O.sg|) * dts.sum) * (‖c - w t0‖ + 3 * (ρ0 + M * δ) * dts.sum) ≤ r / 4 →
      ‖T.run O.F dts c - w (t0 + dts.sum)‖ ≤
        Real.exp (3 / 2 * (Λ ^ 2 / O.e2 + |O.sg|) * dts.sum) * (‖c - w t0‖ + 3 * (ρ0 + M * δ) * dts.sum) := by
  have he := O.e2pos
  obtain ⟨κ, hκ⟩ : ∃ κ, κ = 3 / 2 * (Λ ^ 2 / O.e2 + |O.sg|) := ⟨_, rfl⟩
  have κ0 : 0 ≤ κ := by rw [hκ]; positivity
  obtain ⟨ρ, hρ⟩ : ∃ ρ, ρ = ρ0 + M * δ := ⟨_, rfl⟩
  have hρn : 0 ≤ ρ := by rw [hρ]; positivity
  rw [← hκ, ← hρ]
  rw [← hρ] at hr
  intro dts
  induction dts with
  | nil => intro t0 c _ _ _ _; simp [run]
  | cons dt dts ih =>
    intro t0 c hdts ht0 hT hE
    obtain ⟨hS, hle⟩ := hdts dt List.mem_cons_self
    have hdt := hS.dt0
    have hsum : 0 ≤ dts.sum := List.sum_nonneg fun x hx => (hdts x (List.mem_cons_of_mem _ hx)).1.dt0
    rw [List.sum_cons] at hT hE ⊢
    have mdt : M * dt ≤ M * δ := mul_le_mul_of_nonneg_left hle hM
    have tm : ∀ a, 0 ≤ a → a ≤ 1 → 0 ≤ t0 + a * dt ∧ t0 ≤ t0 + a * dt ∧ t0 + a * dt ≤ Tm ∧ a * dt ≤ dt := fun a h0 h1 => by
      have h2 := mul_nonneg h0 hdt
      have h3 : a * dt ≤ dt := by nlinarith
      exact ⟨by linarith, by linarith, by linarith, h3⟩
    have kk : ∀ a, 0 ≤ a → a ≤ 1 → ‖O.F (w (t0 + a * dt)) - w' t0‖ ≤ ρ := fun a h0 h1 => by
      obtain ⟨i1, i2, i3, i4⟩ := tm a h0 h1
      have j1 := hF _ i1 i3
      have j2 := hw' _ _ ht0 i2 i3
      have j3 : M * (t0 + a * dt - t0) ≤ M * dt := mul_le_mul_of_nonneg_left (by linarith) hM
      refine (norm_sub_le_norm_sub_add_norm_sub _ (w' (t0 + a * dt)) _).trans ?_
      rw [hρ]; linarith
    have tt : ∀ a, 0 ≤ a → a ≤ 1 → ‖w (t0 + a * dt) - w t0 - (a * dt) • w' t0‖ ≤ dt * ρ := fun a h0 h1 => by
      obtain ⟨i1, i2, i3, i4⟩ := tm a h0 h1
      have j := hw _ _ ht0 i2 i3
      rw [add_sub_cancel_left] at j
      refine j.trans ?_
      have h2 := mul_nonneg h0 hdt
      have : (a * dt) ^ 2 ≤ dt * δ := by
        rw [sq]; exact mul_le_mul i4 (i4.trans hle) h2 hdt
      calc M * (a * dt) ^ 2 ≤ M * (dt * δ) := mul_le_mul_of_nonneg_left this hM
        _ = dt * (M * δ) := by ring
        _ ≤ dt * ρ := mul_le_mul_of_nonneg_left (by rw [hρ]; linarith) hdt
    have nn : ∀ a, 0 ≤ a → a ≤ 1 → ∀ x, ‖x - w (t0 + a * dt)‖ ≤ r → B x := fun a h0 h1 => by
      obtain ⟨i1, i2, i3, i4⟩ := tm a h0 h1
      exact near _ i1 i3
    have ex1 : 1 ≤ Real.exp (κ * (dt + dts.sum)) := Real.one_le_exp (by positivity)
    have s0 : 0 ≤ 3 * ρ * (dt + dts.sum) := by positivity
    have hc : ‖c - w t0‖ ≤ r / 4 := by
      refine le_trans ?_ hE
      have := norm_nonneg (c - w t0)
      nlinarith
    have hrr : 3 * (dt * ρ) ≤ r / 2 := le_trans (by
      have := mul_le_mul_of_nonneg_right hle hρn
      linarith) hr
    have z0 : t0 + 0 * dt = t0 := by ring
    have o1 : t0 + 1 * dt = t0 + dt := by ring
    have k1 := kk 0 le_rfl zero_le_one
    have n1 := nn 0 le_rfl zero_le_one
    have tq := tt 1 zero_le_one le_rfl
    rw [z0] at k1 n1
    rw [o1, one_mul] at tq
    have h32 : 0 ≤ T.a31 + T.a32 := add_nonneg T.h31 T.h32
    have err := T.step_error hS hρn k1 (kk _ T.h21 T.c2) (kk _ h32 T.c3) (tt _ T.h21 T.c2) (tt _ h32 T.c3) tq B hB n1
      (nn _ T.h21 T.c2) (nn _ h32 T.c3) hrr hc
    rw [← hκ] at err
    have key : Real.exp (κ * dts.sum) * (‖T.step O.F dt c - w (t0 + dt)‖ + 3 * ρ * dts.sum) ≤
        Real.exp (κ * (dt + dts.sum)) * (‖c - w t0‖ + 3 * ρ * (dt + dts.sum)) := by
      have e : Real.exp (κ * (dt + dts.sum)) = Real.exp (κ * dts.sum) * Real.exp (κ * dt) := by
        rw [← Real.exp_add]; congr 1; ring
      rw [e, mul_assoc (Real.exp _)]
      refine mul_le_mul_of_nonneg_left ?_ (Real.exp_pos _).le
      have g1 : 1 + κ * dt ≤ Real.exp (κ * dt) := by have := Real.add_one_le_exp (κ * dt); linarith
      have g2 : 1 ≤ Real.exp (κ * dt) := Real.one_le_exp (by positivity)
      have h1 := mul_le_mul_of_nonneg_right g1 (norm_nonneg (c - w t0))
      have h2 := mul_le_mul_of_nonneg_right g2 s0
      have : 3 * ρ * (dt + dts.sum) = 3 * (dt * ρ) + 3 * ρ * dts.sum := by ring
      rw [mul_add]
      linarith
    have := ih (t0 + dt) (T.step O.F dt c) (fun x hx => hdts x (List.mem_cons_of_mem _ hx)) (by linarith) (by linarith)
      (key.trans hE)
    have e2 : t0 + (dt + dts.sum) = t0 + dt + dts.sum := by ring
    rw [e2]
    exact this.trans key

end RK3c
end Madg
