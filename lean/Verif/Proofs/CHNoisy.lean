/-
Runs whose steps are carried out with an error, and their distance from a smooth solution.
-/
import Verif.Proofs.CHFull

set_option linter.unusedVariables false

namespace Madg
open Spec

/-- Several steps of a relation. -/
def Chain {U D : Type} (Q : U → D → U → Prop) : List D → U → U → Prop
  | [], c, c' => c' = c
  | dt :: dts, c, c' => ∃ c1, Q c dt c1 ∧ Chain Q dts c1 c'

theorem Chain.map {U D U' D' : Type} {Q : U → D → U → Prop} {Q' : U' → D' → U' → Prop} (f : U → U') (g : D → D')
    (h : ∀ c d c', Q c d c' → Q' (f c) (g d) (f c')) : ∀ {ds : List D} {c c' : U}, Chain Q ds c c' → Chain Q' (ds.map g) (f c) (f c')
  | [], _, _, e => congrArg f e
  | _ :: _, _, _, ⟨c1, q, r⟩ => ⟨f c1, h _ _ _ q, Chain.map f g h r⟩

namespace RK3c
variable {V : Type} [SeminormedAddCommGroup V] [InnerProductSpace ℝ V]
variable (T : RK3c) {O : CHOp V} {Λ dt : ℝ}

/-- A step with stage errors of size at most `η`. -/
def Noisy (F : V → V) (η dt : ℝ) (c c' : V) : Prop :=
  ∃ y2 y3 : V, ‖y2 - (c + dt • (T.a21 • F c))‖ ≤ η ∧ ‖y3 - (c + dt • (T.a31 • F c + T.a32 • F y2))‖ ≤ η ∧
    ‖c' - (c + dt • (T.b1 • F c + T.b2 • F y2 + T.b3 • F y3))‖ ≤ η

theorem b_le : T.b2 ≤ 1 ∧ T.b3 ≤ 1 ∧ T.a32 ≤ 1 :=
  ⟨by linarith [T.sum, T.k1, T.k3], by linarith [T.sum, T.k1, T.k2], by linarith [T.c3, T.h31]⟩

/-- Error after one noisy step, as in `step_error`. -/
theorem noisy_error (hS : O.Step Λ dt) {u p2 p3 p v c c' : V} {ρ r η : ℝ} (hρ : 0 ≤ ρ)
    (k1 : ‖O.F u - v‖ ≤ ρ) (k2 : ‖O.F p2 - v‖ ≤ ρ) (k3 : ‖O.F p3 - v‖ ≤ ρ)
    (t2 : ‖p2 - u - (T.a21 * dt) • v‖ ≤ dt * ρ) (t3 : ‖p3 - u - ((T.a31 + T.a32) * dt) • v‖ ≤ dt * ρ)
    (t : ‖p - u - dt • v‖ ≤ dt * ρ) (B : V → Prop)
    (hB : ∀ x y, B x → B y → ‖O.phi x - O.phi y‖ ≤ Λ * ‖x - y‖)
    (n1 : ∀ x, ‖x - u‖ ≤ r → B x) (n2 : ∀ x, ‖x - p2‖ ≤ r → B x) (n3 : ∀ x, ‖x - p3‖ ≤ r → B x)
    (hr : 3 * (dt * ρ) ≤ r / 2) (hc : ‖c - u‖ ≤ r / 4) (hη : η ≤ r / 8) (hN : T.Noisy O.F η dt c c') :
    ‖c' - p‖ ≤ (1 + 3 / 2 * (Λ ^ 2 / O.e2 + |O.sg|) * dt) * ‖c - u‖ + 3 * (dt * ρ) + 2 * η := by
  have err := T.step_error hS hρ k1 k2 k3 t2 t3 t B hB n1 n2 n3 hr hc
  obtain ⟨y2, y3, e2, e3, e4⟩ := hN
  have x0 : 0 ≤ dt * ρ := mul_nonneg hS.dt0 hρ
  have r0 : 0 ≤ r := by linarith
  have η0 : 0 ≤ η := (norm_nonneg _).trans e2
  have self : ∀ q : V, ‖q - q‖ ≤ r := fun q => by rw [sub_self, norm_zero]; exact r0
  obtain ⟨c2, c3, -⟩ := T.step_consistent hS hρ k1 k2 k3 t2 t3 t
    (fun h => hB _ _ (n2 _ (by linarith)) (n2 _ (self _))) (fun h => hB _ _ (n3 _ (by linarith)) (n3 _ (self _)))
  have hp1 := hB c u (n1 _ (by linarith)) (n1 _ (self _))
  have f2 := T.e2_le hS hp1
  have tri : ∀ x y z : V, ‖x - z‖ ≤ ‖x - y‖ + ‖y - z‖ := norm_sub_le_norm_sub_add_norm_sub
  have z2 : ‖T.y2 O.F dt c - p2‖ ≤ 13 / 16 * r := (tri _ (T.y2 O.F dt u) _).trans (by linarith)
  have hp2 := hB (T.y2 O.F dt c) (T.y2 O.F dt u) (n2 _ (by linarith)) (n2 _ (by linarith))
  have f3 := T.e3_le hS hp1 hp2
  have z3 : ‖T.y3 O.F dt c - p3‖ ≤ 13 / 16 * r := (tri _ (T.y3 O.F dt u) _).trans (by linarith)
  -- second stage
  have d2 : ‖y2 - T.y2 O.F dt c‖ ≤ η := e2
  have g2 : ‖dt • (O.F y2 - O.F (T.y2 O.F dt c))‖ ≤ 1 / 8 * η := by
    have hp := hB y2 (T.y2 O.F dt c) (n2 _ ((tri _ (T.y2 O.F dt c) _).trans (by linarith))) (n2 _ (by linarith))
    have h := hS.lip_D hp
    rw [← O.F_sub] at h
    linarith
  obtain ⟨b2, b3, a3⟩ := T.b_le
  -- third stage
  have d3 : ‖y3 - T.y3 O.F dt c‖ ≤ 9 / 8 * η := by
    have e : y3 - T.y3 O.F dt c = (y3 - (c + dt • (T.a31 • O.F c + T.a32 • O.F y2))) +
        T.a32 • (dt • (O.F y2 - O.F (T.y2 O.F dt c))) := by simp only [RK3c.y3]; module
    rw [e]
    refine (norm_add_le _ _).trans ?_
    have := norm1 T.h32 a3 g2
    linarith
  have g3 : ‖dt • (O.F y3 - O.F (T.y3 O.F dt c))‖ ≤ 9 / 64 * η := by
    have hp := hB y3 (T.y3 O.F dt c) (n3 _ ((tri _ (T.y3 O.F dt c) _).trans (by linarith))) (n3 _ (by linarith))
    have h := hS.lip_D hp
    rw [← O.F_sub] at h
    linarith
  have d4 : ‖c' - T.step O.F dt c‖ ≤ 2 * η := by
    have e : c' - T.step O.F dt c = (c' - (c + dt • (T.b1 • O.F c + T.b2 • O.F y2 + T.b3 • O.F y3))) +
        (T.b2 • (dt • (O.F y2 - O.F (T.y2 O.F dt c))) + T.b3 • (dt • (O.F y3 - O.F (T.y3 O.F dt c)))) := by
      simp only [RK3c.step]; module
    rw [e]
    refine (norm_add_le _ _).trans ?_
    have m1 := norm1 T.k2 b2 g2
    have m2 := norm1 T.k3 b3 g3
    have := norm_add_le (T.b2 • (dt • (O.F y2 - O.F (T.y2 O.F dt c)))) (T.b3 • (dt • (O.F y3 - O.F (T.y3 O.F dt c))))
    linarith
  have := tri c' (T.step O.F dt c) p
  linarith

/-- Error of a noisy run, as in `run_error`. -/
theorem chain_error {w w' : ℝ → V} {Tm ρ0 M δ r η : ℝ} (hρ0 : 0 ≤ ρ0) (hM : 0 ≤ M) (hδ : 0 ≤ δ) (hη : 0 ≤ η)
    (hF : ∀ t, 0 ≤ t → t ≤ Tm → ‖O.F (w t) - w' t‖ ≤ ρ0)
    (hw : ∀ t s, 0 ≤ t → t ≤ s → s ≤ Tm → ‖w s - w t - (s - t) • w' t‖ ≤ M * (s - t) ^ 2)
    (hw' : ∀ t s, 0 ≤ t → t ≤ s → s ≤ Tm → ‖w' s - w' t‖ ≤ M * (s - t))
    (B : V → Prop) (hB : ∀ x y, B x → B y → ‖O.phi x - O.phi y‖ ≤ Λ * ‖x - y‖)
    (near : ∀ t, 0 ≤ t → t ≤ Tm → ∀ x, ‖x - w t‖ ≤ r → B x) (hr : 3 * (δ * (ρ0 + M * δ)) ≤ r / 2) (Q : V → ℝ → V → Prop) :
    ∀ (dts : List ℝ) (hQ : ∀ dt ∈ dts, ∀ c c', B c → Q c dt c' → T.Noisy O.F η dt c c') (t0 : ℝ) (c c' : V),
      (∀ dt ∈ dts, O.Step Λ dt ∧ dt ≤ δ) → 0 ≤ t0 → t0 + dts.sum ≤ Tm →
      Real.exp (3 / 2 * (Λ ^ 2 / O.e2 + |O.sg|) * dts.sum) * (‖c - w t0‖ + (3 * (ρ0 + M * δ) * dts.sum + 2 * (dts.length * η))) ≤ r / 4 →
      Chain Q dts c c' → ‖c' - w (t0 + dts.sum)‖ ≤
        Real.exp (3 / 2 * (Λ ^ 2 / O.e2 + |O.sg|) * dts.sum) * (‖c - w t0‖ + (3 * (ρ0 + M * δ) * dts.sum + 2 * (dts.length * η))) := by
  have he := O.e2pos
  obtain ⟨κ, hκ⟩ : ∃ κ, κ = 3 / 2 * (Λ ^ 2 / O.e2 + |O.sg|) := ⟨_, rfl⟩
  have κ0 : 0 ≤ κ := by rw [hκ]; positivity
  obtain ⟨ρ, hρ⟩ : ∃ ρ, ρ = ρ0 + M * δ := ⟨_, rfl⟩
  have hρn : 0 ≤ ρ := by rw [hρ]; positivity
  rw [← hκ, ← hρ]
  rw [← hρ] at hr
  intro dts
  induction dts with
  | nil => intro _ t0 c c' _ _ _ _ h; rw [Chain] at h; subst h; simp
  | cons dt dts ih =>
    intro hQ t0 c c' hdts ht0 hT hE hch
    obtain ⟨c1, q1, ch⟩ := hch
    obtain ⟨hS, hle⟩ := hdts dt List.mem_cons_self
    have hdt := hS.dt0
    have hsum : 0 ≤ dts.sum := List.sum_nonneg fun x hx => (hdts x (List.mem_cons_of_mem _ hx)).1.dt0
    rw [List.sum_cons, List.length_cons] at hE ⊢
    rw [List.sum_cons] at hT
    push_cast at hE ⊢
    have mdt : M * dt ≤ M * δ := mul_le_mul_of_nonneg_left hle hM
    have tm : ∀ a, 0 ≤ a → a ≤ 1 → 0 ≤ t0 + a * dt ∧ t0 ≤ t0 + a * dt ∧ t0 + a * dt ≤ Tm ∧ a * dt ≤ dt := fun a h0 h1 => by
      have h2 := mul_nonneg h0 hdt
      have h3 : a * dt ≤ dt := by nlinarith
      exact ⟨by linarith, by linarith, by linarith, h3⟩
    have kk : ∀ a, 0 ≤ a → a ≤ 1 → ‖O.F (w (t0 + a * dt)) - w' t0‖ ≤ ρ := fun a h0 h1 => by
      obtain ⟨i1, i2, i3, i4⟩ := tm a h0 h1
      have j1 := hF _ i1 i3
      have j2 := hw' _ _ ht0 i2 i3
      have j3 : M * (t0 + a * dt - t0) ≤ M * dt := mul_le_mul_of_nonneg_left (by linarith) hM
      refine (norm_sub_le_norm_sub_add_norm_sub _ (w' (t0 + a * dt)) _).trans ?_
      rw [hρ]; linarith
    have tt : ∀ a, 0 ≤ a → a ≤ 1 → ‖w (t0 + a * dt) - w t0 - (a * dt) • w' t0‖ ≤ dt * ρ := fun a h0 h1 => by
      obtain ⟨i1, i2, i3, i4⟩ := tm a h0 h1
      have j := hw _ _ ht0 i2 i3
      rw [add_sub_cancel_left] at j
      refine j.trans ?_
      have h2 := mul_nonneg h0 hdt
      have : (a * dt) ^ 2 ≤ dt * δ := by
        rw [sq]; exact mul_le_mul i4 (i4.trans hle) h2 hdt
      calc M * (a * dt) ^ 2 ≤ M * (dt * δ) := mul_le_mul_of_nonneg_left this hM
        _ = dt * (M * δ) := by ring
        _ ≤ dt * ρ := mul_le_mul_of_nonneg_left (by rw [hρ]; linarith) hdt
    have nn : ∀ a, 0 ≤ a → a ≤ 1 → ∀ x, ‖x - w (t0 + a * dt)‖ ≤ r → B x := fun a h0 h1 => by
      obtain ⟨i1, i2, i3, i4⟩ := tm a h0 h1
      exact near _ i1 i3
    have ex1 : 1 ≤ Real.exp (κ * (dt + dts.sum)) := Real.one_le_exp (by positivity)
    have l0 : 0 ≤ (dts.length : ℝ) * η := mul_nonneg (Nat.cast_nonneg _) hη
    have s0 : 0 ≤ 3 * ρ * (dt + dts.sum) + 2 * ((dts.length + 1) * η) := by positivity
    have tot : ‖c - w t0‖ + (3 * ρ * (dt + dts.sum) + 2 * ((dts.length + 1) * η)) ≤ r / 4 := by
      refine le_trans ?_ hE
      have := norm_nonneg (c - w t0)
      nlinarith
    have hp0 : 0 ≤ 3 * ρ * (dt + dts.sum) := by positivity
    have cn := norm_nonneg (c - w t0)
    have hc : ‖c - w t0‖ ≤ r / 4 := by linarith
    have hη8 : η ≤ r / 8 := by linarith
    have hrr : 3 * (dt * ρ) ≤ r / 2 := le_trans (by
      have := mul_le_mul_of_nonneg_right hle hρn
      linarith) hr
    have z0 : t0 + 0 * dt = t0 := by ring
    have o1 : t0 + 1 * dt = t0 + dt := by ring
    have k1 := kk 0 le_rfl zero_le_one
    have n1 := nn 0 le_rfl zero_le_one
    have tq := tt 1 zero_le_one le_rfl
    rw [z0] at k1 n1
    rw [o1, one_mul] at tq
    have h32 : 0 ≤ T.a31 + T.a32 := add_nonneg T.h31 T.h32
    have hNo := hQ dt List.mem_cons_self c c1 (n1 _ (by linarith)) q1
    have err := T.noisy_error hS hρn k1 (kk _ T.h21 T.c2) (kk _ h32 T.c3) (tt _ T.h21 T.c2) (tt _ h32 T.c3) tq B hB n1
      (nn _ T.h21 T.c2) (nn _ h32 T.c3) hrr hc hη8 hNo
    rw [← hκ] at err
    have key : Real.exp (κ * dts.sum) * (‖c1 - w (t0 + dt)‖ + (3 * ρ * dts.sum + 2 * (dts.length * η))) ≤
        Real.exp (κ * (dt + dts.sum)) * (‖c - w t0‖ + (3 * ρ * (dt + dts.sum) + 2 * ((dts.length + 1) * η))) := by
      have e : Real.exp (κ * (dt + dts.sum)) = Real.exp (κ * dts.sum) * Real.exp (κ * dt) := by
        rw [← Real.exp_add]; congr 1; ring
      rw [e, mul_assoc (Real.exp _)]
      refine mul_le_mul_of_nonneg_left ?_ (Real.exp_pos _).le
      have g1 : 1 + κ * dt ≤ Real.exp (κ * dt) := by have := Real.add_one_le_exp (κ * dt); linarith
      have g2 : 1 ≤ Real.exp (κ * dt) := Real.one_le_exp (by positivity)
      have h1 := mul_le_mul_of_nonneg_right g1 (norm_nonneg (c - w t0))
      have h2 := mul_le_mul_of_nonneg_right g2 s0
      have : 3 * ρ * (dt + dts.sum) = 3 * (dt * ρ) + 3 * ρ * dts.sum := by ring
      rw [mul_add]
      linarith
    have := ih (fun d hd => hQ d (List.mem_cons_of_mem _ hd)) (t0 + dt) c1 c' (fun x hx => hdts x (List.mem_cons_of_mem _ hx))
      (by linarith) (by linarith) (key.trans hE) ch
    have e2 : t0 + (dt + dts.sum) = t0 + dt + dts.sum := by ring
    rw [e2]
    exact this.trans key

end RK3c

/-- A step on functions over cells with stage errors of size at most `η` at every cell. -/
def NoisyCells {C : Type} (T : RK3c) (S : Finset C) (F : (C → ℝ) → C → ℝ) (η dt : ℝ) (c c' : C → ℝ) : Prop :=
  ∃ y2 y3 : C → ℝ, (∀ s ∈ S, |y2 s - (c s + dt * (T.a21 * F c s))| ≤ η) ∧
    (∀ s ∈ S, |y3 s - (c s + dt * (T.a31 * F c s + T.a32 * F y2 s))| ≤ η) ∧
    (∀ s ∈ S, |c' s - (c s + dt * (T.b1 * F c s + T.b2 * F y2 s + T.b3 * F y3 s))| ≤ η)

section
variable {C : Type} (S : Finset C)

/-- Convergence of a noisy run on functions over a set of cells. -/
theorem cell_chain_error (T : RK3c) (lap : (C → ℝ) →ₗ[ℝ] (C → ℝ)) (R e2 sg m0 : ℝ) (he : 0 < e2) (hR : 0 ≤ R)
    (sym : ∀ u v : C → ℝ, ∑ c ∈ S, lap u c * v c = ∑ c ∈ S, u c * lap v c)
    (bnd : ∀ u : C → ℝ, cellNorm S (lap u) ≤ R * cellNorm S u)
    (F : (C → ℝ) → C → ℝ)
    (hFd : ∀ u, F u = lap (fun c => u c ^ 3 - u c) - e2 • lap (lap u) - sg • (u - fun _ => m0))
    {w w' : ℝ → C → ℝ} {Tm ρ0 M δ b Λ η : ℝ} (hρ0 : 0 ≤ ρ0) (hM : 0 ≤ M) (hδ : 0 ≤ δ) (hη : 0 ≤ η)
    (hF : ∀ t, 0 ≤ t → t ≤ Tm → ∀ c ∈ S, |F (w t) c - w' t c| ≤ ρ0)
    (hw : ∀ t s, 0 ≤ t → t ≤ s → s ≤ Tm → ∀ c ∈ S, |w s c - w t c - (s - t) * w' t c| ≤ M * (s - t) ^ 2)
    (hw' : ∀ t s, 0 ≤ t → t ≤ s → s ≤ Tm → ∀ c ∈ S, |w' s c - w' t c| ≤ M * (s - t))
    (hb : ∀ t, 0 ≤ t → t ≤ Tm → ∀ c ∈ S, |w t c| ≤ b) (hΛ : Λ = 3 * (b + 1) ^ 2 + 1)
    (hr : 3 * (δ * (Real.sqrt S.card * (ρ0 + M * δ))) ≤ 1 / 2) (Q : (C → ℝ) → ℝ → (C → ℝ) → Prop)
    (dts : List ℝ) (hQ : ∀ dt ∈ dts, ∀ c c', (∀ s ∈ S, |c s| ≤ b + 1) → Q c dt c' → NoisyCells T S F η dt c c') (t0 : ℝ) (y y' : C → ℝ)
    (hdts : ∀ dt ∈ dts, (0 ≤ dt ∧ dt * (e2 * R ^ 2) ≤ 1 / 32 ∧ dt * (Λ ^ 2 / e2 + |sg|) ≤ 1 / 32) ∧ dt ≤ δ)
    (ht0 : 0 ≤ t0) (hT : t0 + dts.sum ≤ Tm) (E : ℝ)
    (hE : E = Real.exp (3 / 2 * (Λ ^ 2 / e2 + |sg|) * dts.sum) *
      (cellNorm S (y - w t0) + (3 * (Real.sqrt S.card * (ρ0 + M * δ)) * dts.sum + 2 * (dts.length * (Real.sqrt S.card * η)))))
    (hE4 : E ≤ 1 / 4) (hch : Chain Q dts y y') :
    cellNorm S (y' - w (t0 + dts.sum)) ≤ E := by
  let i0 := @InnerProductSpace.Core.toSeminormedAddCommGroup ℝ (C → ℝ) _ _ _ (cellCore S)
  let i1 : InnerProductSpace ℝ (C → ℝ) := InnerProductSpace.ofCore (cellCore S)
  have nrm : ∀ u : C → ℝ, ‖u‖ = cellNorm S u := fun u => by
    have : ‖u‖ = Real.sqrt (∑ c ∈ S, u c * u c) := rfl
    rw [this]; unfold cellNorm
    congr 1
    exact Finset.sum_congr rfl fun c _ => by ring
  let O : CHOp (C → ℝ) := { lap := lap, phi := fun u c => u c ^ 3 - u c, m0 := fun _ => m0, e2 := e2, sg := sg, R := R, e2pos := he, Rnn := hR, sym := sym, bnd := fun u => by rw [nrm, nrm]; exact bnd u }
  have hFO : F = O.F := funext hFd
  have q0 : 0 ≤ Real.sqrt S.card := Real.sqrt_nonneg _
  rw [hFO] at hF hQ
  have eρ : Real.sqrt S.card * ρ0 + Real.sqrt S.card * M * δ = Real.sqrt S.card * (ρ0 + M * δ) := by ring
  have key := T.chain_error (O := O) (Λ := Λ) (w := w) (w' := w') (Tm := Tm) (ρ0 := Real.sqrt S.card * ρ0)
    (M := Real.sqrt S.card * M) (δ := δ) (r := 1) (η := Real.sqrt S.card * η) (by positivity) (by positivity) hδ (by positivity)
    (fun t h1 h2 => by rw [nrm]; exact cellNorm_le S hρ0 (hF t h1 h2))
    (fun t s h1 h2 h3 => by
      rw [nrm, mul_assoc]; exact cellNorm_le S (by positivity) (hw t s h1 h2 h3))
    (fun t s h1 h2 h3 => by
      rw [nrm, mul_assoc]; exact cellNorm_le S (mul_nonneg hM (by linarith)) (hw' t s h1 h2 h3))
    (fun x => ∀ c ∈ S, |x c| ≤ b + 1)
    (fun x y hx hy => by
      rw [nrm, nrm]
      refine cellNorm_mono S (by rw [hΛ]; positivity) fun c hc => ?_
      rw [hΛ]
      exact cubic_lip (hx c hc) (hy c hc))
    (fun t h1 h2 x hx c hc => by
      rw [nrm] at hx
      have h3 := (le_cellNorm S (x - w t) hc).trans hx
      have h4 := hb t h1 h2 c hc
      have : |x c| ≤ |x c - w t c| + |w t c| := by
        have := abs_add_le (x c - w t c) (w t c); rwa [sub_add_cancel] at this
      have e : (x - w t) c = x c - w t c := rfl
      rw [e] at h3
      linarith)
    (by rw [eρ]; exact hr) Q dts
    (fun dt hdt c c' hc hq => by
      obtain ⟨y2, y3, n2, n3, n4⟩ := hQ dt hdt c c' hc hq
      refine ⟨y2, y3, ?_, ?_, ?_⟩ <;> rw [nrm]
      · exact cellNorm_le S hη n2
      · exact cellNorm_le S hη n3
      · exact cellNorm_le S hη n4)
    t0 y y' (fun dt h => ⟨⟨(hdts dt h).1.1, by rw [hΛ]; positivity, (hdts dt h).1.2.1, (hdts dt h).1.2.2⟩, (hdts dt h).2⟩)
    ht0 hT (by rw [nrm, eρ]; exact (le_of_eq hE.symm).trans hE4) hch
  rw [nrm, nrm, eρ] at key
  exact key.trans (le_of_eq hE.symm)

end

set_option maxHeartbeats 800000 in
/-- As `cell_converges`, for noisy steps: there are a constant, a largest spacing and a size `M` of states such that every chain of
steps whose stage errors are at most `ρ M` for states of size at most `M / 2`, `ρ` times the number of steps being at most `a dx²`,
stays within a constant times `dx²` of the solution. -/
theorem chain_converges {d : Nat} (p : CHParams ℝ) (he : 0 < p.eps2) {L : Fin d → ℝ} (hL : ∀ a, 0 < L a) {T : ℝ}
    {u : ℝ → (Fin d → ℝ) → ℝ} (hu : CHSolution p L T u) (a vol : ℝ) (ha : 0 ≤ a) (hv : 0 ≤ vol) :
    ∃ (Cst h0 : ℝ) (Mx : ℕ), 0 ≤ Cst ∧ 0 < h0 ∧ 2 ≤ Mx ∧ ∀ (C : Type) (S : Finset C) (lap : (C → ℝ) →ₗ[ℝ] (C → ℝ)) (pos : C → Fin d → ℝ)
      (dx : ℝ) (hdx : 0 < dx) (hdx1 : dx ≤ h0)
      (sym : ∀ u v : C → ℝ, ∑ c ∈ S, lap u c * v c = ∑ c ∈ S, u c * lap v c)
      (bnd : ∀ u : C → ℝ, cellNorm S (lap u) ≤ 12 / dx ^ 2 * cellNorm S u)
      (hN : (S.card : ℝ) * dx ^ 4 ≤ vol * dx) (F : (C → ℝ) → C → ℝ)
      (hFd : ∀ u, F u = lap (fun c => u c ^ 3 - u c) - p.eps2 • lap (lap u) - p.sigma • (u - fun _ => p.m))
      (hpos : ∀ t, 0 ≤ t → t ≤ T → ∀ c ∈ S, F (fun c => u t (pos c)) c =
        -p.eps2 * dlap dx (dlap dx (u t)) (pos c) + dlap dx (fun y => u t y ^ 3 - u t y) (pos c) - p.sigma * (u t (pos c) - p.m))
      (Tb : RK3c) (Q : (C → ℝ) → ℝ → (C → ℝ) → Prop) (ρ : ℝ) (hρ : 0 ≤ ρ) (dts : List ℝ)
      (hQ : ∀ dt ∈ dts, ∀ c c', (∀ s ∈ S, |c s| ≤ (Mx : ℝ) / 2) → Q c dt c' → NoisyCells Tb S F (ρ * Mx) dt c c')
      (hdts : ∀ dt ∈ dts, 0 ≤ dt ∧ 4608 * p.eps2 * dt ≤ dx ^ 4) (hsum : dts.sum ≤ T) (hlen : dts.length * ρ ≤ a * dx ^ 2)
      (y y' : C → ℝ) (hy : ∀ c ∈ S, |y c - u 0 (pos c)| ≤ a * dx ^ 2) (hch : Chain Q dts y y'),
      cellNorm S (y' - fun c => u dts.sum (pos c)) ≤ Cst * (Real.sqrt S.card * dx ^ 2) := by
  obtain ⟨b, b0, ⟨nb, hnb⟩, hb⟩ : ∃ b : ℝ, 0 ≤ b ∧ (∃ n : ℕ, b = n) ∧ ∀ t, 0 ≤ t → t ≤ T → ∀ x, |u t x| ≤ b := by
    obtain ⟨b, b0, hb⟩ := sol_bound hL hu
    exact ⟨(⌈b⌉₊ : ℝ), Nat.cast_nonneg _, ⟨_, rfl⟩, fun t h1 h2 x => (hb t h1 h2 x).trans (Nat.le_ceil b)⟩
  obtain ⟨C1, c0, hC1⟩ := sol_trunc hL hu
  obtain ⟨M, m0, hM1, hM2⟩ := sol_time hL hu
  obtain ⟨Λ, hΛ⟩ : ∃ Λ, Λ = 3 * (b + 1) ^ 2 + 1 := ⟨_, rfl⟩
  obtain ⟨κ, hκ⟩ : ∃ κ, κ = Λ ^ 2 / p.eps2 + |p.sigma| := ⟨_, rfl⟩
  have κ0 : 0 ≤ κ := by rw [hκ]; positivity
  obtain ⟨q, hq⟩ : ∃ q, q = 1 / (4608 * p.eps2) := ⟨_, rfl⟩
  have q0 : 0 < q := by rw [hq]; positivity
  obtain ⟨C2, hC2⟩ : ∃ C2, C2 = C1 + M * q := ⟨_, rfl⟩
  have C20 : 0 ≤ C2 := by rw [hC2]; positivity
  obtain ⟨Mx, hMn⟩ : ∃ Mx : ℕ, Mx = 2 * (nb + 1) := ⟨_, rfl⟩
  obtain ⟨Cst, hCst⟩ : ∃ Cst, Cst = Real.exp (3 / 2 * κ * |T|) * (a + (3 * C2 * |T| + 2 * (a * Mx))) := ⟨_, rfl⟩
  have Cst0 : 0 ≤ Cst := by rw [hCst]; positivity
  obtain ⟨D, hD⟩ : ∃ D, D = Cst + 3 * q * C2 := ⟨_, rfl⟩
  have D0 : 0 ≤ D := by rw [hD]; positivity
  refine ⟨Cst, min 1 (min (1 / (16 * (D ^ 2 * vol + 1))) (1 / (32 * (q * κ + 1)))), Mx, Cst0, by positivity,
    by omega, ?_⟩
  have hMx : (Mx : ℝ) = 2 * (b + 1) := by rw [hMn, hnb]; push_cast; ring
  have Mx0 : (0 : ℝ) ≤ Mx := Nat.cast_nonneg _
  intro C S lap pos dx hdx hdx1 sym bnd hN F hFd hpos Tb Q ρ hρ dts hQ hdts hsum hlen y y' hy hch
  have d1 : dx ≤ 1 := hdx1.trans (min_le_left _ _)
  have d2 : dx ≤ 1 / (16 * (D ^ 2 * vol + 1)) := hdx1.trans ((min_le_right _ _).trans (min_le_left _ _))
  have d3 : dx ≤ 1 / (32 * (q * κ + 1)) := hdx1.trans ((min_le_right _ _).trans (min_le_right _ _))
  rw [le_div_iff₀ (by positivity)] at d2 d3
  have p4 : dx ^ 4 ≤ dx := by
    have := pow_le_one₀ (n := 3) hdx.le d1
    calc dx ^ 4 = dx ^ 3 * dx := by ring
      _ ≤ 1 * dx := mul_le_mul_of_nonneg_right this hdx.le
      _ = dx := one_mul _
  have p2 : dx ^ 2 ≤ 1 := pow_le_one₀ hdx.le d1
  have p42 : dx ^ 4 ≤ dx ^ 2 := by
    calc dx ^ 4 = dx ^ 2 * dx ^ 2 := by ring
      _ ≤ 1 * dx ^ 2 := mul_le_mul_of_nonneg_right p2 (sq_nonneg _)
      _ = _ := one_mul _
  obtain ⟨X, hX⟩ : ∃ X, X = Real.sqrt S.card * dx ^ 2 := ⟨_, rfl⟩
  have X0 : 0 ≤ X := by rw [hX]; positivity
  have X2 : X ^ 2 ≤ vol * dx := by
    rw [hX, mul_pow, Real.sq_sqrt (Nat.cast_nonneg _), ← pow_mul]; exact hN
  have DX : D * X ≤ 1 / 4 := by
    refine abs_le_of_sq_le_sq' ?_ (by norm_num) |>.2
    rw [mul_pow]
    have h1 := mul_le_mul_of_nonneg_left X2 (sq_nonneg D)
    have h2 : 0 ≤ dx * 16 := by positivity
    nlinarith
  have δ0 : 0 ≤ q * dx ^ 4 := by positivity
  have hst : ∀ dt ∈ dts, (0 ≤ dt ∧ dt * (p.eps2 * (12 / dx ^ 2) ^ 2) ≤ 1 / 32 ∧ dt * (Λ ^ 2 / p.eps2 + |p.sigma|) ≤ 1 / 32) ∧
      dt ≤ q * dx ^ 4 := by
    intro dt hdt
    obtain ⟨h1, h2⟩ := hdts dt hdt
    have h3 : dt ≤ q * dx ^ 4 := by
      rw [hq, div_mul_eq_mul_div, one_mul, le_div_iff₀ (by positivity)]; linarith
    refine ⟨⟨h1, ?_, ?_⟩, h3⟩
    · have : dt * (p.eps2 * (12 / dx ^ 2) ^ 2) = (144 * p.eps2 * dt) / dx ^ 4 := by field_simp; ring
      rw [this, div_le_iff₀ (by positivity)]; linarith
    · rw [← hκ]
      calc dt * κ ≤ (q * dx ^ 4) * κ := mul_le_mul_of_nonneg_right h3 κ0
        _ ≤ (q * dx) * κ := mul_le_mul_of_nonneg_right (mul_le_mul_of_nonneg_left p4 q0.le) κ0
        _ ≤ 1 / 32 := by nlinarith
  have sum0 : 0 ≤ dts.sum := List.sum_nonneg fun x hx => (hdts x hx).1
  have sumT : dts.sum ≤ |T| := hsum.trans (le_abs_self _)
  have defect : C1 * dx ^ 2 + M * (q * dx ^ 4) ≤ C2 * dx ^ 2 := by
    rw [hC2, add_mul]
    have := mul_le_mul_of_nonneg_left p42 (mul_nonneg m0 q0.le)
    linarith
  have q1 : 0 ≤ Real.sqrt S.card := Real.sqrt_nonneg _
  have defN : Real.sqrt S.card * (C1 * dx ^ 2 + M * (q * dx ^ 4)) ≤ C2 * X := by
    calc _ ≤ Real.sqrt S.card * (C2 * dx ^ 2) := mul_le_mul_of_nonneg_left defect q1
      _ = C2 * X := by rw [hX]; ring
  have def0 : 0 ≤ Real.sqrt S.card * (C1 * dx ^ 2 + M * (q * dx ^ 4)) := by positivity
  have lenN : dts.length * (Real.sqrt S.card * (ρ * Mx)) ≤ a * Mx * X := by
    calc dts.length * (Real.sqrt S.card * (ρ * Mx)) = Real.sqrt S.card * Mx * (dts.length * ρ) := by ring
      _ ≤ Real.sqrt S.card * Mx * (a * dx ^ 2) := mul_le_mul_of_nonneg_left hlen (mul_nonneg q1 Mx0)
      _ = a * Mx * X := by rw [hX]; ring
  have init : cellNorm S (y - fun c => u 0 (pos c)) ≤ a * X := by
    refine (cellNorm_le S (by positivity) hy).trans (le_of_eq ?_)
    rw [hX]; ring
  have init0 : 0 ≤ cellNorm S (y - fun c => u 0 (pos c)) := Real.sqrt_nonneg _
  have hE : Real.exp (3 / 2 * (Λ ^ 2 / p.eps2 + |p.sigma|) * dts.sum) *
      (cellNorm S (y - fun c => u 0 (pos c)) + (3 * (Real.sqrt S.card * (C1 * dx ^ 2 + M * (q * dx ^ 4))) * dts.sum +
        2 * (dts.length * (Real.sqrt S.card * (ρ * Mx))))) ≤ Cst * X := by
    rw [← hκ]
    have g1 : Real.exp (3 / 2 * κ * dts.sum) ≤ Real.exp (3 / 2 * κ * |T|) :=
      Real.exp_le_exp.2 (mul_le_mul_of_nonneg_left sumT (by positivity))
    have g2 : cellNorm S (y - fun c => u 0 (pos c)) + (3 * (Real.sqrt S.card * (C1 * dx ^ 2 + M * (q * dx ^ 4))) * dts.sum +
        2 * (dts.length * (Real.sqrt S.card * (ρ * Mx)))) ≤ (a + (3 * C2 * |T| + 2 * (a * Mx))) * X := by
      have := mul_le_mul defN sumT sum0 (mul_nonneg C20 X0)
      have e : (a + (3 * C2 * |T| + 2 * (a * Mx))) * X = a * X + 3 * (C2 * X * |T|) + 2 * (a * Mx * X) := by ring
      rw [e]
      linarith
    have g3 : 0 ≤ cellNorm S (y - fun c => u 0 (pos c)) + (3 * (Real.sqrt S.card * (C1 * dx ^ 2 + M * (q * dx ^ 4))) * dts.sum +
        2 * (dts.length * (Real.sqrt S.card * (ρ * Mx)))) := by positivity
    calc _ ≤ Real.exp (3 / 2 * κ * |T|) * ((a + (3 * C2 * |T| + 2 * (a * Mx))) * X) := mul_le_mul g1 g2 g3 (Real.exp_pos _).le
      _ = Cst * X := by rw [hCst]; ring
  have CX : Cst * X ≤ 1 / 4 := le_trans (mul_le_mul_of_nonneg_right (by rw [hD]; linarith [mul_nonneg q0.le C20]) X0) DX
  have key := cell_chain_error S Tb lap (12 / dx ^ 2) p.eps2 p.sigma p.m he (by positivity) sym bnd F hFd
    (w := fun t c => u t (pos c)) (w' := fun t c => chCont p (u t) (pos c)) (Tm := T) (ρ0 := C1 * dx ^ 2) (M := M)
    (δ := q * dx ^ 4) (b := b) (Λ := Λ) (η := ρ * Mx) (by positivity) m0 δ0 (by positivity)
    (fun t h1 h2 c hc => by rw [hpos t h1 h2 c hc]; exact hC1 t h1 h2 dx hdx _)
    (fun t s h1 h2 h3 c _ => hM2 t s h1 h2 h3 _) (fun t s h1 h2 h3 c _ => hM1 t s h1 h2 h3 _)
    (fun t h1 h2 c _ => hb t h1 h2 _) hΛ
    (by
      have h1 : q * dx ^ 4 * (Real.sqrt S.card * (C1 * dx ^ 2 + M * (q * dx ^ 4))) ≤ q * (C2 * X) := by
        have : q * dx ^ 4 ≤ q := by
          have := mul_le_mul_of_nonneg_left (p42.trans p2) q0.le
          linarith
        exact mul_le_mul this defN def0 q0.le
      have h2 : 3 * (q * (C2 * X)) ≤ D * X := by
        rw [hD]
        have := mul_nonneg Cst0 X0
        have e : (Cst + 3 * q * C2) * X = Cst * X + 3 * (q * (C2 * X)) := by ring
        linarith
      linarith)
    Q dts (fun dt hdt c c' hc => hQ dt hdt c c' fun s hs => (hc s hs).trans (by rw [hMx]; linarith))
    0 y y' hst le_rfl (by rw [zero_add]; exact hsum) _ rfl (hE.trans CX) hch
  rw [zero_add] at key
  exact key.trans (hX ▸ hE)

end Madg
