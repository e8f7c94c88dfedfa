/-
Stability and convergence of three-stage Runge–Kutta steps for equations of Cahn–Hilliard type
`c' = Δ φ(c) - ε² Δ² c - σ (c - m)` in a space with an inner product, where `Δ` is symmetric and bounded.
-/
import Mathlib.Analysis.InnerProductSpace.Basic
import Mathlib.Analysis.SpecialFunctions.Exp

set_option linter.unusedVariables false

namespace Madg
open scoped RealInnerProductSpace

variable {V : Type} [SeminormedAddCommGroup V] [InnerProductSpace ℝ V]

/-- The data of the equation. -/
structure CHOp (V : Type) [SeminormedAddCommGroup V] [InnerProductSpace ℝ V] where
  lap : V →ₗ[ℝ] V
  phi : V → V
  m0 : V
  e2 : ℝ
  sg : ℝ
  R : ℝ
  e2pos : 0 < e2
  Rnn : 0 ≤ R
  sym : ∀ u v : V, ⟪lap u, v⟫ = ⟪u, lap v⟫
  bnd : ∀ u : V, ‖lap u‖ ≤ R * ‖u‖

namespace CHOp
variable (O : CHOp V)

/-- Right-hand side. -/
def F (c : V) : V := O.lap (O.phi c) - O.e2 • O.lap (O.lap c) - O.sg • (c - O.m0)

/-- Difference of two right-hand sides. -/
def D (q f : V) : V := O.lap q - O.e2 • O.lap (O.lap f) - O.sg • f

theorem F_sub (c u : V) : O.F c - O.F u = O.D (O.phi c - O.phi u) (c - u) := by
  simp only [F, D, map_sub, smul_sub]
  abel

/-- Admissible step sizes: `dt ε² R² ≤ 1/32` and `dt (Λ²/ε² + |σ|) ≤ 1/32`. -/
structure Step (Λ dt : ℝ) : Prop where
  dt0 : 0 ≤ dt
  L0 : 0 ≤ Λ
  stiff : dt * (O.e2 * O.R ^ 2) ≤ 1 / 32
  mild : dt * (Λ ^ 2 / O.e2 + |O.sg|) ≤ 1 / 32

variable {O} {Λ dt : ℝ} (hS : O.Step Λ dt)
include hS

theorem Step.sg_le : dt * |O.sg| ≤ 1 / 32 := by
  have h := hS.mild
  have : 0 ≤ dt * (Λ ^ 2 / O.e2) := mul_nonneg hS.dt0 (div_nonneg (sq_nonneg _) O.e2pos.le)
  rw [mul_add] at h; linarith

theorem Step.cross : dt * (O.R * Λ) ≤ 1 / 32 := by
  have he := O.e2pos
  have h : 2 * (O.R * Λ) ≤ O.e2 * O.R ^ 2 + Λ ^ 2 / O.e2 := by
    have e : O.e2 * O.R ^ 2 + Λ ^ 2 / O.e2 - 2 * (O.R * Λ) = (O.e2 * O.R - Λ) ^ 2 / O.e2 := by field_simp; ring
    have : 0 ≤ (O.e2 * O.R - Λ) ^ 2 / O.e2 := by positivity
    linarith
  have h1 := mul_le_mul_of_nonneg_left h hS.dt0
  have h2 := hS.stiff
  have h3 := hS.mild
  have : 0 ≤ dt * |O.sg| := mul_nonneg hS.dt0 (abs_nonneg _)
  rw [mul_add] at h1 h3; linarith

variable {q f : V} (hq : ‖q‖ ≤ Λ * ‖f‖)
include hq

theorem Step.norm_D : ‖dt • O.D q f‖ ≤ dt * (O.R * (Λ * ‖f‖ + O.e2 * ‖O.lap f‖)) + dt * |O.sg| * ‖f‖ := by
  rw [norm_smul, Real.norm_of_nonneg hS.dt0]
  have h1 : ‖O.D q f‖ ≤ ‖O.lap q‖ + ‖O.e2 • O.lap (O.lap f)‖ + ‖O.sg • f‖ :=
    (norm_sub_le _ _).trans (add_le_add_left (norm_sub_le _ _) _)
  have h2 := (O.bnd q).trans (mul_le_mul_of_nonneg_left hq O.Rnn)
  have h3 : ‖O.e2 • O.lap (O.lap f)‖ ≤ O.e2 * (O.R * ‖O.lap f‖) := by
    rw [norm_smul, Real.norm_of_nonneg O.e2pos.le]
    exact mul_le_mul_of_nonneg_left (O.bnd _) O.e2pos.le
  rw [norm_smul (O.sg), Real.norm_eq_abs] at h1
  have h4 : ‖O.D q f‖ ≤ O.R * (Λ * ‖f‖ + O.e2 * ‖O.lap f‖) + |O.sg| * ‖f‖ := by linarith
  calc dt * ‖O.D q f‖ ≤ dt * (O.R * (Λ * ‖f‖ + O.e2 * ‖O.lap f‖) + |O.sg| * ‖f‖) := mul_le_mul_of_nonneg_left h4 hS.dt0
    _ = _ := by ring

theorem Step.lip_D : ‖dt • O.D q f‖ ≤ 1 / 8 * ‖f‖ := by
  refine (hS.norm_D hq).trans ?_
  have n := norm_nonneg f
  have h1 := mul_le_mul_of_nonneg_right hS.cross n
  have h2 := mul_le_mul_of_nonneg_right hS.sg_le n
  have h3 := mul_le_mul_of_nonneg_right hS.stiff n
  have h4 : dt * (O.R * (O.e2 * ‖O.lap f‖)) ≤ dt * (O.R * (O.e2 * (O.R * ‖f‖))) :=
    mul_le_mul_of_nonneg_left (mul_le_mul_of_nonneg_left (mul_le_mul_of_nonneg_left (O.bnd f) O.e2pos.le) O.Rnn) hS.dt0
  have e : dt * (O.R * (O.e2 * (O.R * ‖f‖))) = dt * (O.e2 * O.R ^ 2) * ‖f‖ := by ring
  have e2 : dt * (O.R * (Λ * ‖f‖ + O.e2 * ‖O.lap f‖)) = dt * (O.R * Λ) * ‖f‖ + dt * (O.R * (O.e2 * ‖O.lap f‖)) := by ring
  rw [e2]
  linarith

theorem Step.lap_D : ‖O.lap (dt • O.D q f)‖ ≤ Λ / O.e2 * ‖f‖ / 32 + ‖O.lap f‖ / 16 := by
  have he := O.e2pos
  have e : O.lap (dt • O.D q f) = dt • (O.lap (O.lap q) - O.e2 • O.lap (O.lap (O.lap f)) - O.sg • O.lap f) := by
    simp only [D, map_smul, map_sub]
  rw [e, norm_smul, Real.norm_of_nonneg hS.dt0]
  have h1 : ‖O.lap (O.lap q) - O.e2 • O.lap (O.lap (O.lap f)) - O.sg • O.lap f‖ ≤
      ‖O.lap (O.lap q)‖ + ‖O.e2 • O.lap (O.lap (O.lap f))‖ + ‖O.sg • O.lap f‖ :=
    (norm_sub_le _ _).trans (add_le_add_left (norm_sub_le _ _) _)
  have b2 : ∀ v : V, ‖O.lap (O.lap v)‖ ≤ O.R ^ 2 * ‖v‖ := fun v => by
    refine (O.bnd _).trans ((mul_le_mul_of_nonneg_left (O.bnd v) O.Rnn).trans (le_of_eq (by ring)))
  rw [norm_smul, norm_smul (O.sg), Real.norm_eq_abs, Real.norm_eq_abs, abs_of_pos he] at h1
  have h2 := (b2 q).trans (mul_le_mul_of_nonneg_left hq (sq_nonneg _))
  have h3 := mul_le_mul_of_nonneg_left (b2 (O.lap f)) he.le
  have h4 := mul_le_mul_of_nonneg_left (h1.trans (add_le_add_left (add_le_add h2 h3) _)) hS.dt0
  refine h4.trans ?_
  have s1 := mul_le_mul_of_nonneg_right hS.stiff (norm_nonneg (O.lap f))
  have s2 := mul_le_mul_of_nonneg_right hS.sg_le (norm_nonneg (O.lap f))
  have s3 := mul_le_mul_of_nonneg_right hS.stiff (mul_nonneg (div_nonneg hS.L0 he.le) (norm_nonneg f))
  have e3 : dt * (O.e2 * O.R ^ 2) * (Λ / O.e2 * ‖f‖) = dt * (O.R ^ 2 * (Λ * ‖f‖)) := by field_simp
  rw [e3] at s3
  have e4 : dt * (O.R ^ 2 * (Λ * ‖f‖) + O.e2 * (O.R ^ 2 * ‖O.lap f‖) + |O.sg| * ‖O.lap f‖) =
    dt * (O.R ^ 2 * (Λ * ‖f‖)) + dt * (O.e2 * O.R ^ 2) * ‖O.lap f‖ + dt * |O.sg| * ‖O.lap f‖ := by ring
  rw [e4]
  linarith

theorem Step.inner_D (e : V) {x : ℝ} (hx : ‖O.lap f - O.lap e‖ ≤ x) :
    ⟪e, dt • O.D q f⟫ ≤ dt * (Λ * (‖O.lap e‖ * ‖f‖) - O.e2 * ‖O.lap e‖ ^ 2 + O.e2 * (‖O.lap e‖ * x) + |O.sg| * (‖e‖ * ‖f‖)) := by
  have he := O.e2pos
  rw [inner_smul_right]
  refine mul_le_mul_of_nonneg_left ?_ hS.dt0
  have e1 : ⟪e, O.D q f⟫ = ⟪O.lap e, q⟫ - O.e2 * ⟪O.lap e, O.lap f⟫ - O.sg * ⟪e, f⟫ := by
    simp only [D, inner_sub_right, inner_smul_right, O.sym]
  have e2 : ⟪O.lap e, O.lap f⟫ = ‖O.lap e‖ ^ 2 + ⟪O.lap e, O.lap f - O.lap e⟫ := by
    rw [inner_sub_right, real_inner_self_eq_norm_sq]; ring
  have h1 : ⟪O.lap e, q⟫ ≤ Λ * (‖O.lap e‖ * ‖f‖) := by
    refine (real_inner_le_norm _ _).trans ((mul_le_mul_of_nonneg_left hq (norm_nonneg _)).trans (le_of_eq (by ring)))
  have h2 : -⟪O.lap e, O.lap f - O.lap e⟫ ≤ ‖O.lap e‖ * x := by
    refine (neg_le_abs _).trans ((abs_real_inner_le_norm _ _).trans (mul_le_mul_of_nonneg_left hx (norm_nonneg _)))
  have h3 : -(O.sg * ⟪e, f⟫) ≤ |O.sg| * (‖e‖ * ‖f‖) := by
    refine (neg_le_abs _).trans ?_
    rw [abs_mul]
    exact mul_le_mul_of_nonneg_left (abs_real_inner_le_norm _ _) (abs_nonneg _)
  have h4 := mul_le_mul_of_nonneg_left h2 he.le
  rw [e1, e2]
  linarith

end CHOp

theorem sq_add_le2 (x y : ℝ) : (x + y) ^ 2 ≤ 2 * x ^ 2 + 2 * y ^ 2 := by nlinarith [sq_nonneg (x - y)]

theorem incr_sq {dt R L E a z s : ℝ} (hdt : 0 ≤ dt) (hE : 0 < E) (h1 : dt * (R ^ 2 * E) ≤ 1 / 32) (h2 : dt * |s| ≤ 1 / 32) :
    (dt * (R * (21 / 16 * (L * a) + 9 / 8 * (E * z))) + dt * |s| * (5 / 4 * a)) ^ 2 ≤
      dt * (L ^ 2 / E * a ^ 2 / 4 + E * z ^ 2 / 4 + |s| * a ^ 2 / 8) := by
  refine (sq_add_le2 _ _).trans ?_
  have w : (21 / 16 * (L * a) + 9 / 8 * (E * z)) ^ 2 ≤ E * (441 / 128 * (L ^ 2 / E * a ^ 2) + 81 / 32 * (E * z ^ 2)) := by
    refine (sq_add_le2 _ _).trans (le_of_eq ?_)
    field_simp; ring
  have hR : dt * R ^ 2 ≤ 1 / 32 / E := by rw [le_div_iff₀ hE]; linarith
  have x2 : (dt * (R * (21 / 16 * (L * a) + 9 / 8 * (E * z)))) ^ 2 ≤
      dt * (441 / 4096 * (L ^ 2 / E * a ^ 2) + 81 / 1024 * (E * z ^ 2)) := by
    have e3 : (dt * (R * (21 / 16 * (L * a) + 9 / 8 * (E * z)))) ^ 2 =
        dt * (dt * R ^ 2 * (21 / 16 * (L * a) + 9 / 8 * (E * z)) ^ 2) := by ring
    rw [e3]
    refine mul_le_mul_of_nonneg_left ((mul_le_mul hR w (sq_nonneg _) (by positivity)).trans (le_of_eq ?_)) hdt
    field_simp; ring
  have y2 : (dt * |s| * (5 / 4 * a)) ^ 2 ≤ dt * (25 / 512 * (|s| * a ^ 2)) := by
    have e3 : (dt * |s| * (5 / 4 * a)) ^ 2 = dt * (25 / 16 * (dt * |s| * (|s| * a ^ 2))) := by ring
    rw [e3]
    refine mul_le_mul_of_nonneg_left ?_ hdt
    have := mul_le_mul_of_nonneg_right h2 (mul_nonneg (abs_nonneg s) (sq_nonneg a))
    linarith
  have q0 : 0 ≤ dt * (L ^ 2 / E * a ^ 2) := by positivity
  have z0 : 0 ≤ dt * (E * z ^ 2) := by positivity
  have w0 : 0 ≤ dt * (|s| * a ^ 2) := by positivity
  have e4 : dt * (L ^ 2 / E * a ^ 2 / 4 + E * z ^ 2 / 4 + |s| * a ^ 2 / 8) =
    1 / 4 * (dt * (L ^ 2 / E * a ^ 2)) + 1 / 4 * (dt * (E * z ^ 2)) + 1 / 8 * (dt * (|s| * a ^ 2)) := by ring
  have e5 : dt * (441 / 4096 * (L ^ 2 / E * a ^ 2) + 81 / 1024 * (E * z ^ 2)) =
    441 / 4096 * (dt * (L ^ 2 / E * a ^ 2)) + 81 / 1024 * (dt * (E * z ^ 2)) := by ring
  have e6 : dt * (25 / 512 * (|s| * a ^ 2)) = 25 / 512 * (dt * (|s| * a ^ 2)) := by ring
  rw [e4]
  rw [e5] at x2
  rw [e6] at y2
  linarith

theorem sum_sq {dt Q Z W a i n : ℝ} (hdt : 0 ≤ dt) (hQ : 0 ≤ Q) (hZ : 0 ≤ Z) (hW : 0 ≤ W)
    (hi : i ≤ dt * (21 / 32 * Q - 7 / 32 * Z + 5 / 4 * W)) (hn : n ≤ dt * (Q / 4 + Z / 4 + W / 8)) :
    a + 2 * i + n ≤ a + dt * (3 * (Q + W)) := by
  have q0 := mul_nonneg hdt hQ
  have z0 := mul_nonneg hdt hZ
  have w0 := mul_nonneg hdt hW
  have e1 : dt * (21 / 32 * Q - 7 / 32 * Z + 5 / 4 * W) = 21 / 32 * (dt * Q) - 7 / 32 * (dt * Z) + 5 / 4 * (dt * W) := by ring
  have e2 : dt * (Q / 4 + Z / 4 + W / 8) = 1 / 4 * (dt * Q) + 1 / 4 * (dt * Z) + 1 / 8 * (dt * W) := by ring
  have e3 : dt * (3 * (Q + W)) = 3 * (dt * Q) + 3 * (dt * W) := by ring
  rw [e3]; rw [e1] at hi; rw [e2] at hn
  linarith

theorem root_le {x a κ dt : ℝ} (hκ : 0 ≤ κ) (hdt : 0 ≤ dt) (ha : 0 ≤ a) (h : x ^ 2 ≤ a ^ 2 + dt * (3 * (κ * a ^ 2))) :
    x ≤ (1 + 3 / 2 * κ * dt) * a := by
  refine (abs_le_of_sq_le_sq' (h.trans ?_) (by positivity)).2
  have e : ((1 + 3 / 2 * κ * dt) * a) ^ 2 = a ^ 2 + dt * (3 * (κ * a ^ 2)) + (3 / 2 * κ * dt * a) ^ 2 := by ring
  rw [e]
  linarith [sq_nonneg (3 / 2 * κ * dt * a)]

/-- Coefficients of a three-stage explicit method with non-negative entries. -/
structure RK3c where
  a21 : ℝ
  a31 : ℝ
  a32 : ℝ
  b1 : ℝ
  b2 : ℝ
  b3 : ℝ
  h21 : 0 ≤ a21
  h31 : 0 ≤ a31
  h32 : 0 ≤ a32
  k1 : 0 ≤ b1
  k2 : 0 ≤ b2
  k3 : 0 ≤ b3
  c2 : a21 ≤ 1
  c3 : a31 + a32 ≤ 1
  sum : b1 + b2 + b3 = 1

namespace RK3c
variable (T : RK3c)

/-- Second stage value. -/
def y2 {U : Type} [AddCommGroup U] [Module ℝ U] (F : U → U) (dt : ℝ) (y : U) : U := y + dt • (T.a21 • F y)

/-- Third stage value. -/
def y3 {U : Type} [AddCommGroup U] [Module ℝ U] (F : U → U) (dt : ℝ) (y : U) : U := y + dt • (T.a31 • F y + T.a32 • F (T.y2 F dt y))

/-- The step. -/
def step {U : Type} [AddCommGroup U] [Module ℝ U] (F : U → U) (dt : ℝ) (y : U) : U :=
  y + dt • (T.b1 • F y + T.b2 • F (T.y2 F dt y) + T.b3 • F (T.y3 F dt y))

theorem y2_sub (F : V → V) (dt : ℝ) (c u : V) : T.y2 F dt c - T.y2 F dt u = (c - u) + T.a21 • (dt • (F c - F u)) := by
  simp only [y2]; module

theorem y3_sub (F : V → V) (dt : ℝ) (c u : V) : T.y3 F dt c - T.y3 F dt u =
    (c - u) + (T.a31 • (dt • (F c - F u)) + T.a32 • (dt • (F (T.y2 F dt c) - F (T.y2 F dt u)))) := by
  simp only [y3]; module

theorem step_sub (F : V → V) (dt : ℝ) (c u : V) : T.step F dt c - T.step F dt u =
    (c - u) + (T.b1 • (dt • (F c - F u)) + T.b2 • (dt • (F (T.y2 F dt c) - F (T.y2 F dt u))) +
      T.b3 • (dt • (F (T.y3 F dt c) - F (T.y3 F dt u)))) := by
  simp only [step]; module

theorem norm2 {x y : V} {a b X : ℝ} (ha : 0 ≤ a) (hb : 0 ≤ b) (hab : a + b ≤ 1) (hX : 0 ≤ X) (hx : ‖x‖ ≤ X) (hy : ‖y‖ ≤ X) :
    ‖a • x + b • y‖ ≤ X := by
  refine (norm_add_le _ _).trans ?_
  rw [norm_smul, norm_smul, Real.norm_of_nonneg ha, Real.norm_of_nonneg hb]
  nlinarith [mul_le_mul_of_nonneg_left hx ha, mul_le_mul_of_nonneg_left hy hb, mul_le_mul_of_nonneg_right hab hX]

theorem norm1 {x : V} {a X : ℝ} (ha : 0 ≤ a) (ha1 : a ≤ 1) (hx : ‖x‖ ≤ X) : ‖a • x‖ ≤ X := by
  rw [norm_smul, Real.norm_of_nonneg ha]
  have := mul_le_mul_of_nonneg_right ha1 (norm_nonneg x)
  linarith

theorem norm3 {x y z : V} {X : ℝ} (hx : ‖x‖ ≤ X) (hy : ‖y‖ ≤ X) (hz : ‖z‖ ≤ X) :
    ‖T.b1 • x + T.b2 • y + T.b3 • z‖ ≤ X := by
  refine (norm_add_le _ _).trans ((add_le_add_left (norm_add_le _ _) _).trans ?_)
  rw [norm_smul, norm_smul, norm_smul, Real.norm_of_nonneg T.k1, Real.norm_of_nonneg T.k2, Real.norm_of_nonneg T.k3]
  have h1 := mul_le_mul_of_nonneg_left hx T.k1
  have h2 := mul_le_mul_of_nonneg_left hy T.k2
  have h3 := mul_le_mul_of_nonneg_left hz T.k3
  have : T.b1 * X + T.b2 * X + T.b3 * X = X := by rw [← add_mul, ← add_mul, T.sum, one_mul]
  linarith

variable {O : CHOp V} {Λ dt : ℝ} (hS : O.Step Λ dt) {c u : V}
  (hp1 : ‖O.phi c - O.phi u‖ ≤ Λ * ‖c - u‖)
include hS hp1

theorem e2_le : ‖T.y2 O.F dt c - T.y2 O.F dt u‖ ≤ 5 / 4 * ‖c - u‖ := by
  rw [T.y2_sub, O.F_sub]
  have h := norm1 T.h21 T.c2 (hS.lip_D hp1)
  have := norm_add_le (c - u) (T.a21 • (dt • O.D (O.phi c - O.phi u) (c - u)))
  linarith [norm_nonneg (c - u)]

variable (hp2 : ‖O.phi (T.y2 O.F dt c) - O.phi (T.y2 O.F dt u)‖ ≤ Λ * ‖T.y2 O.F dt c - T.y2 O.F dt u‖)
include hp2

theorem e3_le : ‖T.y3 O.F dt c - T.y3 O.F dt u‖ ≤ 5 / 4 * ‖c - u‖ := by
  have h2 := T.e2_le hS hp1
  rw [T.y3_sub, O.F_sub, O.F_sub]
  have n := norm_nonneg (c - u)
  have h := norm2 (X := 5 / 32 * ‖c - u‖) T.h31 T.h32 T.c3 (by linarith)
    ((hS.lip_D hp1).trans (by linarith)) ((hS.lip_D hp2).trans (by linarith))
  refine (norm_add_le _ _).trans ?_
  linarith

variable (hp3 : ‖O.phi (T.y3 O.F dt c) - O.phi (T.y3 O.F dt u)‖ ≤ Λ * ‖T.y3 O.F dt c - T.y3 O.F dt u‖)
include hp3

/-- One step enlarges the distance of two states by at most the factor `1 + 3/2 (Λ²/ε² + |σ|) dt`. -/
theorem step_stable : ‖T.step O.F dt c - T.step O.F dt u‖ ≤ (1 + 3 / 2 * (Λ ^ 2 / O.e2 + |O.sg|) * dt) * ‖c - u‖ := by
  have he := O.e2pos
  have hdt := hS.dt0
  have hL := hS.L0
  have f2 := T.e2_le hS hp1
  have f3 := T.e3_le hS hp1 hp2
  have l1 := hS.lap_D hp1
  have l2 := hS.lap_D hp2
  have s2 := T.y2_sub O.F dt c u
  have s3 := T.y3_sub O.F dt c u
  rw [O.F_sub] at s2
  rw [O.F_sub, O.F_sub] at s3
  rw [T.step_sub, O.F_sub, O.F_sub, O.F_sub]
  set e := c - u with he_
  set e2 := T.y2 O.F dt c - T.y2 O.F dt u
  set e3 := T.y3 O.F dt c - T.y3 O.F dt u
  set q1 := O.phi c - O.phi u
  set q2 := O.phi (T.y2 O.F dt c) - O.phi (T.y2 O.F dt u)
  set q3 := O.phi (T.y3 O.F dt c) - O.phi (T.y3 O.F dt u)
  have a0 : 0 ≤ ‖e‖ := norm_nonneg e
  have z0 : 0 ≤ ‖O.lap e‖ := norm_nonneg _
  obtain ⟨A, hA⟩ : ∃ A, A = Λ / O.e2 * ‖e‖ := ⟨_, rfl⟩
  have A0 : 0 ≤ A := hA ▸ mul_nonneg (div_nonneg hL he.le) a0
  have LA : O.e2 * A = Λ * ‖e‖ := by rw [hA]; field_simp
  have LA2 : Λ * A = Λ ^ 2 / O.e2 * ‖e‖ := by rw [hA]; ring
  rw [← hA] at l1
  have hr : Λ / O.e2 * ‖e2‖ ≤ 5 / 4 * A := by
    rw [hA]
    calc Λ / O.e2 * ‖e2‖ ≤ Λ / O.e2 * (5 / 4 * ‖e‖) := mul_le_mul_of_nonneg_left f2 (div_nonneg hL he.le)
      _ = _ := by ring
  -- distances of the stages in the stronger norm
  have g2 : ‖O.lap e2 - O.lap e‖ ≤ A / 16 + ‖O.lap e‖ / 8 := by
    have : O.lap e2 - O.lap e = T.a21 • O.lap (dt • O.D q1 e) := by rw [s2, map_add, map_smul]; abel
    rw [this]
    exact norm1 T.h21 T.c2 (l1.trans (by linarith))
  have z2 : ‖O.lap e2‖ ≤ 9 / 8 * ‖O.lap e‖ + A / 16 := by
    have := norm_le_norm_add_norm_sub' (O.lap e2) (O.lap e)
    linarith
  have g3 : ‖O.lap e3 - O.lap e‖ ≤ A / 16 + ‖O.lap e‖ / 8 := by
    have : O.lap e3 - O.lap e = T.a31 • O.lap (dt • O.D q1 e) + T.a32 • O.lap (dt • O.D q2 e2) := by
      rw [s3]; simp only [map_add, map_smul]; abel
    rw [this]
    exact norm2 T.h31 T.h32 T.c3 (by linarith) (l1.trans (by linarith)) (l2.trans (by linarith))
  have z3 : ‖O.lap e3‖ ≤ 9 / 8 * ‖O.lap e‖ + A / 16 := by
    have := norm_le_norm_add_norm_sub' (O.lap e3) (O.lap e)
    linarith
  have g1 : ‖O.lap e - O.lap e‖ ≤ A / 16 + ‖O.lap e‖ / 8 := by rw [sub_self, norm_zero]; linarith
  have f1 : ‖e‖ ≤ 5 / 4 * ‖e‖ := by linarith
  have z1 : ‖O.lap e‖ ≤ 9 / 8 * ‖O.lap e‖ + A / 16 := by linarith
  -- inner products and norms of the increments
  obtain ⟨Q, hQ⟩ : ∃ Q, Q = Λ ^ 2 / O.e2 * ‖e‖ ^ 2 := ⟨_, rfl⟩
  obtain ⟨Z, hZ⟩ : ∃ Z, Z = O.e2 * ‖O.lap e‖ ^ 2 := ⟨_, rfl⟩
  obtain ⟨W, hW⟩ : ∃ W, W = |O.sg| * ‖e‖ ^ 2 := ⟨_, rfl⟩
  have Z0 : 0 ≤ Z := hZ ▸ mul_nonneg he.le (sq_nonneg _)
  have Q0 : 0 ≤ Q := hQ ▸ mul_nonneg (div_nonneg (sq_nonneg _) he.le) (sq_nonneg _)
  have W0 : 0 ≤ W := hW ▸ mul_nonneg (abs_nonneg _) (sq_nonneg _)
  have young : 2 * (Λ * (‖O.lap e‖ * ‖e‖)) ≤ Z + Q := by
    have e1 : Z + Q - 2 * (Λ * (‖O.lap e‖ * ‖e‖)) = (O.e2 * ‖O.lap e‖ - Λ * ‖e‖) ^ 2 / O.e2 := by
      rw [hZ, hQ]; field_simp; ring
    have : 0 ≤ (O.e2 * ‖O.lap e‖ - Λ * ‖e‖) ^ 2 / O.e2 := by positivity
    linarith
  have ip : ∀ q f : V, ‖q‖ ≤ Λ * ‖f‖ → ‖f‖ ≤ 5 / 4 * ‖e‖ → ‖O.lap f - O.lap e‖ ≤ A / 16 + ‖O.lap e‖ / 8 →
      ⟪e, dt • O.D q f⟫ ≤ dt * (21 / 32 * Q - 7 / 32 * Z + 5 / 4 * W) := by
    intro q f h1 h2 h3
    refine (hS.inner_D h1 e h3).trans (mul_le_mul_of_nonneg_left ?_ hdt)
    have i1 : Λ * (‖O.lap e‖ * ‖f‖) ≤ 5 / 4 * (Λ * (‖O.lap e‖ * ‖e‖)) := by
      calc Λ * (‖O.lap e‖ * ‖f‖) ≤ Λ * (‖O.lap e‖ * (5 / 4 * ‖e‖)) :=
            mul_le_mul_of_nonneg_left (mul_le_mul_of_nonneg_left h2 z0) hL
        _ = _ := by ring
    have i2 : O.e2 * (‖O.lap e‖ * (A / 16 + ‖O.lap e‖ / 8)) = 1 / 16 * (Λ * (‖O.lap e‖ * ‖e‖)) + Z / 8 := by
      have : O.e2 * (‖O.lap e‖ * (A / 16 + ‖O.lap e‖ / 8)) = 1 / 16 * (‖O.lap e‖ * (O.e2 * A)) + O.e2 * ‖O.lap e‖ ^ 2 / 8 := by ring
      rw [this, LA, ← hZ]; ring
    have i3 : |O.sg| * (‖e‖ * ‖f‖) ≤ 5 / 4 * W := by
      rw [hW]
      calc |O.sg| * (‖e‖ * ‖f‖) ≤ |O.sg| * (‖e‖ * (5 / 4 * ‖e‖)) :=
            mul_le_mul_of_nonneg_left (mul_le_mul_of_nonneg_left h2 a0) (abs_nonneg _)
        _ = _ := by ring
    rw [i2, ← hZ]
    linarith
  have nd : ∀ q f : V, ‖q‖ ≤ Λ * ‖f‖ → ‖f‖ ≤ 5 / 4 * ‖e‖ → ‖O.lap f‖ ≤ 9 / 8 * ‖O.lap e‖ + A / 16 →
      ‖dt • O.D q f‖ ≤ dt * (O.R * (21 / 16 * (Λ * ‖e‖) + 9 / 8 * (O.e2 * ‖O.lap e‖))) + dt * |O.sg| * (5 / 4 * ‖e‖) := by
    intro q f h1 h2 h3
    refine (hS.norm_D h1).trans (add_le_add (mul_le_mul_of_nonneg_left (mul_le_mul_of_nonneg_left ?_ O.Rnn) hdt)
      (mul_le_mul_of_nonneg_left h2 (mul_nonneg hdt (abs_nonneg _))))
    have j1 := mul_le_mul_of_nonneg_left h2 hL
    have j2 := mul_le_mul_of_nonneg_left h3 he.le
    have : O.e2 * (9 / 8 * ‖O.lap e‖ + A / 16) = 9 / 8 * (O.e2 * ‖O.lap e‖) + 1 / 16 * (O.e2 * A) := by ring
    rw [this, LA] at j2
    linarith
  have N := T.norm3 (nd q1 e hp1 f1 z1) (nd q2 e2 hp2 f2 z2) (nd q3 e3 hp3 f3 z3)
  have I1 := ip q1 e hp1 f1 g1
  have I2 := ip q2 e2 hp2 f2 g2
  have I3 := ip q3 e3 hp3 f3 g3
  set d := T.b1 • (dt • O.D q1 e) + T.b2 • (dt • O.D q2 e2) + T.b3 • (dt • O.D q3 e3) with hd
  have I : ⟪e, d⟫ ≤ dt * (21 / 32 * Q - 7 / 32 * Z + 5 / 4 * W) := by
    rw [hd, inner_add_right, inner_add_right, inner_smul_right _ _ T.b1, inner_smul_right _ _ T.b2, inner_smul_right _ _ T.b3]
    have k1 := mul_le_mul_of_nonneg_left I1 T.k1
    have k2 := mul_le_mul_of_nonneg_left I2 T.k2
    have k3 := mul_le_mul_of_nonneg_left I3 T.k3
    obtain ⟨X, hX⟩ : ∃ X, X = dt * (21 / 32 * Q - 7 / 32 * Z + 5 / 4 * W) := ⟨_, rfl⟩
    rw [← hX] at k1 k2 k3 ⊢
    have : T.b1 * X + T.b2 * X + T.b3 * X = X := by rw [← add_mul, ← add_mul, T.sum, one_mul]
    linarith
  have N2 : ‖d‖ ^ 2 ≤ dt * (Q / 4 + Z / 4 + W / 8) := by
    refine (pow_le_pow_left₀ (norm_nonneg d) N 2).trans ?_
    rw [hQ, hZ, hW]
    exact incr_sq hdt he (by have := hS.stiff; linarith) hS.sg_le
  -- conclusion
  have total : ‖e + d‖ ^ 2 ≤ ‖e‖ ^ 2 + dt * (3 * (Q + W)) := by
    rw [norm_add_sq_real]
    exact sum_sq hdt Q0 Z0 W0 I N2
  have eQW : Q + W = (Λ ^ 2 / O.e2 + |O.sg|) * ‖e‖ ^ 2 := by rw [hQ, hW]; ring
  rw [eQW] at total
  exact root_le (by positivity) hdt a0 total

end RK3c
end Madg
