/-
Runge–Kutta steps on padded arrays compute the textbook methods on the interior.
-/
import Verif.Model.RK
import Verif.Spec.RK
import Verif.Proofs.Cmd
import Verif.Proofs.Kern3
import Mathlib.Tactic.Module
import Mathlib.Algebra.BigOperators.Fin
import Mathlib.Tactic.Abel

set_option linter.unusedSectionVars false
set_option linter.unusedVariables false

namespace Madg
open Spec
variable {A K C : Type} [DecidableEq A]

/-- Closes `a ≠ b` from a hypothesis in either orientation. -/
local macro "ne!" : tactic => `(tactic| first | assumption | (apply Ne.symm; assumption))

section
variable [Arith K]

/-- The arrays of an integrator are different allocations of size `N`, none of them scratch of the right-hand side. -/
structure RKArr.Ok (w : RKArr A) (sz : A → Int) (N : Int) (scratch : A → Prop) : Prop where
  nodup : [w.sol, w.res, w.k1, w.k2, w.k3, w.k4, w.stage].Nodup
  size : ∀ a ∈ [w.sol, w.res, w.k1, w.k2, w.k3, w.k4, w.stage], sz a = N
  fresh : ∀ a ∈ [w.sol, w.res, w.k1, w.k2, w.k3, w.k4, w.stage], ¬ scratch a

section loops
variable {sz : A → Int} {N : Int} {scratch : A → Prop} {w : RKArr A} (hw : w.Ok sz N scratch)
include hw

theorem stage2_det (dt a21 : K) (m : Mem A K) : ∃ m', Det sz (stage2Loop N w dt a21) m m' ∧
    WritesAll N w.stage m m' (fun n => m w.sol n + dt * a21 * m w.k1 n) := by
  have hnd := hw.nodup
  simp only [List.nodup_cons, List.mem_cons, not_or, List.not_mem_nil, not_false_eq_true,
    List.nodup_nil, and_true] at hnd
  obtain ⟨⟨n1, n2, n3, n4, n5, n6⟩, ⟨n7, n8, n9, n10, n11⟩, ⟨n12, n13, n14, n15⟩, ⟨n16, n17, n18⟩, ⟨n19, n20⟩, n21⟩ := hnd
  refine forAll_det N (fun i => .load w.sol i fun s => .load w.k1 i fun x1 =>
    .store w.stage i (s + dt * a21 * x1) (.pure ())) _ m (fun i h0 h1 => ?_)
    (fun i h0 h1 => Mem.set_same _ _ _ _)
  refine ⟨?_, Or.inl (by ne!), fun _ => ⟨?_, Or.inl (by ne!), fun _ => ⟨?_, ⟨rfl, rfl⟩, trivial⟩⟩⟩
  all_goals rw [InB, hw.size _ (by simp)]; exact ⟨h0, h1⟩

theorem stage3_det (dt a31 a32 : K) (m : Mem A K) : ∃ m', Det sz (stage3Loop N w dt a31 a32) m m' ∧
    WritesAll N w.stage m m' (fun n => m w.sol n + dt * (a31 * m w.k1 n + a32 * m w.k2 n)) := by
  have hnd := hw.nodup
  simp only [List.nodup_cons, List.mem_cons, not_or, List.not_mem_nil, not_false_eq_true,
    List.nodup_nil, and_true] at hnd
  obtain ⟨⟨n1, n2, n3, n4, n5, n6⟩, ⟨n7, n8, n9, n10, n11⟩, ⟨n12, n13, n14, n15⟩, ⟨n16, n17, n18⟩, ⟨n19, n20⟩, n21⟩ := hnd
  refine forAll_det N (fun i => .load w.sol i fun s => .load w.k1 i fun x1 => .load w.k2 i fun x2 =>
    .store w.stage i (s + dt * (a31 * x1 + a32 * x2)) (.pure ())) _ m (fun i h0 h1 => ?_)
    (fun i h0 h1 => Mem.set_same _ _ _ _)
  refine ⟨?_, Or.inl (by ne!), fun _ => ⟨?_, Or.inl (by ne!), fun _ => ⟨?_, Or.inl (by ne!), fun _ =>
    ⟨?_, ⟨rfl, rfl⟩, trivial⟩⟩⟩⟩
  all_goals rw [InB, hw.size _ (by simp)]; exact ⟨h0, h1⟩

theorem residual_det (b1 b2 b3 : K) (m : Mem A K) : ∃ m', Det sz (residualLoop N w b1 b2 b3) m m' ∧
    WritesAll N w.res m m' (fun n => b1 * m w.k1 n + b2 * m w.k2 n + b3 * m w.k3 n) := by
  have hnd := hw.nodup
  simp only [List.nodup_cons, List.mem_cons, not_or, List.not_mem_nil, not_false_eq_true,
    List.nodup_nil, and_true] at hnd
  obtain ⟨⟨n1, n2, n3, n4, n5, n6⟩, ⟨n7, n8, n9, n10, n11⟩, ⟨n12, n13, n14, n15⟩, ⟨n16, n17, n18⟩, ⟨n19, n20⟩, n21⟩ := hnd
  refine forAll_det N (fun i => .load w.k1 i fun x1 => .load w.k2 i fun x2 => .load w.k3 i fun x3 =>
    .store w.res i (b1 * x1 + b2 * x2 + b3 * x3) (.pure ())) _ m (fun i h0 h1 => ?_)
    (fun i h0 h1 => Mem.set_same _ _ _ _)
  refine ⟨?_, Or.inl (by ne!), fun _ => ⟨?_, Or.inl (by ne!), fun _ => ⟨?_, Or.inl (by ne!), fun _ =>
    ⟨?_, ⟨rfl, rfl⟩, trivial⟩⟩⟩⟩
  all_goals rw [InB, hw.size _ (by simp)]; exact ⟨h0, h1⟩

theorem update_det (dt : K) (m : Mem A K) : ∃ m', Det sz (updateLoop N w dt) m m' ∧
    WritesAll N w.sol m m' (fun n => m w.sol n + dt * m w.res n) := by
  have hnd := hw.nodup
  simp only [List.nodup_cons, List.mem_cons, not_or, List.not_mem_nil, not_false_eq_true,
    List.nodup_nil, and_true] at hnd
  obtain ⟨⟨n1, n2, n3, n4, n5, n6⟩, ⟨n7, n8, n9, n10, n11⟩, ⟨n12, n13, n14, n15⟩, ⟨n16, n17, n18⟩, ⟨n19, n20⟩, n21⟩ := hnd
  refine forAll_det N (fun i => .load w.sol i fun s => .load w.res i fun r =>
    .store w.sol i (s + dt * r) (.pure ())) _ m (fun i h0 h1 => ?_)
    (fun i h0 h1 => Mem.set_same _ _ _ _)
  refine ⟨?_, Or.inr rfl, fun _ => ⟨?_, Or.inl (by ne!), fun _ => ⟨?_, ⟨rfl, rfl⟩, trivial⟩⟩⟩
  all_goals rw [InB, hw.size _ (by simp)]; exact ⟨h0, h1⟩

theorem fsal_det (m : Mem A K) : ∃ m', Det sz (fsalLoop N w) m m' ∧
    WritesAll N w.k1 m m' (fun n => m w.k4 n) := by
  have hnd := hw.nodup
  simp only [List.nodup_cons, List.mem_cons, not_or, List.not_mem_nil, not_false_eq_true,
    List.nodup_nil, and_true] at hnd
  obtain ⟨⟨n1, n2, n3, n4, n5, n6⟩, ⟨n7, n8, n9, n10, n11⟩, ⟨n12, n13, n14, n15⟩, ⟨n16, n17, n18⟩, ⟨n19, n20⟩, n21⟩ := hnd
  refine forAll_det N (fun i => .load w.k4 i fun s => .store w.k1 i s (.pure ())) _ m (fun i h0 h1 => ?_)
    (fun i h0 h1 => Mem.set_same _ _ _ _)
  refine ⟨?_, Or.inl (by ne!), fun _ => ⟨?_, ⟨rfl, rfl⟩, trivial⟩⟩
  all_goals rw [InB, hw.size _ (by simp)]; exact ⟨h0, h1⟩

end loops

/-- The part both integrators share, after the first slope is known. -/
def rkCore (N : Int) (rhs : A → A → K → Host A K) (w : RKArr A) (t2 t3 dt a21 a31 a32 b1 b2 b3 : K) : Host A K :=
  stage2Loop N w dt a21 ++ rhs w.stage w.k2 t2 ++ stage3Loop N w dt a31 a32 ++ rhs w.stage w.k3 t3 ++
  residualLoop N w b1 b2 b3 ++ updateLoop N w dt

/-- Interior part of an array. -/
def inner (loc : C → Int) (m : Mem A K) (a : A) : C → K := fun c => m a (loc c)

/-- Effect of the shared part. -/
structure CorePost (N : Int) (scratch : A → Prop) (P : C → Prop) (loc : C → Int) (F : K → (C → K) → C → K)
    (w : RKArr A) (t2 t3 dt a21 a31 a32 b1 b2 b3 : K) (κ2 κ3 : C → K) (m m' : Mem A K) : Prop where
  e2 : κ2 = F t2 fun c => inner loc m w.sol c + dt * a21 * inner loc m w.k1 c
  e3 : κ3 = F t3 fun c => inner loc m w.sol c + dt * (a31 * inner loc m w.k1 c + a32 * κ2 c)
  k1 : m' w.k1 = m w.k1
  k2 : ∀ c, P c → m' w.k2 (loc c) = κ2 c
  k3 : ∀ c, P c → m' w.k3 (loc c) = κ3 c
  k4 : m' w.k4 = m w.k4
  k2h : ∀ n, (∀ c, P c → loc c ≠ n) → m' w.k2 n = m w.k2 n ∨ m' w.k2 n = 0
  k3h : ∀ n, (∀ c, P c → loc c ≠ n) → m' w.k3 n = m w.k3 n ∨ m' w.k3 n = 0
  res : ∀ n, 0 ≤ n → n < N → m' w.res n = b1 * m' w.k1 n + b2 * m' w.k2 n + b3 * m' w.k3 n
  sol : ∀ n, 0 ≤ n → n < N → m' w.sol n = m w.sol n + dt * m' w.res n
  frame : ∀ b, b ∉ [w.sol, w.res, w.k2, w.k3, w.stage] → ¬ scratch b → m' b = m b

section
variable {sz : A → Int} {N : Int} {scratch : A → Prop} {P : C → Prop} {loc : C → Int}
  {F : K → (C → K) → C → K} {rhs : A → A → K → Host A K} {I : Mem A K → Prop} (hR : RhsOn I sz N scratch P loc F rhs)
  {w : RKArr A} (hw : w.Ok sz N scratch)
include hR hw

theorem rkCore_on (t2 t3 dt a21 a31 a32 b1 b2 b3 : K) (m : Mem A K) (hI : I m) :
    ∃ κ2 κ3 m', Det sz (rkCore N rhs w t2 t3 dt a21 a31 a32 b1 b2 b3) m m' ∧
      CorePost N scratch P loc F w t2 t3 dt a21 a31 a32 b1 b2 b3 κ2 κ3 m m' ∧ I m' := by
  have hnd := hw.nodup
  simp only [List.nodup_cons, List.mem_cons, not_or, List.not_mem_nil, not_false_eq_true,
    List.nodup_nil, and_true] at hnd
  obtain ⟨⟨n1, n2, n3, n4, n5, n6⟩, ⟨n7, n8, n9, n10, n11⟩, ⟨n12, n13, n14, n15⟩, ⟨n16, n17, n18⟩, ⟨n19, n20⟩, n21⟩ := hnd
  have s1 : ¬ scratch w.sol := hw.fresh _ (by simp)
  have s2 : ¬ scratch w.res := hw.fresh _ (by simp)
  have s3 : ¬ scratch w.k1 := hw.fresh _ (by simp)
  have s4 : ¬ scratch w.k2 := hw.fresh _ (by simp)
  have s5 : ¬ scratch w.k3 := hw.fresh _ (by simp)
  have s6 : ¬ scratch w.k4 := hw.fresh _ (by simp)
  have s7 : ¬ scratch w.stage := hw.fresh _ (by simp)
  have st : ∀ (a : A) (m m' : Mem A K), ¬ scratch a → (∀ b, b ≠ a → m' b = m b) → I m → I m' := fun a m m' ha h =>
    hR.stable m m' fun b hb => h b fun e => ha (e ▸ hb)
  obtain ⟨m1, d1, f1⟩ := stage2_det hw dt a21 m
  obtain ⟨m2, d2, r2, -, h2, f2, I2⟩ := hR.run w.stage w.k2 t2 m1 (st _ _ _ s7 f1.frame hI) (by ne!) s7 s4 (hw.size _ (by simp))
    (hw.size _ (by simp))
  obtain ⟨m3, d3, f3⟩ := stage3_det hw dt a31 a32 m2
  obtain ⟨m4, d4, r4, -, h4, f4, I4⟩ := hR.run w.stage w.k3 t3 m3 (st _ _ _ s7 f3.frame I2) (by ne!) s7 s5 (hw.size _ (by simp))
    (hw.size _ (by simp))
  obtain ⟨m5, d5, f5⟩ := residual_det hw b1 b2 b3 m4
  obtain ⟨m6, d6, f6⟩ := update_det hw dt m5
  have q1 : m6 w.k1 = m w.k1 := by
    rw [f6.frame _ (by ne!), f5.frame _ (by ne!), f4 _ (by ne!) (by ne!) s3, f3.frame _ (by ne!),
      f2 _ (by ne!) (by ne!) s3, f1.frame _ (by ne!)]
  have p12 : m2 w.k1 = m w.k1 := by rw [f2 _ (by ne!) (by ne!) s3, f1.frame _ (by ne!)]
  have p0 : m2 w.sol = m w.sol := by rw [f2 _ (by ne!) (by ne!) s1, f1.frame _ (by ne!)]
  have p05 : m5 w.sol = m w.sol := by
    rw [f5.frame _ (by ne!), f4 _ (by ne!) (by ne!) s1, f3.frame _ (by ne!), p0]
  have q2 : m6 w.k2 = m2 w.k2 := by
    rw [f6.frame _ (by ne!), f5.frame _ (by ne!), f4 _ (by ne!) (by ne!) s4, f3.frame _ (by ne!)]
  have q3 : m6 w.k3 = m4 w.k3 := by
    rw [f6.frame _ (by ne!), f5.frame _ (by ne!)]
  have q4 : m6 w.k4 = m w.k4 := by
    rw [f6.frame _ (by ne!), f5.frame _ (by ne!), f4 _ (by ne!) (by ne!) s6, f3.frame _ (by ne!),
      f2 _ (by ne!) (by ne!) s6, f1.frame _ (by ne!)]
  have c2 : ∀ c, P c → m2 w.k2 (loc c) =
      F t2 (fun c => inner loc m w.sol c + dt * a21 * inner loc m w.k1 c) c := by
    intro c hc
    rw [r2 c hc]
    refine hR.interior _ _ _ (fun c hc => ?_) c hc
    exact f1.view _ (hR.range c hc).1 (hR.range c hc).2
  have q6 : m6 w.res = m5 w.res := by rw [f6.frame _ (by ne!)]
  have q5 : m4 w.k1 = m6 w.k1 := by rw [f6.frame _ (by ne!), f5.frame _ (by ne!)]
  have q52 : m4 w.k2 = m6 w.k2 := by rw [f6.frame _ (by ne!), f5.frame _ (by ne!)]
  refine ⟨_, _, m6, ?_, ⟨rfl, rfl, q1, ?_, ?_, q4, ?_, ?_, ?_, ?_, ?_⟩, st _ _ _ s1 f6.frame (st _ _ _ s2 f5.frame I4)⟩
  · exact det_append (det_append (det_append (det_append (det_append d1 d2) d3) d4) d5) d6
  · intro c hc; rw [q2, c2 c hc]
  · intro c hc
    rw [q3, r4 c hc]
    refine hR.interior _ _ _ (fun c hc => ?_) c hc
    rw [f3.view _ (hR.range c hc).1 (hR.range c hc).2, p0, p12, c2 c hc]
    rfl
  · intro n hn
    rw [q2]
    have := h2 n hn
    rwa [f1.frame w.k2 (by ne!)] at this
  · intro n hn
    rw [q3]
    have := h4 n hn
    rwa [f3.frame w.k3 (by ne!), f2 w.k3 (by ne!) (by ne!) s5, f1.frame w.k3 (by ne!)] at this
  · intro n h0 h1
    rw [q6, f5.view n h0 h1, q5, q52, ← q3]
  · intro n h0 h1
    rw [f6.view n h0 h1, q6, p05]
  · intro b hb hs
    simp only [List.mem_cons, List.not_mem_nil, or_false, not_or] at hb
    obtain ⟨x1, x2, x3, x4, x5⟩ := hb
    rw [f6.frame _ (by ne!), f5.frame _ (by ne!), f4 _ (by ne!) (by ne!) hs, f3.frame _ (by ne!),
      f2 _ (by ne!) (by ne!) hs, f1.frame _ (by ne!)]

theorem rk3Step_eq_on (time dt : K) : rk3Step N rhs w time dt =
    rhs w.sol w.k1 time ++ rkCore N rhs w (time + 1 * dt) (time + 1 / 2 * dt) dt 1 (1 / 4) (1 / 4)
      (1 / 6) (1 / 6) (2 / 3) := by
  simp only [rk3Step, rkCore, List.append_assoc]

end

end

variable [Field K]

/-! ### Stages of the textbook methods -/

section
variable {V : Type} [AddCommGroup V] [Module K V] (F : K → V → V) (t dt : K) (y : V)

theorem ssprk3_stage0 : (ssprk3 : Tableau K).stage F t dt y 0 = F t y := by
  rw [Tableau.stage]; simp [ssprk3]

theorem ssprk3_stage1 : (ssprk3 : Tableau K).stage F t dt y 1 = F (t + 1 * dt) (y + (dt * 1) • F t y) := by
  rw [Tableau.stage]; simp [ssprk3_stage0]; simp [ssprk3]

theorem ssprk3_stage2 : (ssprk3 : Tableau K).stage F t dt y 2 = F (t + 1 / 2 * dt)
    (y + dt • ((1 / 4 : K) • F t y + (1 / 4 : K) • F (t + 1 * dt) (y + (dt * 1) • F t y))) := by
  rw [Tableau.stage]
  simp only [Fin.sum_univ_two, Fin.val_zero, Fin.val_one, ssprk3_stage0, ssprk3_stage1]
  simp only [ssprk3]

theorem ssprk3_slope : (ssprk3 : Tableau K).slope F t dt y =
    (1 / 6 : K) • (ssprk3 : Tableau K).stage F t dt y 0 + (1 / 6 : K) • (ssprk3 : Tableau K).stage F t dt y 1 +
      (2 / 3 : K) • (ssprk3 : Tableau K).stage F t dt y 2 := by
  unfold Tableau.slope
  exact Fin.sum_univ_three _

theorem bs23_stage0 : (bs23 : Tableau K).stage F t dt y 0 = F t y := by
  rw [Tableau.stage]; simp [bs23]

theorem bs23_stage1 : (bs23 : Tableau K).stage F t dt y 1 = F (t + 1 / 2 * dt) (y + (dt * (1 / 2)) • F t y) := by
  rw [Tableau.stage]; simp only [Fin.sum_univ_one, Fin.val_zero, bs23_stage0]; simp only [bs23, mul_smul]

theorem bs23_stage2 : (bs23 : Tableau K).stage F t dt y 2 = F (t + 3 / 4 * dt)
    (y + dt • ((0 : K) • F t y + (3 / 4 : K) • F (t + 1 / 2 * dt) (y + (dt * (1 / 2)) • F t y))) := by
  rw [Tableau.stage]
  simp only [Fin.sum_univ_two, Fin.val_zero, Fin.val_one, bs23_stage0, bs23_stage1]
  simp only [bs23]

theorem bs23_slope : (bs23 : Tableau K).slope F t dt y =
    (2 / 9 : K) • (bs23 : Tableau K).stage F t dt y 0 + (1 / 3 : K) • (bs23 : Tableau K).stage F t dt y 1 +
      (4 / 9 : K) • (bs23 : Tableau K).stage F t dt y 2 := by
  unfold Tableau.slope
  refine (Fin.sum_univ_four _).trans ?_
  simp [bs23]

theorem bs23_stage3 : (bs23 : Tableau K).stage F t dt y 3 = F (t + dt) ((bs23 : Tableau K).step F t dt y) := by
  rw [Tableau.stage, Tableau.step, bs23_slope]
  simp only [Fin.sum_univ_three, Fin.val_zero, Fin.val_one, Fin.val_two]
  simp only [bs23, one_mul]

theorem bs23_slopeHat : (bs23 : Tableau K).slopeHat F t dt y =
    (7 / 24 : K) • (bs23 : Tableau K).stage F t dt y 0 + (1 / 4 : K) • (bs23 : Tableau K).stage F t dt y 1 +
      (1 / 3 : K) • (bs23 : Tableau K).stage F t dt y 2 + (1 / 8 : K) • (bs23 : Tableau K).stage F t dt y 3 := by
  unfold Tableau.slopeHat
  exact Fin.sum_univ_four _

theorem shuOsher3_eq [CharZero K] : (ssprk3 : Tableau K).step F t dt y = shuOsher3 F t dt y := by
  rw [Tableau.step, ssprk3_slope, ssprk3_stage0, ssprk3_stage1, ssprk3_stage2]
  unfold shuOsher3 euler
  simp only [one_mul, mul_one]
  set k1 := F t y
  set k2 := F (t + dt) (y + dt • k1)
  have e : (3 / 4 : K) • y + (1 / 4 : K) • (y + dt • k1 + dt • k2) =
      y + dt • ((1 / 4 : K) • k1 + (1 / 4 : K) • k2) := by module
  rw [e]
  set k3 := F (t + 1 / 2 * dt) (y + dt • ((1 / 4 : K) • k1 + (1 / 4 : K) • k2))
  module

end

section
variable {sz : A → Int} {N : Int} {scratch : A → Prop} {P : C → Prop} {loc : C → Int}
  {F : K → (C → K) → C → K} {rhs : A → A → K → Host A K} {I : Mem A K → Prop} (hR : RhsOn I sz N scratch P loc F rhs)
  {w : RKArr A} (hw : w.Ok sz N scratch)
include hR hw

theorem rk3_on (time dt : K) (m : Mem A K) (hI : I m) :
    ∃ m', Det sz (rk3Step N rhs w time dt) m m' ∧
      (∀ c, P c → m' w.sol (loc c) = (ssprk3 : Tableau K).step F time dt (inner loc m w.sol) c) ∧
      (∀ c, P c → m' w.res (loc c) = (ssprk3 : Tableau K).slope F time dt (inner loc m w.sol) c) ∧
      (∀ b, b ∉ [w.sol, w.res, w.k1, w.k2, w.k3, w.stage] → ¬ scratch b → m' b = m b) ∧ I m' := by
  have hnd := hw.nodup
  simp only [List.nodup_cons, List.mem_cons, not_or, List.not_mem_nil, not_false_eq_true,
    List.nodup_nil, and_true] at hnd
  obtain ⟨⟨n1, n2, n3, n4, n5, n6⟩, ⟨n7, n8, n9, n10, n11⟩, ⟨n12, n13, n14, n15⟩, ⟨n16, n17, n18⟩, ⟨n19, n20⟩, n21⟩ := hnd
  obtain ⟨m1, d1, r1, k1, -, f1, I1⟩ := hR.run w.sol w.k1 time m hI (by ne!) (hw.fresh _ (by simp))
    (hw.fresh _ (by simp)) (hw.size _ (by simp)) (hw.size _ (by simp))
  obtain ⟨κ2, κ3, m2, d2, q, I2⟩ := rkCore_on hR hw (time + 1 * dt) (time + 1 / 2 * dt) dt 1 (1 / 4) (1 / 4)
      (1 / 6) (1 / 6) (2 / 3) m1 I1
  set y := inner loc m w.sol with hy
  have i0 : ∀ c, P c → inner loc m1 w.sol c = y c := fun c hc => k1 c hc
  have i1 : ∀ c, P c → inner loc m1 w.k1 c = F time y c := fun c hc => r1 c hc
  have e2 : ∀ c, P c → κ2 c = (ssprk3 : Tableau K).stage F time dt y 1 c := by
    intro c hc
    rw [q.e2, ssprk3_stage1]
    refine hR.interior _ _ _ (fun c hc => ?_) c hc
    rw [i0 c hc, i1 c hc]; rfl
  have e3 : ∀ c, P c → κ3 c = (ssprk3 : Tableau K).stage F time dt y 2 c := by
    intro c hc
    rw [q.e3, ssprk3_stage2]
    refine hR.interior _ _ _ (fun c hc => ?_) c hc
    rw [i0 c hc, i1 c hc, e2 c hc, ssprk3_stage1]; rfl
  have hres : ∀ c, P c → m2 w.res (loc c) = (ssprk3 : Tableau K).slope F time dt y c := by
    intro c hc
    rw [q.res _ (hR.range c hc).1 (hR.range c hc).2, q.k1, q.k2 c hc, q.k3 c hc, e2 c hc, e3 c hc, ssprk3_slope,
      ssprk3_stage0]
    have := i1 c hc
    simp only [inner] at this
    rw [this]; rfl
  refine ⟨m2, ?_, ?_, hres, ?_, I2⟩
  · rw [rk3Step_eq_on hR hw]; exact det_append d1 d2
  · intro c hc
    rw [q.sol _ (hR.range c hc).1 (hR.range c hc).2, hres c hc]
    have := i0 c hc
    simp only [inner] at this
    rw [this]; rfl
  · intro b hb hs
    simp only [List.mem_cons, List.not_mem_nil, or_false, not_or] at hb
    obtain ⟨x1, x2, x3, x4, x5, x6⟩ := hb
    rw [q.frame b (by simp only [List.mem_cons, List.not_mem_nil, or_false, not_or]; exact ⟨by ne!, by ne!, by ne!, by ne!, by ne!⟩) hs,
      f1 b (by ne!) (by ne!) hs]

theorem stage_congr_on (T : Tableau K) (t dt : K) (u v : C → K) (h : ∀ c, P c → u c = v c) (i : Nat) :
    ∀ c, P c → T.stage F t dt u i c = T.stage F t dt v i c := by
  induction i using Nat.strong_induction_on with
  | _ i ih =>
    intro c hc
    rw [Tableau.stage, Tableau.stage]
    refine hR.interior _ _ _ (fun c hc => ?_) c hc
    simp only [Pi.add_apply, Pi.smul_apply, Finset.sum_apply, h c hc, smul_eq_mul]
    congr 2
    exact Finset.sum_congr rfl fun j _ => by rw [ih j j.2 c hc]

theorem slope_congr_on (T : Tableau K) (t dt : K) (u v : C → K) (h : ∀ c, P c → u c = v c) :
    ∀ c, P c → T.slope F t dt u c = T.slope F t dt v c := by
  intro c hc
  simp only [Tableau.slope, Finset.sum_apply, Pi.smul_apply, smul_eq_mul]
  exact Finset.sum_congr rfl fun j _ => by rw [stage_congr_on hR hw T t dt u v h j c hc]

theorem slopeHat_congr_on (T : Tableau K) (t dt : K) (u v : C → K) (h : ∀ c, P c → u c = v c) :
    ∀ c, P c → T.slopeHat F t dt u c = T.slopeHat F t dt v c := by
  intro c hc
  simp only [Tableau.slopeHat, Finset.sum_apply, Pi.smul_apply, smul_eq_mul]
  exact Finset.sum_congr rfl fun j _ => by rw [stage_congr_on hR hw T t dt u v h j c hc]

theorem step_congr_on (T : Tableau K) (t dt : K) (u v : C → K) (h : ∀ c, P c → u c = v c) :
    ∀ c, P c → T.step F t dt u c = T.step F t dt v c := by
  intro c hc
  simp only [Tableau.step, Pi.add_apply, Pi.smul_apply, smul_eq_mul, h c hc]
  rw [slope_congr_on hR hw T t dt u v h c hc]

theorem run_congr_on (T : Tableau K) (dts : List K) : ∀ (t : K) (u v : C → K), (∀ c, P c → u c = v c) →
    ∀ c, P c → T.run F t dts u c = T.run F t dts v c := by
  induction dts with
  | nil => intro t u v h c hc; exact h c hc
  | cons dt dts ih =>
    intro t u v h c hc
    exact ih _ _ _ (step_congr_on hR hw T t dt u v h) c hc

theorem rk3Run_on (dts : List K) : ∀ (time : K) (m : Mem A K), I m →
    ∃ m', Det sz (rk3Run N rhs w time dts) m m' ∧
      (∀ c, P c → m' w.sol (loc c) = (ssprk3 : Tableau K).run F time dts (inner loc m w.sol) c) := by
  induction dts with
  | nil => intro time m _; exact ⟨m, det_nil _ _, fun c hc => rfl⟩
  | cons dt dts ih =>
    intro time m hI
    obtain ⟨m1, d1, v1, -, -, I1⟩ := rk3_on hR hw time dt m hI
    obtain ⟨m2, d2, v2⟩ := ih (time + dt) m1 I1
    refine ⟨m2, det_append d1 d2, fun c hc => ?_⟩
    rw [v2 c hc]
    exact run_congr_on hR hw _ dts _ _ _ v1 c hc

/-! ### ode23 -/

theorem ode23Host_eq_on (first : Bool) (time dt : K) : ode23Host N rhs w first time dt =
    (if first then rhs w.sol w.k1 time else fsalLoop N w) ++
      (rkCore N rhs w (time + 1 / 2 * dt) (time + 3 / 4 * dt) dt (1 / 2) 0 (3 / 4) (2 / 9) (1 / 3) (4 / 9) ++
      rhs w.sol w.k4 (time + 1 * dt)) := by
  simp only [ode23Host, rkCore, List.append_assoc]

/-- The memory part of an ode23 step, given that the first slope it uses is the slope at the current state. -/
theorem ode23Host_on (first : Bool) (time dt : K) (m : Mem A K) (hI : I m)
    (hk4 : first = false → ∀ c, P c → m w.k4 (loc c) = F time (inner loc m w.sol) c) :
    ∃ m', Det sz (ode23Host N rhs w first time dt) m m' ∧
      (∀ c, P c → m' w.sol (loc c) = (bs23 : Tableau K).step F time dt (inner loc m w.sol) c) ∧
      (∀ c, P c → m' w.k1 (loc c) = (bs23 : Tableau K).stage F time dt (inner loc m w.sol) 0 c) ∧
      (∀ c, P c → m' w.k2 (loc c) = (bs23 : Tableau K).stage F time dt (inner loc m w.sol) 1 c) ∧
      (∀ c, P c → m' w.k3 (loc c) = (bs23 : Tableau K).stage F time dt (inner loc m w.sol) 2 c) ∧
      (∀ c, P c → m' w.k4 (loc c) = (bs23 : Tableau K).stage F time dt (inner loc m w.sol) 3 c) ∧
      (∀ n, 0 ≤ n → n < N → m' w.res n = 2 / 9 * m' w.k1 n + 1 / 3 * m' w.k2 n + 4 / 9 * m' w.k3 n) ∧
      ((∀ n, 0 ≤ n → n < N → (∀ c, P c → loc c ≠ n) → m w.k1 n = 0 ∧ m w.k2 n = 0 ∧ m w.k3 n = 0 ∧ m w.k4 n = 0) →
        (∀ n, 0 ≤ n → n < N → (∀ c, P c → loc c ≠ n) →
          m' w.k1 n = 0 ∧ m' w.k2 n = 0 ∧ m' w.k3 n = 0 ∧ m' w.k4 n = 0)) ∧
      (∀ b, b ∉ [w.sol, w.res, w.k1, w.k2, w.k3, w.k4, w.stage] → ¬ scratch b → m' b = m b) ∧ I m' := by
  have hnd := hw.nodup
  simp only [List.nodup_cons, List.mem_cons, not_or, List.not_mem_nil, not_false_eq_true,
    List.nodup_nil, and_true] at hnd
  obtain ⟨⟨n1, n2, n3, n4, n5, n6⟩, ⟨n7, n8, n9, n10, n11⟩, ⟨n12, n13, n14, n15⟩, ⟨n16, n17, n18⟩, ⟨n19, n20⟩, n21⟩ := hnd
  have s1 : ¬ scratch w.sol := hw.fresh _ (by simp)
  have s2 : ¬ scratch w.res := hw.fresh _ (by simp)
  have s3 : ¬ scratch w.k1 := hw.fresh _ (by simp)
  have s4 : ¬ scratch w.k2 := hw.fresh _ (by simp)
  have s5 : ¬ scratch w.k3 := hw.fresh _ (by simp)
  have s6 : ¬ scratch w.k4 := hw.fresh _ (by simp)
  have s7 : ¬ scratch w.stage := hw.fresh _ (by simp)
  -- first slope
  have first_slope : ∃ m1, Det sz (if first then rhs w.sol w.k1 time else fsalLoop N w) m m1 ∧
      (∀ c, P c → m1 w.k1 (loc c) = F time (inner loc m w.sol) c) ∧
      (∀ c, P c → m1 w.sol (loc c) = m w.sol (loc c)) ∧
      (∀ n, 0 ≤ n → n < N → (∀ c, P c → loc c ≠ n) → m w.k1 n = 0 → m w.k4 n = 0 → m1 w.k1 n = 0) ∧
      (∀ b, b ≠ w.sol → b ≠ w.k1 → ¬ scratch b → m1 b = m b) ∧ I m1 := by
    cases first with
    | true =>
      obtain ⟨m1, d1, r1, k1, h1, f1, I1⟩ := hR.run w.sol w.k1 time m hI (by ne!) s1 s3 (hw.size _ (by simp))
        (hw.size _ (by simp))
      refine ⟨m1, d1, r1, k1, ?_, f1, I1⟩
      intro n _ _ hn z _
      rcases h1 n hn with h | h
      · rw [h, z]
      · exact h
    | false =>
      obtain ⟨m1, d1, f1⟩ := fsal_det (K := K) hw m
      refine ⟨m1, d1, ?_, ?_, ?_, ?_, hR.stable m m1 (fun b hb => f1.frame b fun e => s3 (e ▸ hb)) hI⟩
      · intro c hc
        rw [f1.view _ (hR.range c hc).1 (hR.range c hc).2]
        exact hk4 rfl c hc
      · intro c hc; rw [f1.frame _ (by ne!)]
      · intro n h0 h1 _ _ z; rw [f1.view n h0 h1, z]
      · intro b _ hb _; exact f1.frame b hb
  obtain ⟨m1, d1, r1, k1, z1, f1, I1⟩ := first_slope
  obtain ⟨κ2, κ3, m2, d2, q, I2⟩ := rkCore_on hR hw (time + 1 / 2 * dt) (time + 3 / 4 * dt) dt (1 / 2) 0 (3 / 4)
    (2 / 9) (1 / 3) (4 / 9) m1 I1
  obtain ⟨m3, d3, r3, k3, h3, f3, I3⟩ := hR.run w.sol w.k4 (time + 1 * dt) m2 I2 (by ne!) s1 s6 (hw.size _ (by simp))
    (hw.size _ (by simp))
  set y := inner loc m w.sol with hy
  have i0 : ∀ c, P c → inner loc m1 w.sol c = y c := fun c hc => k1 c hc
  have i1 : ∀ c, P c → inner loc m1 w.k1 c = F time y c := fun c hc => r1 c hc
  have e2 : ∀ c, P c → κ2 c = (bs23 : Tableau K).stage F time dt y 1 c := by
    intro c hc
    rw [q.e2, bs23_stage1]
    refine hR.interior _ _ _ (fun c hc => ?_) c hc
    rw [i0 c hc, i1 c hc]; rfl
  have e3 : ∀ c, P c → κ3 c = (bs23 : Tableau K).stage F time dt y 2 c := by
    intro c hc
    rw [q.e3, bs23_stage2]
    refine hR.interior _ _ _ (fun c hc => ?_) c hc
    rw [i0 c hc, i1 c hc, e2 c hc, bs23_stage1]; rfl
  have g1 : m3 w.k1 = m1 w.k1 := by rw [f3 _ (by ne!) (by ne!) s3, q.k1]
  have g2 : m3 w.k2 = m2 w.k2 := f3 _ (by ne!) (by ne!) s4
  have g3 : m3 w.k3 = m2 w.k3 := f3 _ (by ne!) (by ne!) s5
  have gr : m3 w.res = m2 w.res := f3 _ (by ne!) (by ne!) s2
  have hsol2 : ∀ c, P c → m2 w.sol (loc c) = (bs23 : Tableau K).step F time dt y c := by
    intro c hc
    rw [q.sol _ (hR.range c hc).1 (hR.range c hc).2, q.res _ (hR.range c hc).1 (hR.range c hc).2, q.k1,
      q.k2 c hc, q.k3 c hc, e2 c hc, e3 c hc, Tableau.step, bs23_slope, bs23_stage0]
    have a1 := i1 c hc
    have a0 := i0 c hc
    simp only [inner] at a1 a0
    rw [a1, a0]; rfl
  refine ⟨m3, ?_, ?_, ?_, ?_, ?_, ?_, ?_, ?_, ?_, I3⟩
  · rw [ode23Host_eq_on hR hw]; exact det_append d1 (det_append d2 d3)
  · intro c hc; rw [k3 c hc, hsol2 c hc]
  · intro c hc; rw [g1, bs23_stage0]; exact r1 c hc
  · intro c hc; rw [g2, q.k2 c hc, e2 c hc]
  · intro c hc; rw [g3, q.k3 c hc, e3 c hc]
  · intro c hc
    rw [r3 c hc, bs23_stage3, one_mul]
    exact hR.interior _ _ _ hsol2 c hc
  · intro n h0 h1
    rw [gr, q.res n h0 h1, g1, g2, g3, q.k1]
  · intro hz n h0 h1 hn
    obtain ⟨z1', z2, z3, z4⟩ := hz n h0 h1 hn
    refine ⟨?_, ?_, ?_, ?_⟩
    · rw [g1]; exact z1 n h0 h1 hn z1' z4
    · rw [g2]
      rcases q.k2h n hn with h | h
      · rw [h, f1 _ (by ne!) (by ne!) s4, z2]
      · exact h
    · rw [g3]
      rcases q.k3h n hn with h | h
      · rw [h, f1 _ (by ne!) (by ne!) s5, z3]
      · exact h
    · rcases h3 n hn with h | h
      · rw [h, q.k4, f1 _ (by ne!) (by ne!) s6, z4]
      · exact h
  · intro b hb hs
    simp only [List.mem_cons, List.not_mem_nil, or_false, not_or] at hb
    obtain ⟨x1, x2, x3, x4, x5, x6, x7⟩ := hb
    rw [f3 b (by ne!) (by ne!) hs,
      q.frame b (by simp only [List.mem_cons, List.not_mem_nil, or_false, not_or]; exact ⟨by ne!, by ne!, by ne!, by ne!, by ne!⟩) hs,
      f1 b (by ne!) (by ne!) hs]

end

/-! ### Without a condition -/

theorem Spec.RhsContract.on {sz : A → Int} {N : Int} {scratch : A → Prop} {P : C → Prop} {loc : C → Int}
    {F : K → (C → K) → C → K} {rhs : A → A → K → Host A K} (hR : RhsContract sz N scratch P loc F rhs) :
    RhsOn (fun _ => True) sz N scratch P loc F rhs where
  range := hR.range
  interior := hR.interior
  stable _ _ _ _ := trivial
  run s r t m _ h1 h2 h3 h4 h5 :=
    let ⟨m', a, b, c, d, e⟩ := hR.run s r t m h1 h2 h3 h4 h5
    ⟨m', a, b, c, d, e, trivial⟩

section
variable {sz : A → Int} {N : Int} {scratch : A → Prop} {P : C → Prop} {loc : C → Int}
  {F : K → (C → K) → C → K} {rhs : A → A → K → Host A K} (hR : RhsContract sz N scratch P loc F rhs)
  {w : RKArr A} (hw : w.Ok sz N scratch)
include hR hw

theorem rkCore_det (t2 t3 dt a21 a31 a32 b1 b2 b3 : K) (m : Mem A K) :
    ∃ κ2 κ3 m', Det sz (rkCore N rhs w t2 t3 dt a21 a31 a32 b1 b2 b3) m m' ∧
      CorePost N scratch P loc F w t2 t3 dt a21 a31 a32 b1 b2 b3 κ2 κ3 m m' :=
  let ⟨κ2, κ3, m', a, b, _⟩ := rkCore_on hR.on hw t2 t3 dt a21 a31 a32 b1 b2 b3 m trivial
  ⟨κ2, κ3, m', a, b⟩

theorem rk3Step_eq (time dt : K) : rk3Step N rhs w time dt =
    rhs w.sol w.k1 time ++ rkCore N rhs w (time + 1 * dt) (time + 1 / 2 * dt) dt 1 (1 / 4) (1 / 4)
      (1 / 6) (1 / 6) (2 / 3) :=
  rk3Step_eq_on hR.on hw time dt

theorem rk3_det (time dt : K) (m : Mem A K) :
    ∃ m', Det sz (rk3Step N rhs w time dt) m m' ∧
      (∀ c, P c → m' w.sol (loc c) = (ssprk3 : Tableau K).step F time dt (inner loc m w.sol) c) ∧
      (∀ c, P c → m' w.res (loc c) = (ssprk3 : Tableau K).slope F time dt (inner loc m w.sol) c) ∧
      (∀ b, b ∉ [w.sol, w.res, w.k1, w.k2, w.k3, w.stage] → ¬ scratch b → m' b = m b) :=
  let ⟨m', a, b, c, d, _⟩ := rk3_on hR.on hw time dt m trivial
  ⟨m', a, b, c, d⟩

theorem stage_congr (T : Tableau K) (t dt : K) (u v : C → K) (h : ∀ c, P c → u c = v c) (i : Nat) :
    ∀ c, P c → T.stage F t dt u i c = T.stage F t dt v i c :=
  stage_congr_on hR.on hw T t dt u v h i

theorem slope_congr (T : Tableau K) (t dt : K) (u v : C → K) (h : ∀ c, P c → u c = v c) :
    ∀ c, P c → T.slope F t dt u c = T.slope F t dt v c :=
  slope_congr_on hR.on hw T t dt u v h

theorem slopeHat_congr (T : Tableau K) (t dt : K) (u v : C → K) (h : ∀ c, P c → u c = v c) :
    ∀ c, P c → T.slopeHat F t dt u c = T.slopeHat F t dt v c :=
  slopeHat_congr_on hR.on hw T t dt u v h

theorem step_congr (T : Tableau K) (t dt : K) (u v : C → K) (h : ∀ c, P c → u c = v c) :
    ∀ c, P c → T.step F t dt u c = T.step F t dt v c :=
  step_congr_on hR.on hw T t dt u v h

theorem run_congr (T : Tableau K) (dts : List K) : ∀ (t : K) (u v : C → K), (∀ c, P c → u c = v c) →
    ∀ c, P c → T.run F t dts u c = T.run F t dts v c :=
  run_congr_on hR.on hw T dts

theorem rk3Run_det (dts : List K) : ∀ (time : K) (m : Mem A K),
    ∃ m', Det sz (rk3Run N rhs w time dts) m m' ∧
      (∀ c, P c → m' w.sol (loc c) = (ssprk3 : Tableau K).run F time dts (inner loc m w.sol) c) :=
  fun time m => rk3Run_on hR.on hw dts time m trivial

theorem ode23Host_eq (first : Bool) (time dt : K) : ode23Host N rhs w first time dt =
    (if first then rhs w.sol w.k1 time else fsalLoop N w) ++
      (rkCore N rhs w (time + 1 / 2 * dt) (time + 3 / 4 * dt) dt (1 / 2) 0 (3 / 4) (2 / 9) (1 / 3) (4 / 9) ++
      rhs w.sol w.k4 (time + 1 * dt)) :=
  ode23Host_eq_on hR.on hw first time dt

theorem ode23Host_det (first : Bool) (time dt : K) (m : Mem A K)
    (hk4 : first = false → ∀ c, P c → m w.k4 (loc c) = F time (inner loc m w.sol) c) :
    ∃ m', Det sz (ode23Host N rhs w first time dt) m m' ∧
      (∀ c, P c → m' w.sol (loc c) = (bs23 : Tableau K).step F time dt (inner loc m w.sol) c) ∧
      (∀ c, P c → m' w.k1 (loc c) = (bs23 : Tableau K).stage F time dt (inner loc m w.sol) 0 c) ∧
      (∀ c, P c → m' w.k2 (loc c) = (bs23 : Tableau K).stage F time dt (inner loc m w.sol) 1 c) ∧
      (∀ c, P c → m' w.k3 (loc c) = (bs23 : Tableau K).stage F time dt (inner loc m w.sol) 2 c) ∧
      (∀ c, P c → m' w.k4 (loc c) = (bs23 : Tableau K).stage F time dt (inner loc m w.sol) 3 c) ∧
      (∀ n, 0 ≤ n → n < N → m' w.res n = 2 / 9 * m' w.k1 n + 1 / 3 * m' w.k2 n + 4 / 9 * m' w.k3 n) ∧
      ((∀ n, 0 ≤ n → n < N → (∀ c, P c → loc c ≠ n) → m w.k1 n = 0 ∧ m w.k2 n = 0 ∧ m w.k3 n = 0 ∧ m w.k4 n = 0) →
        (∀ n, 0 ≤ n → n < N → (∀ c, P c → loc c ≠ n) →
          m' w.k1 n = 0 ∧ m' w.k2 n = 0 ∧ m' w.k3 n = 0 ∧ m' w.k4 n = 0)) ∧
      (∀ b, b ∉ [w.sol, w.res, w.k1, w.k2, w.k3, w.k4, w.stage] → ¬ scratch b → m' b = m b) :=
  let ⟨m', a, b, c, d, e, f, g, h, i, _⟩ := ode23Host_on hR.on hw first time dt m trivial hk4
  ⟨m', a, b, c, d, e, f, g, h, i⟩

end

/-! ### The error estimate -/

section
variable [LinearOrder K] [IsStrictOrderedRing K]

/-- Value of the error reduction. -/
theorem ode23Err_det {sz : A → Int} {N : Int} {scratch : A → Prop} {w : RKArr A} (hw : w.Ok sz N scratch)
    (m : Mem A K) :
    CDet sz (Cmd.reduceOf max 0 (ode23ErrBodies N w)) m
      (((irange 0 N).map fun i => |m w.res i - (7 / 24 * m w.k1 i + 1 / 4 * m w.k2 i + 1 / 3 * m w.k3 i +
        1 / 8 * m w.k4 i)|).foldl max 0) m := by
  refine CDet.reduce max_assoc max_comm (irange 0 N) _ _ 0 m fun i hi => ?_
  rw [mem_irange] at hi
  have hb : ∀ a ∈ [w.sol, w.res, w.k1, w.k2, w.k3, w.k4, w.stage], InB sz a i := fun a ha => by
    rw [InB, hw.size a ha]; exact hi
  show Prog.run sz (.load w.k1 i fun x1 => .load w.k2 i fun x2 => .load w.k3 i fun x3 => .load w.k4 i fun x4 =>
    .load w.res i fun r => .pure (fabs (r - (7 / 24 * x1 + 1 / 4 * x2 + 1 / 3 * x3 + 1 / 8 * x4)))) m = _
  simp only [Prog.run, fabs_eq]
  rw [if_pos (hb _ (by simp)), if_pos (hb _ (by simp)), if_pos (hb _ (by simp)), if_pos (hb _ (by simp)),
    if_pos (hb _ (by simp))]

theorem foldl_max_le {l : List K} {a b : K} (h0 : a ≤ b) (h : ∀ x ∈ l, x ≤ b) : l.foldl max a ≤ b := by
  induction l generalizing a with
  | nil => exact h0
  | cons x l ih => exact ih (max_le h0 (h x (by simp))) fun y hy => h y (by simp [hy])

theorem le_foldl_max_init {l : List K} {a : K} : a ≤ l.foldl max a := by
  induction l generalizing a with
  | nil => exact le_rfl
  | cons x l ih => exact (le_max_left a x).trans ih

theorem le_foldl_max {l : List K} {a x : K} (h : x ∈ l) : x ≤ l.foldl max a := by
  induction l generalizing a with
  | nil => simp at h
  | cons y l ih =>
    rcases List.mem_cons.1 h with rfl | h
    · exact (le_max_right a x).trans le_foldl_max_init
    · exact ih h

theorem foldl_max_mem {l : List K} {a : K} : l.foldl max a = a ∨ l.foldl max a ∈ l := by
  induction l generalizing a with
  | nil => exact Or.inl rfl
  | cons x l ih =>
    rcases ih (a := max a x) with h | h
    · rcases max_choice a x with h' | h'
      · left; rw [List.foldl_cons, h, h']
      · right; rw [List.foldl_cons, h, h']; exact List.mem_cons_self ..
    · right; rw [List.foldl_cons]; exact List.mem_cons_of_mem _ h

end

end Madg
