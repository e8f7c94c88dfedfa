/-
Errors of the stages of a step in rounded arithmetic, for any right-hand side computed with a relative error of 25 roundings.
-/
import Verif.Proofs.RoundStep

set_option linter.unusedSectionVars false
set_option linter.unusedVariables false

namespace Madg
open Spec
variable {A K C : Type} [DecidableEq A] [Field K] [LinearOrder K] [IsStrictOrderedRing K]
variable {rnd : K → K} {u τ : K} (hr : Rounds rnd u τ) {R M : K} (hR : 20 * τ ≤ R)
  {P : C → Prop} {FA : Fl rnd → (C → Fl rnd) → C → Fl rnd} {FE : (C → K) → C → K}
  (hF : ∀ (t : Fl rnd) (y : C → Fl rnd), (∀ c, P c → |(y c).val| ≤ M) → ∀ c, P c → Near u 25 R (FA t y c).val (FE (fun c => (y c).val) c))
  (hM : 1 ≤ M)
include hr hR hF hM

/-- Stage errors of an rk3ssp step. -/
theorem Gen.rk3_errors {loc : C → Int} {w : RKArr A} {t dt : Fl rnd} {m m' : Mem A (Fl rnd)} (hdt : 2 * τ ≤ |dt.val|)
    (q : Rk3Post (P) loc FA w t dt m m')
    (b1 : ∀ c, P c → |(m w.sol (loc c)).val| ≤ M)
    (b2 : ∀ c, P c → |(m w.sol (loc c) + dt * 1 * m' w.k1 (loc c)).val| ≤ M)
    (b3 : ∀ c, P c → |(m w.sol (loc c) + dt * (1 / 4 * m' w.k1 (loc c) + 1 / 4 * m' w.k2 (loc c))).val| ≤ M) :
    ∃ y2 y3 : C → K,
      (∀ c, P c → |y2 c - ((m w.sol (loc c)).val +
        dt.val * FE (fun c => (m w.sol (loc c)).val) c)| ≤
          ((1 + u) ^ 34 - 1) * (2 * M + |dt.val| * R)) ∧
      (∀ c, P c → |y3 c - ((m w.sol (loc c)).val +
        dt.val * (1 / 4 * FE (fun c => (m w.sol (loc c)).val) c +
          1 / 4 * FE y2 c))| ≤
          ((1 + u) ^ 34 - 1) * (2 * M + |dt.val| * R)) ∧
      (∀ c, P c → |(m' w.sol (loc c)).val - ((m w.sol (loc c)).val +
        dt.val * (1 / 6 * FE (fun c => (m w.sol (loc c)).val) c +
          1 / 6 * FE y2 c +
          2 / 3 * FE y3 c))| ≤
          ((1 + u) ^ 34 - 1) * (2 * M + |dt.val| * R)) := by
  have hu := hr.unit.1
  have t0 := hr.tiny.1
  have t1 := hr.tiny.2
  have hR0 : 0 ≤ R := by linarith
  have k1 : ∀ c, P c → Near u 25 (R) (m' w.k1 (loc c)).val
      (FE (fun c => (m w.sol (loc c)).val) c) := fun c hc => by
    rw [q.k1 c hc]; exact hF _ _ b1 c hc
  have k2 : ∀ c, P c → Near u 25 (R) (m' w.k2 (loc c)).val
      (FE (fun c => (m w.sol (loc c) + dt * 1 * m' w.k1 (loc c)).val) c) := fun c hc => by
    rw [q.k2 c hc]; exact hF _ _ b2 c hc
  have k3 : ∀ c, P c → Near u 25 (R) (m' w.k3 (loc c)).val
      (FE
        (fun c => (m w.sol (loc c) + dt * (1 / 4 * m' w.k1 (loc c) + 1 / 4 * m' w.k2 (loc c))).val) c) := fun c hc => by
    rw [q.k3 c hc]; exact hF _ _ b3 c hc
  have hT : ∀ a : K, a ≤ 1 → |dt.val| * (a * R) ≤ |dt.val| * R :=
    fun a ha => mul_le_mul_of_nonneg_left (by nlinarith) (abs_nonneg _)
  have w1 : Near u 4 1 (1 : Fl rnd).val 1 := (Near.exact abs_one.le : Near u 0 1 (1 : Fl rnd).val 1).mono hu (by omega) le_rfl
  have w4 : Near u 4 (1 / 4) (1 / 4 : Fl rnd).val (1 / 4) := near_inv hr 4 (by norm_num)
  have w6 : Near u 4 (1 / 6) (1 / 6 : Fl rnd).val (1 / 6) := near_inv hr 6 (by norm_num)
  have w23 : Near u 4 (2 / 3) (2 / 3 : Fl rnd).val (2 / 3) := near_frac hr 2 3 (by norm_num)
  refine ⟨fun c => (m w.sol (loc c) + dt * 1 * m' w.k1 (loc c)).val,
    fun c => (m w.sol (loc c) + dt * (1 / 4 * m' w.k1 (loc c) + 1 / 4 * m' w.k2 (loc c))).val,
    fun c hc => ?_, fun c hc => ?_, fun c hc => ?_⟩
  · have n2 := near_update' hr (s := m w.sol (loc c)) (dt := dt) hM (b1 c hc) w1 zero_le_one (by linarith) (k1 c hc)
    rw [one_mul, one_mul] at n2
    exact (n2.mono hu (k := 34) (by omega) (by linarith)).close
  · have n3 := near_update hr (s := m w.sol (loc c)) (dt := dt) hM (b1 c hc) (near_two hr w4 w4 (by norm_num) (by norm_num)
      (by norm_num) hR (k1 c hc) (k2 c hc))
    exact (n3.mono hu (k := 34) (by omega) (by linarith)).close
  · have n4 := near_update hr (s := m w.sol (loc c)) (dt := dt) hM (b1 c hc) (near_three hr w6 w6 w23 (by norm_num) (by norm_num)
      (by norm_num) (by norm_num) hR (k1 c hc) (k2 c hc) (k3 c hc))
    rw [q.sol c hc]
    exact (n4.mono hu (k := 34) (by omega) (by linarith)).close

/-- Stage errors of an ode23 step. -/
theorem Gen.ode23_errors {loc : C → Int} {w : RKArr A} {t dt : Fl rnd} {m m' : Mem A (Fl rnd)} (hdt : 2 * τ ≤ |dt.val|)
    (q : Ode23Post (P) loc FA w t dt m m')
    (b1 : ∀ c, P c → |(m w.sol (loc c)).val| ≤ M)
    (b2 : ∀ c, P c → |(m w.sol (loc c) + dt * (1 / 2) * m' w.k1 (loc c)).val| ≤ M)
    (b3 : ∀ c, P c → |(m w.sol (loc c) + dt * (0 * m' w.k1 (loc c) + 3 / 4 * m' w.k2 (loc c))).val| ≤ M) :
    ∃ y2 y3 : C → K,
      (∀ c, P c → |y2 c - ((m w.sol (loc c)).val +
        dt.val * (1 / 2 * FE (fun c => (m w.sol (loc c)).val) c))| ≤
          ((1 + u) ^ 34 - 1) * (2 * M + |dt.val| * R)) ∧
      (∀ c, P c → |y3 c - ((m w.sol (loc c)).val +
        dt.val * (0 * FE (fun c => (m w.sol (loc c)).val) c +
          3 / 4 * FE y2 c))| ≤
          ((1 + u) ^ 34 - 1) * (2 * M + |dt.val| * R)) ∧
      (∀ c, P c → |(m' w.sol (loc c)).val - ((m w.sol (loc c)).val +
        dt.val * (2 / 9 * FE (fun c => (m w.sol (loc c)).val) c +
          1 / 3 * FE y2 c +
          4 / 9 * FE y3 c))| ≤
          ((1 + u) ^ 34 - 1) * (2 * M + |dt.val| * R)) := by
  have hu := hr.unit.1
  have t0 := hr.tiny.1
  have t1 := hr.tiny.2
  have hR0 : 0 ≤ R := by linarith
  have k1 : ∀ c, P c → Near u 25 (R) (m' w.k1 (loc c)).val
      (FE (fun c => (m w.sol (loc c)).val) c) := fun c hc => by
    rw [q.k1 c hc]; exact hF _ _ b1 c hc
  have k2 : ∀ c, P c → Near u 25 (R) (m' w.k2 (loc c)).val
      (FE (fun c => (m w.sol (loc c) + dt * (1 / 2) * m' w.k1 (loc c)).val) c) := fun c hc => by
    rw [q.k2 c hc]; exact hF _ _ b2 c hc
  have k3 : ∀ c, P c → Near u 25 (R) (m' w.k3 (loc c)).val
      (FE
        (fun c => (m w.sol (loc c) + dt * (0 * m' w.k1 (loc c) + 3 / 4 * m' w.k2 (loc c))).val) c) := fun c hc => by
    rw [q.k3 c hc]; exact hF _ _ b3 c hc
  have hT : ∀ a : K, a ≤ 1 → |dt.val| * (a * R) ≤ |dt.val| * R :=
    fun a ha => mul_le_mul_of_nonneg_left (by nlinarith) (abs_nonneg _)
  have w0 : Near u 4 0 (0 : Fl rnd).val 0 := (Near.exact abs_zero.le : Near u 0 0 (0 : Fl rnd).val 0).mono hu (by omega) le_rfl
  have w2 : Near u 4 (1 / 2) (1 / 2 : Fl rnd).val (1 / 2) := near_inv hr 2 (by norm_num)
  have w34 : Near u 4 (3 / 4) (3 / 4 : Fl rnd).val (3 / 4) := near_frac hr 3 4 (by norm_num)
  have w3 : Near u 4 (1 / 3) (1 / 3 : Fl rnd).val (1 / 3) := near_inv hr 3 (by norm_num)
  have w29 : Near u 4 (2 / 9) (2 / 9 : Fl rnd).val (2 / 9) := near_frac hr 2 9 (by norm_num)
  have w49 : Near u 4 (4 / 9) (4 / 9 : Fl rnd).val (4 / 9) := near_frac hr 4 9 (by norm_num)
  refine ⟨fun c => (m w.sol (loc c) + dt * (1 / 2) * m' w.k1 (loc c)).val,
    fun c => (m w.sol (loc c) + dt * (0 * m' w.k1 (loc c) + 3 / 4 * m' w.k2 (loc c))).val,
    fun c hc => ?_, fun c hc => ?_, fun c hc => ?_⟩
  · have n2 := near_update' hr (s := m w.sol (loc c)) (dt := dt) hM (b1 c hc) w2 (by norm_num) (by linarith) (k1 c hc)
    exact (n2.mono hu (k := 34) (by omega) (by have := hT (1 / 2) (by norm_num); linarith [mul_assoc |dt.val| (1 / 2) (R)])).close
  · have n3 := near_update hr (s := m w.sol (loc c)) (dt := dt) hM (b1 c hc) (near_two hr w0 w34 le_rfl (by norm_num)
      (by norm_num) hR (k1 c hc) (k2 c hc))
    exact (n3.mono hu (k := 34) (by omega) (by linarith)).close
  · have n4 := near_update hr (s := m w.sol (loc c)) (dt := dt) hM (b1 c hc) (near_three hr w29 w3 w49 (by norm_num) (by norm_num)
      (by norm_num) (by norm_num) hR (k1 c hc) (k2 c hc) (k3 c hc))
    rw [q.sol c hc]
    exact (n4.mono hu (k := 34) (by omega) (by linarith)).close

theorem Gen.near_small {B x e : K} (h34 : (1 + u) ^ 34 ≤ 5 / 4) {k : ℕ} (hk : k ≤ 34) (n : Near u k B x e) (hB : B ≤ 3 / 4 * M + 1 / 20) :
    |x| ≤ M := by
  have a := (n.mono hr.unit.1 hk le_rfl).abs_le
  have b := n.nonneg
  have c : (1 + u) ^ 34 * B ≤ 5 / 4 * B := mul_le_mul_of_nonneg_right h34 b
  linarith

/-- Steps so small that the stages stay within twice the size of the state. -/
theorem Gen.rk3_stages (h34 : (1 + u) ^ 34 ≤ 5 / 4) (hM2 : 2 ≤ M) {loc : C → Int} {w : RKArr A} {t dt : Fl rnd}
    {m m' : Mem A (Fl rnd)} (hdt : 2 * τ ≤ |dt.val|) (hd : |dt.val| * R ≤ M / 4)
    (q : Rk3Post (P) loc FA w t dt m m')
    (b1 : ∀ c, P c → |(m w.sol (loc c)).val| ≤ M / 2) :
    (∀ c, P c → |(m w.sol (loc c)).val| ≤ M) ∧
    (∀ c, P c → |(m w.sol (loc c) + dt * 1 * m' w.k1 (loc c)).val| ≤ M) ∧
    (∀ c, P c → |(m w.sol (loc c) + dt * (1 / 4 * m' w.k1 (loc c) + 1 / 4 * m' w.k2 (loc c))).val| ≤ M) := by
  have hu := hr.unit.1
  have t0 := hr.tiny.1
  have t1 := hr.tiny.2
  have b0 : ∀ c, P c → |(m w.sol (loc c)).val| ≤ M := fun c hc => (b1 c hc).trans (by linarith)
  have k1 : ∀ c, P c → Near u 25 (R) (m' w.k1 (loc c)).val
      (FE (fun c => (m w.sol (loc c)).val) c) := fun c hc => by
    rw [q.k1 c hc]; exact hF _ _ b0 c hc
  have w1 : Near u 4 1 (1 : Fl rnd).val 1 := (Near.exact abs_one.le : Near u 0 1 (1 : Fl rnd).val 1).mono hu (by omega) le_rfl
  have w4 : Near u 4 (1 / 4) (1 / 4 : Fl rnd).val (1 / 4) := near_inv hr 4 (by norm_num)
  have b2 : ∀ c, P c → |(m w.sol (loc c) + dt * 1 * m' w.k1 (loc c)).val| ≤ M := fun c hc =>
    Gen.near_small hr hR hF hM h34 (by omega)
      (near_update' hr (s := m w.sol (loc c)) (dt := dt) (by linarith) (b1 c hc) w1 zero_le_one (by linarith) (k1 c hc))
      (by rw [one_mul]; linarith)
  have k2 : ∀ c, P c → Near u 25 (R) (m' w.k2 (loc c)).val
      (FE (fun c => (m w.sol (loc c) + dt * 1 * m' w.k1 (loc c)).val) c) := fun c hc => by
    rw [q.k2 c hc]; exact hF _ _ b2 c hc
  refine ⟨b0, b2, fun c hc => ?_⟩
  exact Gen.near_small hr hR hF hM h34 (by omega)
    (near_update hr (s := m w.sol (loc c)) (dt := dt) (by linarith) (b1 c hc) (near_two hr w4 w4 (by norm_num) (by norm_num)
      (by norm_num) hR (k1 c hc) (k2 c hc))) (by linarith)

theorem Gen.ode23_stages (h34 : (1 + u) ^ 34 ≤ 5 / 4) (hM2 : 2 ≤ M) {loc : C → Int} {w : RKArr A} {t dt : Fl rnd}
    {m m' : Mem A (Fl rnd)} (hdt : 2 * τ ≤ |dt.val|) (hd : |dt.val| * R ≤ M / 4)
    (q : Ode23Post (P) loc FA w t dt m m')
    (b1 : ∀ c, P c → |(m w.sol (loc c)).val| ≤ M / 2) :
    (∀ c, P c → |(m w.sol (loc c)).val| ≤ M) ∧
    (∀ c, P c → |(m w.sol (loc c) + dt * (1 / 2) * m' w.k1 (loc c)).val| ≤ M) ∧
    (∀ c, P c → |(m w.sol (loc c) + dt * (0 * m' w.k1 (loc c) + 3 / 4 * m' w.k2 (loc c))).val| ≤ M) := by
  have hu := hr.unit.1
  have t0 := hr.tiny.1
  have t1 := hr.tiny.2
  have b0 : ∀ c, P c → |(m w.sol (loc c)).val| ≤ M := fun c hc => (b1 c hc).trans (by linarith)
  have k1 : ∀ c, P c → Near u 25 (R) (m' w.k1 (loc c)).val
      (FE (fun c => (m w.sol (loc c)).val) c) := fun c hc => by
    rw [q.k1 c hc]; exact hF _ _ b0 c hc
  have w0 : Near u 4 0 (0 : Fl rnd).val 0 := (Near.exact abs_zero.le : Near u 0 0 (0 : Fl rnd).val 0).mono hu (by omega) le_rfl
  have w2 : Near u 4 (1 / 2) (1 / 2 : Fl rnd).val (1 / 2) := near_inv hr 2 (by norm_num)
  have w34 : Near u 4 (3 / 4) (3 / 4 : Fl rnd).val (3 / 4) := near_frac hr 3 4 (by norm_num)
  have hp : 0 ≤ |dt.val| * R := mul_nonneg (abs_nonneg _) (by linarith)
  have b2 : ∀ c, P c → |(m w.sol (loc c) + dt * (1 / 2) * m' w.k1 (loc c)).val| ≤ M := fun c hc =>
    Gen.near_small hr hR hF hM h34 (by omega)
      (near_update' hr (s := m w.sol (loc c)) (dt := dt) (by linarith) (b1 c hc) w2 (by norm_num) (by linarith) (k1 c hc))
      (by rw [mul_left_comm]; linarith)
  have k2 : ∀ c, P c → Near u 25 (R) (m' w.k2 (loc c)).val
      (FE (fun c => (m w.sol (loc c) + dt * (1 / 2) * m' w.k1 (loc c)).val) c) := fun c hc => by
    rw [q.k2 c hc]; exact hF _ _ b2 c hc
  refine ⟨b0, b2, fun c hc => ?_⟩
  exact Gen.near_small hr hR hF hM h34 (by omega)
    (near_update hr (s := m w.sol (loc c)) (dt := dt) (by linarith) (b1 c hc) (near_two hr w0 w34 le_rfl (by norm_num)
      (by norm_num) hR (k1 c hc) (k2 c hc))) (by linarith)

end Madg
