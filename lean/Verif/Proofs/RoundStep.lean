/-
Errors of the stages of a step in rounded arithmetic, and of residual norms.
-/
import Verif.Proofs.RoundRK
import Verif.Proofs.Reduce
import Verif.Model.Reduce

set_option linter.unusedSectionVars false
set_option linter.unusedVariables false

namespace Madg
open Spec
variable {A K : Type} [DecidableEq A] [Field K] [LinearOrder K] [IsStrictOrderedRing K]
variable {rnd : K → K} {u τ : K} (hr : Rounds rnd u τ)
include hr

section
variable {ni nj nk : Int} (hi : 1 ≤ ni) (hj : 1 ≤ nj) (hk : 1 ≤ nk) {bx bY bz : BCType} {M : K} (hM : 1 ≤ M)
  {p : CHParams (Fl rnd)} {dx : Fl rnd} (hdx : Spacing τ dx.val) {v : Int}
include hi hj hk hM hdx

/-- The slope computed from a field of numbers of size at most `M`. -/
theorem near_field {t : Fl rnd} {t' : K} {y : Int × Int × Int → Fl rnd} (hy : ∀ c, In3 ni nj nk c → |(y c).val| ≤ M) (c : Int × Int × Int) :
    Near u 25 (rhsSize (valuesOf p) dx.val M) (chFieldA v p dx bx bY bz ni nj nk t y c).val
      (chField3 (valuesOf p) dx.val bx bY bz ni nj nk t' (fun c => (y c).val) c) :=
  near_rhs hr hM hdx v (f := ext3 bx bY bz ni nj nk fun i j k => y (i, j, k))
    (fun x y z => hy _ ⟨extIdx_range x hi, extIdx_range y hj, extIdx_range z hk⟩) c.1 c.2.1 c.2.2

theorem rhsSize_ge : 20 * τ ≤ rhsSize (valuesOf p) dx.val M := by
  have f := hdx.facts hr
  have h0 := hdx.1
  have t0 := hr.tiny.1
  unfold rhsSize
  have a1 : 0 ≤ |(valuesOf p).eps2| * (144 * M / dx.val ^ 4) := by positivity
  have a3 : 0 ≤ |(valuesOf p).sigma| * (M + |(valuesOf p).m|) := by positivity
  have M3 : 1 ≤ M ^ 3 := one_le_pow₀ hM
  have a2 : 20 * τ ≤ 13 * (M ^ 3 + M) / dx.val ^ 2 := by
    rw [le_div_iff₀ (by positivity)]
    nlinarith [f.2.2]
  linarith

/-- Stage errors of an rk3ssp step. -/
theorem rk3_errors {loc : Int × Int × Int → Int} {w : RKArr A} {t dt : Fl rnd} {m m' : Mem A (Fl rnd)} (hdt : 2 * τ ≤ |dt.val|)
    (q : Rk3Post (In3 ni nj nk) loc (chFieldA v p dx bx bY bz ni nj nk) w t dt m m')
    (b1 : ∀ c, In3 ni nj nk c → |(m w.sol (loc c)).val| ≤ M)
    (b2 : ∀ c, In3 ni nj nk c → |(m w.sol (loc c) + dt * 1 * m' w.k1 (loc c)).val| ≤ M)
    (b3 : ∀ c, In3 ni nj nk c → |(m w.sol (loc c) + dt * (1 / 4 * m' w.k1 (loc c) + 1 / 4 * m' w.k2 (loc c))).val| ≤ M) :
    ∃ y2 y3 : Int × Int × Int → K,
      (∀ c, In3 ni nj nk c → |y2 c - ((m w.sol (loc c)).val +
        dt.val * chField3 (valuesOf p) dx.val bx bY bz ni nj nk 0 (fun c => (m w.sol (loc c)).val) c)| ≤
          ((1 + u) ^ 34 - 1) * (2 * M + |dt.val| * rhsSize (valuesOf p) dx.val M)) ∧
      (∀ c, In3 ni nj nk c → |y3 c - ((m w.sol (loc c)).val +
        dt.val * (1 / 4 * chField3 (valuesOf p) dx.val bx bY bz ni nj nk 0 (fun c => (m w.sol (loc c)).val) c +
          1 / 4 * chField3 (valuesOf p) dx.val bx bY bz ni nj nk 0 y2 c))| ≤
          ((1 + u) ^ 34 - 1) * (2 * M + |dt.val| * rhsSize (valuesOf p) dx.val M)) ∧
      (∀ c, In3 ni nj nk c → |(m' w.sol (loc c)).val - ((m w.sol (loc c)).val +
        dt.val * (1 / 6 * chField3 (valuesOf p) dx.val bx bY bz ni nj nk 0 (fun c => (m w.sol (loc c)).val) c +
          1 / 6 * chField3 (valuesOf p) dx.val bx bY bz ni nj nk 0 y2 c +
          2 / 3 * chField3 (valuesOf p) dx.val bx bY bz ni nj nk 0 y3 c))| ≤
          ((1 + u) ^ 34 - 1) * (2 * M + |dt.val| * rhsSize (valuesOf p) dx.val M)) := by
  have hu := hr.unit.1
  have t0 := hr.tiny.1
  have t1 := hr.tiny.2
  have hR := rhsSize_ge hr hi hj hk hM hdx (p := p)
  have hR0 : 0 ≤ rhsSize (valuesOf p) dx.val M := by linarith
  have k1 : ∀ c, In3 ni nj nk c → Near u 25 (rhsSize (valuesOf p) dx.val M) (m' w.k1 (loc c)).val
      (chField3 (valuesOf p) dx.val bx bY bz ni nj nk 0 (fun c => (m w.sol (loc c)).val) c) := fun c hc => by
    rw [q.k1 c hc]; exact near_field hr hi hj hk hM hdx b1 c
  have k2 : ∀ c, In3 ni nj nk c → Near u 25 (rhsSize (valuesOf p) dx.val M) (m' w.k2 (loc c)).val
      (chField3 (valuesOf p) dx.val bx bY bz ni nj nk 0 (fun c => (m w.sol (loc c) + dt * 1 * m' w.k1 (loc c)).val) c) := fun c hc => by
    rw [q.k2 c hc]; exact near_field hr hi hj hk hM hdx b2 c
  have k3 : ∀ c, In3 ni nj nk c → Near u 25 (rhsSize (valuesOf p) dx.val M) (m' w.k3 (loc c)).val
      (chField3 (valuesOf p) dx.val bx bY bz ni nj nk 0
        (fun c => (m w.sol (loc c) + dt * (1 / 4 * m' w.k1 (loc c) + 1 / 4 * m' w.k2 (loc c))).val) c) := fun c hc => by
    rw [q.k3 c hc]; exact near_field hr hi hj hk hM hdx b3 c
  have hT : ∀ a : K, a ≤ 1 → |dt.val| * (a * rhsSize (valuesOf p) dx.val M) ≤ |dt.val| * rhsSize (valuesOf p) dx.val M :=
    fun a ha => mul_le_mul_of_nonneg_left (by nlinarith) (abs_nonneg _)
  have w1 : Near u 4 1 (1 : Fl rnd).val 1 := (Near.exact abs_one.le : Near u 0 1 (1 : Fl rnd).val 1).mono hu (by omega) le_rfl
  have w4 : Near u 4 (1 / 4) (1 / 4 : Fl rnd).val (1 / 4) := near_inv hr 4 (by norm_num)
  have w6 : Near u 4 (1 / 6) (1 / 6 : Fl rnd).val (1 / 6) := near_inv hr 6 (by norm_num)
  have w23 : Near u 4 (2 / 3) (2 / 3 : Fl rnd).val (2 / 3) := near_frac hr 2 3 (by norm_num)
  refine ⟨fun c => (m w.sol (loc c) + dt * 1 * m' w.k1 (loc c)).val,
    fun c => (m w.sol (loc c) + dt * (1 / 4 * m' w.k1 (loc c) + 1 / 4 * m' w.k2 (loc c))).val,
    fun c hc => ?_, fun c hc => ?_, fun c hc => ?_⟩
  · have n2 := near_update' hr (s := m w.sol (loc c)) (dt := dt) hM (b1 c hc) w1 zero_le_one (by linarith) (k1 c hc)
    rw [one_mul, one_mul] at n2
    exact (n2.mono hu (k := 34) (by omega) (by linarith)).close
  · have n3 := near_update hr (s := m w.sol (loc c)) (dt := dt) hM (b1 c hc) (near_two hr w4 w4 (by norm_num) (by norm_num)
      (by norm_num) hR (k1 c hc) (k2 c hc))
    exact (n3.mono hu (k := 34) (by omega) (by linarith)).close
  · have n4 := near_update hr (s := m w.sol (loc c)) (dt := dt) hM (b1 c hc) (near_three hr w6 w6 w23 (by norm_num) (by norm_num)
      (by norm_num) (by norm_num) hR (k1 c hc) (k2 c hc) (k3 c hc))
    rw [q.sol c hc]
    exact (n4.mono hu (k := 34) (by omega) (by linarith)).close

/-- Stage errors of an ode23 step. -/
theorem ode23_errors {loc : Int × Int × Int → Int} {w : RKArr A} {t dt : Fl rnd} {m m' : Mem A (Fl rnd)} (hdt : 2 * τ ≤ |dt.val|)
    (q : Ode23Post (In3 ni nj nk) loc (chFieldA v p dx bx bY bz ni nj nk) w t dt m m')
    (b1 : ∀ c, In3 ni nj nk c → |(m w.sol (loc c)).val| ≤ M)
    (b2 : ∀ c, In3 ni nj nk c → |(m w.sol (loc c) + dt * (1 / 2) * m' w.k1 (loc c)).val| ≤ M)
    (b3 : ∀ c, In3 ni nj nk c → |(m w.sol (loc c) + dt * (0 * m' w.k1 (loc c) + 3 / 4 * m' w.k2 (loc c))).val| ≤ M) :
    ∃ y2 y3 : Int × Int × Int → K,
      (∀ c, In3 ni nj nk c → |y2 c - ((m w.sol (loc c)).val +
        dt.val * (1 / 2 * chField3 (valuesOf p) dx.val bx bY bz ni nj nk 0 (fun c => (m w.sol (loc c)).val) c))| ≤
          ((1 + u) ^ 34 - 1) * (2 * M + |dt.val| * rhsSize (valuesOf p) dx.val M)) ∧
      (∀ c, In3 ni nj nk c → |y3 c - ((m w.sol (loc c)).val +
        dt.val * (0 * chField3 (valuesOf p) dx.val bx bY bz ni nj nk 0 (fun c => (m w.sol (loc c)).val) c +
          3 / 4 * chField3 (valuesOf p) dx.val bx bY bz ni nj nk 0 y2 c))| ≤
          ((1 + u) ^ 34 - 1) * (2 * M + |dt.val| * rhsSize (valuesOf p) dx.val M)) ∧
      (∀ c, In3 ni nj nk c → |(m' w.sol (loc c)).val - ((m w.sol (loc c)).val +
        dt.val * (2 / 9 * chField3 (valuesOf p) dx.val bx bY bz ni nj nk 0 (fun c => (m w.sol (loc c)).val) c +
          1 / 3 * chField3 (valuesOf p) dx.val bx bY bz ni nj nk 0 y2 c +
          4 / 9 * chField3 (valuesOf p) dx.val bx bY bz ni nj nk 0 y3 c))| ≤
          ((1 + u) ^ 34 - 1) * (2 * M + |dt.val| * rhsSize (valuesOf p) dx.val M)) := by
  have hu := hr.unit.1
  have t0 := hr.tiny.1
  have t1 := hr.tiny.2
  have hR := rhsSize_ge hr hi hj hk hM hdx (p := p)
  have hR0 : 0 ≤ rhsSize (valuesOf p) dx.val M := by linarith
  have k1 : ∀ c, In3 ni nj nk c → Near u 25 (rhsSize (valuesOf p) dx.val M) (m' w.k1 (loc c)).val
      (chField3 (valuesOf p) dx.val bx bY bz ni nj nk 0 (fun c => (m w.sol (loc c)).val) c) := fun c hc => by
    rw [q.k1 c hc]; exact near_field hr hi hj hk hM hdx b1 c
  have k2 : ∀ c, In3 ni nj nk c → Near u 25 (rhsSize (valuesOf p) dx.val M) (m' w.k2 (loc c)).val
      (chField3 (valuesOf p) dx.val bx bY bz ni nj nk 0 (fun c => (m w.sol (loc c) + dt * (1 / 2) * m' w.k1 (loc c)).val) c) := fun c hc => by
    rw [q.k2 c hc]; exact near_field hr hi hj hk hM hdx b2 c
  have k3 : ∀ c, In3 ni nj nk c → Near u 25 (rhsSize (valuesOf p) dx.val M) (m' w.k3 (loc c)).val
      (chField3 (valuesOf p) dx.val bx bY bz ni nj nk 0
        (fun c => (m w.sol (loc c) + dt * (0 * m' w.k1 (loc c) + 3 / 4 * m' w.k2 (loc c))).val) c) := fun c hc => by
    rw [q.k3 c hc]; exact near_field hr hi hj hk hM hdx b3 c
  have hT : ∀ a : K, a ≤ 1 → |dt.val| * (a * rhsSize (valuesOf p) dx.val M) ≤ |dt.val| * rhsSize (valuesOf p) dx.val M :=
    fun a ha => mul_le_mul_of_nonneg_left (by nlinarith) (abs_nonneg _)
  have w0 : Near u 4 0 (0 : Fl rnd).val 0 := (Near.exact abs_zero.le : Near u 0 0 (0 : Fl rnd).val 0).mono hu (by omega) le_rfl
  have w2 : Near u 4 (1 / 2) (1 / 2 : Fl rnd).val (1 / 2) := near_inv hr 2 (by norm_num)
  have w34 : Near u 4 (3 / 4) (3 / 4 : Fl rnd).val (3 / 4) := near_frac hr 3 4 (by norm_num)
  have w3 : Near u 4 (1 / 3) (1 / 3 : Fl rnd).val (1 / 3) := near_inv hr 3 (by norm_num)
  have w29 : Near u 4 (2 / 9) (2 / 9 : Fl rnd).val (2 / 9) := near_frac hr 2 9 (by norm_num)
  have w49 : Near u 4 (4 / 9) (4 / 9 : Fl rnd).val (4 / 9) := near_frac hr 4 9 (by norm_num)
  refine ⟨fun c => (m w.sol (loc c) + dt * (1 / 2) * m' w.k1 (loc c)).val,
    fun c => (m w.sol (loc c) + dt * (0 * m' w.k1 (loc c) + 3 / 4 * m' w.k2 (loc c))).val,
    fun c hc => ?_, fun c hc => ?_, fun c hc => ?_⟩
  · have n2 := near_update' hr (s := m w.sol (loc c)) (dt := dt) hM (b1 c hc) w2 (by norm_num) (by linarith) (k1 c hc)
    exact (n2.mono hu (k := 34) (by omega) (by have := hT (1 / 2) (by norm_num); linarith [mul_assoc |dt.val| (1 / 2) (rhsSize (valuesOf p) dx.val M)])).close
  · have n3 := near_update hr (s := m w.sol (loc c)) (dt := dt) hM (b1 c hc) (near_two hr w0 w34 le_rfl (by norm_num)
      (by norm_num) hR (k1 c hc) (k2 c hc))
    exact (n3.mono hu (k := 34) (by omega) (by linarith)).close
  · have n4 := near_update hr (s := m w.sol (loc c)) (dt := dt) hM (b1 c hc) (near_three hr w29 w3 w49 (by norm_num) (by norm_num)
      (by norm_num) (by norm_num) hR (k1 c hc) (k2 c hc) (k3 c hc))
    rw [q.sol c hc]
    exact (n4.mono hu (k := 34) (by omega) (by linarith)).close

theorem near_small {B x e : K} (h34 : (1 + u) ^ 34 ≤ 5 / 4) {k : ℕ} (hk : k ≤ 34) (n : Near u k B x e) (hB : B ≤ 3 / 4 * M + 1 / 20) :
    |x| ≤ M := by
  have a := (n.mono hr.unit.1 hk le_rfl).abs_le
  have b := n.nonneg
  have c : (1 + u) ^ 34 * B ≤ 5 / 4 * B := mul_le_mul_of_nonneg_right h34 b
  linarith

/-- Steps so small that the stages stay within twice the size of the state. -/
theorem rk3_stages (h34 : (1 + u) ^ 34 ≤ 5 / 4) (hM2 : 2 ≤ M) {loc : Int × Int × Int → Int} {w : RKArr A} {t dt : Fl rnd}
    {m m' : Mem A (Fl rnd)} (hdt : 2 * τ ≤ |dt.val|) (hd : |dt.val| * rhsSize (valuesOf p) dx.val M ≤ M / 4)
    (q : Rk3Post (In3 ni nj nk) loc (chFieldA v p dx bx bY bz ni nj nk) w t dt m m')
    (b1 : ∀ c, In3 ni nj nk c → |(m w.sol (loc c)).val| ≤ M / 2) :
    (∀ c, In3 ni nj nk c → |(m w.sol (loc c)).val| ≤ M) ∧
    (∀ c, In3 ni nj nk c → |(m w.sol (loc c) + dt * 1 * m' w.k1 (loc c)).val| ≤ M) ∧
    (∀ c, In3 ni nj nk c → |(m w.sol (loc c) + dt * (1 / 4 * m' w.k1 (loc c) + 1 / 4 * m' w.k2 (loc c))).val| ≤ M) := by
  have hu := hr.unit.1
  have t0 := hr.tiny.1
  have t1 := hr.tiny.2
  have hR := rhsSize_ge hr hi hj hk hM hdx (p := p)
  have b0 : ∀ c, In3 ni nj nk c → |(m w.sol (loc c)).val| ≤ M := fun c hc => (b1 c hc).trans (by linarith)
  have k1 : ∀ c, In3 ni nj nk c → Near u 25 (rhsSize (valuesOf p) dx.val M) (m' w.k1 (loc c)).val
      (chField3 (valuesOf p) dx.val bx bY bz ni nj nk 0 (fun c => (m w.sol (loc c)).val) c) := fun c hc => by
    rw [q.k1 c hc]; exact near_field hr hi hj hk hM hdx b0 c
  have w1 : Near u 4 1 (1 : Fl rnd).val 1 := (Near.exact abs_one.le : Near u 0 1 (1 : Fl rnd).val 1).mono hu (by omega) le_rfl
  have w4 : Near u 4 (1 / 4) (1 / 4 : Fl rnd).val (1 / 4) := near_inv hr 4 (by norm_num)
  have b2 : ∀ c, In3 ni nj nk c → |(m w.sol (loc c) + dt * 1 * m' w.k1 (loc c)).val| ≤ M := fun c hc =>
    near_small hr hi hj hk hM hdx h34 (by omega)
      (near_update' hr (s := m w.sol (loc c)) (dt := dt) (by linarith) (b1 c hc) w1 zero_le_one (by linarith) (k1 c hc))
      (by rw [one_mul]; linarith)
  have k2 : ∀ c, In3 ni nj nk c → Near u 25 (rhsSize (valuesOf p) dx.val M) (m' w.k2 (loc c)).val
      (chField3 (valuesOf p) dx.val bx bY bz ni nj nk 0 (fun c => (m w.sol (loc c) + dt * 1 * m' w.k1 (loc c)).val) c) := fun c hc => by
    rw [q.k2 c hc]; exact near_field hr hi hj hk hM hdx b2 c
  refine ⟨b0, b2, fun c hc => ?_⟩
  exact near_small hr hi hj hk hM hdx h34 (by omega)
    (near_update hr (s := m w.sol (loc c)) (dt := dt) (by linarith) (b1 c hc) (near_two hr w4 w4 (by norm_num) (by norm_num)
      (by norm_num) hR (k1 c hc) (k2 c hc))) (by linarith)

theorem ode23_stages (h34 : (1 + u) ^ 34 ≤ 5 / 4) (hM2 : 2 ≤ M) {loc : Int × Int × Int → Int} {w : RKArr A} {t dt : Fl rnd}
    {m m' : Mem A (Fl rnd)} (hdt : 2 * τ ≤ |dt.val|) (hd : |dt.val| * rhsSize (valuesOf p) dx.val M ≤ M / 4)
    (q : Ode23Post (In3 ni nj nk) loc (chFieldA v p dx bx bY bz ni nj nk) w t dt m m')
    (b1 : ∀ c, In3 ni nj nk c → |(m w.sol (loc c)).val| ≤ M / 2) :
    (∀ c, In3 ni nj nk c → |(m w.sol (loc c)).val| ≤ M) ∧
    (∀ c, In3 ni nj nk c → |(m w.sol (loc c) + dt * (1 / 2) * m' w.k1 (loc c)).val| ≤ M) ∧
    (∀ c, In3 ni nj nk c → |(m w.sol (loc c) + dt * (0 * m' w.k1 (loc c) + 3 / 4 * m' w.k2 (loc c))).val| ≤ M) := by
  have hu := hr.unit.1
  have t0 := hr.tiny.1
  have t1 := hr.tiny.2
  have hR := rhsSize_ge hr hi hj hk hM hdx (p := p)
  have b0 : ∀ c, In3 ni nj nk c → |(m w.sol (loc c)).val| ≤ M := fun c hc => (b1 c hc).trans (by linarith)
  have k1 : ∀ c, In3 ni nj nk c → Near u 25 (rhsSize (valuesOf p) dx.val M) (m' w.k1 (loc c)).val
      (chField3 (valuesOf p) dx.val bx bY bz ni nj nk 0 (fun c => (m w.sol (loc c)).val) c) := fun c hc => by
    rw [q.k1 c hc]; exact near_field hr hi hj hk hM hdx b0 c
  have w0 : Near u 4 0 (0 : Fl rnd).val 0 := (Near.exact abs_zero.le : Near u 0 0 (0 : Fl rnd).val 0).mono hu (by omega) le_rfl
  have w2 : Near u 4 (1 / 2) (1 / 2 : Fl rnd).val (1 / 2) := near_inv hr 2 (by norm_num)
  have w34 : Near u 4 (3 / 4) (3 / 4 : Fl rnd).val (3 / 4) := near_frac hr 3 4 (by norm_num)
  have hp : 0 ≤ |dt.val| * rhsSize (valuesOf p) dx.val M := mul_nonneg (abs_nonneg _) (by linarith)
  have b2 : ∀ c, In3 ni nj nk c → |(m w.sol (loc c) + dt * (1 / 2) * m' w.k1 (loc c)).val| ≤ M := fun c hc =>
    near_small hr hi hj hk hM hdx h34 (by omega)
      (near_update' hr (s := m w.sol (loc c)) (dt := dt) (by linarith) (b1 c hc) w2 (by norm_num) (by linarith) (k1 c hc))
      (by rw [mul_left_comm]; linarith)
  have k2 : ∀ c, In3 ni nj nk c → Near u 25 (rhsSize (valuesOf p) dx.val M) (m' w.k2 (loc c)).val
      (chField3 (valuesOf p) dx.val bx bY bz ni nj nk 0 (fun c => (m w.sol (loc c) + dt * (1 / 2) * m' w.k1 (loc c)).val) c) := fun c hc => by
    rw [q.k2 c hc]; exact near_field hr hi hj hk hM hdx b2 c
  refine ⟨b0, b2, fun c hc => ?_⟩
  exact near_small hr hi hj hk hM hdx h34 (by omega)
    (near_update hr (s := m w.sol (loc c)) (dt := dt) (by linarith) (b1 c hc) (near_two hr w0 w34 le_rfl (by norm_num)
      (by norm_num) hR (k1 c hc) (k2 c hc))) (by linarith)

end

/-! ### Runs -/

theorem run_step {n : Nat} {N S S1 S0 c R T M dt σ : K} (hN : 0 ≤ N) (hR : 0 ≤ R) (hM : 0 ≤ M) (h0 : 0 ≤ σ)
    (hdt : 2 * τ ≤ dt ∧ dt ≤ T) (h1 : σ * dt ≤ 1)
    (st : |(S1 - N * c) - (1 - σ * dt + (σ * dt) ^ 2 / 2 - (σ * dt) ^ 3 / 6) * (S - N * c)| ≤
      (1 + 2 * (σ * dt)) * (N * (((1 + u) ^ 34 - 1) * (2 * M + dt * R))))
    (ih : |S - N * c| ≤ |S0 - N * c| + n * (3 * (N * (((1 + u) ^ 34 - 1) * (2 * M + T * R))))) :
    |S1 - N * c| ≤ |S0 - N * c| + ((n + 1 : Nat) : K) * (3 * (N * (((1 + u) ^ 34 - 1) * (2 * M + T * R)))) := by
  have t0 := hr.tiny.1
  have ρ := sub_nonneg.2 (Near.one_le hr.unit.1 34)
  have hd : 0 ≤ dt := by linarith
  have z0 : 0 ≤ σ * dt := mul_nonneg h0 hd
  obtain ⟨a, b⟩ := damp_bounds z0 h1
  generalize 1 - σ * dt + (σ * dt) ^ 2 / 2 - (σ * dt) ^ 3 / 6 = P at *
  have tri := abs_add_le ((S1 - N * c) - P * (S - N * c)) (P * (S - N * c))
  rw [sub_add_cancel, abs_mul, abs_of_nonneg a] at tri
  have pS : P * |S - N * c| ≤ |S - N * c| := mul_le_of_le_one_left (abs_nonneg _) b
  have e1 : 2 * M + dt * R ≤ 2 * M + T * R := by have := mul_le_mul_of_nonneg_right hdt.2 hR; linarith
  have e2 : N * (((1 + u) ^ 34 - 1) * (2 * M + dt * R)) ≤ N * (((1 + u) ^ 34 - 1) * (2 * M + T * R)) := by gcongr
  have e0 : 0 ≤ N * (((1 + u) ^ 34 - 1) * (2 * M + dt * R)) := by positivity
  have e3 : (1 + 2 * (σ * dt)) * (N * (((1 + u) ^ 34 - 1) * (2 * M + dt * R))) ≤ 3 * (N * (((1 + u) ^ 34 - 1) * (2 * M + T * R))) := by
    refine le_trans (mul_le_mul_of_nonneg_right (by linarith) e0) (mul_le_mul_of_nonneg_left e2 (by norm_num))
  generalize N * (((1 + u) ^ 34 - 1) * (2 * M + T * R)) = E at *
  push_cast
  linarith

theorem mean_step {n : Nat} {N S S1 S0 c R T M dt : K} (hN : 0 < N) (hR : 0 ≤ R)
    (hdt : 2 * τ ≤ dt ∧ dt ≤ T)
    (st : |(S1 - N * c) - (1 - 0 * dt + (0 * dt) ^ 2 / 2 - (0 * dt) ^ 3 / 6) * (S - N * c)| ≤
      (1 + 2 * (0 * dt)) * (N * (((1 + u) ^ 34 - 1) * (2 * M + dt * R))))
    (ih : |S / N - S0 / N| ≤ n * (((1 + u) ^ 34 - 1) * (2 * M + T * R))) :
    |S1 / N - S0 / N| ≤ ((n + 1 : Nat) : K) * (((1 + u) ^ 34 - 1) * (2 * M + T * R)) := by
  have ρ := sub_nonneg.2 (Near.one_le hr.unit.1 34)
  rw [show (S1 - N * c) - (1 - 0 * dt + (0 * dt) ^ 2 / 2 - (0 * dt) ^ 3 / 6) * (S - N * c) = N * (S1 / N - S / N) by
    field_simp; ring, abs_mul, abs_of_pos hN, zero_mul, mul_zero, add_zero, one_mul] at st
  have e := le_of_mul_le_mul_left st hN
  have e1 : 2 * M + dt * R ≤ 2 * M + T * R := by have := mul_le_mul_of_nonneg_right hdt.2 hR; linarith
  have e2 : ((1 + u) ^ 34 - 1) * (2 * M + dt * R) ≤ ((1 + u) ^ 34 - 1) * (2 * M + T * R) := by gcongr
  have tri := abs_add_le (S1 / N - S / N) (S / N - S0 / N)
  rw [sub_add_sub_cancel] at tri
  generalize ((1 + u) ^ 34 - 1) * (2 * M + T * R) = E at *
  push_cast
  linarith

/-! ### Residual norms -/

/-- Every way of forming the sum of squares and dividing by the number of cells. -/
theorem near_meanSq {l : List Int} (hl : l ≠ []) {f : Int → Fl rnd} {s : Fl rnd}
    (h : Comb (· + ·) ((0 : Fl rnd) :: l.map fun n => f n ^ 2) s) :
    |(s / (l.length : Fl rnd)).val - (l.map fun n => (f n).val ^ 2).sum / l.length| ≤
      ((1 + u) ^ (l.length + 4) - 1) * (((l.map fun n => (f n).val ^ 2).sum + (2 * l.length + 1) * τ) / l.length) := by
  have hu := hr.unit.1
  have t0 := hr.tiny.1
  obtain ⟨h1, -, h2⟩ := Near.comb hr h
  have hlen : (1 : K) ≤ (l.length : K) := by
    have : 1 ≤ l.length := List.length_pos_iff.2 hl
    exact_mod_cast this
  have sq : ∀ l : List Int, 0 ≤ (l.map fun n => (f n).val ^ 2).sum ∧
      |(l.map fun n => (f n ^ 2).val).sum - (l.map fun n => (f n).val ^ 2).sum| ≤
        u * ((l.map fun n => (f n).val ^ 2).sum + l.length * τ) ∧
      (l.map fun n => |(f n ^ 2).val| + τ).sum ≤ (1 + u) * ((l.map fun n => (f n).val ^ 2).sum + 2 * l.length * τ) := by
    intro l
    induction l with
    | nil => simp
    | cons n l ih =>
      obtain ⟨i0, i1, i2⟩ := ih
      have e := hr.err ((f n).val ^ 2)
      have p0 : 0 ≤ (f n).val ^ 2 := sq_nonneg _
      rw [abs_of_nonneg p0] at e
      have mx : max ((f n).val ^ 2) τ ≤ (f n).val ^ 2 + τ := max_le (by linarith) (by linarith)
      have e' : |rnd ((f n).val ^ 2) - (f n).val ^ 2| ≤ u * ((f n).val ^ 2 + τ) := e.trans (by gcongr)
      have ev : ∀ n, (f n ^ 2).val = rnd ((f n).val ^ 2) := fun n => rfl
      simp only [List.map_cons, List.sum_cons, List.length_cons, ev, Nat.cast_add, Nat.cast_one] at i1 i2 ⊢
      refine ⟨by linarith, ?_, ?_⟩
      · have := abs_add_le (rnd ((f n).val ^ 2) - (f n).val ^ 2)
          ((l.map fun n => rnd ((f n).val ^ 2)).sum - (l.map fun n => (f n).val ^ 2).sum)
        rw [show rnd ((f n).val ^ 2) - (f n).val ^ 2 + ((l.map fun n => rnd ((f n).val ^ 2)).sum -
          (l.map fun n => (f n).val ^ 2).sum) = rnd ((f n).val ^ 2) + (l.map fun n => rnd ((f n).val ^ 2)).sum -
          ((f n).val ^ 2 + (l.map fun n => (f n).val ^ 2).sum) by ring] at this
        linarith
      · have := abs_add_le (rnd ((f n).val ^ 2) - (f n).val ^ 2) ((f n).val ^ 2)
        rw [sub_add_cancel, abs_of_nonneg p0] at this
        nlinarith
  obtain ⟨s0, s1, s2⟩ := sq l
  have near : Near u (l.length + 1) ((l.map fun n => (f n).val ^ 2).sum + (2 * l.length + 1) * τ) s.val
      (l.map fun n => (f n).val ^ 2).sum := by
    have l0 : (0 : K) ≤ (l.length : K) * τ := by positivity
    refine ⟨by rw [abs_of_nonneg s0]; nlinarith, ?_⟩
    have c := h1.close
    simp only [List.map_cons, List.map_map, List.sum_cons, List.length_cons, Nat.add_sub_cancel, Fl.val_zero, zero_add, abs_zero,
      Function.comp_def, List.length_map] at c
    have ρ := Near.one_le hu l.length
    have := abs_add_le (s.val - (l.map fun n => (f n ^ 2).val).sum)
      ((l.map fun n => (f n ^ 2).val).sum - (l.map fun n => (f n).val ^ 2).sum)
    rw [sub_add_sub_cancel] at this
    have b : τ + (l.map fun n => |(f n ^ 2).val| + τ).sum ≤ (1 + u) * ((l.map fun n => (f n).val ^ 2).sum + (2 * l.length + 1) * τ) := by
      nlinarith
    have c' := mul_le_mul_of_nonneg_left b (sub_nonneg.2 ρ)
    have d : u * ((l.map fun n => (f n).val ^ 2).sum + l.length * τ) ≤ u * ((l.map fun n => (f n).val ^ 2).sum + (2 * l.length + 1) * τ) :=
      mul_le_mul_of_nonneg_left (by nlinarith) hu
    rw [pow_succ]
    linarith
  have rl : Rel u 1 (l.length : Fl rnd).val (l.length : K) :=
    (Rel.self (lt_of_lt_of_le one_pos hlen)).round hr (by have := hr.tiny.2; linarith)
  have := (near.divBy (d := (l.length : K)) (lt_of_lt_of_le one_pos hlen)).size
  have fin := near.divR hr rl (by
    rw [le_div_iff₀ (lt_of_lt_of_le one_pos hlen)]
    nlinarith)
  exact (fin.mono hu (k := l.length + 4) (by omega) le_rfl).close

end Madg
