/-
Times of explicit runs in floating-point arithmetic.
-/
import Verif.Proofs.IeeeRun
import Mathlib.Algebra.Order.BigOperators.Group.Finset

set_option linter.unusedSectionVars false

namespace Madg
open Spec

/-- Two numbers of a format are at least a unit in the last place apart. -/
theorem float_gap {F : FloatFmt} {x y : ℚ} (hx : IsFloat F x) (hy : IsFloat F y) (h0 : 0 ≤ x) (h : x < y) : x / 2 ^ F.prec ≤ y - x := by
  obtain ⟨m, e, hm, -, rfl⟩ := hx
  obtain ⟨n, g, hn, -, rfl⟩ := hy
  have key : ∀ (a b : Int) (f : Int), (a : ℚ) * 2 ^ f < b * 2 ^ f → (2 : ℚ) ^ f ≤ b * 2 ^ f - a * 2 ^ f := by
    intro a b f hab
    have p : (0 : ℚ) < 2 ^ f := by positivity
    have : (a : ℚ) < b := lt_of_mul_lt_mul_right hab p.le
    have : a + 1 ≤ b := by exact_mod_cast this
    have : (a : ℚ) + 1 ≤ b := by exact_mod_cast this
    nlinarith
  have small : ∀ (a : Int) (f : Int), |a| < 2 ^ F.prec → (a : ℚ) * 2 ^ f / 2 ^ F.prec ≤ 2 ^ f := by
    intro a f ha
    have p : (0 : ℚ) < 2 ^ f := by positivity
    rw [div_le_iff₀ (by positivity), mul_comm]
    refine mul_le_mul_of_nonneg_left ?_ p.le
    have : (a : ℚ) ≤ ((2 ^ F.prec : Int) : ℚ) := by exact_mod_cast (le_abs_self a).trans ha.le
    push_cast at this
    exact this
  have P : (0 : ℚ) < 2 ^ F.prec := by positivity
  rcases le_total e g with h1 | h1
  · obtain ⟨k, hk⟩ := Int.le.dest h1
    have e1 : (n : ℚ) * 2 ^ g = ((n * 2 ^ k : Int) : ℚ) * 2 ^ e := by
      rw [← hk, zpow_add₀ two_ne_zero, zpow_natCast]; push_cast; ring
    rw [e1] at h ⊢
    exact (small m e hm).trans (key _ _ _ h)
  · obtain ⟨k, hk⟩ := Int.le.dest h1
    have e1 : (m : ℚ) * 2 ^ e = ((m * 2 ^ k : Int) : ℚ) * 2 ^ g := by
      rw [← hk, zpow_add₀ two_ne_zero, zpow_natCast]; push_cast; ring
    have h2 : (m : ℚ) * 2 ^ e / 2 ^ F.prec ≤ 2 ^ g := ((div_le_div_iff_of_pos_right P).2 h.le).trans (small n g hn)
    rw [e1] at h h2 ⊢
    exact h2.trans (key _ _ _ h)

variable {F : IeeeFmt}

theorem float_value {a : Ieee F} (h : Ordinary a) : IsFloat F.toFloatFmt (value a) ∨ value a = 0 := by
  cases a with
  | nan => exact h.elim
  | inf s => exact h.elim
  | zero s => exact .inr rfl
  | num x => exact .inl h.2.1

/-- Times and step sizes of a run whose proposed steps are between `lo` and `hi`: all ordinary, no step tiny, and the sum of the steps
is the time passed up to rounding. -/
theorem ieee_times {u τ : ℚ} (hr : Rounds F.toFloatFmt.round u τ) (hp1 : 1 ≤ F.prec) {T t0 dt0 : Ieee F} {t d p : Nat → Ieee F}
    (hm : Marching T t0 dt0 t d p) {N : Nat} (hN : 1 ≤ N) (hne : ∀ k, k + 1 < N → ¬ LastStep T t p k) {lo hi : ℚ}
    (hhi : hi ≤ 1) (oT : Ordinary T) (o0 : Ordinary t0) (od : Ordinary dt0) (hτ : 4 * τ * 2 ^ F.prec ≤ lo) (hlo : 0 < lo)
    (h0 : lo ≤ value dt0 ∧ value dt0 ≤ hi) (ht0 : 0 ≤ value t0) (hT : 0 ≤ value T) (h1 : t0 + dt0 < T)
    (hX : 4 * (|value t0| + value T + 1) < (2 : ℚ) ^ F.emax) (hlast : (1 + u) * (hi + u * (value T + hi + τ)) + u * τ ≤ 1)
    (hp : ∀ k, k + 1 < N → (∀ i, i ≤ k → Ordinary (d i) ∧ lo ≤ value (d i) ∧ value (d i) ≤ hi) →
      Ordinary (p (k + 1)) ∧ lo ≤ value (p (k + 1)) ∧ value (p (k + 1)) ≤ hi) :
    (∀ i, i < N → Ordinary (d i) ∧ 2 * τ ≤ value (d i) ∧ value (d i) ≤ max hi ((1 + u) * (hi + u * (value T + hi + τ)) + u * τ)) ∧
    ∀ k, k ≤ N → Ordinary (t k) ∧ value (t k) ≤ value T + 2 * (u * (value T + 2)) ∧ |∑ i ∈ Finset.range k, value (d i) - (value (t k) - value t0)| ≤ k * (u * (value T + 2)) := by
  have hd0 : 0 < value dt0 := hlo.trans_le h0.1
  have h0' := h0.2
  have hu := hr.unit.1
  have t0' := hr.tiny.1
  have t1' := hr.tiny.2
  have P1 : (1 : ℚ) ≤ 2 ^ F.prec := one_le_pow₀ (by norm_num)
  have add : ∀ {a b : Ieee F}, Ordinary a → Ordinary b → 0 ≤ value a → value a ≤ |value t0| + value T → 0 ≤ value b → value b ≤ 1 →
      Ordinary (a + b) ∧ value (a + b) = F.toFloatFmt.round (value a + value b) ∧ value a ≤ value (a + b) ∧ value b ≤ value (a + b) := by
    intro a b oa ob a0 a1 b0 b1
    have hab : |value a + value b| ≤ |value t0| + value T + 1 := by rw [abs_of_nonneg (by linarith)]; linarith
    have h2 := F.toFloatFmt.round_double (value a + value b)
    have h3 := Ieee.add_ordinary hp1 oa ob (by have := abs_nonneg (value t0); linarith)
    refine ⟨h3.1, h3.2, ?_, ?_⟩
    · rw [h3.2]
      have := F.toFloatFmt.round_mono hp1 (show value a ≤ value a + value b by linarith)
      rwa [Ieee.round_value oa] at this
    · rw [h3.2]
      have := F.toFloatFmt.round_mono hp1 (show value b ≤ value a + value b by linarith)
      rwa [Ieee.round_value ob] at this
  have a0 : |value t0| = value t0 := abs_of_nonneg ht0
  have up := ieee_sizes hr hp1 hm hN hne hlo.le hhi oT o0 od h0 hT
    ((Ieee.le_ordinary (add o0 od ht0 (by linarith) hd0.le (by linarith)).1 oT).2
      ((Ieee.lt_ordinary (add o0 od ht0 (by linarith) hd0.le (by linarith)).1 oT).1 h1).le) hX hp
  have first := add o0 od ht0 (by linarith) hd0.le (by linarith)
  have first1 := (Ieee.lt_ordinary first.1 oT).1 h1
  obtain ⟨mt, md, mtn, mdn⟩ := hm
  have times : ∀ i, i < N → Ordinary (t i) ∧ value t0 ≤ value (t i) ∧ value (t i) < value T ∧ (1 ≤ i → lo ≤ value (t i)) := by
    intro i
    induction i with
    | zero =>
      intro _
      rw [mt]
      exact ⟨o0, le_rfl, by linarith [first.2.2.1], fun h => by omega⟩
    | succ i ih =>
      intro hi'
      obtain ⟨a1, a2, a3, a4⟩ := ih (by omega)
      obtain ⟨b1, b2, b3⟩ := up.1 i (by omega)
      obtain ⟨s1, s2, s3, s4⟩ := add a1 b1 (by linarith) (by linarith) (by linarith) (by linarith)
      rw [mtn]
      refine ⟨s1, by linarith, ?_, fun _ => by linarith⟩
      cases i with
      | zero => rw [mt, md]; exact first1
      | succ j =>
        have n1 := hne (j + 1) (by omega)
        have hc : ¬ T ≤ t (j + 1) + p (j + 1) := fun h => n1 ⟨by omega, h⟩
        have e : d (j + 1) = p (j + 1) := by rw [mdn, if_neg hc]
        rw [← e, Ieee.le_ordinary oT s1] at hc
        exact not_le.1 hc
  have dlow : ∀ i, i < N → Ordinary (d i) ∧ 2 * τ ≤ value (d i) ∧
      value (d i) ≤ max hi ((1 + u) * (hi + u * (value T + hi + τ)) + u * τ) := by
    intro i hi'
    have base : 2 * τ ≤ lo := by nlinarith
    rcases Nat.lt_or_ge (i + 1) N with h | h
    · obtain ⟨b1, b2, b3⟩ := up.1 i h
      exact ⟨b1, base.trans b2, b3.trans (le_max_left _ _)⟩
    · obtain rfl : i = N - 1 := by omega
      refine ⟨up.2.1, ?_, up.2.2.2.trans (le_max_right _ _)⟩
      obtain ⟨n, rfl⟩ : ∃ n, N = n + 1 := ⟨N - 1, by omega⟩
      rw [Nat.add_sub_cancel]
      cases n with
      | zero => rw [md]; exact base.trans h0.1
      | succ k =>
        obtain ⟨q1, q2, q3, q4⟩ := times (k + 1) (by omega)
        rw [mdn]
        split
        · have hab : |value T - value (t (k + 1))| ≤ |value t0| + value T := by
            rw [abs_of_nonneg (by linarith)]; linarith
          have h2 := F.toFloatFmt.round_double (value T - value (t (k + 1)))
          have h3 := Ieee.sub_ordinary hp1 oT q1 (by linarith)
          rw [h3.2]
          have pos : 0 < value (t (k + 1)) := by linarith [q4 (by omega)]
          have gap : value (t (k + 1)) / 2 ^ F.prec ≤ value T - value (t (k + 1)) := by
            refine float_gap (F := F.toFloatFmt) ?_ ?_ pos.le q3
            · rcases float_value q1 with h | h
              · exact h
              · rw [h] at pos; exact absurd pos (lt_irrefl _)
            · rcases float_value oT with h | h
              · exact h
              · rw [h] at q3; linarith
          have big : 4 * τ ≤ value (t (k + 1)) / 2 ^ F.prec := by
            rw [le_div_iff₀ (by positivity)]
            exact hτ.trans (q4 (by omega))
          have := half_le_round hr (x := value T - value (t (k + 1))) (by linarith) (by linarith)
          linarith
        · exact base.trans (hp k (by omega) fun i hi' => up.1 i (by omega)).2.1
  refine ⟨dlow, ?_⟩
  have d1 : ∀ i, i < N → value (d i) ≤ 1 := fun i hi' => (dlow i hi').2.2.trans (max_le hhi hlast)
  intro k
  induction k with
  | zero =>
    intro _
    rw [mt]
    have := (times 0 hN).2.2.1
    rw [mt] at this
    exact ⟨o0, by linarith [mul_nonneg hu (show 0 ≤ value T + 2 by linarith)], by simp⟩
  | succ k ih =>
    intro hk
    obtain ⟨c1, -, c2⟩ := ih (by omega)
    obtain ⟨q1, q2, q3, -⟩ := times k (by omega)
    obtain ⟨b1, b2, -⟩ := dlow k (by omega)
    have b3 := d1 k (by omega)
    obtain ⟨s1, s2, -, -⟩ := add q1 b1 (by linarith) (by linarith) (by linarith) b3
    rw [mtn]
    have c0 := mul_nonneg hu (show 0 ≤ value T + 2 by linarith)
    have er := hr.err (value (t k) + value (d k))
    have mx : max |value (t k) + value (d k)| τ ≤ value T + 2 := by
      rw [abs_of_nonneg (by linarith)]
      exact max_le (by linarith) (by linarith)
    have er2 := er.trans (mul_le_mul_of_nonneg_left mx hu)
    refine ⟨s1, ?_, ?_⟩
    · cases k with
      | zero => rw [mt, md]; linarith
      | succ j =>
        by_cases hc : T ≤ t (j + 1) + p (j + 1)
        · have hab : |value T - value (t (j + 1))| ≤ |value t0| + value T := by
            rw [abs_of_nonneg (by linarith)]; linarith
          have h2 := F.toFloatFmt.round_double (value T - value (t (j + 1)))
          have h3 := Ieee.sub_ordinary hp1 oT q1 (by linarith)
          have e : value (d (j + 1)) = F.toFloatFmt.round (value T - value (t (j + 1))) := by rw [mdn, if_pos hc]; exact h3.2
          have er3 := hr.err (value T - value (t (j + 1)))
          have mx3 : max |value T - value (t (j + 1))| τ ≤ value T + 2 := by
            rw [abs_of_nonneg (by linarith)]
            exact max_le (by linarith) (by linarith)
          have er4 := er3.trans (mul_le_mul_of_nonneg_left mx3 hu)
          rw [← e, abs_le] at er4
          rw [s2]
          rw [abs_le] at er2
          linarith [er2.2, er4.2]
        · have e : d (j + 1) = p (j + 1) := by rw [mdn, if_neg hc]
          rw [← e, Ieee.le_ordinary oT s1] at hc
          linarith [not_le.1 hc]
    rw [Finset.sum_range_succ, s2]
    rw [abs_le] at c2 er2 ⊢
    push_cast
    constructor <;> linarith [c2.1, c2.2, er2.1, er2.2]

end Madg
