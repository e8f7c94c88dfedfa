/-
Floating-point arithmetic with overflow agrees with rounded arithmetic as long as nothing is too large.
-/
import Verif.Spec.Ieee
import Verif.Props.ReadFile
import Verif.Proofs.FloatGrid
import Mathlib.Tactic.Linarith
import Mathlib.Tactic.Positivity

namespace Madg
open Spec
variable {F : IeeeFmt}

theorem roundEven_double (x : ℚ) : |(roundEven x : ℚ)| ≤ 2 * |x| := by
  rcases lt_or_ge |x| (1 / 2) with h | h
  · have : roundEven x = 0 := roundEven_eq (by simpa using h)
    rw [this]
    simp
  · have := roundEven_err x
    have t := abs_sub_abs_le_abs_sub (roundEven x : ℚ) x
    rw [abs_sub_comm] at t
    linarith

theorem FloatFmt.round_double (G : FloatFmt) (x : ℚ) : |G.round x| ≤ 2 * |x| := by
  unfold FloatFmt.round
  by_cases h : x = 0
  · rw [if_pos h, h]; simp
  · rw [if_neg h]
    have hu : (0 : ℚ) < (2 : ℚ) ^ G.ulpExp x := zpow_pos (by norm_num) _
    rw [abs_mul, abs_of_pos hu]
    have := mul_le_mul_of_nonneg_right (roundEven_double (x / (2 : ℚ) ^ G.ulpExp x)) hu.le
    rw [abs_div, abs_of_pos hu] at this
    refine this.trans (le_of_eq ?_)
    field_simp

namespace Ieee

theorem ofRat_ordinary (hp : 1 ≤ F.prec) (n : Bool) {q : ℚ} (h : |F.toFloatFmt.round q| < (2 : ℚ) ^ F.emax) :
    Ordinary (ofRat n q : Ieee F) ∧ value (ofRat n q : Ieee F) = F.toFloatFmt.round q := by
  unfold ofRat
  by_cases h0 : q = 0
  · rw [if_pos h0, h0, FloatFmt.round_zero]
    exact ⟨trivial, rfl⟩
  · rw [if_neg h0]
    by_cases h1 : F.toFloatFmt.round q = 0
    · rw [if_pos h1, h1]
      exact ⟨trivial, rfl⟩
    · rw [if_neg h1, if_neg (not_le.2 h)]
      exact ⟨⟨h1, FloatFmt.round_isFloat _ hp q, h⟩, rfl⟩

theorem round_value {a : Ieee F} (h : Ordinary a) : F.toFloatFmt.round (value a) = value a := by
  cases a with
  | nan => exact h.elim
  | inf s => exact h.elim
  | zero s => exact FloatFmt.round_zero _
  | num x => exact FloatFmt.round_float _ h.2.1

theorem value_lt {a : Ieee F} (h : Ordinary a) : |value a| < (2 : ℚ) ^ F.emax := by
  cases a with
  | nan => exact h.elim
  | inf s => exact h.elim
  | zero s => show |(0 : ℚ)| < _; rw [abs_zero]; exact zpow_pos (by norm_num) _
  | num x => exact h.2.2

theorem neg_ordinary {a : Ieee F} (h : Ordinary a) : Ordinary (-a) ∧ value (-a) = -value a := by
  cases a with
  | nan => exact h.elim
  | inf s => exact h.elim
  | zero s => exact ⟨trivial, by show (0 : ℚ) = -0; rw [neg_zero]⟩
  | num x =>
    refine ⟨⟨neg_ne_zero.2 h.1, IsFloat_neg h.2.1, ?_⟩, rfl⟩
    show |(-x)| < _
    rw [abs_neg]
    exact h.2.2

theorem add_ordinary (hp : 1 ≤ F.prec) {a b : Ieee F} (ha : Ordinary a) (hb : Ordinary b)
    (h : |F.toFloatFmt.round (value a + value b)| < (2 : ℚ) ^ F.emax) :
    Ordinary (a + b) ∧ value (a + b) = F.toFloatFmt.round (value a + value b) := by
  cases a with
  | nan => exact ha.elim
  | inf s => exact ha.elim
  | zero s =>
    have e : value (zero s : Ieee F) + value b = value b := zero_add _
    rw [e, round_value hb]
    cases b with
    | nan => exact hb.elim
    | inf s => exact hb.elim
    | zero t => exact ⟨trivial, rfl⟩
    | num y => exact ⟨hb, rfl⟩
  | num x =>
    cases b with
    | nan => exact hb.elim
    | inf s => exact hb.elim
    | zero t =>
      have e : value (num x : Ieee F) + value (zero t : Ieee F) = value (num x : Ieee F) := add_zero _
      rw [e, round_value ha]
      exact ⟨ha, rfl⟩
    | num y => exact ofRat_ordinary hp false h

theorem sub_ordinary (hp : 1 ≤ F.prec) {a b : Ieee F} (ha : Ordinary a) (hb : Ordinary b)
    (h : |F.toFloatFmt.round (value a - value b)| < (2 : ℚ) ^ F.emax) :
    Ordinary (a - b) ∧ value (a - b) = F.toFloatFmt.round (value a - value b) := by
  obtain ⟨n1, n2⟩ := neg_ordinary hb
  have := add_ordinary hp ha n1 (by rw [n2, ← sub_eq_add_neg]; exact h)
  rw [n2, ← sub_eq_add_neg] at this
  exact this

theorem mul_ordinary (hp : 1 ≤ F.prec) {a b : Ieee F} (ha : Ordinary a) (hb : Ordinary b)
    (h : |F.toFloatFmt.round (value a * value b)| < (2 : ℚ) ^ F.emax) :
    Ordinary (a * b) ∧ value (a * b) = F.toFloatFmt.round (value a * value b) := by
  cases a with
  | nan => exact ha.elim
  | inf s => exact ha.elim
  | zero s =>
    have e : value (zero s : Ieee F) * value b = 0 := zero_mul _
    rw [e, FloatFmt.round_zero]
    cases b with
    | nan => exact hb.elim
    | inf s => exact hb.elim
    | zero t => exact ⟨trivial, rfl⟩
    | num y => exact ⟨trivial, rfl⟩
  | num x =>
    cases b with
    | nan => exact hb.elim
    | inf s => exact hb.elim
    | zero t =>
      have e : value (num x : Ieee F) * value (zero t : Ieee F) = 0 := mul_zero _
      rw [e, FloatFmt.round_zero]
      exact ⟨trivial, rfl⟩
    | num y => exact ofRat_ordinary hp false h

theorem div_ordinary (hp : 1 ≤ F.prec) {a b : Ieee F} (ha : Ordinary a) (hb : Ordinary b) (hb0 : value b ≠ 0)
    (h : |F.toFloatFmt.round (value a / value b)| < (2 : ℚ) ^ F.emax) :
    Ordinary (a / b) ∧ value (a / b) = F.toFloatFmt.round (value a / value b) := by
  cases b with
  | nan => exact hb.elim
  | inf s => exact hb.elim
  | zero t => exact absurd rfl hb0
  | num y =>
    cases a with
    | nan => exact ha.elim
    | inf s => exact ha.elim
    | zero s =>
      have e : value (zero s : Ieee F) / value (num y : Ieee F) = 0 := zero_div _
      rw [e, FloatFmt.round_zero]
      exact ⟨trivial, rfl⟩
    | num x => exact ofRat_ordinary hp false h

theorem pow_ordinary (hp : 1 ≤ F.prec) {a : Ieee F} (ha : Ordinary a) (n : Nat)
    (h : |F.toFloatFmt.round (value a ^ n)| < (2 : ℚ) ^ F.emax) :
    Ordinary (a ^ n) ∧ value (a ^ n) = F.toFloatFmt.round (value a ^ n) := by
  cases n with
  | zero =>
    have e : value a ^ 0 = (1 : ℚ) := pow_zero _
    rw [e] at h ⊢
    exact ofRat_ordinary hp false h
  | succ n =>
    cases a with
    | nan => exact ha.elim
    | inf s => exact ha.elim
    | zero s =>
      have e : value (zero s : Ieee F) ^ (n + 1) = 0 := zero_pow (by omega)
      rw [e, FloatFmt.round_zero]
      exact ⟨trivial, rfl⟩
    | num x => exact ofRat_ordinary hp false h

theorem lt_ordinary {a b : Ieee F} (ha : Ordinary a) (hb : Ordinary b) : a < b ↔ value a < value b := by
  show ltb a b = true ↔ _
  cases a with
  | nan => exact ha.elim
  | inf s => exact ha.elim
  | zero s =>
    cases b with
    | nan => exact hb.elim
    | inf s => exact hb.elim
    | zero t => simp [ltb, value]
    | num y => simp [ltb, value]
  | num x =>
    cases b with
    | nan => exact hb.elim
    | inf s => exact hb.elim
    | zero t => simp [ltb, value]
    | num y => simp [ltb, value]

theorem le_ordinary {a b : Ieee F} (ha : Ordinary a) (hb : Ordinary b) : a ≤ b ↔ value a ≤ value b := by
  show leb a b = true ↔ _
  cases a with
  | nan => exact ha.elim
  | inf s => exact ha.elim
  | zero s =>
    cases b with
    | nan => exact hb.elim
    | inf s => exact hb.elim
    | zero t => simp [leb, value]
    | num y => simp [leb, value]
  | num x =>
    cases b with
    | nan => exact hb.elim
    | inf s => exact hb.elim
    | zero t => simp [leb, value]
    | num y => simp [leb, value]

end Ieee

/-- `a` is an ordinary number with the value of `x`, of size at most `s`. -/
structure Same (a : Ieee F) (x : Fl F.toFloatFmt.round) (s : ℚ) : Prop where
  ord : Ordinary a
  val : value a = x.val
  le : |x.val| ≤ s

namespace Same
variable {a b : Ieee F} {x y : Fl F.toFloatFmt.round} {s r : ℚ}

theorem mono (h : Same a x s) (hs : s ≤ r) : Same a x r := ⟨h.ord, h.val, h.le.trans hs⟩
theorem bound (h : Same a x s) (hs : |x.val| ≤ r) : Same a x r := ⟨h.ord, h.val, hs⟩
theorem nonneg (h : Same a x s) : 0 ≤ s := (abs_nonneg _).trans h.le
theorem of (h : Ordinary a) (hs : |value a| ≤ s) : Same a (asFl a) s := ⟨h, rfl, hs⟩
theorem eq (h : Same a x s) : asFl a = x := by
  cases x
  exact congrArg Fl.mk h.val

theorem zero : Same (0 : Ieee F) 0 0 := ⟨trivial, rfl, by show |(0 : ℚ)| ≤ 0; rw [abs_zero]⟩

theorem neg (h : Same a x s) : Same (-a) (-x) s := by
  obtain ⟨n1, n2⟩ := Ieee.neg_ordinary h.ord
  refine ⟨n1, by rw [n2, h.val]; rfl, ?_⟩
  show |(-x.val)| ≤ s
  rw [abs_neg]
  exact h.le

variable (hp : 1 ≤ F.prec)
include hp

theorem add (h : Same a x s) (h' : Same b y r) (hl : 2 * (s + r) < (2 : ℚ) ^ F.emax) : Same (a + b) (x + y) (2 * (s + r)) := by
  have hb : |F.toFloatFmt.round (x.val + y.val)| ≤ 2 * (s + r) := by
    have := F.toFloatFmt.round_double (x.val + y.val)
    have := abs_add_le x.val y.val
    have := h.le
    have := h'.le
    linarith
  have := Ieee.add_ordinary hp h.ord h'.ord (by rw [h.val, h'.val]; exact hb.trans_lt hl)
  rw [h.val, h'.val] at this
  exact ⟨this.1, this.2, hb⟩

theorem sub (h : Same a x s) (h' : Same b y r) (hl : 2 * (s + r) < (2 : ℚ) ^ F.emax) : Same (a - b) (x - y) (2 * (s + r)) := by
  have hb : |F.toFloatFmt.round (x.val - y.val)| ≤ 2 * (s + r) := by
    have := F.toFloatFmt.round_double (x.val - y.val)
    have := abs_sub x.val y.val
    have := h.le
    have := h'.le
    linarith
  have := Ieee.sub_ordinary hp h.ord h'.ord (by rw [h.val, h'.val]; exact hb.trans_lt hl)
  rw [h.val, h'.val] at this
  exact ⟨this.1, this.2, hb⟩

theorem mul (h : Same a x s) (h' : Same b y r) (hl : 2 * (s * r) < (2 : ℚ) ^ F.emax) : Same (a * b) (x * y) (2 * (s * r)) := by
  have hb : |F.toFloatFmt.round (x.val * y.val)| ≤ 2 * (s * r) := by
    have h1 := F.toFloatFmt.round_double (x.val * y.val)
    have := mul_le_mul h.le h'.le (abs_nonneg _) h.nonneg
    rw [abs_mul] at h1
    linarith
  have := Ieee.mul_ordinary hp h.ord h'.ord (by rw [h.val, h'.val]; exact hb.trans_lt hl)
  rw [h.val, h'.val] at this
  exact ⟨this.1, this.2, hb⟩

theorem div {l : ℚ} (h : Same a x s) (h' : Same b y r) (hl0 : 0 < l) (hy : l ≤ |y.val|) (hl : 2 * (s / l) < (2 : ℚ) ^ F.emax) :
    Same (a / b) (x / y) (2 * (s / l)) := by
  have hb : |F.toFloatFmt.round (x.val / y.val)| ≤ 2 * (s / l) := by
    have h1 := F.toFloatFmt.round_double (x.val / y.val)
    have := div_le_div₀ h.nonneg h.le hl0 hy
    rw [abs_div] at h1
    linarith
  have := Ieee.div_ordinary hp h.ord h'.ord (by rw [h'.val]; exact abs_pos.1 (hl0.trans_le hy))
    (by rw [h.val, h'.val]; exact hb.trans_lt hl)
  rw [h.val, h'.val] at this
  exact ⟨this.1, this.2, hb⟩

theorem pow (h : Same a x s) (n : Nat) (hl : 2 * s ^ n < (2 : ℚ) ^ F.emax) : Same (a ^ n) (x ^ n) (2 * s ^ n) := by
  have hb : |F.toFloatFmt.round (x.val ^ n)| ≤ 2 * s ^ n := by
    have h1 := F.toFloatFmt.round_double (x.val ^ n)
    rw [abs_pow] at h1
    have := pow_le_pow_left₀ (abs_nonneg _) h.le n
    linarith
  have := Ieee.pow_ordinary hp h.ord n (by rw [h.val]; exact hb.trans_lt hl)
  rw [h.val] at this
  exact ⟨this.1, this.2, hb⟩

theorem nat (n : Nat) (hl : 2 * (n : ℚ) < (2 : ℚ) ^ F.emax) : Same (n : Ieee F) (n : Fl F.toFloatFmt.round) (2 * n) := by
  have hb : |F.toFloatFmt.round (n : ℚ)| ≤ 2 * n := by
    have h1 := F.toFloatFmt.round_double (n : ℚ)
    rwa [abs_of_nonneg (Nat.cast_nonneg (α := ℚ) n)] at h1
  have := Ieee.ofRat_ordinary hp false (q := n) (hb.trans_lt hl)
  exact ⟨this.1, this.2, hb⟩

theorem int (n : Int) (hl : 2 * |(n : ℚ)| < (2 : ℚ) ^ F.emax) : Same (n : Ieee F) (n : Fl F.toFloatFmt.round) (2 * |(n : ℚ)|) := by
  have hb : |F.toFloatFmt.round (n : ℚ)| ≤ 2 * |(n : ℚ)| := F.toFloatFmt.round_double (n : ℚ)
  have := Ieee.ofRat_ordinary hp false (q := n) (hb.trans_lt hl)
  exact ⟨this.1, this.2, hb⟩

end Same

end Madg
