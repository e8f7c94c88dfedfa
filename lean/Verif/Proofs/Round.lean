/-
Error bounds for expressions in which every operation is rounded.
-/
import Verif.Spec.Round
import Verif.Model.Rounded
import Verif.Model.Cmd
import Verif.Props.ReadFile
import Mathlib.Tactic.Linarith
import Mathlib.Tactic.Ring
import Mathlib.Tactic.Positivity
import Mathlib.Tactic.GCongr
import Mathlib.Tactic.FieldSimp

set_option linter.unusedSectionVars false

namespace Madg
open Spec
variable {K : Type} [Field K] [LinearOrder K] [IsStrictOrderedRing K]

/-- `x` comes from the exact value `v`, of size at most `B`, by at most `n` successive roundings. -/
structure Near (u : K) (n : ℕ) (B x v : K) : Prop where
  size : |v| ≤ B
  close : |x - v| ≤ ((1 + u) ^ n - 1) * B

namespace Near
variable {u B C D x y v w : K} {n k : ℕ}

theorem nonneg (h : Near u n B x v) : 0 ≤ B := (abs_nonneg v).trans h.size

theorem one_le (hu : 0 ≤ u) (n : ℕ) : 1 ≤ (1 + u) ^ n := one_le_pow₀ (by linarith)

theorem abs_le (h : Near u n B x v) : |x| ≤ (1 + u) ^ n * B := by
  have := abs_add_le (x - v) v
  rw [sub_add_cancel] at this
  have a := h.size
  have b := h.close
  nlinarith

theorem exact (h : |v| ≤ B) : Near u 0 B v v := ⟨h, by simp⟩

theorem mono (hu : 0 ≤ u) (h : Near u n B x v) (hn : n ≤ k) (hB : B ≤ C) : Near u k C x v := by
  refine ⟨h.size.trans hB, h.close.trans ?_⟩
  have h1 : (1 + u) ^ n ≤ (1 + u) ^ k := pow_le_pow_right₀ (by linarith) hn
  have h2 := one_le hu n
  have h3 := h.nonneg
  exact mul_le_mul (by linarith) hB h3 (by linarith)

theorem round {rnd : K → K} {τ : K} (hr : Rounds rnd u τ) (h : Near u n B x v) (hB : τ ≤ B) : Near u (n + 1) B (rnd x) v := by
  refine ⟨h.size, ?_⟩
  have h0 := h.nonneg
  have hu := hr.unit.1
  have h1 := one_le hu n
  have hm : max |x| τ ≤ (1 + u) ^ n * B := max_le h.abs_le (by nlinarith)
  have h2 := hr.err x
  have h3 : u * max |x| τ ≤ u * ((1 + u) ^ n * B) := by gcongr
  have h4 := abs_add_le (rnd x - x) (x - v)
  rw [sub_add_sub_cancel] at h4
  have h5 := h.close
  rw [pow_succ]
  nlinarith

theorem neg (h : Near u n B x v) : Near u n B (-x) (-v) :=
  ⟨by rw [abs_neg]; exact h.size, by rw [← neg_sub', abs_neg]; exact h.close⟩

theorem add (h : Near u n B x v) (h' : Near u n C y w) : Near u n (B + C) (x + y) (v + w) := by
  refine ⟨(abs_add_le _ _).trans (add_le_add h.size h'.size), ?_⟩
  have : x + y - (v + w) = (x - v) + (y - w) := by ring
  rw [this, mul_add]
  exact (abs_add_le _ _).trans (add_le_add h.close h'.close)

theorem mul (hu : 0 ≤ u) (h : Near u n B x v) (h' : Near u k C y w) : Near u (n + k) (B * C) (x * y) (v * w) := by
  refine ⟨by rw [abs_mul]; exact mul_le_mul h.size h'.size (abs_nonneg _) h.nonneg, ?_⟩
  have e : x * y - v * w = (x - v) * y + v * (y - w) := by ring
  rw [e]
  have h1 := one_le hu n
  have h2 := one_le hu k
  have hB := h.nonneg
  have hC := h'.nonneg
  calc |(x - v) * y + v * (y - w)| ≤ |x - v| * |y| + |v| * |y - w| := by
        rw [← abs_mul, ← abs_mul]; exact abs_add_le _ _
    _ ≤ ((1 + u) ^ n - 1) * B * ((1 + u) ^ k * C) + B * (((1 + u) ^ k - 1) * C) := by
        refine add_le_add (mul_le_mul h.close h'.abs_le (abs_nonneg _) ?_) (mul_le_mul h.size h'.close (abs_nonneg _) hB)
        exact mul_nonneg (by linarith) hB
    _ = _ := by rw [pow_add]; ring

/-- Division of both by the same number. -/
theorem divBy (h : Near u n B x v) {d : K} (hd : 0 < d) : Near u n (B / d) (x / d) (v / d) := by
  refine ⟨by rw [abs_div, abs_of_pos hd]; exact div_le_div_of_nonneg_right h.size hd.le, ?_⟩
  rw [← sub_div, abs_div, abs_of_pos hd, ← mul_div_assoc]
  exact div_le_div_of_nonneg_right h.close hd.le

end Near

/-- Positive numbers that agree up to `n` roundings in both directions. -/
structure Rel (u : K) (n : ℕ) (x v : K) : Prop where
  pos : 0 < v
  low : v ≤ (1 + u) ^ (2 * n) * x
  high : x ≤ (1 + u) ^ n * v

namespace Rel
variable {u x y v w : K} {n k : ℕ}

theorem pos' (hu : 0 ≤ u) (h : Rel u n x v) : 0 < x := by
  have h1 : 0 < (1 + u) ^ (2 * n) := by positivity
  have := h.pos.trans_le h.low
  exact (mul_pos_iff_of_pos_left h1).1 this

theorem self (h : 0 < v) : Rel u 0 v v := ⟨h, by simp, by simp⟩

theorem mul (hu : 0 ≤ u) (h : Rel u n x v) (h' : Rel u k y w) : Rel u (n + k) (x * y) (v * w) := by
  have hx := h.pos' hu
  have hy := h'.pos' hu
  refine ⟨mul_pos h.pos h'.pos, ?_, ?_⟩
  · calc v * w ≤ ((1 + u) ^ (2 * n) * x) * ((1 + u) ^ (2 * k) * y) :=
        mul_le_mul h.low h'.low h'.pos.le (by positivity)
      _ = _ := by rw [mul_add, pow_add]; ring
  · calc x * y ≤ ((1 + u) ^ n * v) * ((1 + u) ^ k * w) :=
        mul_le_mul h.high h'.high hy.le (mul_nonneg (by positivity) h.pos.le)
      _ = _ := by rw [pow_add]; ring

theorem round {rnd : K → K} {τ : K} (hr : Rounds rnd u τ) (h : Rel u n x v) (hτ : τ ≤ x) : Rel u (n + 1) (rnd x) v := by
  have hu := hr.unit.1
  have hu2 := hr.unit.2
  have hx := h.pos' hu
  have e := hr.err x
  rw [abs_of_pos hx, max_eq_left hτ, abs_le] at e
  refine ⟨h.pos, h.low.trans ?_, ?_⟩
  · have h1 : x ≤ (1 + u) ^ 2 * rnd x := by
      have h2 : (1 - u) * x ≤ rnd x := by linarith
      have h3 : x ≤ (1 + u) ^ 2 * ((1 - u) * x) := by
        have : 1 ≤ (1 + u) ^ 2 * (1 - u) := by
          have : 0 ≤ u * (1 - u - u ^ 2) := mul_nonneg hu (by nlinarith)
          nlinarith
        nlinarith
      exact h3.trans (mul_le_mul_of_nonneg_left h2 (by positivity))
    calc (1 + u) ^ (2 * n) * x ≤ (1 + u) ^ (2 * n) * ((1 + u) ^ 2 * rnd x) := by gcongr
      _ = _ := by ring
  · calc rnd x ≤ (1 + u) * x := by linarith
      _ ≤ (1 + u) * ((1 + u) ^ n * v) := by have := h.high; gcongr
      _ = _ := by ring

/-- Inverses agree up to twice as many roundings. -/
theorem inv (hu : 0 ≤ u) (h : Rel u n x v) : Near u (2 * n) (1 / v) (1 / x) (1 / v) := by
  have hx := h.pos' hu
  have hv := h.pos
  refine ⟨by rw [abs_of_pos (by positivity)], ?_⟩
  rw [abs_le]
  have h1 : 1 / x ≤ (1 + u) ^ (2 * n) * (1 / v) := by
    rw [mul_one_div, div_le_div_iff₀ hx hv]; linarith [h.low]
  have h2 : 1 / v ≤ (1 + u) ^ n * (1 / x) := by
    rw [mul_one_div, div_le_div_iff₀ hv hx]; linarith [h.high]
  have ρ := Near.one_le hu n
  have ρ2 : (1 + u) ^ (2 * n) = (1 + u) ^ n * (1 + u) ^ n := by rw [two_mul, pow_add]
  have p1 : 0 < 1 / x := by positivity
  have p2 : 0 < 1 / v := by positivity
  rw [ρ2] at h1 ⊢
  clear ρ2
  generalize 1 / x = a at *
  generalize 1 / v = b at *
  generalize (1 + u) ^ n = r at *
  constructor
  · have h3 : b ≤ r * a := h2
    -- a ≥ b / r ≥ (2 - r²) b
    have h4 : b * (2 - r * r) ≤ a := by
      have h5 : b * (2 - r * r) ≤ b * (2 - r) := mul_le_mul_of_nonneg_left (by nlinarith) p2.le
      refine h5.trans ?_
      rcases le_total r 2 with h | h
      · have h6 : b * (2 - r) ≤ r * a * (2 - r) := mul_le_mul_of_nonneg_right h3 (by linarith)
        have h7 : 0 ≤ a * (r - 1) ^ 2 := by positivity
        nlinarith
      · nlinarith
    linarith
  · linarith

end Rel

/-! ### Rounded operations -/

section
variable {rnd : K → K} {u τ B C v w d : K} {n k : ℕ} {x y z : Fl rnd}

theorem Fl.val_add (x y : Fl rnd) : (x + y).val = rnd (x.val + y.val) := rfl
theorem Fl.val_sub (x y : Fl rnd) : (x - y).val = rnd (x.val - y.val) := rfl
theorem Fl.val_mul (x y : Fl rnd) : (x * y).val = rnd (x.val * y.val) := rfl
theorem Fl.val_div (x y : Fl rnd) : (x / y).val = rnd (x.val / y.val) := rfl
theorem Fl.val_neg (x : Fl rnd) : (-x).val = -x.val := rfl
theorem Fl.val_pow (x : Fl rnd) (n : ℕ) : (x ^ n).val = rnd (x.val ^ n) := rfl
theorem Fl.val_natCast (n : ℕ) : ((n : Fl rnd)).val = rnd n := rfl
theorem Fl.val_ofNat (n : ℕ) [n.AtLeastTwo] : ((OfNat.ofNat n : Fl rnd)).val = rnd (OfNat.ofNat n) := rfl
theorem Fl.val_zero : (0 : Fl rnd).val = 0 := rfl
theorem Fl.val_one : (1 : Fl rnd).val = 1 := rfl

variable (hr : Rounds rnd u τ)
include hr

theorem Near.addF (h : Near u n B x.val v) (h' : Near u n C y.val w) (hB : τ ≤ B + C) :
    Near u (n + 1) (B + C) (x + y).val (v + w) := (h.add h').round hr hB

theorem Near.subF (h : Near u n B x.val v) (h' : Near u n C y.val w) (hB : τ ≤ B + C) :
    Near u (n + 1) (B + C) (x - y).val (v - w) := by
  have := (h.add h'.neg).round hr hB
  rw [← sub_eq_add_neg, ← sub_eq_add_neg] at this
  exact this

theorem Near.mulF (h : Near u n B x.val v) (h' : Near u k C y.val w) (hB : τ ≤ B * C) :
    Near u (n + k + 1) (B * C) (x * y).val (v * w) := (h.mul hr.unit.1 h').round hr hB

theorem Near.mulF' (h : Near u n B x.val v) (h' : Near u k C y.val w) (hB : τ ≤ d) (hd : B * C ≤ d) :
    Near u (n + k + 1) d (x * y).val (v * w) := ((h.mul hr.unit.1 h').mono hr.unit.1 le_rfl hd).round hr hB

theorem Near.divF (h : Near u n B x.val v) (hd : 0 < y.val) (hB : τ ≤ B / y.val) :
    Near u (n + 1) (B / y.val) (x / y).val (v / y.val) := (h.divBy hd).round hr hB

theorem Near.divR (h : Near u n B x.val v) (h' : Rel u k y.val w) (hB : τ ≤ B / w) :
    Near u (n + 2 * k + 1) (B / w) (x / y).val (v / w) := by
  have := (h.mul hr.unit.1 (h'.inv hr.unit.1)).round hr (by rwa [mul_one_div])
  rw [mul_one_div, mul_one_div, mul_one_div] at this
  exact this

theorem Near.powF (h : Near u n B x.val v) (e : ℕ) (hB : τ ≤ B ^ e) : Near u (n * e + 1) (B ^ e) (x ^ e).val (v ^ e) := by
  refine Near.round hr ?_ hB
  clear hB
  induction e with
  | zero => simpa using Near.exact (u := u) (v := (1 : K)) (B := 1) (by simp)
  | succ e ih =>
    rw [pow_succ, pow_succ, pow_succ, Nat.mul_succ]
    exact ih.mul hr.unit.1 h

theorem Near.lit (e : ℕ) [e.AtLeastTwo] : Near u 1 (OfNat.ofNat e : K) (OfNat.ofNat e : Fl rnd).val (OfNat.ofNat e : K) := by
  have h1 : (1 : K) ≤ (OfNat.ofNat e : K) := by
    have : 2 ≤ e := Nat.AtLeastTwo.prop
    rw [← Nat.cast_ofNat (R := K)]; exact_mod_cast (show 1 ≤ e by omega)
  exact (Near.exact (abs_of_nonneg (by linarith)).le).round hr (by have := hr.tiny.2; linarith)

end

/-! ### Sums in any order -/

/-- All ways of combining rounded additions stay within the bound for one rounding per addition. -/
theorem Near.comb {rnd : K → K} {u τ : K} (hr : Rounds rnd u τ) {xs : List (Fl rnd)} {s : Fl rnd} (h : Comb (· + ·) xs s) :
    Near u (xs.length - 1) ((xs.map fun x => |x.val| + τ).sum) s.val ((xs.map Fl.val).sum) ∧ 1 ≤ xs.length ∧
      τ ≤ (xs.map fun x => |x.val| + τ).sum := by
  induction h with
  | leaf x =>
    refine ⟨?_, by simp, by simp⟩
    simp only [List.map_cons, List.map_nil, List.sum_cons, List.sum_nil, add_zero, List.length_cons, List.length_nil]
    exact Near.exact (by have := hr.tiny.1; linarith)
  | node xs ys zs a b hx hy hp ih ih' =>
    obtain ⟨h1, l1, t1⟩ := ih
    obtain ⟨h2, l2, t2⟩ := ih'
    have len := hp.length_eq
    rw [List.length_append] at len
    have e1 := (hp.map Fl.val).sum_eq
    have e2 := (hp.map fun x : Fl rnd => |x.val| + τ).sum_eq
    rw [List.map_append, List.sum_append] at e1 e2
    have hu := hr.unit.1
    have τ0 := hr.tiny.1
    refine ⟨?_, by omega, by rw [← e2]; linarith⟩
    rw [← e1, ← e2]
    have := (h1.mono hu (k := max (xs.length - 1) (ys.length - 1)) (le_max_left _ _) le_rfl).addF hr
      (h2.mono hu (le_max_right _ _) le_rfl) (by linarith)
    exact this.mono hu (by omega) le_rfl

/-! ### Double precision -/

theorem FloatFmt.round_rel (F : FloatFmt) (r : ℚ) :
    |F.round r - r| ≤ 1 / 2 ^ F.prec * max |r| ((2 : ℚ) ^ F.emin / 2 * 2 ^ F.prec) := by
  have h2 : (0 : ℚ) < (2 : ℚ) ^ F.emin := zpow_pos (by norm_num) _
  have hp : (0 : ℚ) < 2 ^ F.prec := by positivity
  unfold FloatFmt.round
  by_cases hr : r = 0
  · subst hr
    rw [if_pos rfl]
    simp
  · rw [if_neg hr]
    have hu : (0 : ℚ) < (2 : ℚ) ^ F.ulpExp r := zpow_pos (by norm_num) _
    have h := roundEven_err (r / (2 : ℚ) ^ F.ulpExp r)
    have e : (roundEven (r / (2 : ℚ) ^ F.ulpExp r) : ℚ) * (2 : ℚ) ^ F.ulpExp r - r =
        -((r / (2 : ℚ) ^ F.ulpExp r - roundEven (r / (2 : ℚ) ^ F.ulpExp r)) * (2 : ℚ) ^ F.ulpExp r) := by
      field_simp; ring
    rw [e, abs_neg, abs_mul, abs_of_pos hu]
    have hl := Int.zpow_log_le_self (b := 2) (by decide) (abs_pos.2 hr)
    push_cast at hl
    have key : (2 : ℚ) ^ F.ulpExp r ≤ 2 / 2 ^ F.prec * max |r| ((2 : ℚ) ^ F.emin / 2 * 2 ^ F.prec) := by
      unfold FloatFmt.ulpExp
      rcases le_total (Int.log 2 |r| + 1 - F.prec) F.emin with h | h
      · rw [max_eq_right h]
        calc (2 : ℚ) ^ F.emin = 2 / 2 ^ F.prec * ((2 : ℚ) ^ F.emin / 2 * 2 ^ F.prec) := by field_simp
          _ ≤ _ := by gcongr; exact le_max_right _ _
      · rw [max_eq_left h, zpow_sub₀ (by norm_num), zpow_add_one₀ (by norm_num), zpow_natCast]
        calc (2 : ℚ) ^ Int.log 2 |r| * 2 / 2 ^ F.prec ≤ |r| * 2 / 2 ^ F.prec := by gcongr
          _ = 2 / 2 ^ F.prec * |r| := by ring
          _ ≤ _ := by gcongr; exact le_max_left _ _
    calc _ ≤ 1 / 2 * (2 : ℚ) ^ F.ulpExp r := by gcongr
      _ ≤ 1 / 2 * (2 / 2 ^ F.prec * max |r| ((2 : ℚ) ^ F.emin / 2 * 2 ^ F.prec)) := by gcongr
      _ = _ := by ring

theorem binary64_rounds : Rounds binary64.round (1 / 2 ^ 53 : ℚ) (1 / 2 ^ 1022) := by
  refine ⟨⟨by norm_num, by norm_num⟩, ⟨by positivity, ?_⟩, fun x => ?_⟩
  · refine one_div_le_one_div_of_le (by norm_num) ?_
    calc (20 : ℚ) ≤ 2 ^ 5 := by norm_num
      _ ≤ 2 ^ 1022 := pow_le_pow_right₀ (by norm_num) (by norm_num)
  · have h := binary64.round_rel x
    have e : (2 : ℚ) ^ binary64.emin / 2 * 2 ^ binary64.prec = 1 / 2 ^ 1022 := by
      show (2 : ℚ) ^ (-1074 : ℤ) / 2 * 2 ^ 53 = 1 / 2 ^ 1022
      rw [zpow_neg, show (1074 : ℤ) = ((1022 + 52 : ℕ) : ℤ) from rfl, zpow_natCast, pow_add]
      field_simp
    rw [e] at h
    exact h

end Madg
