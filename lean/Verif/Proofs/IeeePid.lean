/-
The step size control in floating-point arithmetic with overflow.
-/
import Verif.Proofs.IeeePois
import Verif.Proofs.RoundCH

set_option linter.unusedSectionVars false

namespace Madg
open Spec
variable {F : IeeeFmt}

/-- An ordinary number or an infinity. -/
def Numeric (a : Ieee F) : Prop := Ordinary a ∨ ∃ s, a = .inf s

theorem Numeric.ofRat (hp : 1 ≤ F.prec) (n : Bool) (q : ℚ) : Numeric (Ieee.ofRat n q : Ieee F) := by
  by_cases h : |F.toFloatFmt.round q| < (2 : ℚ) ^ F.emax
  · exact .inl (Ieee.ofRat_ordinary hp n h).1
  · right
    unfold Ieee.ofRat
    have h1 : F.toFloatFmt.round q ≠ 0 := by
      intro h0
      rw [h0, abs_zero] at h
      exact h (by positivity)
    have h0 : q ≠ 0 := by
      intro h0
      rw [h0, FloatFmt.round_zero] at h1
      exact h1 rfl
    rw [if_neg h0, if_neg h1, if_pos (not_lt.1 h)]
    exact ⟨_, rfl⟩

/-- Products with ordinary numbers other than 0 are never NaN. -/
theorem Numeric.mul (hp : 1 ≤ F.prec) {a b : Ieee F} (ha : Numeric a) (hb : Ordinary b) (h0 : value b ≠ 0) : Numeric (a * b) := by
  cases b with
  | nan => exact hb.elim
  | inf s => exact hb.elim
  | zero s => exact absurd rfl h0
  | num y =>
    cases a with
    | nan =>
      rcases ha with h | ⟨s, h⟩
      · exact h.elim
      · cases h
    | inf s => exact .inr ⟨_, rfl⟩
    | zero s => exact .inl trivial
    | num x => exact Numeric.ofRat hp _ _

/-- Limiting a number or an infinity from above and from below. -/
theorem Numeric.clamp {r x y : Ieee F} (hr : Numeric r) (hx : Ordinary x) (hy : Ordinary y) (hxy : value y ≤ value x) (a : Ieee F)
    (ha : a = if x < r then x else r) (b : Ieee F) (hb : b = if a < y then y else a) :
    Ordinary b ∧ value y ≤ value b ∧ value b ≤ value x := by
  have fin : ∀ a : Ieee F, Ordinary a → value a ≤ value x → Ordinary (if a < y then y else a) ∧
      value y ≤ value (if a < y then y else a) ∧ value (if a < y then y else a) ≤ value x := by
    intro a oa hax
    split
    · exact ⟨hy, le_rfl, hxy⟩
    · next h => exact ⟨oa, not_lt.1 fun h' => h ((Ieee.lt_ordinary oa hy).2 h'), hax⟩
  rw [hb, ha]
  rcases hr with ho | ⟨s, rfl⟩
  · by_cases h : x < r
    · rw [if_pos h]
      exact fin x hx le_rfl
    · rw [if_neg h]
      exact fin r ho (not_lt.1 fun h' => h ((Ieee.lt_ordinary hx ho).2 h'))
  · cases s with
    | false =>
      have : x < (.inf false : Ieee F) := by
        show Ieee.ltb x (.inf false) = true
        cases x with
        | nan => exact hx.elim
        | inf s => exact hx.elim
        | zero s => rfl
        | num x => rfl
      rw [if_pos this]
      exact fin x hx le_rfl
    | true =>
      have : ¬ x < (.inf true : Ieee F) := by
        show ¬ Ieee.ltb x (.inf true) = true
        cases x with
        | nan => exact hx.elim
        | inf s => exact hx.elim
        | zero s => simp [Ieee.ltb]
        | num x => simp [Ieee.ltb]
      rw [if_neg this]
      have : (.inf true : Ieee F) < y := by
        show Ieee.ltb (.inf true) y = true
        cases y with
        | nan => exact hy.elim
        | inf s => exact hy.elim
        | zero s => rfl
        | num x => rfl
      rw [if_pos this]
      exact ⟨hy, le_rfl, hxy⟩

/-- An ordinary number with value between `l` and `h`. -/
structure Rg (a : Ieee F) (l h : ℚ) : Prop where
  ord : Ordinary a
  lo : l ≤ value a
  hi : value a ≤ h

section
variable (hp : 4 ≤ F.prec) (he : F.emin ≤ 0) (hm : 8 ≤ F.emax) {u τ : ℚ} (hr : Rounds F.toFloatFmt.round u τ) (hu : u ≤ 1 / 64)
include hp he hm hr hu

omit hp he hm in
theorem round_up {x h : ℚ} (hx : 0 ≤ x) (hxh : x ≤ h) (h20 : 1 / 20 ≤ h) : F.toFloatFmt.round x ≤ 65 / 64 * h := by
  have e := (abs_le.1 (hr.err x)).2
  have t := hr.tiny.2
  have mx : max |x| τ ≤ h := max_le (by rwa [abs_of_nonneg hx]) (t.trans h20)
  have := mul_le_mul hu mx (le_max_of_le_left (abs_nonneg _)) (by norm_num)
  linarith

omit hp he hm in
theorem round_down {x l : ℚ} (hxl : l ≤ x) (h20 : 1 / 20 ≤ l) : 63 / 64 * l ≤ F.toFloatFmt.round x := by
  have e := (abs_le.1 (hr.err x)).1
  have t := hr.tiny.2
  have mx : max |x| τ = x := by rw [abs_of_nonneg (by linarith), max_eq_left (by linarith)]
  rw [mx] at e
  have := mul_le_mul_of_nonneg_right hu (show 0 ≤ x by linarith)
  linarith

omit hp he hm in
/-- Relative errors of numbers that are not tiny. -/
theorem round_rel {x : ℚ} (h : τ ≤ x) : 63 / 64 * x ≤ F.toFloatFmt.round x ∧ F.toFloatFmt.round x ≤ 65 / 64 * x := by
  have t := hr.tiny.1
  have e := abs_le.1 (hr.err x)
  rw [abs_of_nonneg (t.trans h), max_eq_left h] at e
  have := mul_le_mul_of_nonneg_right hu (t.trans h)
  constructor <;> linarith [e.1, e.2]

/-- A result that is rounded up at most a bit. -/
theorem Rg.of {a : Ieee F} {x h : ℚ} (hx : 0 ≤ x) (hxh : x ≤ h) (h20 : 1 / 20 ≤ h) (h100 : h ≤ 100)
    (H : |F.toFloatFmt.round x| < (2 : ℚ) ^ F.emax → Ordinary a ∧ value a = F.toFloatFmt.round x) : Rg a 0 (65 / 64 * h) := by
  have n := F.toFloatFmt.round_nonneg hx
  have b := round_up hr hu hx hxh h20
  have := emax_big hp he hm
  obtain ⟨o, v⟩ := H (by rw [abs_of_nonneg n]; linarith)
  exact ⟨o, by rw [v]; exact n, by rw [v]; exact b⟩

theorem Rg.add {a b : Ieee F} {h k q : ℚ} (ha : Rg a 0 h) (hb : Rg b 0 k) (hq : h + k ≤ q) (h20 : 1 / 20 ≤ q) (h100 : q ≤ 100) :
    Rg (a + b) 0 (65 / 64 * q) :=
  Rg.of hp he hm hr hu (add_nonneg ha.lo hb.lo) (by linarith [ha.hi, hb.hi]) h20 h100 (Ieee.add_ordinary (by omega) ha.ord hb.ord)

theorem Rg.mul {a b : Ieee F} {h k q : ℚ} (ha : Rg a 0 h) (hb : Rg b 0 k) (hq : h * k ≤ q) (h20 : 1 / 20 ≤ q) (h100 : q ≤ 100) :
    Rg (a * b) 0 (65 / 64 * q) :=
  Rg.of hp he hm hr hu (mul_nonneg ha.lo hb.lo)
    ((mul_le_mul ha.hi hb.hi hb.lo (ha.lo.trans ha.hi)).trans hq) h20 h100 (Ieee.mul_ordinary (by omega) ha.ord hb.ord)

theorem Rg.div {a b : Ieee F} {h l k q : ℚ} (ha : Rg a 0 h) (hb : Rg b l k) (hl : 0 < l) (hq : h / l ≤ q) (h20 : 1 / 20 ≤ q)
    (h100 : q ≤ 100) : Rg (a / b) 0 (65 / 64 * q) :=
  Rg.of hp he hm hr hu (div_nonneg ha.lo (hl.le.trans hb.lo))
    ((div_le_div₀ (ha.lo.trans ha.hi) ha.hi hl hb.lo).trans hq) h20 h100
    (Ieee.div_ordinary (by omega) ha.ord hb.ord (ne_of_gt (hl.trans_le hb.lo)))

/-- Decimal literals. -/
theorem Rg.dec (m : Nat) (s : Bool) (e : Nat) {q : ℚ} (hq : (OfScientific.ofScientific m s e : ℚ) ≤ q)
    (h0 : 0 ≤ (OfScientific.ofScientific m s e : ℚ)) (h20 : 1 / 20 ≤ q) (h100 : q ≤ 100) :
    Rg (OfScientific.ofScientific m s e : Ieee F) 0 (65 / 64 * q) :=
  Rg.of hp he hm hr hu h0 hq h20 h100 (Ieee.ofRat_ordinary (by omega) false)

omit hr hu in
theorem Rg.two : Rg (2 : Ieee F) 2 2 := by
  obtain ⟨h1, h2⟩ := Same.ofNat (F := F) hp he hm 2 (by norm_num)
  have e : value (2 : Ieee F) = 2 := by rw [h1.val, h2]; norm_num
  exact ⟨h1.ord, e.ge, e.le⟩

omit hr hu in
theorem Rg.one : Rg (1 : Ieee F) 1 1 := by
  have h1 := Same.one (F := F) hp he hm
  have h2 := (Same.lit (F := F) hp he hm (n := 1) (by norm_num))
  have e1 : ((1 : Nat) : Ieee F) = 1 := by
    show Ieee.ofRat false ((1 : Nat) : ℚ) = Ieee.ofRat false 1
    rw [Nat.cast_one]
  have e : value (1 : Ieee F) = 1 := by rw [← e1, h2.1.val, h2.2]; norm_num
  exact ⟨h1.ord, e.ge, e.le⟩

omit hp he hm hr hu in
theorem Rg.mono {a : Ieee F} {l h l' h' : ℚ} (H : Rg a l h) (hl : l' ≤ l) (hh : h ≤ h') : Rg a l' h' :=
  ⟨H.ord, hl.trans H.lo, H.hi.trans hh⟩

/-- The exponents of the control lie between 0 and 1. -/
theorem exponents {w : Ieee F} (hw : Rg w 0 (5 / 4)) :
    Rg (((0.25 : Ieee F) + 0.14 + 0.10 * (2 * w) / (1 + w)) / 2) 0 1 ∧ Rg (((0.14 : Ieee F) + 2 * w * 0.10) / 2) 0 1 ∧
    Rg ((0.10 : Ieee F) * (2 * w * w) / (1 + w) / 2) 0 1 := by
  have two := Rg.two (F := F) hp he hm
  have two0 := two.mono (show (0 : ℚ) ≤ 2 by norm_num) le_rfl
  have one := Rg.one (F := F) hp he hm
  have c1 : Rg (0.10 : Ieee F) 0 (1 / 8) := (Rg.dec hp he hm hr hu 10 true 2 (q := 1 / 10) (by norm_num) (by norm_num) (by norm_num)
    (by norm_num)).mono le_rfl (by norm_num)
  have c2 : Rg (0.14 : Ieee F) 0 (1 / 6) := (Rg.dec hp he hm hr hu 14 true 2 (q := 14 / 100) (by norm_num) (by norm_num) (by norm_num)
    (by norm_num)).mono le_rfl (by norm_num)
  have c3 : Rg (0.25 : Ieee F) 0 (1 / 3) := (Rg.dec hp he hm hr hu 25 true 2 (q := 25 / 100) (by norm_num) (by norm_num) (by norm_num)
    (by norm_num)).mono le_rfl (by norm_num)
  have d1 : Rg (1 + w) (1 / 2) 3 := by
    have a := Rg.add hp he hm hr hu (one.mono zero_le_one le_rfl) hw (q := 9 / 4) (by norm_num) (by norm_num) (by norm_num)
    refine ⟨a.ord, ?_, a.hi.trans (by norm_num)⟩
    have v : value (1 + w) = F.toFloatFmt.round (value (1 : Ieee F) + value w) := by
      have hb := emax_big hp he hm
      refine (Ieee.add_ordinary (by omega) one.ord hw.ord ?_).2
      have x0 : 0 ≤ value (1 : Ieee F) + value w := by linarith [one.lo, hw.lo]
      have b := round_up hr hu x0 (show _ ≤ (9 : ℚ) / 4 by linarith [one.hi, hw.hi]) (by norm_num)
      rw [abs_of_nonneg (F.toFloatFmt.round_nonneg x0)]
      linarith
    rw [v]
    have := round_down hr hu (show (1 : ℚ) ≤ value (1 : Ieee F) + value w by linarith [one.lo, hw.lo]) (by norm_num)
    linarith
  have w2 := (Rg.mul hp he hm hr hu two0 hw (q := 5 / 2) (by norm_num) (by norm_num) (by norm_num)).mono le_rfl (show _ ≤ (11 : ℚ) / 4 by norm_num)
  have a1 := (Rg.mul hp he hm hr hu c1 w2 (q := 3 / 8) (by norm_num) (by norm_num) (by norm_num)).mono le_rfl (show _ ≤ (2 : ℚ) / 5 by norm_num)
  have a2 := (Rg.div hp he hm hr hu a1 d1 (by norm_num) (q := 4 / 5) (by norm_num) (by norm_num) (by norm_num)).mono le_rfl (show _ ≤ (7 : ℚ) / 8 by norm_num)
  have a3 := (Rg.add hp he hm hr hu c3 c2 (q := 1 / 2) (by norm_num) (by norm_num) (by norm_num)).mono le_rfl (show _ ≤ (5 : ℚ) / 8 by norm_num)
  have a4 := (Rg.add hp he hm hr hu a3 a2 (q := 3 / 2) (by norm_num) (by norm_num) (by norm_num)).mono le_rfl (show _ ≤ (13 : ℚ) / 8 by norm_num)
  have a5 := (Rg.div hp he hm hr hu a4 two (by norm_num) (q := 13 / 16) (by norm_num) (by norm_num) (by norm_num)).mono le_rfl (show _ ≤ (1 : ℚ) by norm_num)
  have b1 := (Rg.mul hp he hm hr hu w2 c1 (q := 3 / 8) (by norm_num) (by norm_num) (by norm_num)).mono le_rfl (show _ ≤ (2 : ℚ) / 5 by norm_num)
  have b2 := (Rg.add hp he hm hr hu c2 b1 (q := 3 / 5) (by norm_num) (by norm_num) (by norm_num)).mono le_rfl (show _ ≤ (3 : ℚ) / 4 by norm_num)
  have b3 := (Rg.div hp he hm hr hu b2 two (by norm_num) (q := 3 / 8) (by norm_num) (by norm_num) (by norm_num)).mono le_rfl (show _ ≤ (1 : ℚ) by norm_num)
  have g1 := (Rg.mul hp he hm hr hu w2 hw (q := 7 / 2) (by norm_num) (by norm_num) (by norm_num)).mono le_rfl (show _ ≤ (15 : ℚ) / 4 by norm_num)
  have g2 := (Rg.mul hp he hm hr hu c1 g1 (q := 1 / 2) (by norm_num) (by norm_num) (by norm_num)).mono le_rfl (show _ ≤ (5 : ℚ) / 8 by norm_num)
  have g3 := (Rg.div hp he hm hr hu g2 d1 (by norm_num) (q := 5 / 4) (by norm_num) (by norm_num) (by norm_num)).mono le_rfl (show _ ≤ (3 : ℚ) / 2 by norm_num)
  have g4 := (Rg.div hp he hm hr hu g3 two (by norm_num) (q := 3 / 4) (by norm_num) (by norm_num) (by norm_num)).mono le_rfl (show _ ≤ (1 : ℚ) by norm_num)
  exact ⟨a5, b3, g4⟩

end

/-- The larger of two ordinary numbers. -/
theorem Rg.hi' {a b : Ieee F} (ha : Ordinary a) (hb : Ordinary b) :
    Ordinary (if a < b then b else a) ∧ value (if a < b then b else a) = max (value a) (value b) := by
  split
  · next h => exact ⟨hb, (max_eq_right ((Ieee.lt_ordinary ha hb).1 h).le).symm⟩
  · next h => exact ⟨ha, (max_eq_left (not_lt.1 fun h' => h ((Ieee.lt_ordinary ha hb).2 h'))).symm⟩

section
variable (hp : 4 ≤ F.prec) (he : F.emin ≤ 0) (hm : 64 ≤ F.emax) {u τ : ℚ} (hr : Rounds F.toFloatFmt.round u τ) (hu : u ≤ 1 / 64)
  (hτ : τ ≤ 1 / 2 ^ 53)
include hp he hm hr hu hτ

omit hτ hu in
theorem emax_huge : (2 : ℚ) ^ 64 ≤ (2 : ℚ) ^ F.emax := by
  have : (2 : ℚ) ^ (64 : Int) ≤ 2 ^ F.emax := zpow_le_zpow_right₀ (by norm_num) hm
  exact_mod_cast this

/-- The machine epsilon. -/
theorem Rg.eps : Rg (1 / 2 ^ 52 : Ieee F) (1 / 2 ^ 54) 1 := by
  have b := emax_huge hp he hm hr
  have two := Rg.two (F := F) hp he (by omega)
  have one := Rg.one (F := F) hp he (by omega)
  have e2 : value (2 : Ieee F) = 2 := le_antisymm two.hi two.lo
  have e1 : value (1 : Ieee F) = 1 := le_antisymm one.hi one.lo
  have r := round_rel hr hu (x := 2 ^ 52) (hr.tiny.2.trans (by norm_num))
  have p := Ieee.pow_ordinary (F := F) (by omega) two.ord 52 (by
    rw [e2, abs_of_nonneg (F.toFloatFmt.round_nonneg (by norm_num))]
    exact (r.2.trans_lt (show (65 : ℚ) / 64 * 2 ^ 52 < 2 ^ 64 by norm_num)).trans_le b)
  rw [e2] at p
  have l1 : (2 : ℚ) ^ 51 ≤ value ((2 : Ieee F) ^ 52) := by
    rw [p.2]
    exact le_trans (by norm_num) r.1
  have l2 : value ((2 : Ieee F) ^ 52) ≤ 2 ^ 53 := by
    rw [p.2]
    exact r.2.trans (by norm_num)
  have l0 : 0 < value ((2 : Ieee F) ^ 52) := lt_of_lt_of_le (by norm_num) l1
  have q1 : 1 / 2 ^ 53 ≤ 1 / value ((2 : Ieee F) ^ 52) := one_div_le_one_div_of_le l0 l2
  have q2 : 1 / value ((2 : Ieee F) ^ 52) ≤ 1 / 2 := one_div_le_one_div_of_le (by norm_num) (le_trans (by norm_num) l1)
  have rr := round_rel hr hu (x := 1 / value ((2 : Ieee F) ^ 52)) (hτ.trans q1)
  have d := Ieee.div_ordinary (F := F) (by omega) one.ord p.1 l0.ne' (by
    rw [e1, abs_of_nonneg (F.toFloatFmt.round_nonneg (by positivity))]
    have : (1 : ℚ) < 2 ^ 64 := by norm_num
    linarith [rr.2])
  rw [e1] at d
  refine ⟨d.1, ?_, ?_⟩
  · rw [d.2]
    have : (1 : ℚ) / 2 ^ 54 ≤ 63 / 64 * (1 / 2 ^ 53) := by norm_num
    linarith [rr.1]
  · rw [d.2]
    linarith [rr.2]

variable [Pow (Ieee F) (Ieee F)] (hP : PowFn (F := F) (· ^ ·)) {tol mn mx : Ieee F} {Em : ℚ} (hE : 1 ≤ Em)
  (ot : Ordinary tol) (ht0 : 0 < value tol) (ht1 : τ * Em ≤ value tol) (ht2 : 2 * Em < 2 ^ F.emax * value tol)
  (ht3 : 2 ^ 55 * value tol < 2 ^ F.emax) (ht4 : 2 ^ 54 * τ * value tol ≤ 1)
  (on : Ordinary mn) (ox : Ordinary mx) (hn0 : 2 * τ ≤ value mn) (hn1 : 0 < value mn) (hnx : value mn ≤ value mx) (hx1 : value mx ≤ 1)
include hP hE ot ht0 ht1 ht2 ht3 ht4 on ox hn0 hn1 hnx hx1

omit hP on ox hn0 hn1 hnx hx1 hm hτ hu he in
/-- Quotients of tolerance and errors. -/
theorem ratio_ok {f : Ieee F} (hf : Rg f (1 / 2 ^ 54) Em) :
    (Ordinary (tol / f) ∧ 0 < value (tol / f)) ∧ Ordinary (f / tol) ∧ 0 < value (f / tol) := by
  have f0 : 0 < value f := lt_of_lt_of_le (by norm_num) hf.lo
  have t0 := hr.tiny.1
  constructor
  · have x1 : value tol / value f ≤ 2 ^ 54 * value tol := by
      rw [div_le_iff₀ f0]
      have := mul_le_mul_of_nonneg_left hf.lo (show 0 ≤ 2 ^ 54 * value tol by positivity)
      norm_num at this ⊢
      linarith
    have x0 : 0 < value tol / value f := by positivity
    have x2 : τ ≤ value tol / value f := by
      rw [le_div_iff₀ f0]
      exact (mul_le_mul_of_nonneg_left hf.hi t0).trans ht1
    have d := Ieee.div_ordinary (F := F) (by omega) ot hf.ord f0.ne' (by
      have := F.toFloatFmt.round_double (value tol / value f)
      rw [abs_of_pos x0] at this
      linarith)
    refine ⟨d.1, ?_⟩
    rw [d.2]
    exact lt_of_lt_of_le (by positivity) (half_le_round hr x0.le x2)
  · have x0 : 0 < value f / value tol := by positivity
    have x2 : τ ≤ value f / value tol := by
      rw [le_div_iff₀ ht0]
      refine le_trans ?_ hf.lo
      rw [le_div_iff₀ (by norm_num)]
      linarith
    have x1 : 2 * (value f / value tol) < 2 ^ F.emax := by
      rw [← mul_div_assoc, div_lt_iff₀ ht0]
      linarith [hf.hi]
    have d := Ieee.div_ordinary (F := F) (by omega) hf.ord ot ht0.ne' (by
      have := F.toFloatFmt.round_double (value f / value tol)
      rw [abs_of_pos x0] at this
      linarith)
    refine ⟨d.1, ?_⟩
    rw [d.2]
    exact lt_of_lt_of_le (by positivity) (half_le_round hr x0.le x2)

/-- One proposal after the third step. -/
theorem proposal_ok {d e : Nat → Ieee F} {k : Nat} (hk : 3 ≤ k) (hs : Rg (d (k - 1)) (value mn) (value mx)) (hc : Rg (d k) (value mn) (value mx))
    (hq : value (d k) ≤ 6 / 5 * value (d (k - 1))) (hee : ∀ i, i ≤ k → Rg (e i) 0 Em) :
    Rg (proposalAny tol mn mx d e k) (value mn) (value mx) ∧ value (proposalAny tol mn mx d e k) ≤ 6 / 5 * value (d k) := by
  have hm8 : 8 ≤ F.emax := by omega
  have t0 := hr.tiny.1
  have s0 : 0 < value (d (k - 1)) := hn1.trans_le hs.lo
  have c0 : 0 < value (d k) := hn1.trans_le hc.lo
  have b := emax_huge hp he hm hr
  have b2 : (200 : ℚ) < 2 ^ F.emax := lt_of_lt_of_le (by norm_num) b
  have ep := Rg.eps hp he hm hr hu hτ
  obtain ⟨f, hf⟩ : ∃ f : Nat → Ieee F, f = fun i => if e i < 1 / 2 ^ 52 then 1 / 2 ^ 52 else e i := ⟨_, rfl⟩
  have fr : ∀ i, i ≤ k → Rg (f i) (1 / 2 ^ 54) Em := fun i hi => by
    obtain ⟨o, v⟩ := Rg.hi' (hee i hi).ord ep.ord
    rw [hf]
    exact ⟨o, by dsimp only; rw [v]; exact ep.lo.trans (le_max_right _ _), by dsimp only; rw [v]; exact max_le (hee i hi).hi (ep.hi.trans hE)⟩
  have om : Rg (d k / d (k - 1)) 0 (5 / 4) := by
    refine (Rg.of hp he hm8 hr hu (x := value (d k) / value (d (k - 1))) (h := 6 / 5) (by positivity) ?_ (by norm_num) (by norm_num)
      (Ieee.div_ordinary (by omega) hc.ord hs.ord s0.ne')).mono le_rfl (by norm_num)
    rw [div_le_iff₀ s0]
    exact hq
  obtain ⟨al, be, ga⟩ := exponents hp he hm8 hr hu om
  have one := Rg.one (F := F) hp he hm8
  have raw : Numeric (pidStepAny tol (d (k - 1)) (d k) (f (k - 2)) (f (k - 1)) (f k)) := by
    have r2 := (ratio_ok hp hr hE ot ht0 ht1 ht2 ht3 ht4 (fr k le_rfl)).1
    have r1 := (ratio_ok hp hr hE ot ht0 ht1 ht2 ht3 ht4 (fr (k - 1) (by omega))).2
    have r0 := (ratio_ok hp hr hE ot ht0 ht1 ht2 ht3 ht4 (fr (k - 2) (by omega))).1
    have p2 := hP _ _ r2.1 r2.2 al.ord al.lo al.hi
    have p1 := hP _ _ r1.1 r1.2 be.ord be.lo be.hi
    have p0 := hP _ _ r0.1 r0.2 ga.ord ga.lo ga.hi
    have st : Numeric (1 * d k) := Numeric.mul (by omega) (.inl one.ord) hc.ord c0.ne'
    exact ((st.mul (by omega) p2.1 p2.2.ne').mul (by omega) p1.1 p1.2.ne').mul (by omega) p0.1 p0.2.ne'
  have rd : ∀ {q : Ieee F} {l h : ℚ}, Rg q l h → 0 ≤ l → h ≤ 2 →
      Ordinary (d k * q) ∧ value (d k * q) = F.toFloatFmt.round (value (d k) * value q) := fun {q l h} hq hl hh => by
    refine Ieee.mul_ordinary (by omega) hc.ord hq.ord ?_
    have := F.toFloatFmt.round_double (value (d k) * value q)
    rw [abs_of_nonneg (mul_nonneg c0.le (hl.trans hq.lo))] at this
    have := mul_le_mul (hc.hi.trans hx1) (hq.hi.trans hh) (hl.trans hq.lo) zero_le_one
    linarith
  have l11 : Rg (1.1 : Ieee F) 1 (9 / 8) := by
    have a := Rg.dec hp he hm8 hr hu 11 true 1 (q := 11 / 10) (by norm_num) (by norm_num) (by norm_num) (by norm_num)
    refine ⟨a.ord, ?_, a.hi.trans (by norm_num)⟩
    have v : value (1.1 : Ieee F) = F.toFloatFmt.round (OfScientific.ofScientific 11 true 1 : ℚ) :=
      (Ieee.ofRat_ordinary (F := F) (by omega) false (by
        have := F.toFloatFmt.round_double (OfScientific.ofScientific 11 true 1 : ℚ)
        refine this.trans_lt (lt_of_lt_of_le ?_ b)
        norm_num)).2
    rw [v]
    have := round_down hr hu (show (11 : ℚ) / 10 ≤ (OfScientific.ofScientific 11 true 1 : ℚ) by norm_num) (by norm_num)
    linarith
  have l001 : Rg (0.01 : Ieee F) 0 (1 / 16) :=
    (Rg.dec hp he hm8 hr hu 1 true 2 (q := 1 / 20) (by norm_num) (by norm_num) (by norm_num) (by norm_num)).mono le_rfl (by norm_num)
  obtain ⟨x1, x2⟩ := rd l11 (by norm_num) (by norm_num)
  obtain ⟨y1, y2⟩ := rd l001 (by norm_num) (by norm_num)
  have yx : value (d k * 0.01) ≤ value (d k * 1.1) := by
    rw [x2, y2]
    exact F.toFloatFmt.round_mono (by omega) (mul_le_mul_of_nonneg_left (by linarith [l001.hi, l11.lo]) c0.le)
  have xx : value (d k * 1.1) ≤ 6 / 5 * value (d k) := by
    rw [x2]
    have h1 : value (d k) ≤ value (d k) * value (1.1 : Ieee F) := le_mul_of_one_le_right c0.le l11.lo
    have h2 := (round_rel hr hu (x := value (d k) * value (1.1 : Ieee F)) (by linarith [hc.lo])).2
    have h3 := mul_le_mul_of_nonneg_left l11.hi c0.le
    linarith
  obtain ⟨A, hA⟩ : ∃ A, A = if d k * 1.1 < pidStepAny tol (d (k - 1)) (d k) (f (k - 2)) (f (k - 1)) (f k) then d k * 1.1
    else pidStepAny tol (d (k - 1)) (d k) (f (k - 2)) (f (k - 1)) (f k) := ⟨_, rfl⟩
  obtain ⟨B, hB⟩ : ∃ B, B = if A < d k * 0.01 then d k * 0.01 else A := ⟨_, rfl⟩
  obtain ⟨b1, b2, b3⟩ := Numeric.clamp raw x1 y1 yx A hA B hB
  obtain ⟨A', hA'⟩ : ∃ A, A = if mx < B then mx else B := ⟨_, rfl⟩
  obtain ⟨B', hB'⟩ : ∃ B, B = if A' < mn then mn else A' := ⟨_, rfl⟩
  obtain ⟨q1, q2, q3⟩ := Numeric.clamp (.inl b1) ox on hnx A' hA' B' hB'
  have ev : proposalAny tol mn mx d e k = B' := by
    unfold proposalAny
    rw [if_neg (by omega), hB', hA', hB, hA, hf]
  have hup : value B' ≤ max (value B) (value mn) := by
    have a1 : Ordinary A' ∧ value A' ≤ value B := by
      rw [hA']
      split
      · next h => exact ⟨ox, ((Ieee.lt_ordinary ox b1).1 h).le⟩
      · exact ⟨b1, le_rfl⟩
    rw [hB', (Rg.hi' a1.1 on).2]
    exact max_le_max a1.2 le_rfl
  rw [ev]
  refine ⟨⟨q1, q2, q3⟩, hup.trans (max_le (b3.trans xx) ?_)⟩
  linarith [hc.lo]

/-- All proposals of a run whose steps follow them. -/
theorem proposals_ok {d e : Nat → Ieee F} (k : Nat) (h0 : Rg (d 0) (value mn) (value mx))
    (hs : ∀ i, i < k → d (i + 1) = proposalAny tol mn mx d e i) (hee : ∀ i, i ≤ k → Rg (e i) 0 Em) :
    Rg (proposalAny tol mn mx d e k) (value mn) (value mx) := by
  have all : ∀ i, i ≤ k → Rg (d i) (value mn) (value mx) ∧ value (d i) ≤ 6 / 5 * value (d (i - 1)) := by
    intro i
    induction i using Nat.strong_induction_on with
    | _ n ih =>
    cases n with
    | zero =>
      intro _
      refine ⟨h0, ?_⟩
      have := h0.lo
      show value (d 0) ≤ 6 / 5 * value (d 0)
      linarith
    | succ i =>
      intro hi
      obtain ⟨g1, g2⟩ := ih i (by omega) (by omega)
      rw [hs i (by omega), Nat.add_sub_cancel]
      by_cases h3 : 3 ≤ i
      · exact proposal_ok hp he hm hr hu hτ hP hE ot ht0 ht1 ht2 ht3 ht4 on ox hn0 hn1 hnx hx1 h3
          (ih (i - 1) (by omega) (by omega)).1 g1 g2 (fun j hj => hee j (by omega))
      · have : proposalAny tol mn mx d e i = d i := by unfold proposalAny; exact if_pos (by omega)
        rw [this]
        refine ⟨g1, ?_⟩
        have := g1.lo
        linarith
  by_cases h3 : 3 ≤ k
  · exact (proposal_ok hp he hm hr hu hτ hP hE ot ht0 ht1 ht2 ht3 ht4 on ox hn0 hn1 hnx hx1 h3 (all (k - 1) (by omega)).1 (all k le_rfl).1
      (all k le_rfl).2 hee).1
  · have : proposalAny tol mn mx d e k = d k := by unfold proposalAny; exact if_pos (by omega)
    rw [this]
    exact (all k le_rfl).1

end

end Madg
