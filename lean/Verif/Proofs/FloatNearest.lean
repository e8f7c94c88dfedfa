/-
Rounding to a binary format takes a nearest number of the format; dividing, multiplying back and dividing again by a whole number.
-/
import Verif.Proofs.FloatGrid
import Verif.Props.ReadFile

namespace Madg
open Spec

/-- Points no farther from a rounding result than the number that was rounded have the same result. -/
theorem roundEven_close {r s : ℚ} {M : Int} (hM : roundEven r = M) (h : |s - M| ≤ |r - M|) : roundEven s = M := by
  have hr := roundEven_err r
  rw [hM] at hr
  by_cases h1 : |s - M| < 1 / 2
  · exact roundEven_eq h1
  have hs : |s - M| = 1 / 2 := le_antisymm (h.trans hr) (not_lt.1 h1)
  have hr2 : |r - M| = 1 / 2 := le_antisymm hr (hs ▸ h)
  have even : ∀ {z : ℚ} {k : Int}, z = k + 1 / 2 → roundEven z = if k % 2 = 0 then k else k + 1 := by
    intro z k hz
    have hf : ⌊z⌋ = k := by rw [Int.floor_eq_iff, hz]; constructor <;> linarith
    unfold roundEven
    rw [hf, if_neg (by linarith), if_neg (by linarith)]
  have cases : ∀ {z : ℚ}, |z - M| = 1 / 2 → z = (M : ℚ) + 1 / 2 ∨ z = ((M - 1 : Int) : ℚ) + 1 / 2 := by
    intro z hz
    push_cast
    rcases (abs_eq (by norm_num)).1 hz with h | h
    · left; linarith
    · right; linarith
  have hev : M % 2 = 0 := by
    rcases cases hr2 with h | h
    · have := even h
      rw [hM] at this
      split at this <;> omega
    · have := even h
      rw [hM] at this
      split at this <;> omega
  rcases cases hs with h | h
  · rw [even h, if_pos hev]
  · rw [even h, if_neg (by omega)]; omega

/-- The rounded integer is a nearest one. -/
theorem roundEven_nearest (x : ℚ) (k : Int) : |(roundEven x : ℚ) - x| ≤ |(k : ℚ) - x| := by
  have h := roundEven_err x
  rw [abs_sub_comm] at h
  by_cases hk : |(k : ℚ) - x| < 1 / 2
  · rw [roundEven_eq (n := k) (by rwa [abs_sub_comm])]
  · linarith

namespace FloatFmt
variable (F : FloatFmt)

theorem le_log_of_ulpExp {a : ℚ} (h : F.emin < F.ulpExp a) : F.ulpExp a = Int.log 2 |a| + 1 - F.prec := by
  unfold ulpExp at h ⊢
  omega

/-- Rounding a positive number takes a nearest number of the format. -/
theorem round_nearest {a b : ℚ} (ha : 0 < a) (hb : IsFloat F b) : |F.round a - a| ≤ |b - a| := by
  have hu : (0 : ℚ) < (2 : ℚ) ^ F.ulpExp a := zpow_pos (by norm_num) _
  have grid : ∀ k : Int, |F.round a - a| ≤ |(k : ℚ) * (2 : ℚ) ^ F.ulpExp a - a| := by
    intro k
    have e : ∀ z : ℚ, |z * (2 : ℚ) ^ F.ulpExp a - a| = |z - a / (2 : ℚ) ^ F.ulpExp a| * (2 : ℚ) ^ F.ulpExp a := by
      intro z
      rw [← abs_of_pos hu, ← abs_mul, abs_of_pos hu, sub_mul, div_mul_cancel₀ _ hu.ne']
    unfold round
    rw [if_neg ha.ne', e, e]
    exact mul_le_mul_of_nonneg_right (roundEven_nearest _ _) hu.le
  obtain ⟨m, e, hm, he, rfl⟩ := hb
  by_cases hle : F.ulpExp a ≤ e
  · have := grid (m * 2 ^ (e - F.ulpExp a).toNat)
    rwa [Int.cast_mul, mul_assoc, ← zpow_split hle] at this
  · have hlog := F.le_log_of_ulpExp (a := a) (by omega)
    rw [abs_of_pos ha] at hlog
    have hl := Int.zpow_log_le_self (b := 2) (by decide) ha
    push_cast at hl
    have hm' : (m : ℚ) < (2 : ℚ) ^ F.prec := by exact_mod_cast (abs_lt.1 hm).2
    have hb : (m : ℚ) * (2 : ℚ) ^ e ≤ (2 : ℚ) ^ Int.log 2 a := by
      have h1 : (m : ℚ) * (2 : ℚ) ^ e ≤ (2 : ℚ) ^ F.prec * (2 : ℚ) ^ e :=
        mul_le_mul_of_nonneg_right hm'.le (zpow_pos (by norm_num) _).le
      refine h1.trans ?_
      rw [← zpow_natCast, ← zpow_add₀ (by norm_num)]
      exact zpow_le_zpow_right₀ (by norm_num) (by omega)
    by_cases hp0 : F.prec = 0
    · rw [hp0] at hm
      have h0 : m = 0 := by have := abs_lt.1 hm; simp at this; omega
      have := grid 0
      rw [h0]
      simpa using this
    have := grid (2 ^ (Int.log 2 a - F.ulpExp a).toNat)
    rw [← zpow_split (by omega), abs_of_nonpos (a := (2 : ℚ) ^ Int.log 2 a - a) (by linarith)] at this
    rw [abs_of_nonpos (a := (m : ℚ) * (2 : ℚ) ^ e - a) (by linarith)]
    linarith

/-- Exponents of numbers between two neighbouring powers of two. -/
theorem ulpExp_eq {z : ℚ} {e : Int} (he : F.emin ≤ e) (hz : 0 < z) (h1 : z < (2 : ℚ) ^ F.prec * (2 : ℚ) ^ e)
    (h2 : e = F.emin ∨ (2 : ℚ) ^ ((F.prec : Int) - 1 + e) ≤ z) : F.ulpExp z = e := by
  have hup : Int.log 2 z < (F.prec : Int) + e := by
    have hl := Int.zpow_log_le_self (b := 2) (by decide) hz
    push_cast at hl
    rw [← zpow_natCast, ← zpow_add₀ (by norm_num)] at h1
    exact (zpow_lt_zpow_iff_right₀ (by norm_num : (1 : ℚ) < 2)).1 (hl.trans_lt h1)
  unfold ulpExp
  rw [abs_of_pos hz]
  rcases h2 with h | h
  · omega
  · have : (F.prec : Int) - 1 + e ≤ Int.log 2 z := (Int.zpow_le_iff_le_log (by decide) hz).1 (by push_cast; exact h)
    omega

/-- Dividing a number of the format by a whole number, multiplying back and dividing again gives the first quotient. -/
theorem div_mul_div (hp : 1 ≤ F.prec) {b : ℚ} (hb : IsFloat F b) (hb0 : 0 ≤ b) {n : Nat} (hn : 1 ≤ n) (hn2 : n < 2 ^ F.prec) :
    F.round (F.round (F.round (b / n) * n) / n) = F.round (b / n) := by
  rcases hb0.eq_or_lt with h0 | hb0
  · rw [← h0]; simp [round]
  have hnq : (0 : ℚ) < n := by exact_mod_cast hn
  have hq : 0 < b / n := div_pos hb0 hnq
  obtain ⟨e, he⟩ : ∃ e, e = F.ulpExp (b / n) := ⟨_, rfl⟩
  have hu : (0 : ℚ) < (2 : ℚ) ^ e := zpow_pos (by norm_num) _
  have hem : F.emin ≤ e := he ▸ le_max_right _ _
  obtain ⟨M, hM⟩ : ∃ M, M = roundEven (b / n / (2 : ℚ) ^ e) := ⟨_, rfl⟩
  have hx : F.round (b / n) = M * (2 : ℚ) ^ e := by
    unfold round
    rw [if_neg hq.ne', ← he, hM]
  -- a power of two: the product is exact
  have exact1 : IsFloat F ((M : ℚ) * (2 : ℚ) ^ e * n) → F.round (F.round (F.round (b / n) * n) / n) = F.round (b / n) := by
    intro h
    rw [hx, F.round_float h, mul_div_cancel_right₀ _ hnq.ne', ← hx, F.round_float (F.round_isFloat hp _)]
  have M0 : 0 ≤ M := hM ▸ roundEven_mono_int (by push_cast; positivity)
  have hfl : Int.log 2 (b / n) < (F.prec : Int) + e := by
    rw [he]; unfold ulpExp
    rw [abs_of_pos hq]
    have := le_max_left (Int.log 2 (b / n) + 1 - (F.prec : Int)) F.emin
    omega
  have hlt : b / n < (2 : ℚ) ^ F.prec * (2 : ℚ) ^ e := by
    have h1 := Int.lt_zpow_succ_log_self (b := 2) (by decide) (b / n)
    push_cast at h1
    refine h1.trans_le ?_
    rw [← zpow_natCast, ← zpow_add₀ (by norm_num)]
    exact zpow_le_zpow_right₀ (by norm_num) (by omega)
  have Mle : M ≤ 2 ^ F.prec := hM ▸ roundEven_le_int (by push_cast; rw [div_le_iff₀ hu]; exact hlt.le)
  rcases M0.eq_or_lt with h0 | M0
  · exact exact1 ⟨0, e, by simp, hem, by rw [← h0]; simp⟩
  have pow2 : ∀ k : Nat, M = 2 ^ k → F.round (F.round (F.round (b / n) * n) / n) = F.round (b / n) := by
    intro k hk
    refine exact1 ⟨n, e + k, by rw [abs_of_nonneg (by positivity)]; exact_mod_cast hn2, by omega, ?_⟩
    rw [hk, zpow_add₀ (by norm_num), zpow_natCast]
    push_cast
    ring
  rcases Mle.eq_or_lt with h0 | Mlt
  · exact pow2 _ h0
  by_cases hlow : e = F.emin ∨ 2 ^ (F.prec - 1) < M
  swap
  · -- the smallest mantissa of a binade is a power of two
    push Not at hlow
    obtain ⟨hne, hle⟩ := hlow
    refine pow2 (F.prec - 1) (le_antisymm hle ?_)
    have hlog := F.le_log_of_ulpExp (a := b / n) (by omega)
    rw [abs_of_pos hq, ← he] at hlog
    rw [hM]
    refine roundEven_mono_int ?_
    rw [le_div_iff₀ hu]
    push_cast
    rw [← zpow_natCast, ← zpow_add₀ (by norm_num)]
    have hl := Int.zpow_log_le_self (b := 2) (by decide) hq
    push_cast at hl
    refine le_trans (zpow_le_zpow_right₀ (by norm_num) ?_) hl
    omega
  -- the general case
  have hxpos : (0 : ℚ) < (M : ℚ) * (2 : ℚ) ^ e := mul_pos (by exact_mod_cast M0) hu
  obtain ⟨z, hz⟩ : ∃ z, z = F.round ((M : ℚ) * (2 : ℚ) ^ e * n) / n := ⟨_, rfl⟩
  have hclose : |z - M * (2 : ℚ) ^ e| ≤ |b / n - M * (2 : ℚ) ^ e| := by
    have h1 := F.round_nearest (mul_pos hxpos hnq) hb
    have e1 : ∀ y : ℚ, |y / n - M * (2 : ℚ) ^ e| = |y - M * (2 : ℚ) ^ e * n| / n := by
      intro y
      rw [← abs_of_pos hnq, ← abs_div, abs_of_pos hnq, sub_div, mul_div_cancel_right₀ _ hnq.ne']
    rw [hz, e1, e1]
    exact div_le_div_of_nonneg_right h1 hnq.le
  have scale : ∀ y : ℚ, |y / (2 : ℚ) ^ e - M| = |y - M * (2 : ℚ) ^ e| / (2 : ℚ) ^ e := by
    intro y
    rw [← abs_of_pos hu, ← abs_div, abs_of_pos hu, sub_div, mul_div_cancel_right₀ _ hu.ne']
  have hclose2 : |z / (2 : ℚ) ^ e - M| ≤ |b / n / (2 : ℚ) ^ e - M| := by
    rw [scale, scale]
    exact div_le_div_of_nonneg_right hclose hu.le
  have hhalf : |b / n / (2 : ℚ) ^ e - M| ≤ 1 / 2 := hM ▸ roundEven_err _
  obtain ⟨z1, z2⟩ := abs_le.1 (hclose2.trans hhalf)
  have hM1 : (1 : ℚ) ≤ M := by exact_mod_cast M0
  have hM2 : (M : ℚ) + 1 ≤ 2 ^ F.prec := by exact_mod_cast Mlt
  have zpos : 0 < z := by
    have : 0 < z / (2 : ℚ) ^ e := by linarith
    exact (div_pos_iff_of_pos_right hu).1 this
  have zu : F.ulpExp z = e := by
    refine F.ulpExp_eq hem zpos ?_ ?_
    · rw [← div_lt_iff₀ hu]; linarith
    · rcases hlow with h | h
      · exact Or.inl h
      · refine Or.inr ?_
        have h3 : ((2 : ℚ) ^ (F.prec - 1)) + 1 ≤ M := by exact_mod_cast h
        have h4 : (2 : ℚ) ^ ((F.prec : Int) - 1 + e) = (2 : ℚ) ^ (F.prec - 1) * (2 : ℚ) ^ e := by
          rw [← zpow_natCast, ← zpow_add₀ (by norm_num)]
          congr 1
          omega
        rw [h4, ← le_div_iff₀ hu]
        linarith
  rw [hx, ← hz]
  conv_lhs => unfold round
  rw [if_neg zpos.ne', zu, roundEven_close hM.symm hclose2]

end FloatFmt

end Madg
