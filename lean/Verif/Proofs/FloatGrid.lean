/-
Rounding to a binary format: representable numbers are kept, the order is kept, close numbers subtract exactly.
-/
import Verif.Proofs.Text

namespace Madg
open Spec

theorem roundEven_int (n : Int) : roundEven (n : ℚ) = n := roundEven_eq (by simp)

theorem roundEven_mono {x y : ℚ} (h : x ≤ y) : roundEven x ≤ roundEven y := by
  have hfx := Int.floor_le x
  have hfx' := Int.lt_floor_add_one x
  rcases lt_or_eq_of_le (Int.floor_mono h) with hf | hf
  · have h1 : roundEven x ≤ ⌊x⌋ + 1 := roundEven_le_int (by push_cast; exact hfx'.le)
    have h2 : ⌊y⌋ ≤ roundEven y := roundEven_mono_int (Int.floor_le y)
    omega
  · unfold roundEven
    rw [← hf]
    split_ifs <;> first | omega | (exfalso; linarith)

namespace FloatFmt
variable (F : FloatFmt)

/-- A multiple of the unit in the last place is kept. -/
theorem round_of_dvd {x : ℚ} (k : Int) (h : x = k * (2 : ℚ) ^ F.ulpExp x) : F.round x = x := by
  by_cases hx : x = 0
  · subst hx; simp [round]
  · have h2 : (0 : ℚ) < (2 : ℚ) ^ F.ulpExp x := zpow_pos (by norm_num) _
    have e : x / (2 : ℚ) ^ F.ulpExp x = k := by rw [div_eq_iff h2.ne']; exact h
    unfold round
    rw [if_neg hx, e, roundEven_int]
    exact h.symm

theorem zpow_split {a b : Int} (h : a ≤ b) : (2 : ℚ) ^ b = ((2 ^ (b - a).toNat : Int) : ℚ) * (2 : ℚ) ^ a := by
  push_cast
  rw [← zpow_natCast, ← zpow_add₀ (by norm_num)]
  congr 1
  omega

/-- Numbers of the format are kept. -/
theorem round_float {x : ℚ} (h : IsFloat F x) : F.round x = x := by
  obtain ⟨m, e, hm, he, rfl⟩ := h
  by_cases h0 : (m : ℚ) * (2 : ℚ) ^ e = 0
  · rw [h0]; simp [round]
  · have hp : (0 : ℚ) < (2 : ℚ) ^ e := zpow_pos (by norm_num) _
    have hle : F.ulpExp ((m : ℚ) * (2 : ℚ) ^ e) ≤ e := by
      refine max_le ?_ he
      have hl := Int.zpow_log_le_self (b := 2) (by decide) (abs_pos.2 h0)
      push_cast at hl
      have hm' : |(m : ℚ)| < (2 : ℚ) ^ F.prec := by exact_mod_cast hm
      have h3 : (2 : ℚ) ^ Int.log 2 |(m : ℚ) * (2 : ℚ) ^ e| < (2 : ℚ) ^ ((F.prec : Int) + e) := by
        refine hl.trans_lt ?_
        rw [abs_mul, abs_of_pos hp, zpow_add₀ (by norm_num), zpow_natCast]
        exact mul_lt_mul_of_pos_right hm' hp
      have := (zpow_lt_zpow_iff_right₀ (by norm_num : (1 : ℚ) < 2)).1 h3
      omega
    refine F.round_of_dvd (m * 2 ^ (e - F.ulpExp ((m : ℚ) * (2 : ℚ) ^ e)).toNat) ?_
    rw [Int.cast_mul, mul_assoc, ← zpow_split hle]

theorem round_zero : F.round 0 = 0 := by simp [round]

theorem round_mono_pos (hp : 1 ≤ F.prec) {x y : ℚ} (hx : 0 < x) (h : x ≤ y) : F.round x ≤ F.round y := by
  have hy := hx.trans_le h
  have hux : (0 : ℚ) < (2 : ℚ) ^ F.ulpExp x := zpow_pos (by norm_num) _
  have huy : (0 : ℚ) < (2 : ℚ) ^ F.ulpExp y := zpow_pos (by norm_num) _
  have hlog : Int.log 2 x ≤ Int.log 2 y := Int.log_mono_right hx h
  have hle : F.ulpExp x ≤ F.ulpExp y := by
    unfold ulpExp
    rw [abs_of_pos hx, abs_of_pos hy]
    exact max_le_max (by omega) le_rfl
  rcases lt_or_eq_of_le hle with hlt | heq
  · -- a power of two separates them
    have ey : F.ulpExp y = Int.log 2 y + 1 - F.prec := by
      unfold ulpExp at hlt ⊢
      rw [abs_of_pos hx, abs_of_pos hy] at hlt
      rw [abs_of_pos hy]
      omega
    have ex : Int.log 2 x < Int.log 2 y := by
      unfold ulpExp at hlt
      rw [abs_of_pos hx, abs_of_pos hy] at hlt
      omega
    have x1 : x ≤ (2 : ℚ) ^ Int.log 2 y := by
      have := Int.lt_zpow_succ_log_self (b := 2) (by decide) x
      push_cast at this
      exact this.le.trans (zpow_le_zpow_right₀ (by norm_num) (by omega))
    have y1 : (2 : ℚ) ^ Int.log 2 y ≤ y := by
      have := Int.zpow_log_le_self (b := 2) (by decide) hy
      exact_mod_cast this
    have sx : F.ulpExp x ≤ Int.log 2 y := by omega
    have sy : F.ulpExp y ≤ Int.log 2 y := by omega
    have r1 : F.round x ≤ (2 : ℚ) ^ Int.log 2 y := by
      unfold round
      rw [if_neg hx.ne', zpow_split sx]
      refine mul_le_mul_of_nonneg_right ?_ hux.le
      refine Int.cast_le.2 (roundEven_le_int ?_)
      rw [div_le_iff₀ hux, ← zpow_split sx]
      exact x1
    have r2 : (2 : ℚ) ^ Int.log 2 y ≤ F.round y := by
      unfold round
      rw [if_neg hy.ne', zpow_split sy]
      refine mul_le_mul_of_nonneg_right ?_ huy.le
      refine Int.cast_le.2 (roundEven_mono_int ?_)
      rw [le_div_iff₀ huy, ← zpow_split sy]
      exact y1
    exact r1.trans r2
  · unfold round
    rw [if_neg hx.ne', if_neg hy.ne', ← heq]
    refine mul_le_mul_of_nonneg_right (Int.cast_le.2 (roundEven_mono ?_)) hux.le
    gcongr

theorem round_nonneg {x : ℚ} (hx : 0 ≤ x) : 0 ≤ F.round x := by
  unfold round
  split
  · exact le_rfl
  · have hu : (0 : ℚ) < (2 : ℚ) ^ F.ulpExp x := zpow_pos (by norm_num) _
    refine mul_nonneg ?_ hu.le
    have : (0 : Int) ≤ roundEven (x / (2 : ℚ) ^ F.ulpExp x) := roundEven_mono_int (by push_cast; positivity)
    exact_mod_cast this

/-- Rounding keeps the order. -/
theorem round_mono (hp : 1 ≤ F.prec) : Monotone F.round := by
  intro x y h
  rcases lt_trichotomy x 0 with hx | hx | hx
  · rcases le_total y 0 with hy | hy
    · rcases lt_or_eq_of_le hy with hy | hy
      · have := F.round_mono_pos hp (neg_pos.2 hy) (neg_le_neg h)
        rw [F.round_neg, F.round_neg] at this
        linarith
      · have := F.round_nonneg (neg_nonneg.2 hx.le)
        rw [F.round_neg] at this
        rw [hy, F.round_zero]
        linarith
    · have := F.round_nonneg (neg_nonneg.2 hx.le)
      rw [F.round_neg] at this
      have := F.round_nonneg hy
      linarith
  · subst hx
    rw [F.round_zero]
    exact F.round_nonneg h
  · exact F.round_mono_pos hp hx h

end FloatFmt

theorem IsFloat_aux {F : FloatFmt} {m n e1 e2 : Int} (hm : |m| < 2 ^ F.prec) (he : F.emin ≤ e1) (h : e1 ≤ e2)
    (hd : |(n : ℚ) * (2 : ℚ) ^ e2 - m * (2 : ℚ) ^ e1| ≤ |(m : ℚ) * (2 : ℚ) ^ e1|) :
    IsFloat F ((n : ℚ) * (2 : ℚ) ^ e2 - m * (2 : ℚ) ^ e1) := by
  have hp : (0 : ℚ) < (2 : ℚ) ^ e1 := zpow_pos (by norm_num) _
  have e : (n : ℚ) * (2 : ℚ) ^ e2 - m * (2 : ℚ) ^ e1 = ((n * 2 ^ (e2 - e1).toNat - m : Int) : ℚ) * (2 : ℚ) ^ e1 := by
    rw [FloatFmt.zpow_split h]; push_cast; ring
  rw [e] at hd ⊢
  refine ⟨_, e1, ?_, he, rfl⟩
  rw [abs_mul, abs_mul] at hd
  have := le_of_mul_le_mul_right hd (abs_pos.2 hp.ne')
  have h2 : |(n * 2 ^ (e2 - e1).toNat - m : Int)| ≤ |m| := by exact_mod_cast this
  exact h2.trans_lt hm

/-- The difference of two numbers of the format within a factor of two of each other is a number of the format. -/
theorem IsFloat.sub_of_close {F : FloatFmt} {x y : ℚ} (hx : IsFloat F x) (hy : IsFloat F y) (h1 : y ≤ x) (h2 : x ≤ 2 * y) :
    IsFloat F (x - y) := by
  have y0 : 0 ≤ y := by linarith
  obtain ⟨m, e, hm, he, rfl⟩ := hx
  obtain ⟨n, f, hn, hf, rfl⟩ := hy
  rcases le_total f e with h | h
  · refine IsFloat_aux hn hf h ?_
    rw [abs_of_nonneg (by linarith), abs_of_nonneg y0]
    linarith
  · have := IsFloat_aux (F := F) (n := n) hm he h (by
      rw [abs_sub_comm, abs_of_nonneg (by linarith), abs_of_nonneg (by linarith)]; linarith)
    have := IsFloat_neg this
    rwa [neg_sub] at this

/-- Doubling stays in the format. -/
theorem IsFloat.double {F : FloatFmt} {x : ℚ} (hx : IsFloat F x) : IsFloat F (2 * x) := by
  obtain ⟨m, e, hm, he, rfl⟩ := hx
  refine ⟨m, e + 1, hm, by omega, ?_⟩
  rw [zpow_add_one₀ (by norm_num)]
  ring

end Madg
