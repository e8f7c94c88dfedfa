/-
C115: the random initial field in floating-point arithmetic with overflow, infinities and NaN.
-/
import Verif.Proofs.IeeeKahan
import Verif.Props.InitRound
import Verif.Props.IeeeEnergyOde

set_option linter.unusedSectionVars false

namespace Madg
open Spec

/-- The average of numbers of size at most `δ`. -/
theorem mean_draw_le {N : Nat} (hN : 1 ≤ N) {x : Nat → ℚ} {δ : ℚ} (h : ∀ i, i < N → |x i| ≤ δ) : |((List.range N).map x).sum / (N : ℚ)| ≤ δ := by
  have key : ∀ k, k ≤ N → |((List.range k).map x).sum| ≤ k * δ := by
    intro k
    induction k with
    | zero => intro _; simp
    | succ k ih =>
      intro hk
      rw [List.range_succ, List.map_append, List.sum_append, List.map_singleton, List.sum_singleton]
      have := abs_add_le ((List.range k).map x).sum (x k)
      have := ih (by omega)
      have := h k (by omega)
      push_cast
      linarith
  have n0 : (0 : ℚ) < N := by exact_mod_cast hN
  rw [abs_div, abs_of_pos n0, div_le_iff₀ n0, mul_comm δ]
  exact key N le_rfl

section
variable {F : IeeeFmt} {u τ : ℚ} (hp : 1 ≤ F.prec) (hr : Rounds F.toFloatFmt.round u τ) (mean : Ieee F) (draw : Nat → Ieee F) (B : ℚ) (hB : τ ≤ B)
include hp hr hB

/-- The field as a function of the number of the cell. -/
theorem ieee_field {N : Nat} (hN : 1 ≤ N) (om : Ordinary mean) (od : ∀ i, i < N → Ordinary (draw i) ∧ |value mean| + |value (draw i)| ≤ B)
    (hlen : F.toFloatFmt.round (N : ℚ) = N) (hnu : (N : ℚ) * u ≤ 1 / 16) (hX : 256 * (N * (B + 1)) < (2 : ℚ) ^ F.emax) (f : Nat → Ieee F)
    (hf : f = fun i => mean + draw i - (Spec.kahan ((List.range N).map fun ii => mean + draw ii) / (N : Ieee F) - mean)) :
    (∀ i, i < N → Ordinary (f i) ∧
      |value (f i) - (value mean + value (draw i) - ((List.range N).map fun i => value (draw i)).sum / N)| ≤ 21 * (u * B)) ∧
    |((List.range N).map fun i => value (f i)).sum / N - value mean| ≤ 19 * (u * B) := by
  have B0 : 0 ≤ B := hr.tiny.1.trans hB
  have N0 : (0 : ℚ) ≤ N := Nat.cast_nonneg N
  have NB : (N : ℚ) * B ≤ N * (B + 1) := mul_le_mul_of_nonneg_left (by linarith) N0
  have sm : Same mean (asFl mean) B := Same.of om (by
    have := (od 0 (by omega)).2
    have := abs_nonneg (value (draw 0))
    linarith)
  have sd : ∀ i, i < N → Same (draw i) (asFl (draw i)) B := fun i hi => Same.of (od i hi).1 (by
    have := (od i hi).2
    have := abs_nonneg (value mean)
    linarith)
  have sf := fun i (hi : i < N) => Same.field hp hr hB hnu hlen sm sd (by linarith) (by nlinarith) hi
  obtain ⟨l, hl⟩ : ∃ l : List Int, l = (List.range N).map fun i : Nat => (i : Int) := ⟨_, rfl⟩
  have len : l.length = N := by rw [hl, List.length_map, List.length_range]
  have nd : l.Nodup := by
    rw [hl]
    exact List.Nodup.map (fun a b h => by exact_mod_cast h) List.nodup_range
  have get : ∀ i, i < N → l.getD i 0 = i := fun i hi => by
    rw [hl, List.getD_eq_getElem?_getD, List.getElem?_map, List.getElem?_range hi]; rfl
  have ib : ∀ n ∈ l, InB (fun _ : Nat => (N : Int)) 0 n := fun n hn => by
    rw [hl] at hn
    obtain ⟨i, hi, rfl⟩ := List.mem_map.1 hn
    have := List.mem_range.1 hi
    exact ⟨by omega, by show (i : Int) < N; omega⟩
  obtain ⟨m', d, h1, h2, -⟩ := C100_initial hr (fun _ : Nat => (N : Int)) l nd (by rw [← List.length_pos_iff, len]; omega) 0 ib
    (asFl mean) (fun i => asFl (draw i)) B hB (fun i hi => (od i (by omega)).2) (by rw [len]; exact hlen) (by rw [len]; exact hnu) (fun _ _ => 0)
  obtain ⟨m1, d', v, -⟩ := icRandom_detA l nd 0 ib (asFl mean) (fun i => asFl (draw i)) (fun _ _ => 0)
  obtain rfl := d.unique d'
  rw [len] at h1 v
  have val : ∀ i, i < N → (m' 0 (i : Int)).val = value (f i) := fun i hi => by
    have a := v i hi
    rw [get i hi] at a
    rw [a, hf, (sf i hi).val]
  refine ⟨fun i hi => ⟨by rw [hf]; exact (sf i hi).ord, ?_⟩, ?_⟩
  · have := h1 i hi
    rw [get i hi, val i hi] at this
    exact this
  · rw [len, hl, List.map_map] at h2
    have e : (List.range N).map ((fun n => (m' 0 n).val) ∘ fun i : Nat => (i : Int)) = (List.range N).map fun i => value (f i) :=
      List.map_congr_left fun i hi => val i (List.mem_range.1 hi)
    rw [e] at h2
    exact h2

/-- C115. The random initial condition in floating point with infinities and NaN, on any list of cells: if the mean and the draws are
ordinary with `|mean| + |draw| ≤ B` and the format holds the number of cells and `256 N (B + 1)`, no operation overflows, every value
is ordinary and differs by at most `21 u B` from the mean plus its draw minus the average of the draws, and the average of the stored values
differs from the mean by at most `19 u B`. Nothing else is written. -/
theorem C115_initial {A : Type} [DecidableEq A] (sz : A → Int) (l : List Int) (hl : l.Nodup) (hne : l ≠ []) (c : A) (hs : ∀ n ∈ l, InB sz c n)
    (om : Ordinary mean) (od : ∀ i, i < l.length → Ordinary (draw i) ∧ |value mean| + |value (draw i)| ≤ B)
    (hlen : F.toFloatFmt.round (l.length : ℚ) = l.length) (hnu : (l.length : ℚ) * u ≤ 1 / 16)
    (hX : 256 * (l.length * (B + 1)) < (2 : ℚ) ^ F.emax) (m : Mem A (Ieee F)) :
    ∃ m', Det sz (icRandom l c mean draw) m m' ∧
      (∀ i, i < l.length → Ordinary (m' c (l.getD i 0)) ∧ |value (m' c (l.getD i 0)) -
        (value mean + value (draw i) - ((List.range l.length).map fun i => value (draw i)).sum / l.length)| ≤ 21 * (u * B)) ∧
      |(l.map fun n => value (m' c n)).sum / l.length - value mean| ≤ 19 * (u * B) ∧
      (∀ n, n ∉ l → m' c n = m c n) ∧ ∀ b, b ≠ c → m' b = m b := by
  obtain ⟨m', d, v, f1, f2⟩ := icRandom_detA l hl c hs mean draw m
  obtain ⟨h1, h2⟩ := ieee_field hp hr mean draw B hB (List.length_pos_iff.2 hne) om od hlen hnu hX _ rfl
  refine ⟨m', d, fun i hi => by rw [v i hi]; exact h1 i hi, ?_, f1, f2⟩
  have e : (l.map fun n => value (m' c n)) = (List.range l.length).map fun i =>
      value (mean + draw i - (Spec.kahan ((List.range l.length).map fun ii => mean + draw ii) / (l.length : Ieee F) - mean)) := by
    refine List.ext_getElem (by simp) fun i hi _ => ?_
    have hi' : i < l.length := by simpa using hi
    have a := v i hi'
    rw [List.getD_eq_getElem?_getD, List.getElem?_eq_getElem hi', Option.getD_some] at a
    simp only [List.getElem_map, List.getElem_range]
    rw [a]
  rw [e]
  exact h2

/-- C115. Hence the initial field of a 2D run with draws of size at most `δ` is ordinary and within `2 δ + 21 u B` of the mean. This is
the assumption on the initial field in C114, and that it is ordinary in C111. -/
theorem C115_initial2 {n : Int} (hn : 1 ≤ n) (om : Ordinary mean) (δ : ℚ) (hB2 : |value mean| + δ ≤ B)
    (od : ∀ i, i < (n * n).toNat → Ordinary (draw i) ∧ |value (draw i)| ≤ δ)
    (hlen : F.toFloatFmt.round ((n * n : Int) : ℚ) = ((n * n : Int) : ℚ)) (hnu : ((n * n : Int) : ℚ) * u ≤ 1 / 16)
    (hX : 256 * (((n * n : Int) : ℚ) * (B + 1)) < (2 : ℚ) ^ F.emax) (c : Int × Int) (hc : In2 n c) :
    Ordinary (initialAny2 draw mean n c) ∧ |value (initialAny2 draw mean n c) - value mean| ≤ 2 * δ + 21 * (u * B) := by
  obtain ⟨N, hN⟩ : ∃ N, N = (n * n).toNat := ⟨_, rfl⟩
  have n2 : 0 < n * n := mul_pos (by omega) (by omega)
  have hNi : ((N : Nat) : Int) = n * n := by omega
  have hNq : ((n * n : Int) : ℚ) = N := by rw [← hNi]; push_cast; rfl
  rw [hNq] at hlen hnu hX
  have hi : (c.1 * n + c.2).toNat < N := idx2_lt hNi hc.1 hc.2
  obtain ⟨h1, -⟩ := ieee_field hp hr mean draw B hB (N := N) (by omega) om
    (fun i hi => ⟨(od i (by omega)).1, by have := (od i (by omega)).2; linarith⟩) hlen hnu hX _ rfl
  obtain ⟨a, b⟩ := h1 _ hi
  have e : initialAny2 draw mean n c = mean + draw (c.1 * n + c.2).toNat -
      (Spec.kahan ((List.range N).map fun ii => mean + draw ii) / (N : Ieee F) - mean) := by unfold initialAny2; rw [← hN]
  rw [← e] at a b
  refine ⟨a, ?_⟩
  have s : |((List.range N).map fun i => value (draw i)).sum / (N : ℚ)| ≤ δ := mean_draw_le (by omega) fun i hi => (od i (by omega)).2
  have d := (od _ (by omega : (c.1 * n + c.2).toNat < (n * n).toNat)).2
  generalize ((List.range N).map fun i => value (draw i)).sum / (N : ℚ) = S at b s
  generalize value (draw (c.1 * n + c.2).toNat) = D at b d
  rw [abs_le] at b s d ⊢
  constructor <;> linarith

/-- C115. Hence the initial field of a 3D run with draws of size at most `δ` is ordinary and within `2 δ + 21 u B` of the mean. This is
the assumption on the initial field in C114, and that it is ordinary in C111. -/
theorem C115_initial3 {nx ny nz : Int} (hn : 1 ≤ nx ∧ 1 ≤ ny ∧ 1 ≤ nz) (om : Ordinary mean) (δ : ℚ) (hB2 : |value mean| + δ ≤ B)
    (od : ∀ i, i < (nx * ny * nz).toNat → Ordinary (draw i) ∧ |value (draw i)| ≤ δ)
    (hlen : F.toFloatFmt.round ((nx * ny * nz : Int) : ℚ) = ((nx * ny * nz : Int) : ℚ)) (hnu : ((nx * ny * nz : Int) : ℚ) * u ≤ 1 / 16)
    (hX : 256 * (((nx * ny * nz : Int) : ℚ) * (B + 1)) < (2 : ℚ) ^ F.emax) (c : Int × Int × Int) (hc : In3 nx ny nz c) :
    Ordinary (initialAny3 draw mean nx ny nz c) ∧ |value (initialAny3 draw mean nx ny nz c) - value mean| ≤ 2 * δ + 21 * (u * B) := by
  obtain ⟨N, hN⟩ : ∃ N, N = (nx * ny * nz).toNat := ⟨_, rfl⟩
  have n2 : 0 < nx * ny * nz := mul_pos (mul_pos (by omega) (by omega)) (by omega)
  have hNi : ((N : Nat) : Int) = nx * ny * nz := by omega
  have hNq : ((nx * ny * nz : Int) : ℚ) = N := by rw [← hNi]; push_cast; rfl
  rw [hNq] at hlen hnu hX
  have hi : ((c.1 * ny + c.2.1) * nz + c.2.2).toNat < N := idx3_lt hNi hc.1 hc.2.1 hc.2.2
  obtain ⟨h1, -⟩ := ieee_field hp hr mean draw B hB (N := N) (by omega) om
    (fun i hi => ⟨(od i (by omega)).1, by have := (od i (by omega)).2; linarith⟩) hlen hnu hX _ rfl
  obtain ⟨a, b⟩ := h1 _ hi
  have e : initialAny3 draw mean nx ny nz c = mean + draw ((c.1 * ny + c.2.1) * nz + c.2.2).toNat -
      (Spec.kahan ((List.range N).map fun ii => mean + draw ii) / (N : Ieee F) - mean) := by unfold initialAny3; rw [← hN]
  rw [← e] at a b
  refine ⟨a, ?_⟩
  have s : |((List.range N).map fun i => value (draw i)).sum / (N : ℚ)| ≤ δ := mean_draw_le (by omega) fun i hi => (od i (by omega)).2
  have d := (od _ (by omega : ((c.1 * ny + c.2.1) * nz + c.2.2).toNat < (nx * ny * nz).toNat)).2
  generalize ((List.range N).map fun i => value (draw i)).sum / (N : ℚ) = S at b s
  generalize value (draw ((c.1 * ny + c.2.1) * nz + c.2.2).toNat) = D at b d
  rw [abs_le] at b s d ⊢
  constructor <;> linarith

end

/-- C115. In double precision: with a mean `m` and draws of size at most `δ`, where `|m| + 2 δ ≤ 1 - 2⁻⁴⁰`, every 2D run of up to `2⁴⁹` cells
starts from ordinary numbers of size at most one. -/
theorem C115_double2 (mean : Ieee ieee64) (draw : Nat → Ieee ieee64) (om : Ordinary mean) (δ : ℚ) (h0 : 0 ≤ δ) (hδ : |value mean| + 2 * δ ≤ 1 - 1 / 2 ^ 40)
    {n : Int} (hn : 1 ≤ n) (hsize : n * n ≤ 2 ^ 49) (od : ∀ i, i < (n * n).toNat → Ordinary (draw i) ∧ |value (draw i)| ≤ δ)
    (c : Int × Int) (hc : In2 n c) : Ordinary (initialAny2 draw mean n c) ∧ |value (initialAny2 draw mean n c)| ≤ 1 := by
  have n2 : 0 ≤ n * n := mul_nonneg (by omega) (by omega)
  have hq : ((n * n : Int) : ℚ) ≤ 2 ^ 49 := by exact_mod_cast hsize
  have hq0 : (0 : ℚ) ≤ ((n * n : Int) : ℚ) := by exact_mod_cast n2
  have t1 : (1 / 2 ^ 1022 : ℚ) ≤ 1 := tiny64.2.trans (by norm_num)
  have big : (2 : ℚ) ^ 100 < (2 : ℚ) ^ ieee64.emax := by
    rw [← zpow_natCast]
    exact zpow_lt_zpow_right₀ (by norm_num) (by decide)
  obtain ⟨a, b⟩ := C115_initial2 (F := ieee64) (by decide) binary64_rounds mean draw 1 t1 hn om δ (by norm_num at hδ; linarith) od
    (round_int64 n2 hsize) (by linarith) (lt_trans (by linarith) big) c hc
  refine ⟨a, ?_⟩
  have := abs_sub_abs_le_abs_sub (value (initialAny2 draw mean n c)) (value mean)
  norm_num at hδ b ⊢
  linarith

/-- C115. The same for 3D runs. -/
theorem C115_double3 (mean : Ieee ieee64) (draw : Nat → Ieee ieee64) (om : Ordinary mean) (δ : ℚ) (h0 : 0 ≤ δ) (hδ : |value mean| + 2 * δ ≤ 1 - 1 / 2 ^ 40)
    {nx ny nz : Int} (hn : 1 ≤ nx ∧ 1 ≤ ny ∧ 1 ≤ nz) (hsize : nx * ny * nz ≤ 2 ^ 49)
    (od : ∀ i, i < (nx * ny * nz).toNat → Ordinary (draw i) ∧ |value (draw i)| ≤ δ) (c : Int × Int × Int) (hc : In3 nx ny nz c) :
    Ordinary (initialAny3 draw mean nx ny nz c) ∧ |value (initialAny3 draw mean nx ny nz c)| ≤ 1 := by
  have n2 : 0 ≤ nx * ny * nz := mul_nonneg (mul_nonneg (by omega) (by omega)) (by omega)
  have hq : ((nx * ny * nz : Int) : ℚ) ≤ 2 ^ 49 := by exact_mod_cast hsize
  have hq0 : (0 : ℚ) ≤ ((nx * ny * nz : Int) : ℚ) := by exact_mod_cast n2
  have t1 : (1 / 2 ^ 1022 : ℚ) ≤ 1 := tiny64.2.trans (by norm_num)
  have big : (2 : ℚ) ^ 100 < (2 : ℚ) ^ ieee64.emax := by
    rw [← zpow_natCast]
    exact zpow_lt_zpow_right₀ (by norm_num) (by decide)
  obtain ⟨a, b⟩ := C115_initial3 (F := ieee64) (by decide) binary64_rounds mean draw 1 t1 hn om δ (by norm_num at hδ; linarith) od
    (round_int64 n2 hsize) (by linarith) (lt_trans (by linarith) big) c hc
  refine ⟨a, ?_⟩
  have := abs_sub_abs_le_abs_sub (value (initialAny3 draw mean nx ny nz c)) (value mean)
  norm_num at hδ b ⊢
  linarith

/-- Draws of the examples: every third is zero, the others are plus and minus one two-hundred-and-fifty-sixth. -/
def spreadDraw (i : Nat) : Ieee ieee64 := if i % 3 = 0 then 0 else if i % 3 = 1 then .num ((1 : Int) / 2 ^ 8) else .num ((-1 : Int) / 2 ^ 8)

theorem spreadDraw_ok (i : Nat) : Ordinary (spreadDraw i) ∧ |value (spreadDraw i)| ≤ 1 / 256 := by
  unfold spreadDraw
  split
  · exact ⟨Same.zero.ord, by show |(0 : ℚ)| ≤ 1 / 256; norm_num⟩
  · split
    · exact ⟨calm_ord 1 8 (by norm_num) (by norm_num), by show |((1 : Int) : ℚ) / 2 ^ 8| ≤ 1 / 256; norm_num⟩
    · exact ⟨calm_ord (-1) 8 (by norm_num) (by norm_num), by show |((-1 : Int) : ℚ) / 2 ^ 8| ≤ 1 / 256; norm_num⟩

example (sz : Nat → Int) (hsz : 9 ≤ sz 0) (m : Mem Nat (Ieee ieee64)) :
    ∃ m', Det sz (icRandom [2, 5, 8, 1] 0 (.num ((1 : Int) / 2 ^ 1)) spreadDraw) m m' ∧ Ordinary (m' 0 5) ∧ m' 0 3 = m 0 3 := by
  have big : (2 : ℚ) ^ 100 < (2 : ℚ) ^ ieee64.emax := by
    rw [← zpow_natCast]
    exact zpow_lt_zpow_right₀ (by norm_num) (by decide)
  obtain ⟨m', d, h, -, f, -⟩ := C115_initial (F := ieee64) (by decide) binary64_rounds (.num ((1 : Int) / 2 ^ 1)) spreadDraw 1
    (tiny64.2.trans (by norm_num)) sz [2, 5, 8, 1] (by decide) (by decide) 0 (fun n hn => by
      simp only [List.mem_cons, List.not_mem_nil, or_false] at hn
      exact ⟨by omega, by omega⟩) (calm_ord 1 1 (by norm_num) (by norm_num))
    (fun i _ => ⟨(spreadDraw_ok i).1, by
      have := (spreadDraw_ok i).2
      have e : |value (.num ((1 : Int) / 2 ^ 1) : Ieee ieee64)| = 1 / 2 := by show |((1 : Int) : ℚ) / 2 ^ 1| = 1 / 2; norm_num
      rw [e]
      linarith⟩)
    (round_int64 (n := 4) (by decide) (by norm_num)) (by norm_num) (lt_trans (by norm_num) big) m
  exact ⟨m', d, (h 1 (by decide)).1, f 3 (by decide)⟩

example (c : Int × Int) (hc : In2 256 c) : Ordinary (initialAny2 spreadDraw (.num ((1 : Int) / 2 ^ 1)) 256 c) ∧
    |value (initialAny2 spreadDraw (.num ((1 : Int) / 2 ^ 1)) 256 c)| ≤ 1 :=
  C115_double2 _ _ (calm_ord 1 1 (by norm_num) (by norm_num)) (1 / 256) (by norm_num)
    (by
      have e : |value (.num ((1 : Int) / 2 ^ 1) : Ieee ieee64)| = 1 / 2 := by show |((1 : Int) : ℚ) / 2 ^ 1| = 1 / 2; norm_num
      rw [e]
      norm_num)
    (by decide) (by decide) (fun i _ => spreadDraw_ok i) c hc

example (c : Int × Int × Int) (hc : In3 128 128 64 c) : Ordinary (initialAny3 spreadDraw (.num ((1 : Int) / 2 ^ 1)) 128 128 64 c) ∧
    |value (initialAny3 spreadDraw (.num ((1 : Int) / 2 ^ 1)) 128 128 64 c)| ≤ 1 :=
  C115_double3 _ _ (calm_ord 1 1 (by norm_num) (by norm_num)) (1 / 256) (by norm_num)
    (by
      have e : |value (.num ((1 : Int) / 2 ^ 1) : Ieee ieee64)| = 1 / 2 := by show |((1 : Int) : ℚ) / 2 ^ 1| = 1 / 2; norm_num
      rw [e]
      norm_num)
    (by decide) (by decide) (fun i _ => spreadDraw_ok i) c hc

/-- Together with C114: the adaptive run of C114's example, from whatever draws of size at most `1/256`. -/
example [Pow (Ieee ieee64) (Ieee ieee64)] (hP : PowFn (F := ieee64) (· ^ ·)) (E : Env (Ieee ieee64))
    (hE : ∀ i, Ordinary (E.draw i) ∧ |value (E.draw i)| ≤ 1 / 256) (m : Mem _ (Ieee ieee64)) (hz : ∀ a n, m a n = 0) :
    AllEnd (demoSize 49 36) (program E calmAdapt2 none demoArr 100) m fun res _ => (∃ files rows, res = .done files rows ∧ files ≠ []) ∧
      ∃ (N : Nat) (s : Nat → Int × Int → Ieee ieee64), 1 ≤ N ∧ s 0 = initialAny2 E.draw 0 2 ∧
      ∀ k, k ≤ N → (∀ c, In2 2 c → Ordinary (s k c) ∧ |value (s k c)| ≤ 4) ∧
        energy2 (1 / 16) (1 / 2) 2 2 (ext2 2 fun a b => value (s k (a, b))) ≤
          energy2 (1 / 16) (1 / 2) 2 2 (ext2 2 fun a b => value (s 0 (a, b))) + k / 10 ^ 9 := by
  obtain ⟨u, τ, hr, hu, hτ, hs⟩ : ∃ u τ : ℚ, Rounds binary64.round u τ ∧ u = 1 / 2 ^ 53 ∧ τ ≤ 1 / 2 ^ 150 ∧ Spacing τ (1 / 2) :=
    ⟨_, _, binary64_rounds, rfl, one_div_le_one_div_of_le (by positivity) (pow_le_pow_right₀ (by norm_num) (by norm_num)), spacing64 (by norm_num)⟩
  obtain ⟨Em, hEm, hEm2, hEm0⟩ : ∃ Em : ℚ, Em = 2 ^ 36 * ((1 + |1 / 16| + |0| + |0|) * (8 ^ 3 + (1 + |1 / 16| + |0| + |0|))) / (1 / 2) ^ 4 ∧ Em ≤ 2 ^ 60 ∧ 0 ≤ Em :=
    ⟨_, rfl, by norm_num, by positivity⟩
  have big : (2 : ℚ) ^ 100 < (2 : ℚ) ^ ieee64.emax := by
    rw [← zpow_natCast]
    exact zpow_lt_zpow_right₀ (by norm_num) (by decide)
  have o1 : Ordinary (.num 1 : Ieee ieee64) := by simpa using calm_ord 1 0 (by norm_num) (by norm_num)
  have op : ∀ n, n ≤ 60 → Ordinary (.num (1 / 2 ^ n) : Ieee ieee64) := fun n hn => by simpa using calm_ord 1 n (by norm_num) hn
  have o2 : Ordinary (.num (1 / 2) : Ieee ieee64) := by simpa using calm_ord 1 1 (by norm_num) (by norm_num)
  have o16 : Ordinary (.num (1 / 16) : Ieee ieee64) := by have := calm_ord 1 4 (by norm_num) (by norm_num); norm_num at this ⊢; exact this
  obtain ⟨η, hη, hη2⟩ : ∃ η : ℚ, η = 27 / 4 * ((2 * 2 : Int) : ℚ) * (((1 + u) ^ 34 - 1) * (8 ^ 2 * (8 ^ 2 + 8 * (1 / 16) / (1 / 2) ^ 2))) ∧
    η ≤ 1 / 10 ^ 9 := ⟨_, rfl, by rw [hu]; norm_num⟩
  refine (C114_ode23_2 (F := ieee64) (by decide) (by decide) (by decide) hr (by rw [hu]; norm_num) (by rw [hu]; norm_num)
    (hτ.trans (by norm_num)) hP (demoSize 49 36) E calmAdapt2 demoArr rfl rfl
    rfl (by decide) (by decide) ⟨1 / 16, 0, 0⟩ ⟨o16, trivial, trivial⟩ ⟨rfl, rfl, rfl⟩ rfl (by norm_num) (.num (1 / 2)) (by decide +kernel) o2 hs
    (by show (1 / 2 : ℚ) ≤ 1; norm_num) 8 (by norm_num) _ rfl Em hEm (lt_trans (lt_of_le_of_lt hEm2 (by norm_num)) big) o1 trivial (op 18 (by norm_num)) le_rfl
    (by show (0 : ℚ) ≤ 1; norm_num) (op 20 (by norm_num)) (op 16 (by norm_num)) (by show (0 : ℚ) < 1 / 2 ^ 20; positivity)
    (by show 4 * τ * 2 ^ 53 ≤ 1 / 2 ^ 20; norm_num at hτ ⊢; linarith)
    ⟨by show (1 / 2 ^ 20 : ℚ) ≤ 1 / 2 ^ 18; norm_num, by show (1 / 2 ^ 18 : ℚ) ≤ 1 / 2 ^ 16; norm_num⟩
    (by show (1 / 2 ^ 16 : ℚ) * rhsSize ⟨1 / 16, 0, 0⟩ (1 / 2) 8 ≤ 8 / 18; unfold rhsSize; norm_num)
    (op 10 (by norm_num)) (by show (0 : ℚ) < 1 / 2 ^ 10; positivity)
    (by
      show τ * Em ≤ 1 / 2 ^ 10
      exact (mul_le_mul hτ hEm2 hEm0 (by positivity)).trans (by norm_num))
    (by
      show 2 * Em < (2 : ℚ) ^ ieee64.emax * (1 / 2 ^ 10)
      have h1 := mul_lt_mul_of_pos_right big (by positivity : (0 : ℚ) < 1 / 2 ^ 10)
      have h2 : 2 * Em ≤ (2 : ℚ) ^ 100 * (1 / 2 ^ 10) := by norm_num at hEm2 ⊢; linarith
      exact lt_of_le_of_lt h2 h1)
    (lt_trans (by show (2 : ℚ) ^ 55 * (1 / 2 ^ 10) < 2 ^ 100; norm_num) big)
    (by show 2 ^ 54 * τ * (1 / 2 ^ 10) ≤ 1; norm_num at hτ ⊢; linarith)
    (by show u * ((1 : ℚ) + 1) ≤ 1 / 2 ^ 16 / 8; rw [hu]; norm_num) (by decide +kernel)
    (lt_trans (by show 4 * (|(0 : ℚ)| + 1 + 1) < 2 ^ 100; norm_num) big) (by decide) (by simp [calmAdapt2]) (by simp [calmAdapt2])
    (by simp [calmAdapt2]) rfl (by decide)
    ⟨by simp [demoArr], by simp [demoArr, demoSize, calmAdapt2, calmOpts2, blowOpts], by simp [demoArr, demoSize, calmAdapt2, calmOpts2, blowOpts]⟩
    (fun c hc => C115_double2 0 E.draw trivial (1 / 256) (by norm_num)
      (by show |(0 : ℚ)| + 2 * (1 / 256) ≤ 1 - 1 / 2 ^ 40; norm_num) (by decide) (by decide) (fun i _ => hE i) c hc) η hη
    (by show ((2 * 2 : Int) : ℚ) * (1 / 4 + 4 * (1 / 16) / (1 / 2) ^ 2) + ((100 : ℕ) : ℚ) * η ≤ ((8 ^ 2 - 4) / 8) ^ 2; norm_num at hη2 ⊢; linarith)
    3 (by simp only [calmAdapt2, calmOpts2, blowOpts]; decide +kernel) m (fun a _ n => hz a n) 100 (by decide) (by decide)).mono fun res _ h => ?_
  obtain ⟨N, t, d, r, v, s, st, h1, h2, h3, -, h4⟩ := h
  refine ⟨⟨_, _, h2, by simp⟩, N, s, h1, h3, fun k hk => ?_⟩
  obtain ⟨-, a, b⟩ := h4 k hk
  refine ⟨fun c hc => ⟨(a c hc).1, (a c hc).2.trans (by norm_num)⟩, le_trans b ?_⟩
  have := mul_le_mul_of_nonneg_left hη2 (Nat.cast_nonneg (α := ℚ) k)
  rw [mul_one_div] at this
  exact add_le_add le_rfl this

end Madg
