/-
Energy of grid states under one explicit step with stage errors, in two and three dimensions (C114).
-/
import Verif.Proofs.EnergyNoise
import Verif.Proofs.EnergyGrid

set_option linter.unusedSectionVars false
set_option linter.unusedVariables false

namespace Madg
open Madg.Spec Finset

theorem mean_abs_le {ι : Type} [Fintype ι] {u : ι → ℝ} {R m0 N : ℝ} (hu : ∀ i, |u i| ≤ R) (hN : 0 < N) (hc : (Fintype.card ι : ℝ) = N)
    (hs : ∑ i, u i = N * m0) : |m0| ≤ R := by
  have hb : |∑ i, u i| ≤ N * R := by
    refine (abs_sum_le_sum_abs _ _).trans ((sum_le_sum fun c _ => hu c).trans (le_of_eq ?_))
    rw [sum_const, nsmul_eq_mul, card_univ, hc]
  rw [hs, abs_mul, abs_of_pos hN] at hb
  exact le_of_mul_le_mul_left hb hN

section
variable {n : Int} (hn : 1 ≤ n) {p : CHParams ℝ} {dx : ℝ} (hdx : 0 < dx) (he : 0 ≤ p.eps2) (hσ : p.sigma = 0)
  (T : RK3c) (o2 : T.b2 * T.a21 + T.b3 * (T.a31 + T.a32) = 1 / 2) (o3 : T.b3 * T.a32 * T.a21 = 1 / 6) {M dt η : ℝ} (hM : 2 ≤ M)
  (hdt : 0 ≤ dt) (hκ : dt * (8 / dx ^ 2 * (27 * (M / 2) ^ 2 + 1 + p.eps2 * (8 / dx ^ 2))) ≤ 1 / 2) (h0 : 0 ≤ η) (h1 : 3 * η ≤ M / 2)
  {u u' : Int × Int → ℝ} (hE : energy2 p.eps2 dx n n (per2 n u) ≤ (((M / 2) ^ 2 - 1) / 2) ^ 2)
include hn hdx he hσ hM hE

theorem energy2_bounds (c : Int × Int) (hc : In2 n c) : |u c| ≤ M / 2 := by
  have e : gEn (pL2 hn dx) p.eps2 0 (rs2 n u) (rs2 n u) = energy2 p.eps2 dx n n (per2 n u) := by
    have := gEn2 hn p dx u u
    rw [hσ] at this
    rw [this]; unfold freeEnergy2; rw [hσ, zero_div, zero_mul, add_zero]
  exact gEn_sup_sq (R := M / 2) (pL2_sym hn dx) (pL2_neg hn dx) he (by linarith) (by rw [e]; exact hE) ⟨c, (mem_cells2 n c).2 hc⟩

include o2 o3 hdt hκ h0 h1

theorem noisy_energy2 (hst : NoisyCells T (cells2 n) (chField2 p dx n 0) η dt u u') :
    energy2 p.eps2 dx n n (per2 n u') ≤ energy2 p.eps2 dx n n (per2 n u) +
      ((n * n : Int) : ℝ) * ((M ^ 3 + p.eps2 * (8 / dx ^ 2 * M)) * (3 * η)) := by
  have eE : ∀ v φ : Int × Int → ℝ, gEn (pL2 hn dx) p.eps2 0 (rs2 n v) (rs2 n φ) = energy2 p.eps2 dx n n (per2 n v) := by
    intro v φ
    have := gEn2 hn p dx v φ
    rw [hσ] at this
    rw [this]; unfold freeEnergy2; rw [hσ, zero_div, zero_mul, add_zero]
  have hub := energy2_bounds hn hdx he hσ hM hE
  have hpos : (0 : ℝ) < ((n * n : Int) : ℝ) := by exact_mod_cast Int.mul_pos (by omega) (by omega)
  have hcard : (Fintype.card (cells2 n) : ℝ) = ((n * n : Int) : ℝ) := by
    rw [Fintype.card_coe, card_cells2 n (by omega)]; push_cast; ring
  obtain ⟨m0, hm0⟩ : ∃ m0, sum2 n n (fun i j => u (i, j)) = ((n * n : Int) : ℝ) * m0 :=
    ⟨sum2 n n (fun i j => u (i, j)) / ((n * n : Int) : ℝ), by field_simp⟩
  obtain ⟨φ, hφ⟩ := (pot2_exists hn hdx (m0 := m0) (u := u)).2 hm0
  have hm : |m0| ≤ M / 2 := mean_abs_le (u := rs2 n u) (fun i => hub i ((mem_cells2 n i).1 i.2)) hpos hcard
    (by rw [← hm0]; exact sum_sub2 u)
  have fld := fun v => rs2_field hn p dx m0 (.inl hσ) 0 v
  have fc : ∀ v (s : cells2 n), chField2 p dx n 0 v s = absF2 hn p dx m0 (rs2 n v) s := fun v s => congrFun (fld v) s
  obtain ⟨y2, y3, a, b, c⟩ := hst
  have key := noisy_energy_step (pL2_sym hn dx) (pL2_neg hn dx) (by positivity : 0 ≤ 8 / dx ^ 2) (pL2_bnd hn hdx) (pL2_sup hn hdx) he T o2 o3
    (R := M / 2) hm hdt (by linarith) (by rw [add_zero]; exact hκ) (F := absF2 hn p dx m0) (fun v => by rw [← hσ]; rfl) h0 h1
    (u := rs2 n u) (u' := rs2 n u') (y2 := rs2 n y2) (y3 := rs2 n y3) (φ := rs2 n φ) (φ' := rs2 n φ)
    (by rw [eE]; exact hE) ((pot2_iff hn dx m0 u φ).1 hφ)
    (fun s => by rw [← fc]; exact a s s.2) (fun s => by rw [← fc, ← fc]; exact b s s.2)
    (fun s => by rw [← fc, ← fc, ← fc]; exact c s s.2)
  rw [eE, eE, hcard, show 2 * (M / 2) = M by ring] at key
  exact key

end

section
variable {ni nj nk : Int} (hi : 1 ≤ ni) (hj : 1 ≤ nj) (hk : 1 ≤ nk) {p : CHParams ℝ} {dx : ℝ} (hdx : 0 < dx) (he : 0 ≤ p.eps2) (hσ : p.sigma = 0)
  (T : RK3c) (o2 : T.b2 * T.a21 + T.b3 * (T.a31 + T.a32) = 1 / 2) (o3 : T.b3 * T.a32 * T.a21 = 1 / 6) {M dt η : ℝ} (hM : 2 ≤ M)
  (hdt : 0 ≤ dt) (hκ : dt * (12 / dx ^ 2 * (27 * (M / 2) ^ 2 + 1 + p.eps2 * (12 / dx ^ 2))) ≤ 1 / 2) (h0 : 0 ≤ η) (h1 : 3 * η ≤ M / 2)
  {u u' : Int × Int × Int → ℝ} (hE : energy3 p.eps2 dx ni nj nk (per3 ni nj nk u) ≤ (((M / 2) ^ 2 - 1) / 2) ^ 2)
include hi hj hk hdx he hσ hM hE

theorem energy3_bounds (c : Int × Int × Int) (hc : In3 ni nj nk c) : |u c| ≤ M / 2 := by
  have e : gEn (pL3 hi hj hk dx) p.eps2 0 (rs3 ni nj nk u) (rs3 ni nj nk u) = energy3 p.eps2 dx ni nj nk (per3 ni nj nk u) := by
    have := gEn3 hi hj hk p dx u u
    rw [hσ] at this
    rw [this]; unfold freeEnergy3; rw [hσ, zero_div, zero_mul, add_zero]
  exact gEn_sup_sq (R := M / 2) (pL3_sym hi hj hk dx) (pL3_neg hi hj hk dx) he (by linarith) (by rw [e]; exact hE) ⟨c, (mem_cells3 ni nj nk c).2 hc⟩

include o2 o3 hdt hκ h0 h1

theorem noisy_energy3 (hst : NoisyCells T (cells3 ni nj nk) (chField3 p dx .periodic .periodic .periodic ni nj nk 0) η dt u u') :
    energy3 p.eps2 dx ni nj nk (per3 ni nj nk u') ≤ energy3 p.eps2 dx ni nj nk (per3 ni nj nk u) +
      ((ni * nj * nk : Int) : ℝ) * ((M ^ 3 + p.eps2 * (12 / dx ^ 2 * M)) * (3 * η)) := by
  have eE : ∀ v φ : Int × Int × Int → ℝ, gEn (pL3 hi hj hk dx) p.eps2 0 (rs3 ni nj nk v) (rs3 ni nj nk φ) =
      energy3 p.eps2 dx ni nj nk (per3 ni nj nk v) := by
    intro v φ
    have := gEn3 hi hj hk p dx v φ
    rw [hσ] at this
    rw [this]; unfold freeEnergy3; rw [hσ, zero_div, zero_mul, add_zero]
  have hub := energy3_bounds hi hj hk hdx he hσ hM hE
  have hpos : (0 : ℝ) < ((ni * nj * nk : Int) : ℝ) := by exact_mod_cast Int.mul_pos (Int.mul_pos (by omega) (by omega)) (by omega)
  have hcard : (Fintype.card (cells3 ni nj nk) : ℝ) = ((ni * nj * nk : Int) : ℝ) := by
    rw [Fintype.card_coe, card_cells3 ni nj nk (by omega) (by omega) (by omega)]; push_cast; ring
  obtain ⟨m0, hm0⟩ : ∃ m0, sum3 ni nj nk (fun i j k => u (i, j, k)) = ((ni * nj * nk : Int) : ℝ) * m0 :=
    ⟨sum3 ni nj nk (fun i j k => u (i, j, k)) / ((ni * nj * nk : Int) : ℝ), by field_simp⟩
  obtain ⟨φ, hφ⟩ := (pot3_exists hi hj hk hdx (m0 := m0) (u := u)).2 hm0
  have hm : |m0| ≤ M / 2 := mean_abs_le (u := rs3 ni nj nk u) (fun i => hub i ((mem_cells3 ni nj nk i).1 i.2)) hpos hcard
    (by rw [← hm0]; exact sum_sub3 u)
  have fld := fun v => rs3_field hi hj hk p dx m0 (.inl hσ) 0 v
  have fc : ∀ v (s : cells3 ni nj nk), chField3 p dx .periodic .periodic .periodic ni nj nk 0 v s = absF3 hi hj hk p dx m0 (rs3 ni nj nk v) s :=
    fun v s => congrFun (fld v) s
  obtain ⟨y2, y3, a, b, c⟩ := hst
  have key := noisy_energy_step (pL3_sym hi hj hk dx) (pL3_neg hi hj hk dx) (by positivity : 0 ≤ 12 / dx ^ 2) (pL3_bnd hi hj hk hdx)
    (pL3_sup hi hj hk hdx) he T o2 o3
    (R := M / 2) hm hdt (by linarith) (by rw [add_zero]; exact hκ) (F := absF3 hi hj hk p dx m0) (fun v => by rw [← hσ]; rfl) h0 h1
    (u := rs3 ni nj nk u) (u' := rs3 ni nj nk u') (y2 := rs3 ni nj nk y2) (y3 := rs3 ni nj nk y3) (φ := rs3 ni nj nk φ) (φ' := rs3 ni nj nk φ)
    (by rw [eE]; exact hE) ((pot3_iff hi hj hk dx m0 u φ).1 hφ)
    (fun s => by rw [← fc]; exact a s s.2) (fun s => by rw [← fc, ← fc]; exact b s s.2)
    (fun s => by rw [← fc, ← fc, ← fc]; exact c s s.2)
  rw [eE, eE, hcard, show 2 * (M / 2) = M by ring] at key
  exact key

end

/-! ### The energy of rational states -/

theorem energy2_cast (e dx : ℚ) (n : Int) (y : Int × Int → ℚ) :
    ((energy2 e dx n n (ext2 n fun i j => y (i, j)) : ℚ) : ℝ) = energy2 (e : ℝ) (dx : ℝ) n n (per2 n fun c => (y c : ℝ)) := by
  simp only [energy2, grad2, sum2, per2, ext2]
  push_cast
  rfl

theorem energy3_cast (e dx : ℚ) (ni nj nk : Int) (y : Int × Int × Int → ℚ) :
    ((energy3 e dx ni nj nk (ext3 .periodic .periodic .periodic ni nj nk fun i j k => y (i, j, k)) : ℚ) : ℝ) =
      energy3 (e : ℝ) (dx : ℝ) ni nj nk (per3 ni nj nk fun c => (y c : ℝ)) := by
  simp only [energy3, grad3, sum3, per3, ext3]
  push_cast
  rfl

end Madg
