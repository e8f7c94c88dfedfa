/-
Chains of 2D floating-point steps: as long as each step from a bounded state of ordinary numbers is a noisy step of the exact scheme, the
states stay ordinary and close to the solution.
-/
import Verif.Proofs.IeeeConv2
import Verif.Proofs.IeeeChain

set_option linter.unusedSectionVars false
set_option linter.unusedVariables false

namespace Madg
open Spec

section
variable {F : IeeeFmt}

variable {n : Int} {M : ℕ} {d : Nat → Ieee F} {s : Nat → Int × Int → Ieee F} {k : Nat} {K : ℝ}
  {Tb : RK3c} {Fd : (Int × Int → ℝ) → Int × Int → ℝ} {η : ℝ} {Us : Int × Int → ℝ}

/-- A bound for the distance from the solution that holds whatever real number stands for NaN and infinities shows that there are
none. -/
theorem ordinary_of_all2 (hK : 0 ≤ K) (x : Int × Int → Ieee F)
    (h : ∀ J : ℝ, (M : ℝ) < J → (sum2 n n fun i j => (valOr J (x (i, j)) - Us (i, j)) ^ 2) ≤ K) :
    (∀ c, In2 n c → Ordinary (x c)) ∧ (sum2 n n fun i j => ((value (x (i, j)) : ℝ) - Us (i, j)) ^ 2) ≤ K := by
  have ord : ∀ c, In2 n c → Ordinary (x c) := by
    rintro ⟨i, j⟩ ⟨h1, h2⟩
    by_contra hn
    obtain ⟨J, hJ⟩ : ∃ J : ℝ, J = M + |Us (i, j)| + K + 1 := ⟨_, rfl⟩
    have m0 : (0 : ℝ) ≤ M := Nat.cast_nonneg _
    have a0 := abs_nonneg (Us (i, j))
    have b := h J (by rw [hJ]; linarith)
    have c := (le_sum2 (f := fun i j => (valOr J (x (i, j)) - Us (i, j)) ^ 2) (fun _ _ => sq_nonneg _) h1 h2).trans b
    dsimp only at c
    rw [valOr_not hn] at c
    have g : K + 1 ≤ J - Us (i, j) := by have := le_abs_self (Us (i, j)); rw [hJ]; linarith
    nlinarith
  refine ⟨ord, (le_of_eq ?_).trans (h (M + 1) (by linarith))⟩
  refine sum2_congr fun i j h1 h2 => ?_
  rw [valOr_ord (ord _ ⟨h1, h2⟩)]

/-- Steps that are noisy steps of the exact scheme from bounded states of ordinary numbers, as steps between fields of real numbers. -/
theorem noisy_valOr2 {J : ℝ} (hJ : (M : ℝ) < J) {dt : Ieee F} {x y : Int × Int → Ieee F}
    (hF : ∀ f g : Int × Int → ℝ, (∀ c, In2 n c → f c = g c) → ∀ c, In2 n c → Fd f c = Fd g c)
    (hst : (∀ c, In2 n c → Ordinary (x c) ∧ |(value (x c) : ℝ)| ≤ (M : ℝ) / 2) → (∀ c, In2 n c → Ordinary (y c)) ∧
      NoisyCells Tb (cells2 n) Fd η (value dt : ℝ) (fun c => (value (x c) : ℝ)) fun c => (value (y c) : ℝ))
    (hb : ∀ c ∈ cells2 n, |valOr J (x c)| ≤ (M : ℝ) / 2) :
    NoisyCells Tb (cells2 n) Fd η (value dt : ℝ) (fun c => valOr J (x c)) fun c => valOr J (y c) := by
  have m0 : (0 : ℝ) ≤ M := Nat.cast_nonneg _
  have ox : ∀ c, In2 n c → Ordinary (x c) := by
    intro c hc
    by_contra hn
    have := hb c ((mem_cells2 n c).2 hc)
    rw [valOr_not hn, abs_of_pos (by linarith)] at this
    linarith
  obtain ⟨oy, ns⟩ := hst fun c hc => ⟨ox c hc, by
    have := hb c ((mem_cells2 n c).2 hc)
    rwa [valOr_ord (ox c hc)] at this⟩
  refine NoisyCells.swap (fun c hc => ?_) (fun c hc => ?_) (fun c hc => ?_) ns
  · exact valOr_ord (ox c ((mem_cells2 n c).1 hc))
  · exact valOr_ord (oy c ((mem_cells2 n c).1 hc))
  · exact hF _ _ (fun c hc => valOr_ord (ox c hc)) c ((mem_cells2 n c).1 hc)

end

/-- Convergence of chains of floating-point steps. -/
theorem ieee_chain_converges2 (p : CHParams ℚ) (he : 0 < p.eps2) {L : Fin 2 → ℝ} (hL : ∀ a, 0 < L a) {T : ℝ}
    {U : ℝ → (Fin 2 → ℝ) → ℝ} (hU : CHSolution (realParams p) L T U) (a : ℝ) (ha : 0 ≤ a) :
    ∃ (Cst h0 : ℝ) (M : ℕ), 0 ≤ Cst ∧ 0 < h0 ∧ 2 ≤ M ∧ ∀ (F : IeeeFmt) (n : Int) (hn : 1 ≤ n)
      (dx : ℝ) (hdx1 : dx ≤ h0) (e : ∀ a, n * dx = L a) (o : Fin 2 → ℝ)
      (Tb : RK3c) (ρ : ℝ) (hρ : 0 ≤ ρ) (d : Nat → Ieee F) (s : Nat → Int × Int → Ieee F) (k : Nat)
      (hst : ∀ i, i < k → (∀ c, In2 n c → Ordinary (s i c) ∧ |(value (s i c) : ℝ)| ≤ (M : ℝ) / 2) →
        (∀ c, In2 n c → Ordinary (s (i + 1) c)) ∧
        NoisyCells Tb (cells2 n) (chField2 (realParams p) dx n 0) (ρ * M) (value (d i) : ℝ)
          (fun c => (value (s i c) : ℝ)) fun c => (value (s (i + 1) c) : ℝ))
      (hd : ∀ i, i < k → (0 : ℝ) ≤ value (d i) ∧ 4608 * (p.eps2 : ℝ) * (value (d i) : ℝ) ≤ dx ^ 4)
      (hsum : ∑ i ∈ Finset.range k, (value (d i) : ℝ) ≤ T) (hlen : (k : ℝ) * ρ ≤ a * dx ^ 2)
      (h0 : ∀ c, In2 n c → Ordinary (s 0 c) ∧ |(value (s 0 c) : ℝ) - U 0 (centre2 o dx c.1 c.2)| ≤ a * dx ^ 2),
      (∀ c, In2 n c → Ordinary (s k c)) ∧
      (sum2 n n fun i j => ((value (s k (i, j)) : ℝ) - U (∑ i ∈ Finset.range k, (value (d i) : ℝ)) (centre2 o dx i j)) ^ 2) ≤
        ((n * n : Int) : ℝ) * (Cst * dx ^ 2) ^ 2 := by
  obtain ⟨Cst, h0, M, c0, h00, hM, H⟩ := chain2_converges (realParams p)
    (show (0 : ℝ) < (p.eps2 : ℝ) by exact_mod_cast he) hL hU a ha
  refine ⟨Cst, h0, M, c0, h00, hM, ?_⟩
  intro F n hn dx hdx1 e o Tb ρ hρ d s k hst hd hsum hlen hini
  have hsm : ((List.range k).map fun i => (value (d i) : ℝ)).sum = ∑ i ∈ Finset.range k, (value (d i) : ℝ) := rfl
  refine ordinary_of_all2 (M := M) (Us := fun c => U (∑ i ∈ Finset.range k, (value (d i) : ℝ)) (centre2 o dx c.1 c.2)) ?_ (s k)
    fun J hJ => ?_
  · have : (0 : ℝ) ≤ ((n * n : Int) : ℝ) := by
      exact_mod_cast mul_nonneg (by omega) (by omega : (0 : Int) ≤ n)
    positivity
  have ch := Chain.ofSeq (Q := fun c dt c' => ∃ i, i < k ∧ dt = (value (d i) : ℝ) ∧ c = (fun x => valOr J (s i x)) ∧
    c' = fun x => valOr J (s (i + 1) x)) (fun i => (value (d i) : ℝ)) k (fun i x => valOr J (s i x)) fun i hi => ⟨i, hi, rfl, rfl, rfl⟩
  have S := H n hn dx hdx1 e o Tb _ ρ hρ ((List.range k).map fun i => (value (d i) : ℝ))
    (by
      rintro dt - c c' hc ⟨i, hi', rfl, rfl, rfl⟩
      refine noisy_valOr2 hJ (fun f g hfg c hc => ?_) (hst i hi') hc
      rw [chField2_abs _ _ 0 _ _ hfg hn c hc, chField2_abs _ _ 0 _ _ (fun _ _ => rfl) hn c hc])
    (by
      intro dt hdt
      obtain ⟨i, hmem, rfl⟩ := List.mem_map.1 hdt
      exact hd i (List.mem_range.1 hmem))
    hsum (by rw [List.length_map, List.length_range]; exact hlen) _ _
    (fun c hc => by
      rw [valOr_ord (hini c hc).1]
      exact (hini c hc).2) ch
  rw [hsm] at S
  exact S

end Madg
