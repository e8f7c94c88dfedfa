/-
Chains of floating-point steps: as long as each step from a bounded state of ordinary numbers is a noisy step of the exact scheme, the
states stay ordinary and close to the solution.
-/
import Verif.Proofs.IeeeConv
import Verif.Props.Convergence

set_option linter.unusedSectionVars false
set_option linter.unusedVariables false

namespace Madg
open Spec

theorem Chain.ofSeq {U D : Type} {Q : U → D → U → Prop} (D' : Nat → D) (k : Nat) : ∀ (s : Nat → U),
    (∀ i, i < k → Q (s i) (D' i) (s (i + 1))) → Chain Q ((List.range k).map D') (s 0) (s k) := by
  induction k generalizing D' with
  | zero => intro s _; exact rfl
  | succ k ih =>
    intro s h
    rw [List.range_succ_eq_map, List.map_cons, List.map_map]
    exact ⟨s 1, h 0 (by omega), ih (D' ∘ Nat.succ) (fun i => s (i + 1)) fun i hi => h (i + 1) (by omega)⟩

section
variable {F : IeeeFmt}

open Classical in
/-- The value of an ordinary number, and `J` for NaN and infinities. -/
noncomputable def valOr (J : ℝ) (a : Ieee F) : ℝ := if Ordinary a then (value a : ℝ) else J

theorem valOr_ord {J : ℝ} {a : Ieee F} (h : Ordinary a) : valOr J a = (value a : ℝ) := by unfold valOr; rw [if_pos h]

theorem valOr_not {J : ℝ} {a : Ieee F} (h : ¬ Ordinary a) : valOr J a = J := by unfold valOr; rw [if_neg h]

variable {ni nj nk : Int} {M : ℕ} {d : Nat → Ieee F} {s : Nat → Int × Int × Int → Ieee F} {k : Nat} {K : ℝ}
  {Tb : RK3c} {Fd : (Int × Int × Int → ℝ) → Int × Int × Int → ℝ} {η : ℝ} {Us : Int × Int × Int → ℝ}

/-- A bound for the distance from the solution that holds whatever real number stands for NaN and infinities shows that there are
none. -/
theorem ordinary_of_all (hK : 0 ≤ K) (x : Int × Int × Int → Ieee F)
    (h : ∀ J : ℝ, (M : ℝ) < J → (sum3 ni nj nk fun i j k => (valOr J (x (i, j, k)) - Us (i, j, k)) ^ 2) ≤ K) :
    (∀ c, In3 ni nj nk c → Ordinary (x c)) ∧ (sum3 ni nj nk fun i j k => ((value (x (i, j, k)) : ℝ) - Us (i, j, k)) ^ 2) ≤ K := by
  have ord : ∀ c, In3 ni nj nk c → Ordinary (x c) := by
    rintro ⟨i, j, l⟩ ⟨h1, h2, h3⟩
    by_contra hn
    obtain ⟨J, hJ⟩ : ∃ J : ℝ, J = M + |Us (i, j, l)| + K + 1 := ⟨_, rfl⟩
    have m0 : (0 : ℝ) ≤ M := Nat.cast_nonneg _
    have a0 := abs_nonneg (Us (i, j, l))
    have b := h J (by rw [hJ]; linarith)
    have c := (le_sum3 (f := fun i j k => (valOr J (x (i, j, k)) - Us (i, j, k)) ^ 2) (fun _ _ _ => sq_nonneg _) h1 h2 h3).trans b
    dsimp only at c
    rw [valOr_not hn] at c
    have g : K + 1 ≤ J - Us (i, j, l) := by have := le_abs_self (Us (i, j, l)); rw [hJ]; linarith
    nlinarith
  refine ⟨ord, (le_of_eq ?_).trans (h (M + 1) (by linarith))⟩
  refine sum3_congr fun i j k h1 h2 h3 => ?_
  rw [valOr_ord (ord _ ⟨h1, h2, h3⟩)]

/-- Steps that are noisy steps of the exact scheme from bounded states of ordinary numbers, as steps between fields of real numbers. -/
theorem noisy_valOr {J : ℝ} (hJ : (M : ℝ) < J) {dt : Ieee F} {x y : Int × Int × Int → Ieee F}
    (hF : ∀ f g : Int × Int × Int → ℝ, (∀ c, In3 ni nj nk c → f c = g c) → ∀ c, In3 ni nj nk c → Fd f c = Fd g c)
    (hst : (∀ c, In3 ni nj nk c → Ordinary (x c) ∧ |(value (x c) : ℝ)| ≤ (M : ℝ) / 2) → (∀ c, In3 ni nj nk c → Ordinary (y c)) ∧
      NoisyCells Tb (cells3 ni nj nk) Fd η (value dt : ℝ) (fun c => (value (x c) : ℝ)) fun c => (value (y c) : ℝ))
    (hb : ∀ c ∈ cells3 ni nj nk, |valOr J (x c)| ≤ (M : ℝ) / 2) :
    NoisyCells Tb (cells3 ni nj nk) Fd η (value dt : ℝ) (fun c => valOr J (x c)) fun c => valOr J (y c) := by
  have m0 : (0 : ℝ) ≤ M := Nat.cast_nonneg _
  have ox : ∀ c, In3 ni nj nk c → Ordinary (x c) := by
    intro c hc
    by_contra hn
    have := hb c ((mem_cells3 ni nj nk c).2 hc)
    rw [valOr_not hn, abs_of_pos (by linarith)] at this
    linarith
  obtain ⟨oy, ns⟩ := hst fun c hc => ⟨ox c hc, by
    have := hb c ((mem_cells3 ni nj nk c).2 hc)
    rwa [valOr_ord (ox c hc)] at this⟩
  refine NoisyCells.swap (fun c hc => ?_) (fun c hc => ?_) (fun c hc => ?_) ns
  · exact valOr_ord (ox c ((mem_cells3 ni nj nk c).1 hc))
  · exact valOr_ord (oy c ((mem_cells3 ni nj nk c).1 hc))
  · exact hF _ _ (fun c hc => valOr_ord (ox c hc)) c ((mem_cells3 ni nj nk c).1 hc)

end

/-- Convergence of chains of floating-point steps. -/
theorem ieee_chain_converges (p : CHParams ℚ) (he : 0 < p.eps2) {L : Fin 3 → ℝ} (hL : ∀ a, 0 < L a) {T : ℝ}
    {U : ℝ → (Fin 3 → ℝ) → ℝ} (hU : CHSolution (realParams p) L T U) (a : ℝ) (ha : 0 ≤ a) :
    ∃ (Cst h0 : ℝ) (M : ℕ), 0 ≤ Cst ∧ 0 < h0 ∧ 2 ≤ M ∧ ∀ (F : IeeeFmt) (ni nj nk : Int) (hi : 1 ≤ ni) (hj : 1 ≤ nj) (hk : 1 ≤ nk)
      (dx : ℝ) (hdx1 : dx ≤ h0) (e0 : ni * dx = L 0) (e1 : nj * dx = L 1) (e2 : nk * dx = L 2) (o : Fin 3 → ℝ)
      (Tb : RK3c) (ρ : ℝ) (hρ : 0 ≤ ρ) (d : Nat → Ieee F) (s : Nat → Int × Int × Int → Ieee F) (k : Nat)
      (hst : ∀ i, i < k → (∀ c, In3 ni nj nk c → Ordinary (s i c) ∧ |(value (s i c) : ℝ)| ≤ (M : ℝ) / 2) →
        (∀ c, In3 ni nj nk c → Ordinary (s (i + 1) c)) ∧
        NoisyCells Tb (cells3 ni nj nk) (chField3 (realParams p) dx .periodic .periodic .periodic ni nj nk 0) (ρ * M) (value (d i) : ℝ)
          (fun c => (value (s i c) : ℝ)) fun c => (value (s (i + 1) c) : ℝ))
      (hd : ∀ i, i < k → (0 : ℝ) ≤ value (d i) ∧ 4608 * (p.eps2 : ℝ) * (value (d i) : ℝ) ≤ dx ^ 4)
      (hsum : ∑ i ∈ Finset.range k, (value (d i) : ℝ) ≤ T) (hlen : (k : ℝ) * ρ ≤ a * dx ^ 2)
      (h0 : ∀ c, In3 ni nj nk c → Ordinary (s 0 c) ∧ |(value (s 0 c) : ℝ) - U 0 (centre3 o dx c.1 c.2.1 c.2.2)| ≤ a * dx ^ 2),
      (∀ c, In3 ni nj nk c → Ordinary (s k c)) ∧
      (sum3 ni nj nk fun i j l => ((value (s k (i, j, l)) : ℝ) - U (∑ i ∈ Finset.range k, (value (d i) : ℝ)) (centre3 o dx i j l)) ^ 2) ≤
        ((ni * nj * nk : Int) : ℝ) * (Cst * dx ^ 2) ^ 2 := by
  obtain ⟨Cst, h0, M, c0, h00, hM, H⟩ := chain3_converges (realParams p)
    (show (0 : ℝ) < (p.eps2 : ℝ) by exact_mod_cast he) hL hU a ha
  refine ⟨Cst, h0, M, c0, h00, hM, ?_⟩
  intro F ni nj nk hi hj hk dx hdx1 e0 e1 e2 o Tb ρ hρ d s k hst hd hsum hlen hini
  have hsm : ((List.range k).map fun i => (value (d i) : ℝ)).sum = ∑ i ∈ Finset.range k, (value (d i) : ℝ) := rfl
  refine ordinary_of_all (M := M) (Us := fun c => U (∑ i ∈ Finset.range k, (value (d i) : ℝ)) (centre3 o dx c.1 c.2.1 c.2.2)) ?_ (s k)
    fun J hJ => ?_
  · have : (0 : ℝ) ≤ ((ni * nj * nk : Int) : ℝ) := by
      exact_mod_cast mul_nonneg (mul_nonneg (by omega) (by omega)) (by omega : (0 : Int) ≤ nk)
    positivity
  have ch := Chain.ofSeq (Q := fun c dt c' => ∃ i, i < k ∧ dt = (value (d i) : ℝ) ∧ c = (fun x => valOr J (s i x)) ∧
    c' = fun x => valOr J (s (i + 1) x)) (fun i => (value (d i) : ℝ)) k (fun i x => valOr J (s i x)) fun i hi => ⟨i, hi, rfl, rfl, rfl⟩
  have S := H ni nj nk hi hj hk dx hdx1 e0 e1 e2 o Tb _ ρ hρ ((List.range k).map fun i => (value (d i) : ℝ))
    (by
      rintro dt - c c' hc ⟨i, hi', rfl, rfl, rfl⟩
      refine noisy_valOr hJ (fun f g hfg c hc => ?_) (hst i hi') hc
      rw [chField3_abs _ _ 0 _ _ hfg hi hj hk c hc, chField3_abs _ _ 0 _ _ (fun _ _ => rfl) hi hj hk c hc])
    (by
      intro dt hdt
      obtain ⟨i, hmem, rfl⟩ := List.mem_map.1 hdt
      exact hd i (List.mem_range.1 hmem))
    hsum (by rw [List.length_map, List.length_range]; exact hlen) _ _
    (fun c hc => by
      rw [valOr_ord (hini c hc).1]
      exact (hini c hc).2) ch
  rw [hsm] at S
  exact S

end Madg
