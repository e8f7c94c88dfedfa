/-
The driver's assumptions (`SimOk`) for the multigrid integrator, on any hierarchy.
-/
import Verif.Spec.MGRun
import Verif.Proofs.ProgramRK
import Verif.Proofs.MGGen

set_option linter.unusedSectionVars false

namespace Madg
open Spec

section
variable {C : Type}

theorem cyclesUsed_exists (tol : ℝ) (maxC : Nat) (res : Nat → ℝ) : ∃ c, CyclesUsed tol maxC res c := by
  classical
  by_cases h : ∃ i, 1 ≤ i ∧ i ≤ maxC ∧ (res 0 ≠ 0 ∧ res i / res 0 ≤ tol)
  · refine ⟨Nat.find h, (Nat.find_spec h).2.1, fun i h1 h2 h3 => ?_, fun _ => ⟨(Nat.find_spec h).1, (Nat.find_spec h).2.2⟩⟩
    exact Nat.find_min h h2 ⟨h1, by have := (Nat.find_spec h).2.1; omega, h3⟩
  · exact ⟨maxC, le_rfl, fun i h1 h2 h3 => h ⟨i, h1, by omega, h3⟩, fun h => absurd h (lt_irrefl _)⟩

theorem Spec.CyclesUsed.unique {tol : ℝ} {maxC : Nat} {res : Nat → ℝ} {c c' : Nat} (h : CyclesUsed tol maxC res c)
    (h' : CyclesUsed tol maxC res c') : c = c' := by
  rcases lt_trichotomy c c' with e | e | e
  · have := h.2.2 (lt_of_lt_of_le e h'.1)
    exact absurd this.2 (h'.2.1 c this.1 e)
  · exact e
  · have := h'.2.2 (lt_of_lt_of_le e h.1)
    exact absurd this.2 (h.2.1 c' this.1 e)

/-- Every run has its fields. -/
theorem fasRun_exists (S : Fas C ℝ) (n L : Nat) (tol : ℝ) (maxC : Nat) (nrm : (C → ℝ) → ℝ) (un : Bool) (e0 : Nat → ℝ)
    (dt : Nat → ℝ) (u0 : C → ℝ) : ∃ u s c, FasRun S n L tol maxC nrm un e0 dt u0 u s c := by
  have hc : ∀ (k : Nat) (v : C → ℝ), ∃ c, CyclesUsed tol maxC
      (fun i => nrm (S.solve n L (if k = 0 then e0 else S.dt) un (dt k) v i).2) c := fun k v => cyclesUsed_exists _ _ _
  choose f hf using hc
  let u : Nat → C → ℝ := fun k => Nat.rec u0 (fun k v => (S.solve n L (if k = 0 then e0 else S.dt) un (dt k) v (f k v)).1) k
  exact ⟨u, fun k => (S.solve n L (if k = 0 then e0 else S.dt) un (dt k) (u k) (f k (u k))).2, fun k => f k (u k), rfl,
    fun k => hf k (u k), fun k => rfl, fun k => rfl⟩

/-- Without cycles the steps of the smoothers do not matter. -/
theorem Spec.FasRun.used' {S : Fas C ℝ} {n L : Nat} {tol : ℝ} {maxC : Nat} {nrm : (C → ℝ) → ℝ} {un : Bool} {e0 : Nat → ℝ}
    {dt : Nat → ℝ} {u0 : C → ℝ} {u s : Nat → C → ℝ} {c : Nat → Nat} (h : FasRun S n L tol maxC nrm un e0 dt u0 u s c) (k : Nat)
    (U : Nat → (C → ℝ) × (C → ℝ)) (hU : U = S.solve n L (if k = 0 ∨ maxC = 0 then e0 else S.dt) un (dt k) (u k)) :
    CyclesUsed tol maxC (fun i => nrm (U i).2) (c k) ∧ u (k + 1) = (U (c k)).1 ∧ s k = (U (c k)).2 := by
  rw [h.next, h.slope]
  by_cases hm : maxC = 0
  · have h0 := (h.used k).1
    have hc : c k = 0 := by omega
    rw [hc, hU, hm]
    exact ⟨⟨le_rfl, fun i h1 h2 => by omega, fun h => absurd h (lt_irrefl _)⟩, rfl, rfl⟩
  · have : (if k = 0 ∨ maxC = 0 then e0 else S.dt) = if k = 0 then e0 else S.dt := by simp [hm]
    rw [hU, this]
    exact ⟨h.used k, rfl, rfl⟩

end

variable {A C : Type} [DecidableEq A]
variable {M : MG A ℝ} {sz : A → Int} {scratch : A → Prop} {fx : A → Option (Int → ℝ)} {P : Nat → C → Prop}
  {loc : Nat → C → Int} {F : Nat → (C → ℝ) → C → ℝ} {H : Nat → (C → ℝ) → Int → ℝ} {R T : Nat → (Int → ℝ) → Int → ℝ}
  {V W : Nat → Int → Prop} (hM : M.Ok sz scratch fx P loc F H R T V W) {S : Fas C ℝ} (hS : M.Implements P loc F H R T S)
  {vs : List A} (hvs : ∀ a ∈ vs, ¬ scratch a ∧ ∀ ℓ ρ, a ≠ M.arr ℓ ρ) {mc : Mem A ℝ}
  {nrm : (C → ℝ) → ℝ} {Qm : (C → ℝ) → ℝ × ℝ × ℝ → Prop} {fileOf : (C → ℝ) → Status ℝ → VtsFile}
include hM hS hvs

theorem mg_simOk {L : Nat} (hL : L + 1 = M.nlev) {n : Nat} (hn : 1 ≤ n) {rt : ℝ → ℝ} {tol : ℝ} {maxCycles : Int}
    (hnrm : ∀ (μ : Mem A ℝ) r, (∀ c, P 0 c → μ (M.arr 0 .dstate) (loc 0 c) = r c) → M.norm rt μ = nrm r)
    {D : Sim A ℝ (MGReport ℝ)} (hV : ViewOk D sz (P 0) (loc 0) (M.arr 0 .state) (M.arr 0 .dstate)
      (fun m => ∀ a ∈ vs, m a = mc a) nrm Qm fileOf)
    (hdo : D.doStep = mgDo M (vCycle n L) rt tol maxCycles) (hnx : D.nextDT = keepDT) {t d p : Nat → ℝ}
    (hp : ∀ k, p (k + 1) = d k) {e0 : Nat → ℝ} {u0 : C → ℝ} {u s : Nat → C → ℝ} {c : Nat → Nat}
    (hr : FasRun S n L tol maxCycles.toNat nrm M.unsteady e0 d u0 u s c) :
    SimOk D sz t d p (fun k => nrm (s k)) (fun k => Qm (u (k + 1))) (fun k => fileOf (u (k + 1)))
      (fun k h m => (∀ c, P 0 c → m (M.arr 0 .state) (loc 0 c) = u k c) ∧ (∀ a ∈ vs, m a = mc a) ∧ Spec.Holds fx m ∧
        ∀ ℓ, ℓ < M.nlev → h.dts ℓ = (if k = 0 ∨ maxCycles.toNat = 0 then e0 else S.dt) ℓ)
      (fun k h m => (∀ c, P 0 c → m (M.arr 0 .state) (loc 0 c) = u (k + 1) c) ∧ (∀ a ∈ vs, m a = mc a) ∧ Spec.Holds fx m ∧
        (∀ ℓ, ℓ < M.nlev → h.dts ℓ = (if maxCycles.toNat = 0 then e0 else S.dt) ℓ) ∧
        ∀ c, P 0 c → m (M.arr 0 .dstate) (loc 0 c) = s k c)
      (fun k => M.unsteady = true → d k ≠ 0) where
  step k hB h m := by
    rintro ⟨h1, h2, h3, h4⟩
    obtain ⟨U, hU⟩ : ∃ U, U = S.solve n L (if k = 0 ∨ maxCycles.toNat = 0 then e0 else S.dt) M.unsteady (d k) (u k) := ⟨_, rfl⟩
    obtain ⟨q1, q2, q3⟩ := hr.used' k U hU
    obtain ⟨rep, m', g1, g2, g3, g4, g5, g6, g7, g8, g9⟩ := mg_time_step hM hS hL n hn rt tol maxCycles (t k) (d k) hB h.dts _ h4
      m h3 (u k) h1 U hU (fun i => nrm (U i).2) (fun μ i hμ => hnrm μ _ hμ)
    -- the reported number of cycles is the specified one
    have hc : c k = if rep.cycles = 0 then maxCycles.toNat else rep.cycles := by
      refine q1.unique ?_
      split
      · next h0 =>
        refine ⟨le_rfl, fun i i1 i2 i3 => ?_, fun h => absurd h (lt_irrefl _)⟩
        have : rep.cycles ≠ 0 := g3.2 ⟨i - 1, by omega, i3.1, by rw [Nat.sub_add_cancel i1]; exact i3.2⟩
        exact this h0
      · next h0 =>
        obtain ⟨a1, a2, a3, -⟩ := g4 h0
        obtain ⟨k', b1, b2, b3⟩ := g3.1 h0
        refine ⟨?_, fun i i1 i2 i3 => ?_, fun _ => ⟨by omega, b2, a2⟩⟩
        · by_contra hgt
          exact a3 k' (by omega) b3
        · refine a3 (i - 1) (by omega) ?_
          rw [Nat.sub_add_cancel i1]; exact i3.2
    have hst : ∀ c', P 0 c' → m' (M.arr 0 .state) (loc 0 c') = u (k + 1) c' := by
      intro c' hc'
      rw [q2, hc]
      split
      · next h0 => exact (g5 h0).2 c' hc'
      · next h0 => exact (g4 h0).2.2.2 c' hc'
    refine ⟨rep, m', ?_, hst, fun a ha => ?_, g2, fun ℓ hℓ => ?_, fun c' hc' => ?_⟩
    · rw [hdo]; exact g1
    · rw [g9 a (hvs a ha).1 (hvs a ha).2, h2 a ha]
    · by_cases h0 : maxCycles.toNat = 0
      · rw [if_pos h0, g7 (by omega), h4 ℓ hℓ, if_pos (Or.inr h0)]
      · rw [if_neg h0, g6 (by omega) ℓ hℓ, hS.dt ℓ hℓ]
    · rw [g8 c' hc', q3, hc]
  next k h m := by
    rintro ⟨h1, h2, h3, h4, h5⟩
    refine ⟨h, ?_, h1, h2, h3, fun ℓ hℓ => ?_⟩
    · rw [hnx, hp]
      exact CDet.ret _ _
    · rw [h4 ℓ hℓ]; simp
  resid k h m mx hP := hV.resid m mx _ hP.2.2.2.2
  mon k h m hP := hV.mon m _ hP.1
  write k h m st hP := hV.write m _ st hP.1 hP.2.1

end Madg
