/-
The driver's assumptions (`SimOk`) for the explicit integrators, on any grid.
-/
import Verif.Proofs.Program
import Verif.Proofs.RKCH
import Verif.Props.Controller

set_option linter.unusedSectionVars false

namespace Madg
open Spec

section
variable {A K H C : Type} [DecidableEq A] [Field K] [LinearOrder K] [IsStrictOrderedRing K]

/-- Residual, monitor and writer in terms of interior fields. -/
structure ViewOk (S : Sim A K H) (sz : A → Int) (P : C → Prop) (loc : C → Int) (sol res : A) (keep : Mem A K → Prop)
    (rms : (C → K) → K) (Qm : (C → K) → K × K × K → Prop) (fileOf : (C → K) → Status K → VtsFile) : Prop where
  resid : ∀ m mx r, (∀ c, P c → m res (loc c) = r c) → CDet sz (S.resid mx) m (residRecord mx (rms r)) m
  mon : ∀ m u, (∀ c, P c → m sol (loc c) = u c) → ∃ v, CDet sz S.solMon m v m ∧ Qm u v
  write : ∀ m u st, (∀ c, P c → m sol (loc c) = u c) → keep m → CDet sz (S.write st) m (fileOf u st) m

variable {sz : A → Int} {N : Int} {scratch : A → Prop} {P : C → Prop} {loc : C → Int} {F : K → (C → K) → C → K}
  {rhs : A → A → K → Host A K} {I : Mem A K → Prop} (hR : RhsOn I sz N scratch P loc F rhs) {w : RKArr A} (hw : w.Ok sz N scratch)
  {vs : List A} (hvs : ∀ a ∈ vs, a ∉ [w.sol, w.res, w.k1, w.k2, w.k3, w.k4, w.stage] ∧ ¬ scratch a) {mc : Mem A K}
  {rms : (C → K) → K} {Qm : (C → K) → K × K × K → Prop} {fileOf : (C → K) → Status K → VtsFile}
include hR hw hvs

theorem rk3_simOk {S : Sim A K Unit} (hV : ViewOk S sz P loc w.sol w.res (fun m => ∀ a ∈ vs, m a = mc a) rms Qm fileOf)
    (hdo : S.doStep = rk3Do N rhs w) (hnx : S.nextDT = keepDT) {t d p : Nat → K} (hp : ∀ k, p (k + 1) = d k) (u0 : C → K) :
    SimOk S sz t d p (fun k => rms ((ssprk3 : Tableau K).slope F (t k) (d k) (states ssprk3 F t d u0 k)))
      (fun k => Qm (states ssprk3 F t d u0 (k + 1))) (fun k => fileOf (states ssprk3 F t d u0 (k + 1)))
      (fun k _ m => (∀ c, P c → m w.sol (loc c) = states ssprk3 F t d u0 k c) ∧ (∀ a ∈ vs, m a = mc a) ∧ I m)
      (fun k _ m => (∀ c, P c → m w.sol (loc c) = states ssprk3 F t d u0 (k + 1) c) ∧ (∀ a ∈ vs, m a = mc a) ∧
        (∀ c, P c → m w.res (loc c) = (ssprk3 : Tableau K).slope F (t k) (d k) (states ssprk3 F t d u0 k) c) ∧ I m) where
  step k _ h m := by
    rintro ⟨h1, h2, hI⟩
    obtain ⟨m', e, v, r, f, hI'⟩ := rk3_on hR hw (t k) (d k) m hI
    refine ⟨(), m', ?_, fun c hc => ?_, fun a ha => ?_, fun c hc => ?_, hI'⟩
    · rw [hdo]; exact CDet.ofHost e
    · rw [v c hc]; exact step_congr_on hR hw _ _ _ _ _ h1 c hc
    · obtain ⟨a1, a2⟩ := hvs a ha
      simp only [List.mem_cons, List.not_mem_nil, or_false, not_or] at a1
      rw [f a (by simp only [List.mem_cons, List.not_mem_nil, or_false, not_or]; tauto) a2, h2 a ha]
    · rw [r c hc]; exact slope_congr_on hR hw _ _ _ _ _ h1 c hc
  next k h m := by
    rintro ⟨h1, h2, h3, hI⟩
    refine ⟨(), ?_, h1, h2, hI⟩
    rw [hnx, hp]
    exact CDet.ret _ _
  resid k h m mx hP := hV.resid m mx _ hP.2.2.1
  mon k h m hP := hV.mon m _ hP.1
  write k h m st hP := hV.write m _ st hP.1 hP.2.1

end

theorem pidOut_proposal (tol mn mx : ℝ) (d e : Nat → ℝ) (k : Nat) :
    pidOut (PID.new tol mn mx) ((List.range k).map fun i => (e i, d i)) (e k) (d k) = proposal tol mn mx d e k := by
  unfold pidOut proposal
  rw [List.length_map, List.length_range]
  by_cases hk : k < 3
  · rw [if_pos hk, if_pos hk]
  · rw [if_neg hk, if_neg hk]
    have g : ∀ i, i < k → ((List.range k).map fun i => (e i, d i)).getD i (0, 0) = (e i, d i) := by
      intro i hi
      rw [List.getD_eq_getElem?_getD, List.getElem?_map, List.getElem?_range hi]
      rfl
    rw [g (k - 2) (by omega), g (k - 1) (by omega)]
    unfold Spec.limitStep pidRaw pidStep dblEps
    simp only [PID.new]
    generalize d k / d (k - 1) = ω
    congr 3
    · congr 1
      · congr 1
        · congr 1
          · rw [one_mul]; congr 2; ring
          · congr 1; ring
        · congr 1; ring
      · ring
    · ring

section
variable {A C : Type} [DecidableEq A]
variable {sz : A → Int} {N : Int} {scratch : A → Prop} {P : C → Prop} {loc : C → Int} {F : ℝ → (C → ℝ) → C → ℝ}
  {rhs : A → A → ℝ → Host A ℝ} {I : Mem A ℝ → Prop} (hR : RhsOn I sz N scratch P loc F rhs) {w : RKArr A} (hw : w.Ok sz N scratch)
  {vs : List A} (hvs : ∀ a ∈ vs, a ∉ [w.sol, w.res, w.k1, w.k2, w.k3, w.k4, w.stage] ∧ ¬ scratch a) {mc : Mem A ℝ}
  {rms : (C → ℝ) → ℝ} {Qm : (C → ℝ) → ℝ × ℝ × ℝ → Prop} {fileOf : (C → ℝ) → Status ℝ → VtsFile}
include hR hw hvs

/-- Stage arrays are zero outside the interior. -/
def StagesZero (N : Int) (P : C → Prop) (loc : C → Int) (w : RKArr A) (m : Mem A ℝ) : Prop :=
  ∀ n, 0 ≤ n → n < N → (∀ c, P c → loc c ≠ n) → m w.k1 n = 0 ∧ m w.k2 n = 0 ∧ m w.k3 n = 0 ∧ m w.k4 n = 0

theorem ode23_simOk {S : Sim A ℝ (Ode23 ℝ × PID)}
    (hV : ViewOk S sz P loc w.sol w.res (fun m => ∀ a ∈ vs, m a = mc a) rms Qm fileOf)
    (hdo : S.doStep = ode23Do N rhs w) (hnx : S.nextDT = ode23Next) {t d p e : Nat → ℝ} (u0 : C → ℝ)
    (ht : ∀ k, t (k + 1) = t k + d k) (he : Estimates bs23 F P t d (states bs23 F t d u0) e)
    (tol mn mx : ℝ) (hp : ∀ k, p (k + 1) = proposal tol mn mx d e k) :
    SimOk S sz t d p (fun k => rms ((bs23 : Tableau ℝ).slope F (t k) (d k) (states bs23 F t d u0 k)))
      (fun k => Qm (states bs23 F t d u0 (k + 1))) (fun k => fileOf (states bs23 F t d u0 (k + 1)))
      (fun k h m => (∀ c, P c → m w.sol (loc c) = states bs23 F t d u0 k c) ∧ (∀ a ∈ vs, m a = mc a) ∧
        StagesZero N P loc w m ∧ (h.1.first = false → ∀ c, P c → m w.k4 (loc c) = F (t k) (inner loc m w.sol) c) ∧
        PidInv (PID.new tol mn mx) h.2 ((List.range k).map fun i => (e i, d i)) ∧ I m)
      (fun k h m => (∀ c, P c → m w.sol (loc c) = states bs23 F t d u0 (k + 1) c) ∧ (∀ a ∈ vs, m a = mc a) ∧
        (∀ c, P c → m w.res (loc c) = (bs23 : Tableau ℝ).slope F (t k) (d k) (states bs23 F t d u0 k) c) ∧
        StagesZero N P loc w m ∧ (∀ c, P c → m w.k4 (loc c) = F (t (k + 1)) (inner loc m w.sol) c) ∧
        PidInv (PID.new tol mn mx) h.2 ((List.range k).map fun i => (e i, d i)) ∧ h.1.err = e k ∧ I m) where
  step k _ h m := by
    rintro ⟨h1, h2, h3, h4, h5, hI⟩
    obtain ⟨E, m', e1, e2, e3, e4, e5, e6, e7, hI'⟩ := ode23Step_on hR hw h.1 (t k) (d k) m hI h4 h3
    refine ⟨(⟨false, max 0 (d k * E)⟩, h.2), m', ?_, fun c hc => ?_, fun a ha => ?_, fun c hc => ?_, e5, ?_, h5, ?_, hI'⟩
    · rw [hdo]; exact e1.bind (CDet.ret _ _)
    · rw [e3 c hc]; exact step_congr_on hR hw _ _ _ _ _ h1 c hc
    · obtain ⟨a1, a2⟩ := hvs a ha
      rw [e7 a a1 a2, h2 a ha]
    · rw [e6 c hc]; exact slope_congr_on hR hw _ _ _ _ _ h1 c hc
    · rw [ht]; exact e4
    · obtain ⟨E', hE, hk⟩ := he k
      rw [hk]
      have : IsMaxAbs P ((bs23 : Tableau ℝ).slope F (t k) (d k) (states bs23 F t d u0 k) -
          (bs23 : Tableau ℝ).slopeHat F (t k) (d k) (states bs23 F t d u0 k)) E := by
        have hd : ∀ c, P c → ((bs23 : Tableau ℝ).slope F (t k) (d k) (inner loc m w.sol) -
            (bs23 : Tableau ℝ).slopeHat F (t k) (d k) (inner loc m w.sol)) c =
            ((bs23 : Tableau ℝ).slope F (t k) (d k) (states bs23 F t d u0 k) -
              (bs23 : Tableau ℝ).slopeHat F (t k) (d k) (states bs23 F t d u0 k)) c := by
          intro c hc
          simp only [Pi.sub_apply]
          exact congrArg₂ (· - ·) (slope_congr_on hR hw _ _ _ (inner loc m w.sol) _ h1 c hc)
            (slopeHat_congr_on hR hw _ _ _ (inner loc m w.sol) _ h1 c hc)
        obtain ⟨a1, a2, a3⟩ := e2
        refine ⟨a1, fun c hc => hd c hc ▸ a2 c hc, ?_⟩
        rcases a3 with a3 | ⟨c, hc, a3⟩
        · exact Or.inl a3
        · exact Or.inr ⟨c, hc, by rw [← hd c hc]; exact a3⟩
      rw [maxAbs_unique hE this]
  next k h m := by
    rintro ⟨h1, h2, h3, h4, h5, h6, h7, hI⟩
    obtain ⟨c', g1, g2⟩ := pid_step _ _ _ h6 (e k) (d k)
    refine ⟨(h.1, c'), ?_, h1, h2, h4, fun _ => h5, ?_, hI⟩
    · rw [hnx, hp, ← pidOut_proposal]
      unfold ode23Next
      rw [h7, g1]
      exact CDet.ret _ _
    · rw [List.range_succ, List.map_append]
      exact g2
  resid k h m mx hP := hV.resid m mx _ hP.2.2.1
  mon k h m hP := hV.mon m _ hP.1
  write k h m st hP := hV.write m _ st hP.1 hP.2.1

end

end Madg
