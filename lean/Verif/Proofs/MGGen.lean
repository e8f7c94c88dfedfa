/-
Cycles and time steps of the multigrid integrator for any hierarchy that meets the contracts.
-/
import Verif.Proofs.FAS
import Verif.Proofs.MGStep

set_option linter.unusedSectionVars false
set_option linter.unusedVariables false

namespace Madg
open Spec
variable {A K C : Type} [DecidableEq A] [Field K] [LinearOrder K]
variable {M : MG A K} {sz : A → Int} {scratch : A → Prop} {fx : A → Option (Int → K)} {P : Nat → C → Prop}
  {loc : Nat → C → Int} {F : Nat → (C → K) → C → K} {H : Nat → (C → K) → Int → K} {R T : Nat → (Int → K) → Int → K}
  {V W : Nat → Int → Prop} {S : Fas C K}
  (hM : M.Ok sz scratch fx P loc F H R T V W) (hS : M.Implements P loc F H R T S)
include hM

theorem fine_field_eq (hp : 0 < M.nlev) (dt : K) (m : Mem A K) (old : C → K)
    (ho : ∀ c, P 0 c → m (M.arr 0 .old) (loc 0 c) = old c) :
    ∀ a b, (∀ c, P 0 c → a c = b c) → ∀ c, P 0 c → M.field F dt 0 (inner (loc 0) m (M.par 0)) a c =
      F 0 b c - if M.unsteady then (b c - old c) / dt else 0 := by
  intro a b hab c hc
  change fineField _ M.unsteady dt _ a c = _
  unfold fineField
  rw [show inner (loc 0) m (M.par 0) c = old c from ho c hc, (hM.rhs 0 hp).interior a b hab c hc, hab c hc]
  cases M.unsteady <;> simp
  ring

/-- A cycle keeps a solution of the equation of the step. -/
theorem mg_fixed {d : Nat} (hd : d + 1 = M.nlev) (n : Nat) (hn : 1 ≤ n) (dt time : K) (dts : Nat → K) (m : Mem A K)
    (hfx : Spec.Holds fx m) (u old : C → K)
    (hu : ∀ c, P 0 c → m (M.arr 0 .state) (loc 0 c) = u c) (ho : ∀ c, P 0 c → m (M.arr 0 .old) (loc 0 c) = old c)
    (hsol : ∀ c, P 0 c → F 0 u c = if M.unsteady then (u c - old c) / dt else 0) :
    ∃ dts' m', CDet sz (M.stages dt time (vCycle n d) ⟨0, dts⟩) m ⟨0, dts'⟩ m' ∧ Spec.Holds fx m' ∧
      (∀ c, P 0 c → m' (M.arr 0 .state) (loc 0 c) = u c ∧ m' (M.arr 0 .old) (loc 0 c) = old c ∧
        m' (M.arr 0 .dstate) (loc 0 c) = 0) := by
  have hz : ∀ c, P 0 c → M.field F dt 0 (inner (loc 0) m (M.par 0)) u c = 0 := fun c hc => by
    rw [fine_field_eq hM (by omega) dt m old ho u u (fun _ _ => rfl) c hc, hsol c hc, sub_self]
  obtain ⟨dts', m', e, s, -, z, -, f⟩ := cycle_fixed hM dt time n d 0 u dts m hfx (by omega) hu hz
    (fun h => absurd h (by omega)) (fun h => absurd h (by omega))
  refine ⟨dts', m', e, hM.off_holds hfx fun b hs hb => f b (MG.above_off hM hs hb), fun c hc => ⟨?_, ?_, (z hn c hc).2⟩⟩
  · obtain ⟨a0, a1⟩ := (hM.rhs 0 (by omega)).range c hc
    rw [s.full _ a0 a1]
    exact (hM.rhs 0 (by omega)).keep _ c hc
  · rw [f (M.arr 0 .old) (hM.par_above 0)]; exact ho c hc

include hS

/-- A cycle is a V-cycle of the scheme. -/
theorem mg_cycle {d : Nat} (hd : d + 1 = M.nlev) (n : Nat) (hn : 1 ≤ n) (dt time : K) (dts e : Nat → K)
    (he : ∀ ℓ, ℓ < M.nlev → dts ℓ = e ℓ) (m : Mem A K)
    (hfx : Spec.Holds fx m) (us : (C → K) × (C → K)) (old : C → K)
    (hu : ∀ c, P 0 c → m (M.arr 0 .state) (loc 0 c) = us.1 c) (ho : ∀ c, P 0 c → m (M.arr 0 .old) (loc 0 c) = old c)
    (us' : (C → K) × (C → K))
    (hus : us' = S.cycle n e d 0 (fun w c => S.F 0 w c - if M.unsteady then (w c - old c) / dt else 0) us) :
    ∃ dts' m', CDet sz (M.stages dt time (vCycle n d) ⟨0, dts⟩) m ⟨0, dts'⟩ m' ∧ Spec.Holds fx m' ∧
      (∀ c, P 0 c → m' (M.arr 0 .state) (loc 0 c) = us'.1 c ∧ m' (M.arr 0 .dstate) (loc 0 c) = us'.2 c ∧
        m' (M.arr 0 .old) (loc 0 c) = old c) ∧
      (∀ x, 0 ≤ x → x < M.size 0 → m' (M.arr 0 .state) x = H 0 us'.1 x) ∧
      (∀ ℓ, ℓ < M.nlev → dts' ℓ = M.smoothDt ℓ) := by
  obtain ⟨dts', m', d', q, t, -, f⟩ := cycle_fas hM hS dt time n hn e d 0
    (fun w c => S.F 0 w c - if M.unsteady then (w c - old c) / dt else 0) us dts m hfx (by omega)
    (fun j _ hj => he j (by omega)) hu (fun a b hab c hc => by
      rw [fine_field_eq hM (by omega) dt m old ho a b hab c hc, hS.op 0 (by omega) b c hc])
  rw [← hus] at q
  refine ⟨dts', m', d', hM.off_holds hfx fun b hs hb => f b (MG.above_off hM hs hb), fun c hc => ⟨?_, q.slope c hc, ?_⟩,
    q.full, fun ℓ hℓ => ?_⟩
  · obtain ⟨a0, a1⟩ := (hM.rhs 0 (by omega)).range c hc
    rw [q.full _ a0 a1]
    exact (hM.rhs 0 (by omega)).keep _ c hc
  · rw [f (M.arr 0 .old) (hM.par_above 0)]; exact ho c hc
  · rw [t ℓ (by omega) (by omega)]; exact hS.dt ℓ hℓ

/-- A time step iterates V-cycles of the scheme until the tested norm has fallen by the tolerance. -/
theorem mg_time_step {d : Nat} (hd : d + 1 = M.nlev) (n : Nat) (hn : 1 ≤ n) (rt : K → K) (tol : K) (maxCycles : Int)
    (time dt : K) (hdt : M.unsteady = true → dt ≠ 0) (dts e : Nat → K)
    (he : ∀ ℓ, ℓ < M.nlev → dts ℓ = e ℓ) (m : Mem A K) (hfx : Spec.Holds fx m) (u : C → K)
    (hu : ∀ c, P 0 c → m (M.arr 0 .state) (loc 0 c) = u c) (U : Nat → (C → K) × (C → K))
    (hU : U = S.iterate n d e (fun w c => S.F 0 w c - if M.unsteady then (w c - u c) / dt else 0) (u, S.F 0 u))
    (res : Nat → K)
    (hres : ∀ (μ : Mem A K) i, (∀ c, P 0 c → μ (M.arr 0 .dstate) (loc 0 c) = (U i).2 c) → M.norm rt μ = res i) :
    ∃ (rep : MGReport K) (m' : Mem A K), CDet sz (M.doTimeStep (vCycle n d) rt tol maxCycles time dt dts) m rep m' ∧
      Spec.Holds fx m' ∧
      (rep.cycles ≠ 0 ↔ ∃ k : Nat, (k : Int) < maxCycles ∧ res 0 ≠ 0 ∧ res (k + 1) / res 0 ≤ tol) ∧
      (rep.cycles ≠ 0 → rep.resN = res rep.cycles ∧ res rep.cycles / res 0 ≤ tol ∧
        (∀ i, i + 1 < rep.cycles → ¬ (res (i + 1) / res 0 ≤ tol)) ∧
        ∀ c, P 0 c → m' (M.arr 0 .state) (loc 0 c) = (U rep.cycles).1 c) ∧
      (rep.cycles = 0 → rep.resN = res maxCycles.toNat ∧
        ∀ c, P 0 c → m' (M.arr 0 .state) (loc 0 c) = (U maxCycles.toNat).1 c) ∧
      (1 ≤ maxCycles → ∀ ℓ, ℓ < M.nlev → rep.dts ℓ = M.smoothDt ℓ) ∧ (maxCycles ≤ 0 → rep.dts = dts) ∧
      (∀ c, P 0 c → m' (M.arr 0 .dstate) (loc 0 c) = (U (if rep.cycles = 0 then maxCycles.toNat else rep.cycles)).2 c) ∧
      (∀ b, ¬ scratch b → (∀ ℓ ρ, b ≠ M.arr ℓ ρ) → m' b = m b) := by
  have hp : 0 < M.nlev := by omega
  obtain ⟨D, μ, rep, m', d', s0, so, sd, kp, kk, hD, hst, c1, c2⟩ := timeStep_report hM (n := n) hd rt tol maxCycles time dt dts m hfx hdt
  have x0 : Spec.Holds fx (μ 0) := hM.off_holds hfx fun b hs hb => kp b hs fun ρ _ => hb _ _
  have inv : ∀ i, (∀ c, P 0 c → μ i (M.arr 0 .state) (loc 0 c) = (U i).1 c ∧
      μ i (M.arr 0 .dstate) (loc 0 c) = (U i).2 c) ∧
      (1 ≤ i → ∀ ℓ, ℓ < M.nlev → D i ℓ = M.smoothDt ℓ) ∧ Spec.Holds fx (μ i) := by
    intro i
    induction i with
    | zero =>
      refine ⟨fun c hc => ⟨?_, ?_⟩, fun h => absurd h (by omega), x0⟩
      · obtain ⟨a0, a1⟩ := (hM.rhs 0 hp).range c hc
        refine (s0 _ a0 a1).trans (((hM.rhs 0 hp).keep _ c hc).trans ?_)
        rw [hU]; exact hu c hc
      · rw [sd c hc, hU]
        exact ((hM.rhs 0 hp).interior _ _ hu c hc).trans (hS.op 0 hp u c hc).symm
    | succ i ih =>
      obtain ⟨dts', mi, di, xi, q, -, t⟩ := mg_cycle hM hS hd n hn dt time (D i) (if i = 0 then e else S.dt)
        (fun ℓ hℓ => by
          split
          · next h => subst h; rw [hD]; exact he ℓ hℓ
          · rw [hS.dt ℓ hℓ]; exact ih.2.1 (by omega) ℓ hℓ)
        (μ i) ih.2.2 (U i) u (fun c hc => (ih.1 c hc).1) (fun c hc => (so i c hc).trans (hu c hc)) (U (i + 1))
        (by rw [hU]; rfl)
      obtain ⟨e1, e2⟩ := CDet.unique (hst i) di
      have e1 : D (i + 1) = dts' := congrArg MGPos.dts e1
      rw [e2, e1]
      exact ⟨fun c hc => ⟨(q c hc).1, (q c hc).2.1⟩, fun _ => t, xi⟩
  have er : ∀ i, M.norm rt (μ i) = res i := fun i => hres (μ i) i fun c hc => ((inv i).1 c hc).2
  simp only [er] at c1 c2
  refine ⟨rep, m', d', ?_, ?_, ?_, ?_, ?_, ?_, ?_, ?_⟩
  all_goals
    by_cases hex : ∃ k : Nat, (k : Int) < maxCycles ∧ mgConverged tol (res 0) (res (k + 1))
  · classical
    have hk := Nat.find_spec hex
    obtain ⟨-, -, -, e⟩ := c1 _ hk.1 hk.2 fun i hi hc => Nat.find_min hex (m := i) hi ⟨by omega, hc⟩
    rw [e]; exact (inv _).2.2
  · obtain ⟨-, -, -, e⟩ := c2 fun i hi hc => hex ⟨i, hi, hc⟩
    rw [e]; exact (inv _).2.2
  · classical
    have hk := Nat.find_spec hex
    obtain ⟨e, -⟩ := c1 _ hk.1 hk.2 fun i hi hc => Nat.find_min hex (m := i) hi ⟨by omega, hc⟩
    exact ⟨fun _ => hex, fun _ => by omega⟩
  · obtain ⟨e, -⟩ := c2 fun i hi hc => hex ⟨i, hi, hc⟩
    exact ⟨fun h => absurd e h, fun h => absurd h hex⟩
  · classical
    have hk := Nat.find_spec hex
    have hmin := fun i hi (hc : mgConverged tol (res 0) (res (i + 1))) => Nat.find_min hex (m := i) hi ⟨by omega, hc⟩
    obtain ⟨e1, e2, e3, e4⟩ := c1 _ hk.1 hk.2 hmin
    intro _
    rw [e1]
    exact ⟨e2, hk.2.2, fun i hi h => hmin i (by omega) ⟨hk.2.1, h⟩, fun c hc => by rw [e4]; exact ((inv _).1 c hc).1⟩
  · obtain ⟨e, -⟩ := c2 fun i hi hc => hex ⟨i, hi, hc⟩
    exact fun h => absurd e h
  · classical
    have hk := Nat.find_spec hex
    obtain ⟨e, -⟩ := c1 _ hk.1 hk.2 fun i hi hc => Nat.find_min hex (m := i) hi ⟨by omega, hc⟩
    intro h
    omega
  · obtain ⟨e1, e2, e3, e4⟩ := c2 fun i hi hc => hex ⟨i, hi, hc⟩
    exact fun _ => ⟨e2, fun c hc => by rw [e4]; exact ((inv _).1 c hc).1⟩
  · classical
    have hk := Nat.find_spec hex
    obtain ⟨e1, e2, e3, e4⟩ := c1 _ hk.1 hk.2 fun i hi hc => Nat.find_min hex (m := i) hi ⟨by omega, hc⟩
    intro _ ℓ hℓ
    rw [e3]; exact (inv _).2.1 (by omega) ℓ hℓ
  · obtain ⟨e1, e2, e3, e4⟩ := c2 fun i hi hc => hex ⟨i, hi, hc⟩
    intro h ℓ hℓ
    rw [e3]; exact (inv _).2.1 (by omega) ℓ hℓ
  · obtain ⟨k, hk, -⟩ := hex
    intro h; omega
  · obtain ⟨e1, e2, e3, e4⟩ := c2 fun i hi hc => hex ⟨i, hi, hc⟩
    intro h
    rw [e3, show maxCycles.toNat = 0 by omega, hD]
  · classical
    have hk := Nat.find_spec hex
    obtain ⟨e1, e2, e3, e4⟩ := c1 _ hk.1 hk.2 fun i hi hc => Nat.find_min hex (m := i) hi ⟨by omega, hc⟩
    intro c hc
    rw [e4, if_neg (by omega), e1]
    exact ((inv _).1 c hc).2
  · obtain ⟨e1, e2, e3, e4⟩ := c2 fun i hi hc => hex ⟨i, hi, hc⟩
    intro c hc
    rw [e4, if_pos e1]
    exact ((inv _).1 c hc).2
  · classical
    have hk := Nat.find_spec hex
    obtain ⟨e1, e2, e3, e4⟩ := c1 _ hk.1 hk.2 fun i hi hc => Nat.find_min hex (m := i) hi ⟨by omega, hc⟩
    intro b hs hb
    rw [e4, kk _ b ⟨hs, fun ℓ ρ e => absurd e (hb ℓ ρ)⟩, kp b hs fun ρ _ => hb _ _]
  · obtain ⟨e1, e2, e3, e4⟩ := c2 fun i hi hc => hex ⟨i, hi, hc⟩
    intro b hs hb
    rw [e4, kk _ b ⟨hs, fun ℓ ρ e => absurd e (hb ℓ ρ)⟩, kp b hs fun ρ _ => hb _ _]

end Madg
