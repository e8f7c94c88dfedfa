/-
Time steps of the multigrid integrator: the convergence report, and steps from a solution.
-/
import Verif.Proofs.MGFixed

set_option linter.unusedSectionVars false
set_option linter.unusedVariables false

namespace Madg
open Spec
variable {A K C : Type} [DecidableEq A] [Field K] [LinearOrder K]

/-- Norm the convergence test looks at. -/
def MG.norm (M : MG A K) (rt : K → K) (m : Mem A K) : K :=
  rt ((M.interior.map fun n => m (M.arr 0 .dstate) n ^ 2).sum / (M.interior.length : K))

variable {M : MG A K} {sz : A → Int} {scratch : A → Prop} {fx : A → Option (Int → K)} {P : Nat → C → Prop} {loc : Nat → C → Int}
  {F : Nat → (C → K) → C → K} {H : Nat → (C → K) → Int → K} {R T : Nat → (Int → K) → Int → K} {V W : Nat → Int → Prop}
  (hM : M.Ok sz scratch fx P loc F H R T V W)
include hM

theorem norm_det (h0 : 0 < M.nlev) (rt : K → K) (m : Mem A K) :
    CDet sz (residNorm rt M.interior (M.arr 0 .dstate)) m (M.norm rt m) m := by
  refine residNorm_det rt _ _ (fun n hn => ?_) m
  obtain ⟨c, hc, rfl⟩ := hM.interior n hn
  rw [InB, hM.size 0 h0]
  exact (hM.rhs 0 h0).range c hc

/-- Memories and step sizes after each cycle. -/
theorem cycle_sequence (dt time : K) (cyc : List Int)
    (hc : ∀ x ∈ visits 0 cyc, 0 ≤ x.1 ∧ x.1 < M.nlev ∧ (x.2 = 0 ∨ (x.2 = 1 ∧ x.1 + 1 < M.nlev) ∨ (x.2 = -1 ∧ 0 < x.1)))
    (hs : cyc.sum = 0) (dts : Nat → K) (m : Mem A K) (hfx : Holds fx m) :
    ∃ (D : Nat → Nat → K) (μ : Nat → Mem A K), D 0 = dts ∧ μ 0 = m ∧
      (∀ i, CDet sz (M.stages dt time cyc ⟨0, D i⟩) (μ i) ⟨0, D (i + 1)⟩ (μ (i + 1))) ∧
      (∀ i b, M.Kept scratch b → μ i b = m b) := by
  have ex : ∀ q : (Nat → K) × Mem A K, ∃ q' : (Nat → K) × Mem A K, Holds fx q.2 →
      CDet sz (M.stages dt time cyc ⟨0, q.1⟩) q.2 ⟨0, q'.1⟩ q'.2 ∧ ∀ b, M.Kept scratch b → q'.2 b = q.2 b := by
    rintro ⟨D, μ⟩
    by_cases hμ : Holds fx μ
    swap
    · exact ⟨(D, μ), fun h => absurd h hμ⟩
    obtain ⟨p', m', d, e, f⟩ := stages_total hM dt time cyc ⟨0, D⟩ μ hμ (by simpa using hc)
    obtain ⟨l, D'⟩ := p'
    have : l = 0 := by rw [hs] at e; simpa using e
    subst this
    exact ⟨(D', m'), fun _ => ⟨d, f⟩⟩
  choose nxt hn using ex
  let S : Nat → (Nat → K) × Mem A K := fun i => Nat.rec (dts, m) (fun _ q => nxt q) i
  have hS : ∀ i, Holds fx (S i).2 := fun i => by
    induction i with
    | zero => exact hfx
    | succ i ih => exact hM.kept_holds ih (hn (S i) ih).2
  refine ⟨fun i => (S i).1, fun i => (S i).2, rfl, rfl, fun i => (hn (S i) (hS i)).1, fun i b hb => ?_⟩
  induction i with
  | zero => rfl
  | succ i ih => exact ((hn (S i) (hS i)).2 b hb).trans ih

/-- The loop over cycles reports the first cycle that meets the tolerance. -/
theorem cycles_report (h0 : 0 < M.nlev) (rt : K → K) (tol res0 dt time : K) (cyc : List Int) {D : Nat → Nat → K}
    {μ : Nat → Mem A K}
    (hd : ∀ i, CDet sz (M.stages dt time cyc ⟨0, D i⟩) (μ i) ⟨0, D (i + 1)⟩ (μ (i + 1))) (n : Nat) : ∀ (ic : Nat) (r : K),
    (∀ k, k < n → mgConverged tol res0 (M.norm rt (μ (ic + k + 1))) →
      (∀ i, i < k → ¬ mgConverged tol res0 (M.norm rt (μ (ic + i + 1)))) →
      CDet sz (M.cycles cyc rt tol res0 dt time n ic r (D ic)) (μ ic) ⟨ic + k + 1, M.norm rt (μ (ic + k + 1)), D (ic + k + 1)⟩
        (μ (ic + k + 1))) ∧
    ((∀ i, i < n → ¬ mgConverged tol res0 (M.norm rt (μ (ic + i + 1)))) →
      CDet sz (M.cycles cyc rt tol res0 dt time n ic r (D ic)) (μ ic)
        ⟨0, if n = 0 then r else M.norm rt (μ (ic + n)), D (ic + n)⟩ (μ (ic + n))) := by
  induction n with
  | zero => intro ic r; exact ⟨fun k hk => absurd hk (by omega), fun _ => CDet.ret _ _⟩
  | succ n ih =>
    intro ic r
    obtain ⟨i1, i2⟩ := ih (ic + 1) (M.norm rt (μ (ic + 1)))
    have nd := norm_det hM h0 rt (μ (ic + 1))
    constructor
    · intro k hk hconv hbefore
      unfold MG.cycles
      cases k with
      | zero =>
        refine (hd ic).bind (nd.bind ?_)
        rw [if_pos (by simpa using hconv)]
        exact CDet.ret _ _
      | succ k =>
        refine (hd ic).bind (nd.bind ?_)
        rw [if_neg (by simpa using hbefore 0 (by omega))]
        have e : ∀ i, ic + 1 + i + 1 = ic + (i + 1) + 1 := fun i => by omega
        have := i1 k (by omega) (by rw [e]; exact hconv) (fun i hi => by rw [e]; exact hbefore (i + 1) (by omega))
        rw [e] at this
        exact this
    · intro hnone
      unfold MG.cycles
      refine (hd ic).bind (nd.bind ?_)
      rw [if_neg (by simpa using hnone 0 (by omega))]
      have e : ∀ i, ic + 1 + i + 1 = ic + (i + 1) + 1 := fun i => by omega
      have := i2 (fun i hi => by rw [e]; exact hnone (i + 1) (by omega))
      have e2 : ic + 1 + n = ic + (n + 1) := by omega
      rw [e2] at this
      rw [if_neg (by omega)]
      rcases Nat.eq_zero_or_pos n with rfl | hn
      · simpa using this
      · rw [if_neg (by omega)] at this; exact this

/-- The part of a time step before the first cycle. -/
theorem start_det (h0 : 0 < M.nlev) (dt time : K) (m : Mem A K) (hfx : Holds fx m) :
    ∃ m', Det sz (copyLoop (M.size 0) (M.arr 0 .state) (M.arr 0 .old) ++ M.rhs 0 (M.arr 0 .old) (M.arr 0 .res0) time ++
        M.levelRHS dt 0 (M.arr 0 .state) (M.arr 0 .dstate) time) m m' ∧
      (∀ n, 0 ≤ n → n < M.size 0 → m' (M.arr 0 .state) n = H 0 (inner (loc 0) m (M.arr 0 .state)) n) ∧
      (∀ c, P 0 c → m' (M.arr 0 .old) (loc 0 c) = m (M.arr 0 .state) (loc 0 c)) ∧
      (∀ c, P 0 c → m' (M.arr 0 .dstate) (loc 0 c) = F 0 (inner (loc 0) m (M.arr 0 .state)) c) ∧
      (∀ b, ¬ scratch b → (∀ ρ ∈ [MGRole.state, .old, .res0, .dstate], b ≠ M.arr 0 ρ) → m' b = m b) := by
  have hR := hM.rhs 0 h0
  have hL := hM.levelRhs dt h0
  obtain ⟨m1, d1, w1⟩ := copy_det (N := M.size 0) (a := M.arr 0 .state) (b := M.arr 0 .old) (sz := sz)
    (hM.ne (Or.inr (by decide))) (hM.size _ h0 _) (hM.size _ h0 _) m
  obtain ⟨m2, d2, r2, k2, f2⟩ := hR.run (M.arr 0 .old) (M.arr 0 .res0) time m1
    (hfx.frame fun b hb => w1.frame b ((hM.off hb).2 _ _)) (hM.ne (Or.inr (by decide)))
    (hM.fresh _ _) (hM.fresh _ _) (hM.free _ _) (hM.free _ _) (hM.size _ h0 _) (hM.size _ h0 _)
  obtain ⟨m3, d3, r3, k3, f3⟩ := hL.run (M.arr 0 .state) (M.arr 0 .dstate) time m2
    (hfx.frame fun b hb => by rw [f2 b ((hM.off hb).2 _ _) ((hM.off hb).2 _ _) (hM.off hb).1, w1.frame b ((hM.off hb).2 _ _)])
    (hM.ne (Or.inr (by decide))) (hM.ne (Or.inr (by decide))) (hM.ne (Or.inr (by decide))) (hM.fresh _ _) (hM.fresh _ _)
    (hM.free _ _) (hM.free _ _) (hM.size _ h0 _) (hM.size _ h0 _)
  have st2 : m2 (M.arr 0 .state) = m (M.arr 0 .state) := by
    rw [f2 _ (hM.ne (Or.inr (by decide))) (hM.ne (Or.inr (by decide))) (hM.fresh _ _), w1.frame _ (hM.ne (Or.inr (by decide)))]
  have old2 : ∀ c, P 0 c → m2 (M.arr 0 .old) (loc 0 c) = m (M.arr 0 .state) (loc 0 c) := fun c hc => by
    obtain ⟨a0, a1⟩ := hR.range c hc
    rw [k2 _ a0 a1, hR.keep _ c hc, w1.view _ a0 a1]
  have ein : inner (loc 0) m2 (M.arr 0 .state) = inner (loc 0) m (M.arr 0 .state) := by unfold inner; rw [st2]
  refine ⟨m3, det_append (det_append d1 d2) d3, ?_, ?_, ?_, ?_⟩
  · intro n n0 n1; rw [k3 n n0 n1, ein]
  · intro c hc
    rw [f3 _ (hM.ne (Or.inr (by decide))) (hM.ne (Or.inr (by decide))) (hM.fresh _ _)]; exact old2 c hc
  · intro c hc
    rw [r3 c hc, ein]
    change fineField (F 0) M.unsteady dt (inner (loc 0) m2 (M.arr 0 .old)) _ c = _
    unfold fineField
    have : inner (loc 0) m2 (M.arr 0 .old) c = inner (loc 0) m (M.arr 0 .state) c := old2 c hc
    rw [this, sub_self, mul_zero, sub_zero, ite_self]
  · intro b hs hb
    simp only [List.mem_cons, List.not_mem_nil, or_false, forall_eq_or_imp, forall_eq] at hb
    obtain ⟨b1, b2, b3, b4⟩ := hb
    rw [f3 b b1 b4 hs, f2 b b2 b3 hs, w1.frame b b2]

theorem vCycle_in_range {n d : Nat} (hd : d + 1 = M.nlev) : ∀ x ∈ visits 0 (vCycle n d), 0 ≤ x.1 ∧ x.1 < M.nlev ∧
    (x.2 = 0 ∨ (x.2 = 1 ∧ x.1 + 1 < M.nlev) ∨ (x.2 = -1 ∧ 0 < x.1)) := by
  intro x hx
  obtain ⟨a, b, c⟩ := vCycle_range n d 0 x hx
  refine ⟨a, by omega, ?_⟩
  rcases c with c | ⟨c, e⟩ | ⟨c, e⟩
  · exact Or.inl c
  · exact Or.inr (Or.inl ⟨c, by omega⟩)
  · exact Or.inr (Or.inr ⟨c, e⟩)

/-- A time step: what is reported, in terms of the residual norms after each cycle. -/
theorem timeStep_report {n d : Nat} (hd : d + 1 = M.nlev) (rt : K → K) (tol : K) (maxCycles : Int) (time dt : K)
    (dts : Nat → K) (m : Mem A K) (hfx : Holds fx m) (hdt : M.unsteady = true → dt ≠ 0) :
    ∃ (D : Nat → Nat → K) (μ : Nat → Mem A K) (rep : MGReport K) (m' : Mem A K),
      CDet sz (M.doTimeStep (vCycle n d) rt tol maxCycles time dt dts) m rep m' ∧
      (∀ i, 0 ≤ i → i < M.size 0 → μ 0 (M.arr 0 .state) i = H 0 (inner (loc 0) m (M.arr 0 .state)) i) ∧
      (∀ i c, P 0 c → μ i (M.arr 0 .old) (loc 0 c) = m (M.arr 0 .state) (loc 0 c)) ∧
      (∀ c, P 0 c → μ 0 (M.arr 0 .dstate) (loc 0 c) = F 0 (inner (loc 0) m (M.arr 0 .state)) c) ∧
      (∀ b, ¬ scratch b → (∀ ρ ∈ [MGRole.state, .old, .res0, .dstate], b ≠ M.arr 0 ρ) → μ 0 b = m b) ∧
      (∀ i b, M.Kept scratch b → μ i b = μ 0 b) ∧
      D 0 = dts ∧
      (∀ i, CDet sz (M.stages dt time (vCycle n d) ⟨0, D i⟩) (μ i) ⟨0, D (i + 1)⟩ (μ (i + 1))) ∧
      (∀ k : Nat, (k : Int) < maxCycles → mgConverged tol (M.norm rt (μ 0)) (M.norm rt (μ (k + 1))) →
        (∀ i, i < k → ¬ mgConverged tol (M.norm rt (μ 0)) (M.norm rt (μ (i + 1)))) →
        rep.cycles = k + 1 ∧ rep.resN = M.norm rt (μ (k + 1)) ∧ rep.dts = D (k + 1) ∧ m' = μ (k + 1)) ∧
      ((∀ i : Nat, (i : Int) < maxCycles → ¬ mgConverged tol (M.norm rt (μ 0)) (M.norm rt (μ (i + 1)))) →
        rep.cycles = 0 ∧ rep.resN = M.norm rt (μ maxCycles.toNat) ∧ rep.dts = D maxCycles.toNat ∧ m' = μ maxCycles.toNat) := by
  have h0 : 0 < M.nlev := by omega
  obtain ⟨m0, d0, a1, a2, a3, a4⟩ := start_det hM h0 dt time m hfx
  obtain ⟨D, μ, hD, hμ, hstep, hkeep⟩ := cycle_sequence hM dt time (vCycle n d) (vCycle_in_range hM hd) (vCycle_sum n d) dts m0
    (hfx.frame fun b hb => a4 b (hM.off hb).1 fun ρ _ => (hM.off hb).2 _ _)
  obtain ⟨c1, c2⟩ := cycles_report hM h0 rt tol (M.norm rt (μ 0)) dt time (vCycle n d) hstep maxCycles.toNat 0 (M.norm rt (μ 0))
  have nd : CDet sz (residNorm rt M.interior (M.arr 0 .dstate)) (μ 0) (M.norm rt (μ 0)) (μ 0) := norm_det hM h0 rt (μ 0)
  have pre : ∀ {rep : MGReport K} {m' : Mem A K},
      CDet sz (M.cycles (vCycle n d) rt tol (M.norm rt (μ 0)) dt time maxCycles.toNat 0 (M.norm rt (μ 0)) (D 0)) (μ 0) rep m' →
      CDet sz (M.doTimeStep (vCycle n d) rt tol maxCycles time dt dts) m rep m' := fun h => by
    unfold MG.doTimeStep
    rw [if_neg fun hh => hdt hh.1 hh.2]
    rw [hD] at h
    rw [hμ] at h nd
    rw [← hμ] at h nd
    refine (CDet.ofHost d0).bind ?_
    rw [← hμ]
    exact nd.bind h
  have kold : M.Kept scratch (M.arr 0 .old) :=
    ⟨hM.fresh _ _, fun ℓ ρ e => Or.inl (hM.inj _ _ _ _ e).2.symm⟩
  have fin : ∃ rep m', CDet sz (M.cycles (vCycle n d) rt tol (M.norm rt (μ 0)) dt time maxCycles.toNat 0 (M.norm rt (μ 0)) (D 0)) (μ 0) rep m' ∧
      (∀ k : Nat, (k : Int) < maxCycles → mgConverged tol (M.norm rt (μ 0)) (M.norm rt (μ (k + 1))) →
        (∀ i, i < k → ¬ mgConverged tol (M.norm rt (μ 0)) (M.norm rt (μ (i + 1)))) →
        rep.cycles = k + 1 ∧ rep.resN = M.norm rt (μ (k + 1)) ∧ rep.dts = D (k + 1) ∧ m' = μ (k + 1)) ∧
      ((∀ i : Nat, (i : Int) < maxCycles → ¬ mgConverged tol (M.norm rt (μ 0)) (M.norm rt (μ (i + 1)))) →
        rep.cycles = 0 ∧ rep.resN = M.norm rt (μ maxCycles.toNat) ∧ rep.dts = D maxCycles.toNat ∧ m' = μ maxCycles.toNat) := by
    by_cases hex : ∃ k : Nat, (k : Int) < maxCycles ∧ mgConverged tol (M.norm rt (μ 0)) (M.norm rt (μ (k + 1)))
    · classical
      let k := Nat.find hex
      have hk := Nat.find_spec hex
      have hmin : ∀ i, i < k → ¬ mgConverged tol (M.norm rt (μ 0)) (M.norm rt (μ (i + 1))) := fun i hi hc =>
        Nat.find_min hex hi ⟨by have := hk.1; have : (i : Int) < k := by exact_mod_cast hi
                                omega, hc⟩
      have e : ∀ i, 0 + i + 1 = i + 1 := fun i => by omega
      have := c1 k (by have := hk.1; omega) (by rw [e]; exact hk.2) (fun i hi => by rw [e]; exact hmin i hi)
      rw [e] at this
      refine ⟨_, _, this, ?_, ?_⟩
      · intro k' h1 h2 h3
        have : k' = k := by
          rcases Nat.lt_trichotomy k' k with h | h | h
          · exact absurd h2 (hmin k' h)
          · exact h
          · exact absurd hk.2 (h3 k h)
        subst this
        exact ⟨rfl, rfl, rfl, rfl⟩
      · intro h; exact absurd hk.2 (h k hk.1)
    · have hno : ∀ i : Nat, (i : Int) < maxCycles → ¬ mgConverged tol (M.norm rt (μ 0)) (M.norm rt (μ (i + 1))) :=
        fun i hi hc => hex ⟨i, hi, hc⟩
      have := c2 (fun i hi => by rw [show 0 + i + 1 = i + 1 from by omega]; exact hno i (by omega))
      rw [show 0 + maxCycles.toNat = maxCycles.toNat from by omega] at this
      refine ⟨_, _, this, ?_, ?_⟩
      · intro k h1 h2; exact absurd h2 (hno k h1)
      · intro _
        refine ⟨rfl, ?_, rfl, rfl⟩
        dsimp only
        split
        · next hz => rw [hz]
        · rfl
  obtain ⟨rep, m', df, q1, q2⟩ := fin
  refine ⟨D, μ, rep, m', pre df, ?_, ?_, ?_, ?_, fun i b hb => by rw [hkeep i b hb, hμ], hD, hstep, q1, q2⟩
  · rw [hμ]; exact a1
  · intro i c hc; rw [hkeep i _ kold]; exact a2 c hc
  · rw [hμ]; exact a3
  · rw [hμ]; exact a4

end Madg
