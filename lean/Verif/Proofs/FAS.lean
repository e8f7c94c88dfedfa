/-
The multigrid cycle refines the full approximation scheme.
-/
import Verif.Spec.FAS
import Verif.Proofs.MGFixed

set_option linter.unusedSectionVars false
set_option linter.unusedVariables false

namespace Madg
open Spec
variable {A K C : Type} [DecidableEq A] [Field K]

section
variable {P : C → Prop} {Φ Ψ : (C → K) → C → K} (h : ∀ u v, (∀ c, P c → u c = v c) → ∀ c, P c → Φ u c = Ψ v c)
include h

theorem stage_congr2 (T : Tableau K) (t dt : K) (u v : C → K) (hu : ∀ c, P c → u c = v c) (i : Nat) :
    ∀ c, P c → T.stage (fun _ => Φ) t dt u i c = T.stage (fun _ => Ψ) t dt v i c := by
  induction i using Nat.strong_induction_on with
  | _ i ih =>
    intro c hc
    rw [Tableau.stage, Tableau.stage]
    refine h _ _ (fun c hc => ?_) c hc
    simp only [Pi.add_apply, Pi.smul_apply, Finset.sum_apply, hu c hc, smul_eq_mul]
    congr 2
    exact Finset.sum_congr rfl fun j _ => by rw [ih j j.2 c hc]

theorem slope_congr2 (T : Tableau K) (t dt : K) (u v : C → K) (hu : ∀ c, P c → u c = v c) :
    ∀ c, P c → T.slope (fun _ => Φ) t dt u c = T.slope (fun _ => Ψ) t dt v c := by
  intro c hc
  simp only [Tableau.slope, Finset.sum_apply, Pi.smul_apply, smul_eq_mul]
  exact Finset.sum_congr rfl fun j _ => by rw [stage_congr2 h T t dt u v hu j c hc]

theorem step_congr2 (T : Tableau K) (t dt : K) (u v : C → K) (hu : ∀ c, P c → u c = v c) :
    ∀ c, P c → T.step (fun _ => Φ) t dt u c = T.step (fun _ => Ψ) t dt v c := by
  intro c hc
  simp only [Tableau.step, Pi.add_apply, Pi.smul_apply, smul_eq_mul, hu c hc]
  rw [slope_congr2 h T t dt u v hu c hc]

end

/-- Level `ℓ` holds the field `us.1` and the slope `us.2`; if `full`, also the extended field and its residual. -/
structure MG.Holds (M : MG A K) (P : Nat → C → Prop) (loc : Nat → C → Int) (H : Nat → (C → K) → Int → K)
    (Φ : (C → K) → C → K) (ℓ : Nat) (us : (C → K) × (C → K)) (m : Mem A K) : Prop where
  full : ∀ n, 0 ≤ n → n < M.size ℓ → m (M.arr ℓ .state) n = H ℓ us.1 n
  slope : ∀ c, P ℓ c → m (M.arr ℓ .dstate) (loc ℓ c) = us.2 c
  resid : ∀ c, P ℓ c → m (M.arr ℓ .k4) (loc ℓ c) = Φ us.1 c

/-- The scheme that the hierarchy implements. -/
structure MG.Implements (M : MG A K) (P : Nat → C → Prop) (loc : Nat → C → Int) (F : Nat → (C → K) → C → K)
    (H : Nat → (C → K) → Int → K) (R T : Nat → (Int → K) → Int → K) (S : Fas C K) : Prop where
  op : ∀ ℓ, ℓ < M.nlev → ∀ u c, P ℓ c → S.F ℓ u c = F ℓ u c
  restr : ∀ ℓ, ℓ + 1 < M.nlev → ∀ (w : Int → K) u, (∀ c, P ℓ c → w (loc ℓ c) = u c) →
    ∀ c, P (ℓ + 1) c → R ℓ w (loc (ℓ + 1) c) = S.R ℓ u c
  prol : ∀ ℓ, ℓ + 1 < M.nlev → ∀ (w : Int → K) v v0,
    (∀ n, 0 ≤ n → n < M.size (ℓ + 1) → w n = H (ℓ + 1) v n - H (ℓ + 1) v0 n) →
    ∀ c, P ℓ c → T ℓ w (loc ℓ c) = S.T ℓ (fun c => v c - v0 c) c
  dt : ∀ ℓ, ℓ < M.nlev → S.dt ℓ = M.smoothDt ℓ
  relax : ∀ ℓ, S.relax ℓ = if ℓ = 0 then M.relaxFine else M.relaxCoarse

variable [LinearOrder K]
variable {M : MG A K} {sz : A → Int} {scratch : A → Prop} {fx : A → Option (Int → K)} {P : Nat → C → Prop} {loc : Nat → C → Int}
  {F : Nat → (C → K) → C → K} {H : Nat → (C → K) → Int → K} {R T : Nat → (Int → K) → Int → K} {V W : Nat → Int → Prop}
  {S : Fas C K}
  (hM : M.Ok sz scratch fx P loc F H R T V W) (hS : M.Implements P loc F H R T S)
include hM

/-- `n` smoothing passes. -/
theorem smooths_fas (hdt : ∀ ℓ, ℓ < M.nlev → S.dt ℓ = M.smoothDt ℓ) (dt time : K) {ℓ : Nat} (hℓ : ℓ < M.nlev)
    (Φ : (C → K) → C → K) (n : Nat) : ∀ (δ : K) (us : (C → K) × (C → K)) (dts : Nat → K) (m : Mem A K), Spec.Holds fx m → dts ℓ = δ →
    (∀ c, P ℓ c → m (M.arr ℓ .state) (loc ℓ c) = us.1 c) →
    (∀ u v, (∀ c, P ℓ c → u c = v c) → ∀ c, P ℓ c → M.field F dt ℓ (inner (loc ℓ) m (M.par ℓ)) u c = Φ v c) →
    ∃ dts' m', CDet sz (M.stages dt time (List.replicate n 0) ⟨ℓ, dts⟩) m ⟨ℓ, dts'⟩ m' ∧
      (1 ≤ n → M.Holds P loc H Φ ℓ (smoothN Φ δ (S.dt ℓ) n us) m') ∧
      (1 ≤ n → dts' ℓ = S.dt ℓ) ∧ (∀ j, j ≠ ℓ → dts' j = dts j) ∧
      (∀ b, b ∉ [(M.rk ℓ).sol, (M.rk ℓ).res, (M.rk ℓ).k1, (M.rk ℓ).k2, (M.rk ℓ).k3, (M.rk ℓ).k4, (M.rk ℓ).stage] →
        ¬ scratch b → m' b = m b) := by
  induction n with
  | zero =>
    intro δ us dts m _ _ _ _
    exact ⟨dts, m, CDet.ret _ _, fun h => absurd h (by omega), fun h => absurd h (by omega), fun _ _ => rfl,
      fun _ _ _ => rfl⟩
  | succ n ih =>
    intro δ us dts m hfx hδ hu hΦ
    obtain ⟨m1, d1, q1⟩ := smooth_det hM dt time (dts ℓ) hℓ m hfx
    have hL := hM.levelRhs dt hℓ
    have e1 := step_congr2 hΦ (bs23 : Tableau K) 0 (dts ℓ) (inner (loc ℓ) m (M.rk ℓ).sol) us.1 hu
    have e2 := slope_congr2 hΦ (bs23 : Tableau K) 0 (dts ℓ) (inner (loc ℓ) m (M.rk ℓ).sol) us.1 hu
    have hpar : m1 (M.par ℓ) = m (M.par ℓ) := q1.frame _ (hM.par_notMem ℓ) (hM.par_fresh ℓ)
    have hold1 : M.Holds P loc H Φ ℓ ((bs23 : Tableau K).step (fun _ => Φ) 0 δ us.1,
        (bs23 : Tableau K).slope (fun _ => Φ) 0 δ us.1) m1 := by
      subst hδ
      refine ⟨fun n h0 h1 => ?_, fun c hc => ?_, fun c hc => ?_⟩
      · exact (q1.full n h0 h1).trans (hL.fill _ _ e1 n h0 h1)
      · exact (q1.res c hc).trans (e2 c hc)
      · exact (q1.k4 c hc).trans (hΦ _ _ e1 c hc)
    have stg : CDet sz (M.stage dt time ⟨ℓ, dts⟩ 0) m ⟨ℓ, fun i => if i = ℓ then M.smoothDt i else dts i⟩ m1 := by
      unfold MG.stage
      rw [if_pos rfl, if_pos hℓ]
      exact d1.bind (CDet.ret _ _)
    obtain ⟨dts2, m2, d2, p2, t2, o2, f2⟩ := ih (S.dt ℓ) ((bs23 : Tableau K).step (fun _ => Φ) 0 δ us.1,
        (bs23 : Tableau K).slope (fun _ => Φ) 0 δ us.1) (fun i => if i = ℓ then M.smoothDt i else dts i) m1
      (hM.off_holds hfx fun b hs hb => q1.frame b (MG.notRk hM hb) hs) (by simp [hdt ℓ hℓ]) (fun c hc => by
        obtain ⟨a0, a1⟩ := hL.range c hc
        rw [hold1.full _ a0 a1, hL.keep _ c hc])
      (fun u v huv c hc => by
        have : inner (loc ℓ) m1 (M.par ℓ) = inner (loc ℓ) m (M.par ℓ) := by unfold inner; rw [hpar]
        rw [this]; exact hΦ u v huv c hc)
    refine ⟨dts2, m2, ?_, ?_, ?_, ?_, ?_⟩
    · rw [List.replicate_succ, MG.stages]
      exact stg.bind d2
    · intro _
      rcases Nat.eq_zero_or_pos n with rfl | h
      · cases CDet.unique d2 (CDet.ret _ _) with
        | intro _ e => rw [e]; exact hold1
      · exact p2 h
    · intro _
      rcases Nat.eq_zero_or_pos n with rfl | h
      · cases CDet.unique d2 (CDet.ret _ _) with
        | intro e _ =>
          have : dts2 = fun i => if i = ℓ then M.smoothDt i else dts i := congrArg MGPos.dts e
          rw [this]; simp [hdt ℓ hℓ]
      · exact t2 h
    · intro j hj
      rw [o2 j hj]; simp [hj]
    · intro b hb hs
      rw [f2 b hb hs, q1.frame b hb hs]

include hS

/-- The cycle from level `ℓ` down. -/
theorem cycle_fas (dt time : K) (n : Nat) (hn : 1 ≤ n) (e : Nat → K) (d : Nat) :
    ∀ (ℓ : Nat) (Φ : (C → K) → C → K) (us : (C → K) × (C → K)) (dts : Nat → K) (m : Mem A K),
    Spec.Holds fx m → ℓ + d < M.nlev → (∀ j, ℓ ≤ j → j ≤ ℓ + d → dts j = e j) →
    (∀ c, P ℓ c → m (M.arr ℓ .state) (loc ℓ c) = us.1 c) →
    (∀ u v, (∀ c, P ℓ c → u c = v c) → ∀ c, P ℓ c → M.field F dt ℓ (inner (loc ℓ) m (M.par ℓ)) u c = Φ v c) →
    ∃ dts' m', CDet sz (M.stages dt time (vCycle n d) ⟨ℓ, dts⟩) m ⟨ℓ, dts'⟩ m' ∧
      M.Holds P loc H Φ ℓ (S.cycle n e d ℓ Φ us) m' ∧
      (∀ j, ℓ ≤ j → j ≤ ℓ + d → dts' j = S.dt j) ∧ (∀ j, j < ℓ → dts' j = dts j) ∧
      (∀ b, M.Above scratch ℓ b → m' b = m b) := by
  induction d with
  | zero =>
    intro ℓ Φ us dts m hfx hd he hu hΦ
    obtain ⟨dts', m', d1, p1, t1, o1, f1⟩ := smooths_fas hM hS.dt dt time (ℓ := ℓ) (by omega) Φ (n + n) (e ℓ) us dts m hfx
      (he ℓ le_rfl (by omega)) hu hΦ
    refine ⟨dts', m', ?_, p1 (by omega), ?_, fun j hj => o1 j (by omega), fun b hb => f1 b (hb.notRk hM) hb.1⟩
    · rw [vCycle, List.replicate_append_replicate]; exact d1
    · intro j h1 h2
      have : j = ℓ := by omega
      subst this; exact t1 (by omega)
  | succ d ih =>
    intro ℓ Φ us dts m hfx hd he hu hΦ
    have hℓ : ℓ < M.nlev := by omega
    have hℓ1 : ℓ + 1 < M.nlev := by omega
    have hL := hM.levelRhs dt hℓ
    have hL1 := hM.levelRhs dt hℓ1
    have hΦc : ∀ u v, (∀ c, P ℓ c → u c = v c) → ∀ c, P ℓ c → Φ u c = Φ v c := fun u v huv c hc => by
      rw [← hΦ u u (fun _ _ => rfl) c hc]; exact hΦ u v huv c hc
    -- smoothing
    obtain ⟨dts1, m1, d1, p1, t1, o1, f1⟩ := smooths_fas hM hS.dt dt time hℓ Φ n (e ℓ) us dts m hfx (he ℓ le_rfl (by omega)) hu hΦ
    have s1 := p1 hn
    set u1 := (smoothN Φ (e ℓ) (S.dt ℓ) n us).1 with hu1
    have int1 : ∀ c, P ℓ c → m1 (M.arr ℓ .state) (loc ℓ c) = u1 c := fun c hc => by
      obtain ⟨a0, a1⟩ := hL.range c hc
      rw [s1.full _ a0 a1, hL.keep _ c hc]
    have x1 : Spec.Holds fx m1 := hM.off_holds hfx fun b hs hb => f1 b (MG.notRk hM hb) hs
    -- transfer
    obtain ⟨m2, d2, q2⟩ := setCoarse_det hM dt time hℓ1 m1 x1
    have x2 : Spec.Holds fx m2 := hM.off_holds x1 fun b hs hb => q2.frame b hs fun ρ _ => hb _ _
    set v0 := S.R ℓ u1 with hv0
    have r0 : ∀ c, P (ℓ + 1) c → R ℓ (m1 (M.arr ℓ .state)) (loc (ℓ + 1) c) = v0 c := hS.restr ℓ hℓ1 _ _ int1
    have r1 : ∀ c, P (ℓ + 1) c → R ℓ (m1 (M.arr ℓ .k4)) (loc (ℓ + 1) c) = S.R ℓ (Φ u1) c := hS.restr ℓ hℓ1 _ _ s1.resid
    have low2 : ∀ ρ, m2 (M.arr ℓ ρ) = m1 (M.arr ℓ ρ) := fun ρ =>
      q2.frame _ (hM.fresh _ _) fun σ _ => hM.ne (Or.inl (by omega))
    have full2 : ∀ x, 0 ≤ x → x < M.size (ℓ + 1) → m2 (M.arr (ℓ + 1) .state) x = H (ℓ + 1) v0 x := fun x h0 h1 =>
      (q2.full x h0 h1).trans (hL1.fill _ _ r0 x h0 h1)
    have pre2 : ∀ x, 0 ≤ x → x < M.size (ℓ + 1) → m2 (M.arr (ℓ + 1) .pre) x = H (ℓ + 1) v0 x := fun x h0 h1 =>
      (q2.pre x h0 h1).trans (hL1.fill _ _ r0 x h0 h1)
    have int2 : ∀ c, P (ℓ + 1) c → m2 (M.arr (ℓ + 1) .state) (loc (ℓ + 1) c) = v0 c := fun c hc => by
      obtain ⟨a0, a1⟩ := hL1.range c hc
      rw [full2 _ a0 a1, hL1.keep _ c hc]
    set Φ' : (C → K) → C → K := fun v c => S.F (ℓ + 1) v c - S.F (ℓ + 1) v0 c + S.R ℓ (Φ u1) c with hΦ'
    have hΦ2 : ∀ u v, (∀ c, P (ℓ + 1) c → u c = v c) → ∀ c, P (ℓ + 1) c →
        M.field F dt (ℓ + 1) (inner (loc (ℓ + 1)) m2 (M.par (ℓ + 1))) u c = Φ' v c := fun u v huv c hc => by
      change F (ℓ + 1) u c + m2 (M.arr (ℓ + 1) .src) (loc (ℓ + 1) c) = _
      rw [q2.src c hc, r1 c hc, hΦ', (hM.rhs (ℓ + 1) hℓ1).interior _ _ r0 c hc, (hM.rhs (ℓ + 1) hℓ1).interior _ _ huv c hc]
      dsimp only
      rw [hS.op _ hℓ1 _ _ hc, hS.op _ hℓ1 _ _ hc]
      ring
    -- coarse cycle
    obtain ⟨dts3, m3, d3, s3, t3, o3, f3⟩ := ih (ℓ + 1) Φ' (v0, 0) dts1 m2 x2 (by omega)
      (fun j h1 h2 => by rw [o1 j (by omega)]; exact he j (by omega) (by omega)) int2 hΦ2
    set v := (S.cycle n e d (ℓ + 1) Φ' (v0, 0)).1 with hv
    have low3 : ∀ ρ, m3 (M.arr ℓ ρ) = m1 (M.arr ℓ ρ) := fun ρ => by
      rw [f3 _ ⟨hM.fresh _ _, fun j σ e => Or.inl (by have := (hM.inj _ _ _ _ e).1; omega)⟩, low2]
    have pre3 : m3 (M.arr (ℓ + 1) .pre) = m2 (M.arr (ℓ + 1) .pre) :=
      f3 _ ⟨hM.fresh _ _, fun j σ e => by
        obtain ⟨rfl, rfl⟩ := hM.inj _ _ _ _ e
        exact Or.inr ⟨rfl, by decide⟩⟩
    -- correction
    obtain ⟨m4, d4, q4⟩ := correct_det hM hℓ1 m3
    set u4 : C → K := fun c => u1 c + S.relax ℓ * S.T ℓ (fun c => v c - v0 c) c with hu4
    have int4 : ∀ c, P ℓ c → m4 (M.arr ℓ .state) (loc ℓ c) = u4 c := fun c hc => by
      obtain ⟨a0, a1⟩ := hL.range c hc
      rw [q4.state _ a0 a1, q4.upd _ (hM.prolCovers ℓ hℓ1 _ ⟨c, hc, rfl⟩), low3, int1 c hc, hS.prol ℓ hℓ1 _ v v0 (fun x h0 h1 => by
        rw [s3.full x h0 h1, pre3, pre2 x h0 h1]) c hc, ← hS.relax]
    have above4 : ∀ b, M.Above scratch ℓ b → m4 b = m b := fun b hb => by
      have hx : ∀ {j ρ}, (ℓ < j ∨ (j = ℓ ∧ ρ ∈ upRoles)) → b ≠ M.arr j ρ := by
        rintro j ρ h rfl
        rcases hb.2 _ _ rfl with h' | ⟨h', h''⟩
        · omega
        · rcases h with h | ⟨-, h⟩
          · omega
          · exact h'' h
      rw [q4.frame b (hx (Or.inr ⟨rfl, by decide⟩)) (hx (Or.inr ⟨rfl, by decide⟩)) (hx (Or.inl (by omega))),
        f3 b ⟨hb.1, fun j ρ e => Or.inl (by rcases hb.2 j ρ e with h | h <;> omega)⟩,
        q2.frame b hb.1 (fun ρ _ => hx (Or.inl (by omega))), f1 b (hb.notRk hM) hb.1]
    have hΦ4 : ∀ u v, (∀ c, P ℓ c → u c = v c) → ∀ c, P ℓ c →
        M.field F dt ℓ (inner (loc ℓ) m4 (M.par ℓ)) u c = Φ v c := fun u v huv c hc => by
      have e : inner (loc ℓ) m4 (M.par ℓ) = inner (loc ℓ) m (M.par ℓ) := by
        unfold inner; rw [above4 _ (hM.par_above ℓ)]
      rw [e]; exact hΦ u v huv c hc
    -- smoothing
    obtain ⟨dts5, m5, d5, p5, t5, o5, f5⟩ := smooths_fas hM hS.dt dt time hℓ Φ n (S.dt ℓ) (u4, 0) dts3 m4
      (hM.off_holds hfx fun b hs hb => above4 b (MG.above_off hM hs hb))
      (by rw [o3 ℓ (by omega)]; exact t1 hn) int4 hΦ4
    refine ⟨dts5, m5, ?_, ?_, ?_, ?_, ?_⟩
    · have a1 : CDet sz (M.stages dt time [1] ⟨ℓ, dts1⟩) m1 ⟨ℓ + 1, dts1⟩ m2 := by
        unfold MG.stages
        refine CDet.bind (x := ⟨ℓ + 1, dts1⟩) ?_ (CDet.ret _ _)
        unfold MG.stage
        rw [if_neg (by decide), if_pos rfl, if_pos hℓ1]
        exact (CDet.ofHost d2).bind (CDet.ret _ _)
      have a2 : CDet sz (M.stages dt time [-1] ⟨ℓ + 1, dts3⟩) m3 ⟨ℓ, dts3⟩ m4 := by
        unfold MG.stages
        refine CDet.bind (x := ⟨ℓ, dts3⟩) ?_ (CDet.ret _ _)
        unfold MG.stage
        rw [if_neg (by decide), if_neg (by decide), if_pos rfl, if_pos ⟨by dsimp only; omega, hℓ1⟩]
        exact (CDet.ofHost d4).bind (CDet.ret _ _)
      rw [vCycle]
      exact stages_append hM dt time _ _ _ _ _ _ _ _ (stages_append hM dt time _ _ _ _ _ _ _ _
        (stages_append hM dt time _ _ _ _ _ _ _ _ (stages_append hM dt time _ _ _ _ _ _ _ _ d1 a1) d3) a2) d5
    · exact p5 hn
    · intro j h1 h2
      rcases Nat.eq_or_lt_of_le h1 with rfl | hlt
      · exact t5 hn
      · rw [o5 j (by omega)]; exact t3 j (by omega) (by omega)
    · intro j hj
      rw [o5 j (by omega), o3 j (by omega), o1 j (by omega)]
    · intro b hb
      rw [f5 b (hb.notRk hM) hb.1]
      exact above4 b hb

end Madg
