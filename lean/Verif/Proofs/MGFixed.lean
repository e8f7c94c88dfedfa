/-
A solution of the level problem is a fixed point of the cycle below it.
-/
import Verif.Proofs.Multigrid

set_option linter.unusedSectionVars false
set_option linter.unusedVariables false

namespace Madg
open Spec
variable {A K C : Type} [DecidableEq A] [Field K]

/-- Without smoothing passes the slopes handed down are those of the allocation; they and the part of the update arrays
that prolongation does not write have to be zero, as constructed. -/
def MG.Quiet (M : MG A K) (P : Nat → C → Prop) (loc : Nat → C → Int) (W : Nat → Int → Prop) (n ℓ : Nat) (m : Mem A K) :
    Prop :=
  n = 0 → ∀ j, ℓ ≤ j → j < M.nlev → (∀ c, P j c → m (M.arr j .k4) (loc j c) = 0) ∧
    (∀ i, 0 ≤ i → i < M.size j → ¬ W j i → m (M.arr j .fineDelta) i = 0)

/-- Level `ℓ` holds the extension of `u` and `u` solves its problem. -/
structure MG.Solved (M : MG A K) (P : Nat → C → Prop) (loc : Nat → C → Int) (F : Nat → (C → K) → C → K)
    (H : Nat → (C → K) → Int → K) (dt : K) (ℓ : Nat) (u : C → K) (m : Mem A K) : Prop where
  full : ∀ n, 0 ≤ n → n < M.size ℓ → m (M.arr ℓ .state) n = H ℓ u n
  zero : ∀ c, P ℓ c → M.field F dt ℓ (inner (loc ℓ) m (M.par ℓ)) u c = 0

/-- Roles written on a level by the cycle that starts there. -/
def upRoles : List MGRole := [.state, .dstate, .k1, .k2, .k3, .k4, .stage, .fineDelta]

/-- `b` is not written by the cycle that starts on level `ℓ`. -/
def MG.Above (M : MG A K) (scratch : A → Prop) (ℓ : Nat) (b : A) : Prop :=
  ¬ scratch b ∧ ∀ j ρ, b = M.arr j ρ → j < ℓ ∨ (j = ℓ ∧ ρ ∉ upRoles)

variable [LinearOrder K]
variable {M : MG A K} {sz : A → Int} {scratch : A → Prop} {fx : A → Option (Int → K)} {P : Nat → C → Prop} {loc : Nat → C → Int}
  {F : Nat → (C → K) → C → K} {H : Nat → (C → K) → Int → K} {R T : Nat → (Int → K) → Int → K} {V W : Nat → Int → Prop}
  (hM : M.Ok sz scratch fx P loc F H R T V W)
include hM

theorem MG.Above.notRk {ℓ : Nat} {b : A} (h : M.Above scratch ℓ b) : b ∉ [(M.rk ℓ).sol, (M.rk ℓ).res, (M.rk ℓ).k1,
    (M.rk ℓ).k2, (M.rk ℓ).k3, (M.rk ℓ).k4, (M.rk ℓ).stage] := by
  intro hmem
  simp only [MG.rk, List.mem_cons, List.not_mem_nil, or_false] at hmem
  rcases hmem with rfl | rfl | rfl | rfl | rfl | rfl | rfl <;>
    rcases h.2 _ _ rfl with h | ⟨-, h⟩ <;> first | omega | exact h (by decide)

theorem MG.Ok.par_above (ℓ : Nat) : M.Above scratch ℓ (M.par ℓ) := by
  refine ⟨hM.par_fresh ℓ, fun j ρ e => ?_⟩
  cases ℓ with
  | zero => obtain ⟨rfl, rfl⟩ := hM.inj _ _ _ _ e; exact Or.inr ⟨rfl, by decide⟩
  | succ ℓ => obtain ⟨rfl, rfl⟩ := hM.inj _ _ _ _ e; exact Or.inr ⟨rfl, by decide⟩

/-- Arrays with given content keep it when only arrays of the cycle change. -/
theorem MG.Ok.off_holds {m m' : Mem A K} (hfx : Spec.Holds fx m)
    (h : ∀ b, ¬ scratch b → (∀ j ρ, b ≠ M.arr j ρ) → m' b = m b) : Spec.Holds fx m' :=
  hfx.frame fun b hb => h b (hM.off hb).1 (hM.off hb).2

theorem MG.notRk {ℓ : Nat} {b : A} (h : ∀ j ρ, b ≠ M.arr j ρ) : b ∉ [(M.rk ℓ).sol, (M.rk ℓ).res, (M.rk ℓ).k1, (M.rk ℓ).k2, (M.rk ℓ).k3, (M.rk ℓ).k4, (M.rk ℓ).stage] := by
  intro hmem
  simp only [MG.rk, List.mem_cons, List.not_mem_nil, or_false] at hmem
  rcases hmem with rfl | rfl | rfl | rfl | rfl | rfl | rfl <;> exact h _ _ rfl

theorem MG.above_off {ℓ : Nat} {b : A} (hs : ¬ scratch b) (h : ∀ j ρ, b ≠ M.arr j ρ) : M.Above scratch ℓ b :=
  ⟨hs, fun j ρ e => absurd e (h j ρ)⟩

/-- One smoothing pass at a solution. -/
theorem smooth_fixed (dt time δ : K) {ℓ : Nat} (hℓ : ℓ < M.nlev) (u : C → K) (m : Mem A K) (hfx : Holds fx m)
    (hu : ∀ c, P ℓ c → m (M.arr ℓ .state) (loc ℓ c) = u c)
    (hz : ∀ c, P ℓ c → M.field F dt ℓ (inner (loc ℓ) m (M.par ℓ)) u c = 0) :
    ∃ m', CDet sz (doSmooth (M.size ℓ) (M.levelRHS dt ℓ) (M.rk ℓ) time δ) m () m' ∧
      M.Solved P loc F H dt ℓ u m' ∧ (∀ c, P ℓ c → m' (M.arr ℓ .k4) (loc ℓ c) = 0) ∧
      (∀ c, P ℓ c → m' (M.arr ℓ .dstate) (loc ℓ c) = 0) ∧
      (∀ b, b ∉ [(M.rk ℓ).sol, (M.rk ℓ).res, (M.rk ℓ).k1, (M.rk ℓ).k2, (M.rk ℓ).k3, (M.rk ℓ).k4, (M.rk ℓ).stage] →
        ¬ scratch b → m' b = m b) := by
  obtain ⟨m', d, q⟩ := smooth_det hM dt time δ hℓ m hfx
  have hL := hM.levelRhs dt hℓ
  set y := inner (loc ℓ) m (M.rk ℓ).sol with hy
  have hyu : ∀ c, P ℓ c → y c = u c := hu
  set Φ := M.field F dt ℓ (inner (loc ℓ) m (M.par ℓ)) with hΦ
  have hcong : ∀ u v, (∀ c, P ℓ c → u c = v c) → ∀ c, P ℓ c → Φ u c = Φ v c :=
    fun u v h c hc => hL.interior _ _ _ _ (fun _ _ => rfl) h c hc
  have hzy : ∀ c, P ℓ c → Φ y c = 0 := fun c hc => by rw [hcong y u hyu c hc]; exact hz c hc
  have hst : ∀ c, P ℓ c → (bs23 : Tableau K).step (fun _ => Φ) 0 δ y c = u c := fun c hc => by
    rw [bs23_step_fixed Φ (P ℓ) hcong δ y hzy c hc]; exact hyu c hc
  have hpar : m' (M.par ℓ) = m (M.par ℓ) := q.frame _ (hM.par_notMem ℓ) (hM.par_fresh ℓ)
  refine ⟨m', d, ⟨?_, ?_⟩, ?_, ?_, q.frame⟩
  · intro n h0 h1
    exact (q.full n h0 h1).trans (hL.fill _ _ hst n h0 h1)
  · intro c hc
    have e : inner (loc ℓ) m' (M.par ℓ) = inner (loc ℓ) m (M.par ℓ) := by unfold inner; rw [hpar]
    rw [e]; exact hz c hc
  · intro c hc
    exact (q.k4 c hc).trans ((hcong _ _ hst c hc).trans (hz c hc))
  · intro c hc
    exact (q.res c hc).trans (bs23_slope_zero Φ (P ℓ) hcong δ y hzy c hc)

/-- `n` smoothing passes at a solution. -/
theorem smooths_fixed (dt time : K) {ℓ : Nat} (hℓ : ℓ < M.nlev) (u : C → K) (n : Nat) : ∀ (dts : Nat → K) (m : Mem A K),
    Holds fx m → (∀ c, P ℓ c → m (M.arr ℓ .state) (loc ℓ c) = u c) →
    (∀ c, P ℓ c → M.field F dt ℓ (inner (loc ℓ) m (M.par ℓ)) u c = 0) →
    ∃ dts' m', CDet sz (M.stages dt time (List.replicate n 0) ⟨ℓ, dts⟩) m ⟨ℓ, dts'⟩ m' ∧
      (1 ≤ n → M.Solved P loc F H dt ℓ u m' ∧ (∀ c, P ℓ c → m' (M.arr ℓ .k4) (loc ℓ c) = 0) ∧
        (∀ c, P ℓ c → m' (M.arr ℓ .dstate) (loc ℓ c) = 0)) ∧
      (n = 0 → m' = m) ∧
      (∀ b, b ∉ [(M.rk ℓ).sol, (M.rk ℓ).res, (M.rk ℓ).k1, (M.rk ℓ).k2, (M.rk ℓ).k3, (M.rk ℓ).k4, (M.rk ℓ).stage] →
        ¬ scratch b → m' b = m b) := by
  induction n with
  | zero => intro dts m _ _ _; exact ⟨dts, m, CDet.ret _ _, fun h => absurd h (by omega), fun _ => rfl, fun _ _ _ => rfl⟩
  | succ n ih =>
    intro dts m hfx hu hz
    obtain ⟨m1, d1, s1, k1, r1, f1⟩ := smooth_fixed hM dt time (dts ℓ) hℓ u m hfx hu hz
    have hL := hM.levelRhs dt hℓ
    have hu1 : ∀ c, P ℓ c → m1 (M.arr ℓ .state) (loc ℓ c) = u c := fun c hc => by
      obtain ⟨a0, a1⟩ := hL.range c hc
      rw [s1.full _ a0 a1, hL.keep _ c hc]
    obtain ⟨dts', m2, d2, p2, e2, f2⟩ := ih (fun i => if i = ℓ then M.smoothDt i else dts i) m1 (hM.off_holds hfx fun b hs hb => f1 b (MG.notRk hM hb) hs) hu1 s1.zero
    refine ⟨dts', m2, ?_, ?_, fun h => absurd h (by omega), ?_⟩
    · rw [List.replicate_succ, MG.stages]
      have : CDet sz (M.stage dt time ⟨ℓ, dts⟩ 0) m ⟨ℓ, fun i => if i = ℓ then M.smoothDt i else dts i⟩ m1 := by
        unfold MG.stage
        rw [if_pos rfl, if_pos hℓ]
        exact d1.bind (CDet.ret _ _)
      exact this.bind d2
    · intro _
      rcases Nat.eq_zero_or_pos n with h | h
      · rw [e2 h]; exact ⟨s1, k1, r1⟩
      · exact p2 h
    · intro b hb hs
      rw [f2 b hb hs, f1 b hb hs]

/-- The cycle from level `ℓ` down keeps a solution of level `ℓ`. -/
theorem cycle_fixed (dt time : K) (n d : Nat) : ∀ (ℓ : Nat) (u : C → K) (dts : Nat → K) (m : Mem A K),
    Holds fx m → ℓ + d < M.nlev → (∀ c, P ℓ c → m (M.arr ℓ .state) (loc ℓ c) = u c) →
    (∀ c, P ℓ c → M.field F dt ℓ (inner (loc ℓ) m (M.par ℓ)) u c = 0) →
    (n = 0 → ∀ i, 0 ≤ i → i < M.size ℓ → m (M.arr ℓ .state) i = H ℓ u i) → M.Quiet P loc W n ℓ m →
    ∃ dts' m', CDet sz (M.stages dt time (vCycle n d) ⟨ℓ, dts⟩) m ⟨ℓ, dts'⟩ m' ∧
      M.Solved P loc F H dt ℓ u m' ∧ M.Quiet P loc W n ℓ m' ∧
      (1 ≤ n → ∀ c, P ℓ c → m' (M.arr ℓ .k4) (loc ℓ c) = 0 ∧ m' (M.arr ℓ .dstate) (loc ℓ c) = 0) ∧
      (n = 0 → m' (M.arr ℓ .dstate) = m (M.arr ℓ .dstate)) ∧
      (∀ b, M.Above scratch ℓ b → m' b = m b) := by
  induction d with
  | zero =>
    intro ℓ u dts m hfx hd hu hz hfull hq
    have hℓ : ℓ < M.nlev := by omega
    have hL := hM.levelRhs dt hℓ
    have int : ∀ {μ : Mem A K}, M.Solved P loc F H dt ℓ u μ → ∀ c, P ℓ c → μ (M.arr ℓ .state) (loc ℓ c) = u c :=
      fun h c hc => by
        obtain ⟨a0, a1⟩ := hL.range c hc
        rw [h.full _ a0 a1, hL.keep _ c hc]
    have hc0 : vCycle n 0 = List.replicate (n + n) 0 := by rw [vCycle, List.replicate_append_replicate]
    obtain ⟨dts', m', d1, p1, e1, f1⟩ := smooths_fixed hM dt time hℓ u (n + n) dts m hfx hu hz
    refine ⟨dts', m', by rw [hc0]; exact d1, ?_, ?_, ?_, ?_, ?_⟩
    · rcases Nat.eq_zero_or_pos n with h | h
      · rw [e1 (by omega)]; exact ⟨hfull h, hz⟩
      · exact (p1 (by omega)).1
    · intro h; rw [e1 (by omega)]; exact hq h
    · intro h c hc
      obtain ⟨-, a, b⟩ := p1 (by omega)
      exact ⟨a c hc, b c hc⟩
    · intro h; rw [e1 (by omega)]
    · intro b hb; exact f1 b (hb.notRk hM) hb.1
  | succ d ih =>
    intro ℓ u dts m hfx hd hu hz hfull hq
    have hℓ : ℓ < M.nlev := by omega
    have hℓ1 : ℓ + 1 < M.nlev := by omega
    have hL := hM.levelRhs dt hℓ
    have hL1 := hM.levelRhs dt hℓ1
    have int : ∀ {μ : Mem A K}, M.Solved P loc F H dt ℓ u μ → ∀ c, P ℓ c → μ (M.arr ℓ .state) (loc ℓ c) = u c :=
      fun h c hc => by
        obtain ⟨a0, a1⟩ := hL.range c hc
        rw [h.full _ a0 a1, hL.keep _ c hc]
    -- smoothing
    obtain ⟨dts1, m1, d1, p1, e1, f1⟩ := smooths_fixed hM dt time hℓ u n dts m hfx hu hz
    have s1 : M.Solved P loc F H dt ℓ u m1 := by
      rcases Nat.eq_zero_or_pos n with h | h
      · rw [e1 h]; exact ⟨hfull h, hz⟩
      · exact (p1 h).1
    have k1 : ∀ c, P ℓ c → m1 (M.arr ℓ .k4) (loc ℓ c) = 0 := by
      rcases Nat.eq_zero_or_pos n with h | h
      · rw [e1 h]; exact (hq h ℓ le_rfl hℓ).1
      · exact (p1 h).2.1
    have x1 : Spec.Holds fx m1 := hM.off_holds hfx fun b hs hb => f1 b (MG.notRk hM hb) hs
    -- transfer
    obtain ⟨m2, d2, q2⟩ := setCoarse_det hM dt time hℓ1 m1 x1
    have x2 : Spec.Holds fx m2 := hM.off_holds x1 fun b hs hb => q2.frame b hs fun ρ _ => hb _ _
    set u' : C → K := fun c => R ℓ (m1 (M.arr ℓ .state)) (loc (ℓ + 1) c) with hu'
    have low2 : ∀ ρ, m2 (M.arr ℓ ρ) = m1 (M.arr ℓ ρ) := fun ρ =>
      q2.frame _ (hM.fresh _ _) fun σ _ => hM.ne (Or.inl (by omega))
    have s2 : M.Solved P loc F H dt (ℓ + 1) u' m2 := by
      refine ⟨q2.full, fun c hc => ?_⟩
      change F (ℓ + 1) u' c + m2 (M.arr (ℓ + 1) .src) (loc (ℓ + 1) c) = 0
      have hz : R ℓ (m1 (M.arr ℓ .k4)) (loc (ℓ + 1) c) = 0 :=
        (hM.restr ℓ hℓ1).zero _ (by rintro i ⟨c, hc, rfl⟩; exact k1 c hc) _ ⟨c, hc, rfl⟩
      rw [q2.src c hc, hz]; ring
    have int2 : ∀ c, P (ℓ + 1) c → m2 (M.arr (ℓ + 1) .state) (loc (ℓ + 1) c) = u' c := fun c hc => by
      obtain ⟨a0, a1⟩ := hL1.range c hc
      rw [s2.full _ a0 a1, hL1.keep _ c hc]
    have quiet2 : M.Quiet P loc W n ℓ m2 := by
      intro h j hj hjn
      have g1 : ∀ ρ ∈ [MGRole.k4, .fineDelta], m2 (M.arr j ρ) = m (M.arr j ρ) := fun ρ hρ => by
        rw [q2.frame _ (hM.fresh _ _) (fun σ hσ => hM.ne (Or.inr ?_)), e1 h]
        rintro rfl
        simp only [List.mem_cons, List.not_mem_nil, or_false] at hρ hσ
        rcases hρ with rfl | rfl <;> simp at hσ
      obtain ⟨a, b⟩ := hq h j hj hjn
      refine ⟨fun c hc => ?_, fun i i0 i1 hi => ?_⟩
      · rw [g1 _ (by simp)]; exact a c hc
      · rw [g1 _ (by simp)]; exact b i i0 i1 hi
    -- coarse cycle
    obtain ⟨dts3, m3, d3, s3, quiet3, -, -, f3⟩ := ih (ℓ + 1) u' dts1 m2 x2 (by omega) int2 s2.zero (fun _ => s2.full)
      (fun h j hj => quiet2 h j (by omega))
    have low3 : ∀ ρ, m3 (M.arr ℓ ρ) = m1 (M.arr ℓ ρ) := fun ρ => by
      rw [f3 _ ⟨hM.fresh _ _, fun j σ e => Or.inl (by have := (hM.inj _ _ _ _ e).1; omega)⟩, low2]
    have pre3 : m3 (M.arr (ℓ + 1) .pre) = m2 (M.arr (ℓ + 1) .pre) :=
      f3 _ ⟨hM.fresh _ _, fun j σ e => by
        obtain ⟨rfl, rfl⟩ := hM.inj _ _ _ _ e
        exact Or.inr ⟨rfl, by decide⟩⟩
    -- correction
    obtain ⟨m4, d4, q4⟩ := correct_det hM hℓ1 m3
    have w4 : ∀ i, W ℓ i → m4 (M.arr ℓ .fineDelta) i = 0 := fun i hi => by
      rw [q4.upd i hi]
      refine (hM.prol ℓ hℓ1).zero _ (fun x hx => ?_) i hi
      obtain ⟨a0, a1⟩ := hM.prolReads ℓ hℓ1 x hx
      rw [s3.full x a0 a1, pre3, q2.pre x a0 a1, sub_self]
    have st4 : ∀ i, 0 ≤ i → i < M.size ℓ → m4 (M.arr ℓ .fineDelta) i = 0 →
        m4 (M.arr ℓ .state) i = m1 (M.arr ℓ .state) i := fun i h0 h1 hz => by
      rw [q4.state i h0 h1, hz, mul_zero, add_zero, low3]
    have int4 : ∀ c, P ℓ c → m4 (M.arr ℓ .state) (loc ℓ c) = u c := fun c hc => by
      obtain ⟨a0, a1⟩ := hL.range c hc
      rw [st4 _ a0 a1 (w4 _ (hM.prolCovers ℓ hℓ1 _ ⟨c, hc, rfl⟩))]
      exact int s1 c hc
    have above4 : ∀ b, M.Above scratch ℓ b → m4 b = m b := fun b hb => by
      have hx : ∀ {j ρ}, (ℓ < j ∨ (j = ℓ ∧ ρ ∈ upRoles)) → b ≠ M.arr j ρ := by
        rintro j ρ h rfl
        rcases hb.2 _ _ rfl with h' | ⟨h', h''⟩
        · omega
        · rcases h with h | ⟨-, h⟩
          · omega
          · exact h'' h
      rw [q4.frame b (hx (Or.inr ⟨rfl, by decide⟩)) (hx (Or.inr ⟨rfl, by decide⟩)) (hx (Or.inl (by omega))),
        f3 b ⟨hb.1, fun j ρ e => Or.inl (by rcases hb.2 j ρ e with h | h <;> omega)⟩,
        q2.frame b hb.1 (fun ρ _ => hx (Or.inl (by omega))), f1 b (hb.notRk hM) hb.1]
    have zero4 : ∀ c, P ℓ c → M.field F dt ℓ (inner (loc ℓ) m4 (M.par ℓ)) u c = 0 := fun c hc => by
      have e : inner (loc ℓ) m4 (M.par ℓ) = inner (loc ℓ) m (M.par ℓ) := by
        unfold inner; rw [above4 _ (hM.par_above ℓ)]
      rw [e]; exact hz c hc
    have quiet4 : M.Quiet P loc W n ℓ m4 := by
      intro h j hj hjn
      rcases Nat.eq_or_lt_of_le hj with rfl | hlt
      · obtain ⟨a, b⟩ := quiet2 h ℓ le_rfl hjn
        refine ⟨fun c hc => ?_, fun i i0 i1 hi => ?_⟩
        · rw [q4.frame _ (hM.ne (Or.inr (by decide))) (hM.ne (Or.inr (by decide))) (hM.ne (Or.inr (by decide))), low3]
          exact k1 c hc
        · rw [q4.updOff i hi, low3, ← low2]; exact b i i0 i1 hi
      · obtain ⟨a, b⟩ := quiet3 h j (by omega) hjn
        have g : ∀ ρ ∈ [MGRole.k4, .fineDelta], m4 (M.arr j ρ) = m3 (M.arr j ρ) := fun ρ hρ => by
          refine q4.frame _ (hM.ne (Or.inl (by omega))) (hM.ne (Or.inl (by omega))) (hM.ne (Or.inr ?_))
          rintro rfl; simp at hρ
        refine ⟨fun c hc => ?_, fun i i0 i1 hi => ?_⟩
        · rw [g _ (by simp)]; exact a c hc
        · rw [g _ (by simp)]; exact b i i0 i1 hi
    -- smoothing
    obtain ⟨dts5, m5, d5, p5, e5, f5⟩ := smooths_fixed hM dt time hℓ u n dts3 m4
      (hM.off_holds hfx fun b hs hb => above4 b (MG.above_off hM hs hb)) int4 zero4
    refine ⟨dts5, m5, ?_, ?_, ?_, ?_, ?_, ?_⟩
    · have a1 : CDet sz (M.stages dt time [1] ⟨ℓ, dts1⟩) m1 ⟨ℓ + 1, dts1⟩ m2 := by
        unfold MG.stages
        refine CDet.bind (x := ⟨ℓ + 1, dts1⟩) ?_ (CDet.ret _ _)
        unfold MG.stage
        rw [if_neg (by decide), if_pos rfl, if_pos hℓ1]
        exact (CDet.ofHost d2).bind (CDet.ret _ _)
      have a2 : CDet sz (M.stages dt time [-1] ⟨ℓ + 1, dts3⟩) m3 ⟨ℓ, dts3⟩ m4 := by
        unfold MG.stages
        refine CDet.bind (x := ⟨ℓ, dts3⟩) ?_ (CDet.ret _ _)
        unfold MG.stage
        rw [if_neg (by decide), if_neg (by decide), if_pos rfl, if_pos ⟨by dsimp only; omega, hℓ1⟩]
        exact (CDet.ofHost d4).bind (CDet.ret _ _)
      rw [vCycle]
      exact stages_append hM dt time _ _ _ _ _ _ _ _ (stages_append hM dt time _ _ _ _ _ _ _ _
        (stages_append hM dt time _ _ _ _ _ _ _ _ (stages_append hM dt time _ _ _ _ _ _ _ _ d1 a1) d3) a2) d5
    · rcases Nat.eq_zero_or_pos n with h | h
      · rw [e5 h]
        refine ⟨fun i h0 h1 => ?_, zero4⟩
        have hz' : m4 (M.arr ℓ .fineDelta) i = 0 := by
          by_cases hw : W ℓ i
          · exact w4 i hw
          · exact (quiet4 h ℓ le_rfl hℓ).2 i h0 h1 hw
        rw [st4 i h0 h1 hz', e1 h]; exact hfull h i h0 h1
      · exact (p5 h).1
    · intro h; rw [e5 h]; exact quiet4 h
    · intro h c hc
      obtain ⟨-, a, b⟩ := p5 h
      exact ⟨a c hc, b c hc⟩
    · intro h
      rw [e5 h, q4.frame _ (hM.ne (Or.inr (by decide))) (hM.ne (Or.inr (by decide))) (hM.ne (Or.inl (by omega))), low3, e1 h]
    · intro b hb
      rw [f5 b (hb.notRk hM) hb.1]
      exact above4 b hb

end Madg
