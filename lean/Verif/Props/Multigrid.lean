/-
Multigrid (C51, C52, C53, C54).
-/
import Verif.Proofs.Schedule
import Verif.Proofs.MGStep
import Verif.Proofs.MGCH

set_option linter.unusedSectionVars false
set_option linter.unusedVariables false

namespace Madg
open Spec

/-! ### C51 -/

/-- For one to six levels and any number of passes: only smoothing, descents and ascents occur; the level stays between
the finest and the coarsest and no stage leaves this range; the cycle ends where it started. -/
theorem C51_stays_on_levels (L n : Int) (h1 : 1 ≤ L) (h6 : L ≤ 6) (hn : 0 ≤ n) :
    ∃ cyc, getMGCycle L n = .ok cyc ∧ cyc.sum = 0 ∧
      ∀ x ∈ visits 0 cyc, 0 ≤ x.1 ∧ x.1 < L ∧ (x.2 = 0 ∨ (x.2 = 1 ∧ x.1 + 1 < L) ∨ (x.2 = -1 ∧ 0 < x.1)) := by
  refine ⟨_, getMGCycle_eq h1 h6 hn, vCycle_sum _ _, fun x hx => ?_⟩
  obtain ⟨a, b, c⟩ := vCycle_range _ _ _ x hx
  have : ((L - 1).toNat : Int) = L - 1 := Int.toNat_of_nonneg (by omega)
  refine ⟨a, by omega, ?_⟩
  rcases c with c | ⟨c, e⟩ | ⟨c, e⟩
  · exact Or.inl c
  · exact Or.inr (Or.inl ⟨c, by omega⟩)
  · exact Or.inr (Or.inr ⟨c, e⟩)

/-- Each level is smoothed `2 n` times and each transfer happens once in each direction, so with a pass per level the
coarsest level is visited. -/
theorem C51_counts (L n : Int) (h1 : 1 ≤ L) (h6 : L ≤ 6) (hn : 0 ≤ n) :
    ∃ cyc, getMGCycle L n = .ok cyc ∧
      (∀ l, 0 ≤ l → l < L → ((visits 0 cyc).count (l, 0) : Int) = 2 * n) ∧
      (∀ l, 0 ≤ l → l + 1 < L → (visits 0 cyc).count (l, 1) = 1 ∧ (visits 0 cyc).count (l + 1, -1) = 1) := by
  have e : ((L - 1).toNat : Int) = L - 1 := Int.toNat_of_nonneg (by omega)
  refine ⟨_, getMGCycle_eq h1 h6 hn, fun l h0 hl => ?_, fun l h0 hl => ?_⟩
  · rw [vCycle_smooths _ _ _ _ (by omega)]; push_cast; omega
  · exact vCycle_down _ _ _ _ (by omega)

/-- All descents come before all ascents. -/
theorem C51_descends_first (L n : Int) (h1 : 1 ≤ L) (h6 : L ≤ 6) (hn : 0 ≤ n) :
    ∃ a b, getMGCycle L n = .ok (a ++ b) ∧ (∀ s ∈ a, s = 0 ∨ s = 1) ∧ (∀ s ∈ b, s = 0 ∨ s = -1) ∧ a.sum = L - 1 := by
  have e : ((L - 1).toNat : Int) = L - 1 := Int.toNat_of_nonneg (by omega)
  obtain ⟨a, b, h, ha, hb⟩ := vCycle_split n.toNat (L - 1).toNat
  refine ⟨a, b, by rw [getMGCycle_eq h1 h6 hn, h], ha, hb, ?_⟩
  have cnt : ∀ (l : List Int) (ℓ : Int), (∀ s ∈ l, s = 0 ∨ s = 1) →
      l.sum = (l.count 1 : Int) := by
    intro l
    induction l with
    | nil => intro _ _; simp
    | cons s l ih =>
      intro ℓ hl
      have i := ih ℓ fun s hs => hl s (List.mem_cons_of_mem _ hs)
      rcases hl s List.mem_cons_self with rfl | rfl
      · rw [List.sum_cons, List.count_cons_of_ne (by decide), i, zero_add]
      · rw [List.sum_cons, List.count_cons_self, i]; push_cast; ring
  have tot : ∀ d : Nat, (vCycle n.toNat d).count 1 = d := by
    intro d
    induction d with
    | zero => rw [vCycle, List.count_append, List.count_replicate]; rfl
    | succ d ih =>
      rw [vCycle]
      simp only [List.count_append, ih, List.count_replicate]
      simp
      omega
  have cb : b.count 1 = 0 := by
    rw [List.count_eq_zero]
    intro hm
    rcases hb 1 hm with h | h <;> revert h <;> decide
  have := tot (L - 1).toNat
  rw [h, List.count_append, cb, Nat.add_zero] at this
  rw [cnt a 0 ha, this, e]

/-- Any other number of levels aborts, a negative number of passes throws, and nothing else can go wrong. -/
theorem C51_other_inputs (L n : Int) :
    (getMGCycle L n = .error .thrown ↔ n < 0) ∧ (getMGCycle L n = .error .abort ↔ 0 ≤ n ∧ ¬ (1 ≤ L ∧ L ≤ 6)) := by
  by_cases hn : n < 0
  · have : getMGCycle L n = .error .thrown := by unfold getMGCycle; rw [if_pos hn]
    rw [this]
    exact ⟨⟨fun _ => hn, fun _ => rfl⟩, ⟨fun h => (by cases h), fun h => absurd hn (by omega)⟩⟩
  · by_cases hL : 1 ≤ L ∧ L ≤ 6
    · rw [getMGCycle_eq hL.1 hL.2 (by omega)]
      exact ⟨⟨fun h => (by cases h), fun h => absurd h hn⟩, ⟨fun h => (by cases h), fun h => absurd hL h.2⟩⟩
    · have : getMGCycle L n = .error .abort := by
        unfold getMGCycle
        rw [if_neg hn, if_neg (by omega), if_neg (by omega), if_neg (by omega), if_neg (by omega), if_neg (by omega),
          if_neg (by omega)]
      rw [this]
      exact ⟨⟨fun h => (by cases h), fun h => absurd h hn⟩, ⟨fun _ => ⟨by omega, hL⟩, fun _ => rfl⟩⟩

example : getMGCycle 3 2 = .ok [0, 0, 1, 0, 0, 1, 0, 0, 0, 0, -1, 0, 0, -1, 0, 0] := rfl
example : getMGCycle 7 1 = .error .abort := rfl
example : getMGCycle 2 (-1) = .error .thrown := rfl

/-! ### The Cahn–Hilliard hierarchy -/

section
variable {A K : Type} [DecidableEq A] [Field K] [LinearOrder K] [CharZero K]
  {nlev : Nat} {g : Nat → Grid3} {bx bY bz : BCType} {G : Nat → Geom3} {v : Int} {mode : String}
  {arr : Nat → MGRole → A} {wk : Nat → Fin 4 → A} {sz : A → Int}
  (hH : HierOk nlev g bx bY bz G v mode arr wk sz) (dx : Nat → K) (p : CHParams K) (cfl rf rc : K) (un : Bool)
  (M : MG A K) (hMdef : M = chMG nlev G dx v p wk arr mode cfl rf rc un)
include hH hMdef

/-- C52. After a smoothing pass on a level and the transfer to the next coarser one, evaluate both levels' right-hand
sides at their states: the transferred state is the average of the finer state, and the coarse right-hand side is the
average of the finer one. -/
theorem C52_coarse_residual (ℓ : Nat) (hℓ : ℓ + 1 < nlev) (dt time : K) (dts : Nat → K) (m : Mem A K) :
    ∃ dts' m1 m2, CDet sz (M.stages dt time [0, 1] ⟨ℓ, dts⟩) m ⟨ℓ + 1, dts'⟩ m1 ∧
      Det sz (M.levelRHS dt ℓ (arr ℓ .state) (arr ℓ .k1) time ++
        M.levelRHS dt (ℓ + 1) (arr (ℓ + 1) .state) (arr (ℓ + 1) .k1) time) m1 m2 ∧
      (∀ i j k, (0 ≤ i ∧ i < (g (ℓ + 1)).ni) → (0 ≤ j ∧ j < (g (ℓ + 1)).nj) → (0 ≤ k ∧ k < (g (ℓ + 1)).nk) →
        m2 (arr (ℓ + 1) .state) ((g (ℓ + 1)).at3 i j k) = avg8 (fun x y z => m2 (arr ℓ .state) ((g ℓ).at3 x y z)) i j k ∧
        m2 (arr (ℓ + 1) .k1) ((g (ℓ + 1)).at3 i j k) = avg8 (fun x y z => m2 (arr ℓ .k1) ((g ℓ).at3 x y z)) i j k) ∧
      ((∀ i j k, (0 ≤ i ∧ i < (g ℓ).ni) → (0 ≤ j ∧ j < (g ℓ).nj) → (0 ≤ k ∧ k < (g ℓ).nk) →
          m2 (arr ℓ .k1) ((g ℓ).at3 i j k) = 0) →
        ∀ i j k, (0 ≤ i ∧ i < (g (ℓ + 1)).ni) → (0 ≤ j ∧ j < (g (ℓ + 1)).nj) → (0 ≤ k ∧ k < (g (ℓ + 1)).nk) →
          m2 (arr (ℓ + 1) .k1) ((g (ℓ + 1)).at3 i j k) = 0) := by
  have hM := chMG_ok hH dx p cfl rf rc un
  rw [← hMdef] at hM
  have hn : M.nlev = nlev := by rw [hMdef]; rfl
  have ha : M.arr = arr := by rw [hMdef]; rfl
  have hsz : ∀ l, l < nlev → M.size l = (g l).size := fun l hl => by
    rw [hMdef]; exact congrArg Grid3.size (hH.levels l hl).2.2.1
  rw [← ha]
  have l0 : ℓ < M.nlev := by omega
  have l1 : ℓ + 1 < M.nlev := by omega
  have hL0 := hM.levelRhs dt l0
  have hL1 := hM.levelRhs dt l1
  obtain ⟨ma, da, qa⟩ := smooth_det hM dt time (dts ℓ) l0 m (holds_none m)
  obtain ⟨mb, db, qb⟩ := setCoarse_det hM dt time l1 ma (holds_none ma)
  have sta : CDet sz (M.stages dt time [0, 1] ⟨ℓ, dts⟩) m ⟨ℓ + 1, fun i => if i = ℓ then M.smoothDt i else dts i⟩ mb := by
    have s0 : CDet sz (M.stage dt time ⟨ℓ, dts⟩ 0) m ⟨ℓ, fun i => if i = ℓ then M.smoothDt i else dts i⟩ ma := by
      unfold MG.stage
      rw [if_pos rfl, if_pos l0]
      exact da.bind (CDet.ret _ _)
    have s1 : CDet sz (M.stage dt time ⟨ℓ, fun i => if i = ℓ then M.smoothDt i else dts i⟩ 1) ma
        ⟨ℓ + 1, fun i => if i = ℓ then M.smoothDt i else dts i⟩ mb := by
      unfold MG.stage
      rw [if_neg (by decide), if_pos rfl, if_pos l1]
      exact (CDet.ofHost db).bind (CDet.ret _ _)
    exact s0.bind (s1.bind (CDet.ret _ _))
  have par0 : M.arr ℓ .state ≠ M.par ℓ ∧ M.arr ℓ .k1 ≠ M.par ℓ := by
    cases ℓ <;> exact ⟨hM.ne (Or.inr (by decide)), hM.ne (Or.inr (by decide))⟩
  obtain ⟨mc, dc, rc1, kc, fc⟩ := hL0.run (M.arr ℓ .state) (M.arr ℓ .k1) time mb (holds_none mb) (hM.ne (Or.inr (by decide))) par0.1 par0.2
    (hM.fresh _ _) (hM.fresh _ _) rfl rfl (hM.size _ l0 _) (hM.size _ l0 _)
  obtain ⟨md, dd, rd, kd, fd⟩ := hL1.run (M.arr (ℓ + 1) .state) (M.arr (ℓ + 1) .k1) time mc (holds_none mc) (hM.ne (Or.inr (by decide)))
    (hM.ne (Or.inr (by decide))) (hM.ne (Or.inr (by decide)))
    (hM.fresh _ _) (hM.fresh _ _) rfl rfl (hM.size _ l1 _) (hM.size _ l1 _)
  have low : ∀ ρ, mb (M.arr ℓ ρ) = ma (M.arr ℓ ρ) := fun ρ =>
    qb.frame _ (hM.fresh _ _) fun σ _ => hM.ne (Or.inl (by omega))
  have lowd : ∀ ρ, md (M.arr ℓ ρ) = mc (M.arr ℓ ρ) := fun ρ =>
    fd _ (hM.ne (Or.inl (by omega))) (hM.ne (Or.inl (by omega))) (hM.fresh _ _)
  have hic : ∀ ρ, mc (M.arr (ℓ + 1) ρ) = mb (M.arr (ℓ + 1) ρ) := fun ρ =>
    fc _ (hM.ne (Or.inl (by omega))) (hM.ne (Or.inl (by omega))) (hM.fresh _ _)
  -- interior of the finer state
  have sf : ∀ c, In3 (g ℓ).ni (g ℓ).nj (g ℓ).nk c → md (M.arr ℓ .state) ((g ℓ).at3 c.1 c.2.1 c.2.2) =
      ma (M.arr ℓ .state) ((g ℓ).at3 c.1 c.2.1 c.2.2) := fun c hc => by
    obtain ⟨a0, a1⟩ := hL0.range c hc
    rw [lowd, kc _ a0 a1, hL0.keep _ c hc]
    unfold inner
    rw [low]
  -- the finer residual is the last slope of the pass
  have parEq : ma (M.par ℓ) = m (M.par ℓ) := qa.frame _ (hM.par_notMem ℓ) (hM.par_fresh ℓ)
  have parEqb : mb (M.par ℓ) = ma (M.par ℓ) := by cases ℓ <;> exact low _
  have kf : ∀ c, In3 (g ℓ).ni (g ℓ).nj (g ℓ).nk c → md (M.arr ℓ .k1) ((g ℓ).at3 c.1 c.2.1 c.2.2) =
      ma (M.arr ℓ .k4) ((g ℓ).at3 c.1 c.2.1 c.2.2) := fun c hc => by
    rw [lowd]
    refine (rc1 c hc).trans (Eq.trans ?_ (qa.k4 c hc).symm)
    refine hL0.interior _ _ _ _ ?_ ?_ c hc
    · intro c _; unfold inner; rw [parEqb, parEq]
    · intro c hc
      unfold inner
      rw [low]
      exact qa.sol c hc
  -- coarse state and residual
  obtain ⟨i1, i2⟩ := hH.levels (ℓ + 1) hℓ
  have okc : (g (ℓ + 1)).Ok := by
    have := hH.ext (ℓ + 1) hℓ
    exact ⟨by omega, by omega, by omega, by omega⟩
  have fine : Fine (g (ℓ + 1)) (g ℓ) := (hH.levels ℓ (by omega)).2.2.2 hℓ
  have rT : ∀ (u w : Int → K) (i j k : Int), In3 (g (ℓ + 1)).ni (g (ℓ + 1)).nj (g (ℓ + 1)).nk (i, j, k) →
      (∀ c, In3 (g ℓ).ni (g ℓ).nj (g ℓ).nk c → u ((g ℓ).at3 c.1 c.2.1 c.2.2) = w ((g ℓ).at3 c.1 c.2.1 c.2.2)) →
      restrT (g (ℓ + 1)) (g ℓ) u ((g (ℓ + 1)).at3 i j k) = avg8 (fun x y z => w ((g ℓ).at3 x y z)) i j k := by
    intro u w i j k hc huw
    have hx := (hM.restr ℓ l1).reads u w (by
      rintro n ⟨c, hc, rfl⟩; exact huw c hc) ((g (ℓ + 1)).at3 i j k) ⟨(i, j, k), hc, rfl⟩
    refine hx.trans ?_
    have hi : (g (ℓ + 1)).Int3 i j k := hc
    obtain ⟨e1, e2, e3⟩ := Grid3.get_at3 (hi.pad okc)
    unfold restrT
    rw [e1, e2, e3]
  have res : ∀ i j k, (0 ≤ i ∧ i < (g (ℓ + 1)).ni) → (0 ≤ j ∧ j < (g (ℓ + 1)).nj) → (0 ≤ k ∧ k < (g (ℓ + 1)).nk) →
        md (M.arr (ℓ + 1) .state) ((g (ℓ + 1)).at3 i j k) = avg8 (fun x y z => md (M.arr ℓ .state) ((g ℓ).at3 x y z)) i j k ∧
        md (M.arr (ℓ + 1) .k1) ((g (ℓ + 1)).at3 i j k) = avg8 (fun x y z => md (M.arr ℓ .k1) ((g ℓ).at3 x y z)) i j k := by
    intro i j k h1 h2 h3
    have hc : In3 (g (ℓ + 1)).ni (g (ℓ + 1)).nj (g (ℓ + 1)).nk (i, j, k) := ⟨h1, h2, h3⟩
    obtain ⟨a0, a1⟩ := hL1.range _ hc
    dsimp only at a0 a1
    have st : ∀ c, In3 (g (ℓ + 1)).ni (g (ℓ + 1)).nj (g (ℓ + 1)).nk c →
        mb (M.arr (ℓ + 1) .state) ((g (ℓ + 1)).at3 c.1 c.2.1 c.2.2) =
        restrT (g (ℓ + 1)) (g ℓ) (ma (M.arr ℓ .state)) ((g (ℓ + 1)).at3 c.1 c.2.1 c.2.2) := fun c hc => by
      obtain ⟨b0, b1⟩ := hL1.range _ hc
      exact (qb.full _ b0 b1).trans (hL1.keep _ c hc)
    constructor
    · rw [← rT _ _ i j k hc fun c hc => (sf c hc).symm, ← st _ hc, kd _ a0 a1]
      have := hL1.keep (inner (fun c : Int × Int × Int => (g (ℓ + 1)).at3 c.1 c.2.1 c.2.2) mc (M.arr (ℓ + 1) .state)) _ hc
      refine this.trans ?_
      unfold inner
      rw [hic]
    · rw [← rT _ _ i j k hc fun c hc => (kf c hc).symm]
      refine (rd _ hc).trans ?_
      change coarseField _ _ _ _ = _
      unfold coarseField
      have hs := qb.src _ hc
      have e1 : inner (fun c : Int × Int × Int => (g (ℓ + 1)).at3 c.1 c.2.1 c.2.2) mc (M.arr (ℓ + 1) .src) (i, j, k) =
          mb (M.arr (ℓ + 1) .src) ((g (ℓ + 1)).at3 i j k) := by unfold inner; rw [hic]
      have e2 := (hM.rhs (ℓ + 1) l1).interior
        (inner (fun c : Int × Int × Int => (g (ℓ + 1)).at3 c.1 c.2.1 c.2.2) mc (M.arr (ℓ + 1) .state))
        (fun c => restrT (g (ℓ + 1)) (g ℓ) (ma (M.arr ℓ .state)) ((g (ℓ + 1)).at3 c.1 c.2.1 c.2.2))
        (fun c hc => by unfold inner; rw [hic]; exact st c hc) _ hc
      refine (congrArg₂ (· + ·) e2 (e1.trans hs)).trans ?_
      ring
  refine ⟨_, mb, md, sta, det_append dc dd, res, fun hz i j k h1 h2 h3 => ?_⟩
  rw [(res i j k h1 h2 h3).2]
  obtain ⟨fi, fj, fk, -⟩ := fine
  unfold avg8
  simp only
  rw [hz _ _ _ (by omega) (by omega) (by omega), hz _ _ _ (by omega) (by omega) (by omega), hz _ _ _ (by omega) (by omega) (by omega),
    hz _ _ _ (by omega) (by omega) (by omega), hz _ _ _ (by omega) (by omega) (by omega), hz _ _ _ (by omega) (by omega) (by omega),
    hz _ _ _ (by omega) (by omega) (by omega), hz _ _ _ (by omega) (by omega) (by omega)]
  simp

/-- C53. A state whose interior solves the backward Euler equation of the step (or the steady equation) is kept by a whole
cycle with at least one smoothing pass, on any number of levels, for any step sizes, relaxation factors and prolongation,
and whatever the other arrays hold; afterwards the slope whose norm is tested is zero. -/
theorem C53_cycle_keeps_solution (hL : nlev ≤ 6) (n : Int) (hn : 1 ≤ n) (cyc : List Int)
    (hcyc : getMGCycle nlev n = .ok cyc) (dt time : K) (hdt : un = true → dt ≠ 0) (dts : Nat → K) (m : Mem A K) (u old : Int × Int × Int → K)
    (hu : ∀ c, In3 (g 0).ni (g 0).nj (g 0).nk c → m (arr 0 .state) ((g 0).at3 c.1 c.2.1 c.2.2) = u c)
    (ho : ∀ c, In3 (g 0).ni (g 0).nj (g 0).nk c → m (arr 0 .old) ((g 0).at3 c.1 c.2.1 c.2.2) = old c)
    (hsol : ∀ c, In3 (g 0).ni (g 0).nj (g 0).nk c →
      chField3 p (dx 0) bx bY bz (g 0).ni (g 0).nj (g 0).nk 0 u c = if un then (u c - old c) / dt else 0) :
    ∃ dts' m', CDet sz (M.stages dt time cyc ⟨0, dts⟩) m ⟨0, dts'⟩ m' ∧
      (∀ c, In3 (g 0).ni (g 0).nj (g 0).nk c → m' (arr 0 .state) ((g 0).at3 c.1 c.2.1 c.2.2) = u c ∧
        m' (arr 0 .old) ((g 0).at3 c.1 c.2.1 c.2.2) = old c ∧
        m' (arr 0 .dstate) ((g 0).at3 c.1 c.2.1 c.2.2) = 0) := by
  have hM := chMG_ok hH dx p cfl rf rc un
  rw [← hMdef] at hM
  have hnl : M.nlev = nlev := by rw [hMdef]; rfl
  have ha : M.arr = arr := by rw [hMdef]; rfl
  have hun : M.unsteady = un := by rw [hMdef]; rfl
  have hp := hH.pos
  rw [getMGCycle_eq (by omega) (by omega) (by omega)] at hcyc
  cases hcyc
  rw [← ha] at hu ho ⊢
  have hz : ∀ c, In3 (g 0).ni (g 0).nj (g 0).nk c → M.field (fun ℓ => chField3 p (dx ℓ) bx bY bz (g ℓ).ni (g ℓ).nj (g ℓ).nk 0) dt 0
      (inner (fun c : Int × Int × Int => (g 0).at3 c.1 c.2.1 c.2.2) m (M.par 0)) u c = 0 := fun c hc => by
    change fineField _ M.unsteady dt _ u c = 0
    unfold fineField
    rw [hsol c hc, hun, show inner (fun c : Int × Int × Int => (g 0).at3 c.1 c.2.1 c.2.2) m (M.par 0) c = old c from ho c hc]
    cases un <;> simp
    ring
  obtain ⟨dts', m', d, s, -, z, -, f⟩ := cycle_fixed hM dt time n.toNat ((nlev : Int) - 1).toNat 0 u dts m (holds_none m) (by omega) hu hz
    (fun h => absurd h (by omega)) (fun h => absurd h (by omega))
  refine ⟨dts', m', d, fun c hc => ⟨?_, ?_, (z (by omega) c hc).2⟩⟩
  · obtain ⟨a0, a1⟩ := (hM.rhs 0 (by omega)).range c hc
    rw [s.full _ a0 a1]
    exact (hM.rhs 0 (by omega)).keep _ c hc
  · have := f (M.arr 0 .old) (hM.par_above 0)
    rw [this]; exact ho c hc

/-- C53 without smoothing passes: the same for a state with filled halos, when the slopes and update arrays are zero as
constructed. -/
theorem C53_cycle_without_smoothing (hL : nlev ≤ 6) (cyc : List Int)
    (hcyc : getMGCycle nlev 0 = .ok cyc) (dt time : K) (hdt : un = true → dt ≠ 0) (dts : Nat → K) (m : Mem A K) (u old : Int × Int × Int → K)
    (hu : ∀ i j k, (g 0).Pad i j k → m (arr 0 .state) ((g 0).at3 i j k) =
      ext3 bx bY bz (g 0).ni (g 0).nj (g 0).nk (fun i j k => u (i, j, k)) i j k)
    (ho : ∀ c, In3 (g 0).ni (g 0).nj (g 0).nk c → m (arr 0 .old) ((g 0).at3 c.1 c.2.1 c.2.2) = old c)
    (hzero : ∀ ℓ, ℓ < nlev → ∀ i, 0 ≤ i → i < (g ℓ).size → m (arr ℓ .k4) i = 0 ∧ m (arr ℓ .fineDelta) i = 0)
    (hsol : ∀ c, In3 (g 0).ni (g 0).nj (g 0).nk c →
      chField3 p (dx 0) bx bY bz (g 0).ni (g 0).nj (g 0).nk 0 u c = if un then (u c - old c) / dt else 0) :
    ∃ dts' m', CDet sz (M.stages dt time cyc ⟨0, dts⟩) m ⟨0, dts'⟩ m' ∧
      (∀ i j k, (g 0).Pad i j k → m' (arr 0 .state) ((g 0).at3 i j k) = m (arr 0 .state) ((g 0).at3 i j k)) := by
  have hM := chMG_ok hH dx p cfl rf rc un
  rw [← hMdef] at hM
  have hnl : M.nlev = nlev := by rw [hMdef]; rfl
  have ha : M.arr = arr := by rw [hMdef]; rfl
  have hun : M.unsteady = un := by rw [hMdef]; rfl
  have hp := hH.pos
  have hsz : ∀ l, l < nlev → M.size l = (g l).size := fun l hl => by
    rw [hMdef]; exact congrArg Grid3.size (hH.levels l hl).2.2.1
  have ok0 : (g 0).Ok := by
    have := hH.ext 0 hp; have := hH.halo
    exact ⟨by omega, by omega, by omega, by omega⟩
  rw [getMGCycle_eq (by omega) (by omega) (by omega)] at hcyc
  cases hcyc
  rw [← ha] at hu ho hzero ⊢
  have hR := hM.rhs 0 (by omega)
  have hfull : ∀ i, 0 ≤ i → i < M.size 0 → m (M.arr 0 .state) i = fillH (g 0) bx bY bz u i := fun i i0 i1 => by
    rw [hsz 0 hp] at i1
    have := hu _ _ _ (Grid3.pad_get ok0 i0 i1)
    rw [Grid3.at3_get ok0 i0] at this
    exact this
  have hin : ∀ c, In3 (g 0).ni (g 0).nj (g 0).nk c → m (M.arr 0 .state) ((g 0).at3 c.1 c.2.1 c.2.2) = u c := fun c hc => by
    obtain ⟨a0, a1⟩ := hR.range c hc
    exact (hfull _ a0 a1).trans (hR.keep _ c hc)
  have hz : ∀ c, In3 (g 0).ni (g 0).nj (g 0).nk c → M.field (fun ℓ => chField3 p (dx ℓ) bx bY bz (g ℓ).ni (g ℓ).nj (g ℓ).nk 0) dt 0
      (inner (fun c : Int × Int × Int => (g 0).at3 c.1 c.2.1 c.2.2) m (M.par 0)) u c = 0 := fun c hc => by
    change fineField _ M.unsteady dt _ u c = 0
    unfold fineField
    rw [hsol c hc, hun, show inner (fun c : Int × Int × Int => (g 0).at3 c.1 c.2.1 c.2.2) m (M.par 0) c = old c from ho c hc]
    cases un <;> simp
    ring
  have hq : M.Quiet (fun ℓ => In3 (g ℓ).ni (g ℓ).nj (g ℓ).nk) (fun ℓ (c : Int × Int × Int) => (g ℓ).at3 c.1 c.2.1 c.2.2)
      (prolWrites mode g) 0 0 m := by
    intro _ j _ hj
    rw [hnl] at hj
    refine ⟨fun c hc => ?_, fun i i0 i1 _ => ?_⟩
    · obtain ⟨a0, a1⟩ := (hM.rhs j (by omega)).range c hc
      exact (hzero j hj _ a0 (by rw [← hsz j hj]; exact a1)).1
    · exact (hzero j hj i i0 (by rw [← hsz j hj]; exact i1)).2
  obtain ⟨dts', m', d, s, -⟩ := cycle_fixed hM dt time (Int.toNat 0) ((nlev : Int) - 1).toNat 0 u dts m (holds_none m) (by omega) hin hz
    (fun _ => hfull) hq
  refine ⟨dts', m', d, fun i j k hijk => ?_⟩
  obtain ⟨a0, a1⟩ := Grid3.at3_bounds hijk
  rw [s.full _ a0 (by rw [hsz 0 hp]; exact a1), hfull _ a0 (by rw [hsz 0 hp]; exact a1)]

/-- C54. The residual of the finest level in closed form: with `bdf1` it vanishes exactly if the state satisfies the
backward Euler equation, with `steady` exactly if the right-hand side vanishes. -/
theorem C54_fine_equation (dt time : K) (hdt : un = true → dt ≠ 0) (m : Mem A K) (u old : Int × Int × Int → K)
    (hu : ∀ c, In3 (g 0).ni (g 0).nj (g 0).nk c → m (arr 0 .state) ((g 0).at3 c.1 c.2.1 c.2.2) = u c)
    (ho : ∀ c, In3 (g 0).ni (g 0).nj (g 0).nk c → m (arr 0 .old) ((g 0).at3 c.1 c.2.1 c.2.2) = old c) :
    ∃ m', Det sz (M.levelRHS dt 0 (arr 0 .state) (arr 0 .dstate) time) m m' ∧
      (∀ c, In3 (g 0).ni (g 0).nj (g 0).nk c → m' (arr 0 .dstate) ((g 0).at3 c.1 c.2.1 c.2.2) =
        chField3 p (dx 0) bx bY bz (g 0).ni (g 0).nj (g 0).nk 0 u c - if un then (u c - old c) / dt else 0) ∧
      ((∀ c, In3 (g 0).ni (g 0).nj (g 0).nk c → m' (arr 0 .dstate) ((g 0).at3 c.1 c.2.1 c.2.2) = 0) ↔
        ∀ c, In3 (g 0).ni (g 0).nj (g 0).nk c →
          (if un then (u c - old c) / dt else 0) = chField3 p (dx 0) bx bY bz (g 0).ni (g 0).nj (g 0).nk 0 u c) := by
  have hM := chMG_ok hH dx p cfl rf rc un
  rw [← hMdef] at hM
  have hnl : M.nlev = nlev := by rw [hMdef]; rfl
  have ha : M.arr = arr := by rw [hMdef]; rfl
  have hun : M.unsteady = un := by rw [hMdef]; rfl
  have hp := hH.pos
  have l0 : 0 < M.nlev := by omega
  rw [← ha] at hu ho ⊢
  obtain ⟨m', d, r, -, -⟩ := (hM.levelRhs dt l0).run (M.arr 0 .state) (M.arr 0 .dstate) time m (holds_none m)
    (hM.ne (Or.inr (by decide))) (hM.ne (Or.inr (by decide))) (hM.ne (Or.inr (by decide))) (hM.fresh _ _) (hM.fresh _ _) rfl rfl (hM.size _ l0 _) (hM.size _ l0 _)
  have cf : ∀ c, In3 (g 0).ni (g 0).nj (g 0).nk c → m' (M.arr 0 .dstate) ((g 0).at3 c.1 c.2.1 c.2.2) =
        chField3 p (dx 0) bx bY bz (g 0).ni (g 0).nj (g 0).nk 0 u c - if un then (u c - old c) / dt else 0 := fun c hc => by
    refine (r c hc).trans (((hM.levelRhs dt l0).interior _ _ _ _ ho hu c hc).trans ?_)
    change fineField _ M.unsteady dt old u c = _
    unfold fineField
    rw [hun]
    cases un <;> simp
    ring
  refine ⟨m', d, cf, ?_⟩
  constructor
  · intro h c hc
    have := h c hc
    rw [cf c hc, sub_eq_zero] at this
    exact this.symm
  · intro h c hc
    rw [cf c hc, h c hc, sub_self]

/-- Root of the mean square of an array's interior. -/
theorem chMG_norm (rt : K → K) (m : Mem A K) : M.norm rt m =
    rt (sum3 (g 0).ni (g 0).nj (g 0).nk (fun i j k => m (arr 0 .dstate) ((g 0).at3 i j k) ^ 2) /
      ((g 0).ni * (g 0).nj * (g 0).nk : K)) := by
  subst hMdef
  obtain ⟨-, o, e, -⟩ := hH.levels 0 hH.pos
  unfold MG.norm chMG
  dsimp only
  rw [o.int_sum, o.length_int', e]

/-- C54. A time step of the multigrid integrator. There are memories `μ 0, μ 1, …`, the first one holding the residual of
the initial state and each one following from the one before by a cycle, such that the step is reported converged exactly if the
ratio of residual norms is at most the tolerance after one of the allowed cycles; it then stops after the first such
cycle, and otherwise after all of them. -/
theorem C54_convergence_report (hL : nlev ≤ 6) (n : Int) (hn : 0 ≤ n) (cyc : List Int) (hcyc : getMGCycle nlev n = .ok cyc)
    (rt : K → K) (tol : K) (maxCycles : Int) (time dt : K) (hdt : un = true → dt ≠ 0) (dts : Nat → K) (m : Mem A K) (res : Mem A K → K)
    (hres : ∀ m, res m = rt (sum3 (g 0).ni (g 0).nj (g 0).nk (fun i j k => m (arr 0 .dstate) ((g 0).at3 i j k) ^ 2) /
      ((g 0).ni * (g 0).nj * (g 0).nk : K))) :
    ∃ (D : Nat → Nat → K) (μ : Nat → Mem A K) (rep : MGReport K) (m' : Mem A K),
      CDet sz (M.doTimeStep cyc rt tol maxCycles time dt dts) m rep m' ∧
      (∀ c, In3 (g 0).ni (g 0).nj (g 0).nk c →
        μ 0 (arr 0 .dstate) ((g 0).at3 c.1 c.2.1 c.2.2) = chField3 p (dx 0) bx bY bz (g 0).ni (g 0).nj (g 0).nk 0
          (fun c => m (arr 0 .state) ((g 0).at3 c.1 c.2.1 c.2.2)) c ∧
        μ 0 (arr 0 .state) ((g 0).at3 c.1 c.2.1 c.2.2) = m (arr 0 .state) ((g 0).at3 c.1 c.2.1 c.2.2) ∧
        ∀ i, μ i (arr 0 .old) ((g 0).at3 c.1 c.2.1 c.2.2) = m (arr 0 .state) ((g 0).at3 c.1 c.2.1 c.2.2)) ∧
      (∀ i, CDet sz (M.stages dt time cyc ⟨0, D i⟩) (μ i) ⟨0, D (i + 1)⟩ (μ (i + 1))) ∧
      (rep.cycles ≠ 0 ↔ ∃ k : Nat, (k : Int) < maxCycles ∧ res (μ 0) ≠ 0 ∧ res (μ (k + 1)) / res (μ 0) ≤ tol) ∧
      (rep.cycles ≠ 0 → m' = μ rep.cycles ∧ rep.resN = res (μ rep.cycles) ∧ res (μ rep.cycles) / res (μ 0) ≤ tol ∧
        ∀ i, i + 1 < rep.cycles → ¬ (res (μ (i + 1)) / res (μ 0) ≤ tol)) ∧
      (rep.cycles = 0 → m' = μ maxCycles.toNat ∧ rep.resN = res (μ maxCycles.toNat)) := by
  have hM := chMG_ok hH dx p cfl rf rc un
  have hN := chMG_norm hH dx p cfl rf rc un M hMdef rt
  rw [← hMdef] at hM
  have hnl : M.nlev = nlev := by rw [hMdef]; rfl
  have ha : M.arr = arr := by rw [hMdef]; rfl
  have hp := hH.pos
  have er : ∀ m, M.norm rt m = res m := fun m => by rw [hN, hres]
  rw [getMGCycle_eq (by omega) (by omega) (by omega)] at hcyc
  cases hcyc
  rw [← ha]
  obtain ⟨D, μ, rep, m', d, s0, so, sd, -, -, hD, hst, c1, c2⟩ := timeStep_report hM (n := n.toNat) (d := ((nlev : Int) - 1).toNat)
    (by omega) rt tol maxCycles time dt dts m (holds_none m) (by rw [show M.unsteady = un by rw [hMdef]; rfl]; exact hdt)
  simp only [er] at c1 c2
  refine ⟨D, μ, rep, m', d, fun c hc => ⟨sd c hc, ?_, fun i => so i c hc⟩, hst, ?_, ?_, ?_⟩
  · obtain ⟨a0, a1⟩ := (hM.rhs 0 (by omega)).range c hc
    exact (s0 _ a0 a1).trans ((hM.rhs 0 (by omega)).keep _ c hc)
  all_goals
    by_cases hex : ∃ k : Nat, (k : Int) < maxCycles ∧ mgConverged tol (res (μ 0)) (res (μ (k + 1)))
  · classical
    have hk := Nat.find_spec hex
    have hmin := fun i hi (hc : mgConverged tol (res (μ 0)) (res (μ (i + 1)))) =>
      Nat.find_min hex (m := i) hi ⟨by omega, hc⟩
    obtain ⟨e, -⟩ := c1 _ hk.1 hk.2 hmin
    refine ⟨fun _ => hex, fun _ => by omega⟩
  · obtain ⟨e, -⟩ := c2 fun i hi hc => hex ⟨i, hi, hc⟩
    exact ⟨fun h => absurd e h, fun h => absurd h hex⟩
  · classical
    have hk := Nat.find_spec hex
    have hmin := fun i hi (hc : mgConverged tol (res (μ 0)) (res (μ (i + 1)))) =>
      Nat.find_min hex (m := i) hi ⟨by omega, hc⟩
    obtain ⟨e1, e2, e3, e4⟩ := c1 _ hk.1 hk.2 hmin
    intro _
    rw [e1]
    exact ⟨e4, e2, hk.2.2, fun i hi h => hmin i (by omega) ⟨hk.2.1, h⟩⟩
  · obtain ⟨e, -⟩ := c2 fun i hi hc => hex ⟨i, hi, hc⟩
    exact fun h => absurd e h
  · classical
    have hk := Nat.find_spec hex
    have hmin := fun i hi (hc : mgConverged tol (res (μ 0)) (res (μ (i + 1)))) =>
      Nat.find_min hex (m := i) hi ⟨by omega, hc⟩
    obtain ⟨e1, -⟩ := c1 _ hk.1 hk.2 hmin
    intro h
    omega
  · obtain ⟨e1, e2, e3, e4⟩ := c2 fun i hi hc => hex ⟨i, hi, hc⟩
    exact fun _ => ⟨e4, e2⟩

/-- C54. A step from a state with zero residual runs all cycles and is reported as not converged, although the state is
unchanged. -/
theorem C54_zero_residual_not_converged (hL : nlev ≤ 6) (n : Int) (hn : 1 ≤ n) (cyc : List Int)
    (hcyc : getMGCycle nlev n = .ok cyc) (rt : K → K) (hrt : rt 0 = 0) (tol : K) (maxCycles : Int) (time dt : K)
    (hdt : un = true → dt ≠ 0) (dts : Nat → K) (m : Mem A K)
    (hz : ∀ c, In3 (g 0).ni (g 0).nj (g 0).nk c → chField3 p (dx 0) bx bY bz (g 0).ni (g 0).nj (g 0).nk 0
      (fun c => m (arr 0 .state) ((g 0).at3 c.1 c.2.1 c.2.2)) c = 0) :
    ∃ rep m', CDet sz (M.doTimeStep cyc rt tol maxCycles time dt dts) m rep m' ∧ rep.cycles = 0 ∧ rep.resN = 0 ∧
      ∀ c, In3 (g 0).ni (g 0).nj (g 0).nk c →
        m' (arr 0 .state) ((g 0).at3 c.1 c.2.1 c.2.2) = m (arr 0 .state) ((g 0).at3 c.1 c.2.1 c.2.2) := by
  obtain ⟨D, μ, rep, m', d, h0, hst, h1, -, h3⟩ := C54_convergence_report hH dx p cfl rf rc un M hMdef hL n (by omega) cyc
    hcyc rt tol maxCycles time dt hdt dts m _ (fun _ => rfl)
  have zero : ∀ ν : Mem A K, (∀ c, In3 (g 0).ni (g 0).nj (g 0).nk c → ν (arr 0 .dstate) ((g 0).at3 c.1 c.2.1 c.2.2) = 0) →
      rt (sum3 (g 0).ni (g 0).nj (g 0).nk (fun i j k => ν (arr 0 .dstate) ((g 0).at3 i j k) ^ 2) /
      ((g 0).ni * (g 0).nj * (g 0).nk : K)) = 0 := fun ν hν => by
    have : sum3 (g 0).ni (g 0).nj (g 0).nk (fun i j k => ν (arr 0 .dstate) ((g 0).at3 i j k) ^ 2) =
        sum3 (g 0).ni (g 0).nj (g 0).nk (fun _ _ _ => (0 : K)) := sum3_congr fun i j k a b c => by
      have := hν (i, j, k) ⟨a, b, c⟩
      dsimp only at this
      rw [this]; ring
    rw [this]
    simp [sum3, hrt]
  have inv : ∀ i, ∀ c, In3 (g 0).ni (g 0).nj (g 0).nk c →
      μ i (arr 0 .state) ((g 0).at3 c.1 c.2.1 c.2.2) = m (arr 0 .state) ((g 0).at3 c.1 c.2.1 c.2.2) ∧
      μ i (arr 0 .dstate) ((g 0).at3 c.1 c.2.1 c.2.2) = 0 := by
    intro i
    induction i with
    | zero => intro c hc; exact ⟨(h0 c hc).2.1, by rw [(h0 c hc).1, hz c hc]⟩
    | succ i ih =>
      obtain ⟨dts', mi, di, hi⟩ := C53_cycle_keeps_solution hH dx p cfl rf rc un M hMdef hL n hn cyc hcyc dt time hdt (D i) (μ i)
        (fun c => m (arr 0 .state) ((g 0).at3 c.1 c.2.1 c.2.2)) (fun c => m (arr 0 .state) ((g 0).at3 c.1 c.2.1 c.2.2))
        (fun c hc => (ih c hc).1) (fun c hc => (h0 c hc).2.2 i) (fun c hc => by
          rw [hz c hc, sub_self, zero_div, ite_self])
      obtain ⟨e1, e2⟩ := CDet.unique (hst i) di
      intro c hc
      rw [e2]
      exact ⟨(hi c hc).1, (hi c hc).2.2⟩
  have c0 : rep.cycles = 0 := by
    by_contra h
    obtain ⟨k, -, hne, -⟩ := h1.1 h
    exact hne (zero _ fun c hc => (inv 0 c hc).2)
  obtain ⟨em, er⟩ := h3 c0
  refine ⟨rep, m', d, c0, ?_, fun c hc => ?_⟩
  · rw [er]; exact zero _ fun c hc => (inv _ c hc).2
  · rw [em]; exact (inv _ c hc).1

/-- C54. A backward Euler step of size zero has no result, on any memory: the equation of the step divides by its size. -/
theorem C54_zero_step (hun : un = true) (cyc : List Int) (rt : K → K) (tol : K) (maxCycles : Int) (time : K) (dts : Nat → K)
    (m : Mem A K) (o : Except Err (MGReport K × Mem A K)) :
    CmdOut sz (M.doTimeStep cyc rt tol maxCycles time 0 dts) m o ↔ o = .error .divByZero := by
  subst hMdef
  unfold MG.doTimeStep
  rw [if_pos ⟨hun, rfl⟩]
  constructor
  · intro h; cases h; rfl
  · rintro rfl; constructor

end

/-! ### C72 -/

/-- Grid of level `ℓ`: every extent divided by `2^ℓ`, the same halo width. -/
def Spec.levelGrid (g : Grid3) (ℓ : Nat) : Grid3 := ⟨g.ni / 2 ^ ℓ, g.nj / 2 ^ ℓ, g.nk / 2 ^ ℓ, g.nhalo⟩

theorem two_pow_dvd (n : Int) (more : Nat) : (2 : Int) ^ (more + 1) ∣ n ↔ 2 ∣ n ∧ (2 : Int) ^ more ∣ n / 2 := by
  constructor
  · rintro ⟨k, rfl⟩
    have e : (2 : Int) ^ (more + 1) * k = 2 * (2 ^ more * k) := by ring
    refine ⟨⟨_, e⟩, ?_⟩
    rw [e, Int.mul_ediv_cancel_left _ (by decide)]
    exact Dvd.intro _ rfl
  · rintro ⟨⟨k, rfl⟩, h⟩
    rw [Int.mul_ediv_cancel_left _ (by decide)] at h
    rw [pow_succ, mul_comm]
    exact mul_dvd_mul_left 2 h

/-- Setting up `more + 1` levels succeeds exactly when `2^more` divides every extent, with the extents halved from level
to level; otherwise it stops with an error message. -/
theorem C72_levels (more : Nat) (g : Grid3) (hi : 1 ≤ g.ni) (hj : 1 ≤ g.nj) (hk : 1 ≤ g.nk) :
    ((2 ^ more ∣ g.ni ∧ 2 ^ more ∣ g.nj ∧ 2 ^ more ∣ g.nk) →
      mgGrids more g = .ok ((List.range (more + 1)).map (levelGrid g))) ∧
    (¬ (2 ^ more ∣ g.ni ∧ 2 ^ more ∣ g.nj ∧ 2 ^ more ∣ g.nk) → mgGrids more g = .error .abort) := by
  induction more generalizing g with
  | zero =>
    refine ⟨fun _ => ?_, fun h => absurd ⟨by simp, by simp, by simp⟩ h⟩
    simp [mgGrids, levelGrid, List.range_succ]
  | succ more ih =>
    obtain ⟨c1, c2⟩ := C49_coarsen g hi hj hk
    rw [two_pow_dvd, two_pow_dvd, two_pow_dvd]
    by_cases h2 : 2 ∣ g.ni ∧ 2 ∣ g.nj ∧ 2 ∣ g.nk
    · obtain ⟨gc, e, ei, ej, ek, eh, pi, pj, pk⟩ := c1 h2
      obtain ⟨i1, i2⟩ := ih gc pi pj pk
      have di : g.ni / 2 = gc.ni := by omega
      have dj : g.nj / 2 = gc.nj := by omega
      have dk : g.nk / 2 = gc.nk := by omega
      rw [di, dj, dk, mgGrids, e]
      dsimp only
      constructor
      · rintro ⟨⟨-, a1⟩, ⟨-, a2⟩, -, a3⟩
        rw [i1 ⟨a1, a2, a3⟩]
        dsimp only
        congr 1
        rw [List.range_succ_eq_map (n := more + 1), List.map_cons, List.map_map]
        congr 1
        · simp [levelGrid]
        · refine List.map_congr_left fun ℓ _ => ?_
          simp only [Function.comp, levelGrid, Nat.succ_eq_add_one, pow_succ', ← Int.ediv_ediv_of_nonneg (show (0 : Int) ≤ 2 by decide),
            di, dj, dk, eh]
      · intro h
        rw [i2 (fun a => h ⟨⟨h2.1, a.1⟩, ⟨h2.2.1, a.2.1⟩, h2.2.2, a.2.2⟩)]
    · rw [mgGrids, c2 h2]
      exact ⟨fun a => absurd ⟨a.1.1, a.2.1.1, a.2.2.1⟩ h2, fun _ => rfl⟩

/-- The levels meet the hypotheses of the cycle theorems (C52 to C54): consecutive grids are coarsenings of each other,
and every extent is at least two when the finest ones are at least `2^(more+1)`. -/
theorem C72_hierarchy (more : Nat) (g : Grid3) (hd : 2 ^ more ∣ g.ni ∧ 2 ^ more ∣ g.nj ∧ 2 ^ more ∣ g.nk)
    (hi : 2 ^ (more + 1) ≤ g.ni) (hj : 2 ^ (more + 1) ≤ g.nj) (hk : 2 ^ (more + 1) ≤ g.nk) :
    (∀ ℓ, ℓ < more → (levelGrid g ℓ).coarsen = .ok (levelGrid g (ℓ + 1))) ∧
    (∀ ℓ, ℓ ≤ more → 2 ≤ (levelGrid g ℓ).ni ∧ 2 ≤ (levelGrid g ℓ).nj ∧ 2 ≤ (levelGrid g ℓ).nk) := by
  have hge : ∀ (n : Int) ℓ, 2 ^ (more + 1) ≤ n → ℓ ≤ more → 2 ≤ n / 2 ^ ℓ := by
    intro n ℓ hn hl
    rw [Int.le_ediv_iff_mul_le (by positivity)]
    calc (2 : Int) * 2 ^ ℓ = 2 ^ (ℓ + 1) := by ring
      _ ≤ 2 ^ (more + 1) := pow_le_pow_right₀ (by decide) (by omega)
      _ ≤ n := hn
  have hdv : ∀ (n : Int) ℓ, 2 ^ more ∣ n → ℓ < more → 2 ∣ n / 2 ^ ℓ := by
    intro n ℓ hn hl
    obtain ⟨k, rfl⟩ := (pow_dvd_pow (2 : Int) (show ℓ + 1 ≤ more by omega)).trans hn
    rw [pow_succ, mul_assoc, Int.mul_ediv_cancel_left _ (by positivity)]
    exact Dvd.intro _ rfl
  refine ⟨fun ℓ hl => ?_, fun ℓ hl => ⟨hge _ _ hi hl, hge _ _ hj hl, hge _ _ hk hl⟩⟩
  have b1 := hge _ _ hi hl.le
  have b2 := hge _ _ hj hl.le
  have b3 := hge _ _ hk hl.le
  obtain ⟨gc, e, ei, ej, ek, eh, -⟩ := (C49_coarsen (levelGrid g ℓ) (by show 1 ≤ g.ni / 2 ^ ℓ; omega)
    (by show 1 ≤ g.nj / 2 ^ ℓ; omega) (by show 1 ≤ g.nk / 2 ^ ℓ; omega)).1
    ⟨hdv _ _ hd.1 hl, hdv _ _ hd.2.1 hl, hdv _ _ hd.2.2 hl⟩
  rw [e]
  have q : ∀ n : Int, n / 2 ^ (ℓ + 1) = n / 2 ^ ℓ / 2 := fun n => by
    rw [pow_succ, Int.ediv_ediv_of_nonneg (by positivity)]
  obtain ⟨ci, cj, ck, ch⟩ := gc
  have e1 : g.ni / 2 ^ ℓ = 2 * ci := ei
  have e2 : g.nj / 2 ^ ℓ = 2 * cj := ej
  have e3 : g.nk / 2 ^ ℓ = 2 * ck := ek
  have e4 : ch = g.nhalo := eh
  simp only [levelGrid, q, e1, e2, e3, e4, Int.mul_ediv_cancel_left _ (show (2 : Int) ≠ 0 by decide)]

example : mgGrids 2 ⟨8, 12, 16, 2⟩ = .ok [⟨8, 12, 16, 2⟩, ⟨4, 6, 8, 2⟩, ⟨2, 3, 4, 2⟩] ∧
    mgGrids 3 ⟨8, 12, 16, 2⟩ = .error .abort := ⟨rfl, rfl⟩
example : (2 ^ 1 ∣ (8 : Int) ∧ 2 ^ 1 ∣ (12 : Int) ∧ 2 ^ 1 ∣ (16 : Int)) ∧ (2 : Int) ^ (1 + 1) ≤ 8 := by decide

/-! ### A hierarchy meeting the hypotheses -/

section
private def exG (ℓ : Nat) : Grid3 := if ℓ = 0 then ⟨4, 6, 4, 2⟩ else ⟨2, 3, 2, 2⟩

private theorem exG_ok (ℓ : Nat) : (exG ℓ).Ok := by
  unfold exG; split <;> exact ⟨by decide, by decide, by decide, by decide⟩

/-- Two levels, one periodic and two Neumann directions. -/
example : ∃ (G : Nat → Geom3), HierOk (A := Nat × (MGRole ⊕ Fin 4)) 2 exG .periodic .neumann .neumann G 1 "linear"
    (fun ℓ ρ => (ℓ, .inl ρ)) (fun ℓ x => (ℓ, .inr x)) (fun a => (exG a.1).size) :=
  ⟨fun ℓ => _, by decide, rfl, fun ℓ hℓ => by
      have : ℓ = 0 ∨ ℓ = 1 := by omega
      rcases this with rfl | rfl <;> decide,
    fun ℓ hℓ => by
      have : ℓ = 0 := by omega
      subst this; rfl,
    fun ℓ _ => mkGeom3_ok (exG_ok ℓ) _ _ _, by decide, by decide,
    fun i ρ j σ e => (by cases e; exact ⟨rfl, rfl⟩), fun i ρ j σ e => (by cases e; exact ⟨rfl, rfl⟩),
    fun i ρ j x e => (by cases e), fun _ _ _ => rfl, fun _ _ _ => rfl⟩

/-- Every field solves the backward Euler equation for a suitable previous field. -/
example (F : (Int × Int × Int → ℚ) → Int × Int × Int → ℚ) (u : Int × Int × Int → ℚ) (dt : ℚ) (hdt : dt ≠ 0) :
    ∃ old : Int × Int × Int → ℚ, ∀ c, F u c = if true then (u c - old c) / dt else 0 :=
  ⟨fun c => u c - dt * F u c, fun c => by rw [if_pos rfl, sub_sub_cancel, mul_div_cancel_left₀ _ hdt]⟩
end

end Madg
