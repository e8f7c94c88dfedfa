/-
The multigrid cycle: every stage is deterministic; steady states of the level problems are fixed points.
-/
import Verif.Proofs.Smooth
import Verif.Proofs.Schedule

set_option linter.unusedSectionVars false
set_option linter.unusedVariables false

namespace Madg
open Spec
variable {A K C : Type} [DecidableEq A] [Field K]

/-- Interior offsets of an array. -/
def onInt (P : C → Prop) (loc : C → Int) (n : Int) : Prop := ∃ c, P c ∧ loc c = n

/-- What the cycle relies on: different arrays of the right sizes, right-hand sides and transfers as specified, and the
list of interior offsets of the finest level. -/
structure MG.Ok (M : MG A K) (sz : A → Int) (scratch : A → Prop) (fx : A → Option (Int → K)) (P : Nat → C → Prop) (loc : Nat → C → Int)
    (F : Nat → (C → K) → C → K) (H : Nat → (C → K) → Int → K) (R T : Nat → (Int → K) → Int → K)
    (V W : Nat → Int → Prop) : Prop where
  inj : ∀ i ρ j σ, M.arr i ρ = M.arr j σ → i = j ∧ ρ = σ
  size : ∀ ℓ, ℓ < M.nlev → ∀ ρ, sz (M.arr ℓ ρ) = M.size ℓ
  fresh : ∀ ℓ ρ, ¬ scratch (M.arr ℓ ρ)
  free : ∀ ℓ ρ, fx (M.arr ℓ ρ) = none
  freeScratch : ∀ a, scratch a → fx a = none
  rhs : ∀ ℓ, ℓ < M.nlev → FillRhs sz (M.size ℓ) scratch fx (P ℓ) (loc ℓ) (F ℓ) (H ℓ) (M.rhs ℓ)
  restr : ∀ ℓ, ℓ + 1 < M.nlev → Transfer sz (M.size ℓ) (M.size (ℓ + 1)) (onInt (P ℓ) (loc ℓ))
    (onInt (P (ℓ + 1)) (loc (ℓ + 1))) (R ℓ) (M.restrict ℓ)
  prol : ∀ ℓ, ℓ + 1 < M.nlev → Transfer sz (M.size (ℓ + 1)) (M.size ℓ) (V ℓ) (W ℓ) (T ℓ) (M.prolong ℓ)
  prolReads : ∀ ℓ, ℓ + 1 < M.nlev → ∀ n, V ℓ n → 0 ≤ n ∧ n < M.size (ℓ + 1)
  prolCovers : ∀ ℓ, ℓ + 1 < M.nlev → ∀ n, onInt (P ℓ) (loc ℓ) n → W ℓ n
  interior : ∀ n ∈ M.interior, onInt (P 0) (loc 0) n

/-- The array that parametrises the problem of a level. -/
def MG.par (M : MG A K) : Nat → A
  | 0 => M.arr 0 .old
  | ℓ + 1 => M.arr (ℓ + 1) .src

/-- The problem of a level. -/
def MG.field (M : MG A K) (F : Nat → (C → K) → C → K) (dt : K) : Nat → (C → K) → (C → K) → C → K
  | 0 => fineField (F 0) M.unsteady dt
  | ℓ + 1 => coarseField (F (ℓ + 1))

section
variable {M : MG A K} {sz : A → Int} {scratch : A → Prop} {fx : A → Option (Int → K)} {P : Nat → C → Prop} {loc : Nat → C → Int}
  {F : Nat → (C → K) → C → K} {H : Nat → (C → K) → Int → K} {R T : Nat → (Int → K) → Int → K} {V W : Nat → Int → Prop}
  (hM : M.Ok sz scratch fx P loc F H R T V W)
include hM

theorem MG.Ok.ne {i j : Nat} {ρ σ : MGRole} (h : i ≠ j ∨ ρ ≠ σ) : M.arr i ρ ≠ M.arr j σ := fun e => by
  obtain ⟨a, b⟩ := hM.inj _ _ _ _ e
  rcases h with h | h
  · exact h a
  · exact h b

/-- An array with given content is none of those the cycle works on. -/
theorem MG.Ok.off {b : A} (hb : fx b ≠ none) : ¬ scratch b ∧ ∀ ℓ ρ, b ≠ M.arr ℓ ρ :=
  ⟨fun h => hb (hM.freeScratch _ h), fun ℓ ρ e => hb (e ▸ hM.free ℓ ρ)⟩

theorem MG.Ok.levelRhs (dt : K) {ℓ : Nat} (hℓ : ℓ < M.nlev) :
    ParRhs sz (M.size ℓ) scratch fx (P ℓ) (loc ℓ) (M.par ℓ) (M.field F dt ℓ) (H ℓ) (M.levelRHS dt ℓ) := by
  cases ℓ with
  | zero => exact fine_par (hM.rhs 0 hℓ) _ _ (hM.size _ hℓ _) (hM.fresh _ _)
  | succ ℓ => exact coarse_par (hM.rhs _ hℓ) (hM.size _ hℓ _) (hM.fresh _ _)

theorem MG.Ok.rkOk {ℓ : Nat} (hℓ : ℓ < M.nlev) : (M.rk ℓ).Ok sz (M.size ℓ) scratch := by
  refine ⟨?_, ?_, ?_⟩
  · have : [M.arr ℓ .state, M.arr ℓ .dstate, M.arr ℓ .k1, M.arr ℓ .k2, M.arr ℓ .k3, M.arr ℓ .k4, M.arr ℓ .stage] =
        [MGRole.state, .dstate, .k1, .k2, .k3, .k4, .stage].map (M.arr ℓ) := rfl
    unfold MG.rk
    dsimp only
    rw [this]
    exact List.Nodup.map (fun a b e => (hM.inj _ _ _ _ e).2) (by decide)
  · intro a ha
    simp only [MG.rk, List.mem_cons, List.not_mem_nil, or_false] at ha
    rcases ha with rfl | rfl | rfl | rfl | rfl | rfl | rfl <;> exact hM.size _ hℓ _
  · intro a ha
    simp only [MG.rk, List.mem_cons, List.not_mem_nil, or_false] at ha
    rcases ha with rfl | rfl | rfl | rfl | rfl | rfl | rfl <;> exact hM.fresh _ _

theorem MG.Ok.par_notMem (ℓ : Nat) : M.par ℓ ∉ [(M.rk ℓ).sol, (M.rk ℓ).res, (M.rk ℓ).k1, (M.rk ℓ).k2, (M.rk ℓ).k3,
    (M.rk ℓ).k4, (M.rk ℓ).stage] := by
  simp only [MG.rk, List.mem_cons, List.not_mem_nil, or_false, not_or]
  cases ℓ <;> refine ⟨?_, ?_, ?_, ?_, ?_, ?_, ?_⟩ <;> exact hM.ne (Or.inr (by decide))

theorem MG.Ok.par_fresh (ℓ : Nat) : ¬ scratch (M.par ℓ) := by cases ℓ <;> exact hM.fresh _ _

/-- Effect of the transfer to level `ℓ + 1`. -/
structure CoarsePost (M : MG A K) (scratch : A → Prop) (P : Nat → C → Prop) (loc : Nat → C → Int)
    (F : Nat → (C → K) → C → K) (H : Nat → (C → K) → Int → K) (R : Nat → (Int → K) → Int → K) (ℓ : Nat)
    (m m' : Mem A K) : Prop where
  full : ∀ n, 0 ≤ n → n < M.size (ℓ + 1) →
    m' (M.arr (ℓ + 1) .state) n = H (ℓ + 1) (fun c => R ℓ (m (M.arr ℓ .state)) (loc (ℓ + 1) c)) n
  pre : ∀ n, 0 ≤ n → n < M.size (ℓ + 1) →
    m' (M.arr (ℓ + 1) .pre) n = H (ℓ + 1) (fun c => R ℓ (m (M.arr ℓ .state)) (loc (ℓ + 1) c)) n
  src : ∀ c, P (ℓ + 1) c → m' (M.arr (ℓ + 1) .src) (loc (ℓ + 1) c) =
    -F (ℓ + 1) (fun c => R ℓ (m (M.arr ℓ .state)) (loc (ℓ + 1) c)) c + R ℓ (m (M.arr ℓ .k4)) (loc (ℓ + 1) c)
  resPre : ∀ c, P (ℓ + 1) c → m' (M.arr (ℓ + 1) .resPre) (loc (ℓ + 1) c) = R ℓ (m (M.arr ℓ .k4)) (loc (ℓ + 1) c)
  frame : ∀ b, ¬ scratch b → (∀ ρ ∈ [MGRole.state, .restr, .pre, .dstate, .src, .resPre], b ≠ M.arr (ℓ + 1) ρ) →
    m' b = m b

theorem setCoarse_det (dt time : K) {ℓ : Nat} (hℓ : ℓ + 1 < M.nlev) (m : Mem A K)
    (hfx : Holds fx m) : ∃ m', Det sz (M.setCoarse dt ℓ time) m m' ∧ CoarsePost M scratch P loc F H R ℓ m m' := by
  have hℓ' : ℓ < M.nlev := by omega
  have hR := hM.rhs (ℓ + 1) hℓ
  have hL := hM.levelRhs dt hℓ
  obtain ⟨m1, d1, r1, -, f1⟩ := (hM.restr ℓ hℓ).run (M.arr ℓ .state) (M.arr (ℓ + 1) .state) m
    (hM.ne (Or.inl (by omega))) (hM.size _ hℓ' _) (hM.size _ hℓ _)
  obtain ⟨m2, d2, r2, -, f2⟩ := (hM.restr ℓ hℓ).run (M.arr ℓ .k4) (M.arr (ℓ + 1) .restr) m1
    (hM.ne (Or.inl (by omega))) (hM.size _ hℓ' _) (hM.size _ hℓ _)
  obtain ⟨m3, d3, w3⟩ := copy_det (N := M.size (ℓ + 1)) (a := M.arr (ℓ + 1) .state) (b := M.arr (ℓ + 1) .pre) (sz := sz)
    (hM.ne (Or.inr (by decide))) (hM.size _ hℓ _) (hM.size _ hℓ _) m2
  obtain ⟨m4, d4, r4, k4, f4⟩ := hR.run (M.arr (ℓ + 1) .state) (M.arr (ℓ + 1) .dstate) time m3
    (hfx.frame fun b hb => by rw [w3.frame b ((hM.off hb).2 _ _), f2 b ((hM.off hb).2 _ _), f1 b ((hM.off hb).2 _ _)])
    (hM.ne (Or.inr (by decide))) (hM.fresh _ _) (hM.fresh _ _) (hM.free _ _) (hM.free _ _) (hM.size _ hℓ _) (hM.size _ hℓ _)
  obtain ⟨m5, d5, w5⟩ := sourceSet_det (N := M.size (ℓ + 1)) (a := M.arr (ℓ + 1) .dstate) (b := M.arr (ℓ + 1) .restr)
    (c := M.arr (ℓ + 1) .src) (sz := sz) (hM.ne (Or.inr (by decide))) (hM.ne (Or.inr (by decide)))
    (hM.size _ hℓ _) (hM.size _ hℓ _) (hM.size _ hℓ _) m4
  obtain ⟨m6, d6, r6, k6, f6⟩ := hL.run (M.arr (ℓ + 1) .pre) (M.arr (ℓ + 1) .resPre) time m5
    (hfx.frame fun b hb => by
      have h := hM.off hb
      rw [w5.frame b (h.2 _ _), f4 b (h.2 _ _) (h.2 _ _) h.1, w3.frame b (h.2 _ _), f2 b (h.2 _ _), f1 b (h.2 _ _)])
    (hM.ne (Or.inr (by decide))) (hM.ne (Or.inr (by decide))) (hM.ne (Or.inr (by decide))) (hM.fresh _ _)
    (hM.fresh _ _) (hM.free _ _) (hM.free _ _) (hM.size _ hℓ _) (hM.size _ hℓ _)
  set u : C → K := fun c => R ℓ (m (M.arr ℓ .state)) (loc (ℓ + 1) c) with hu
  have i1 : ∀ c, P (ℓ + 1) c → m1 (M.arr (ℓ + 1) .state) (loc (ℓ + 1) c) = u c := fun c hc => r1 _ ⟨c, hc, rfl⟩
  have i2 : m2 (M.arr (ℓ + 1) .state) = m1 (M.arr (ℓ + 1) .state) := f2 _ (hM.ne (Or.inr (by decide)))
  have i3 : m3 (M.arr (ℓ + 1) .state) = m1 (M.arr (ℓ + 1) .state) := by rw [w3.frame _ (hM.ne (Or.inr (by decide))), i2]
  have e3 : ∀ c, P (ℓ + 1) c → m3 (M.arr (ℓ + 1) .state) (loc (ℓ + 1) c) = u c := fun c hc => by rw [i3]; exact i1 c hc
  have full4 : ∀ n, 0 ≤ n → n < M.size (ℓ + 1) → m4 (M.arr (ℓ + 1) .state) n = H (ℓ + 1) u n := fun n h0 h1 => by
    rw [k4 n h0 h1]; exact hR.fill _ _ e3 n h0 h1
  have res4 : ∀ c, P (ℓ + 1) c → m4 (M.arr (ℓ + 1) .dstate) (loc (ℓ + 1) c) = F (ℓ + 1) u c := fun c hc => by
    rw [r4 c hc]; exact hR.interior _ _ e3 c hc
  have pre5 : ∀ c, P (ℓ + 1) c → m5 (M.arr (ℓ + 1) .pre) (loc (ℓ + 1) c) = u c := fun c hc => by
    obtain ⟨a0, a1⟩ := hR.range c hc
    rw [w5.frame _ (hM.ne (Or.inr (by decide))), f4 _ (hM.ne (Or.inr (by decide))) (hM.ne (Or.inr (by decide))) (hM.fresh _ _),
      w3.view _ a0 a1, i2, i1 c hc]
  have src5 : ∀ c, P (ℓ + 1) c → m5 (M.arr (ℓ + 1) .src) (loc (ℓ + 1) c) =
      -F (ℓ + 1) u c + R ℓ (m (M.arr ℓ .k4)) (loc (ℓ + 1) c) := fun c hc => by
    obtain ⟨a0, a1⟩ := hR.range c hc
    rw [w5.view _ a0 a1, res4 c hc, f4 _ (hM.ne (Or.inr (by decide))) (hM.ne (Or.inr (by decide))) (hM.fresh _ _),
      w3.frame _ (hM.ne (Or.inr (by decide))), r2 _ ⟨c, hc, rfl⟩, f1 _ (hM.ne (Or.inl (by omega)))]
  refine ⟨m6, ?_, ?_, ?_, ?_, ?_, ?_⟩
  · unfold MG.setCoarse
    exact det_append (det_append (det_append (det_append (det_append d1 d2) d3) d4) d5) d6
  · intro n h0 h1
    rw [f6 _ (hM.ne (Or.inr (by decide))) (hM.ne (Or.inr (by decide))) (hM.fresh _ _), w5.frame _ (hM.ne (Or.inr (by decide)))]
    exact full4 n h0 h1
  · intro n h0 h1
    rw [k6 n h0 h1]; exact hL.fill _ _ pre5 n h0 h1
  · intro c hc
    rw [f6 _ (hM.ne (Or.inr (by decide))) (hM.ne (Or.inr (by decide))) (hM.fresh _ _)]
    exact src5 c hc
  · intro c hc
    refine (r6 c hc).trans ((hL.interior _ _ _ u (fun _ _ => rfl) pre5 c hc).trans ?_)
    change F (ℓ + 1) u c + m5 (M.arr (ℓ + 1) .src) (loc (ℓ + 1) c) = _
    rw [src5 c hc]; ring
  · intro b hs hb
    simp only [List.mem_cons, List.not_mem_nil, or_false, forall_eq_or_imp, forall_eq] at hb
    obtain ⟨b1, b2, b3, b4, b5, b6⟩ := hb
    rw [f6 b b3 b6 hs, w5.frame b b5, f4 b b1 b4 hs, w3.frame b b3, f2 b b2, f1 b b1]

/-- Effect of the correction of level `ℓ` from level `ℓ + 1`. -/
structure CorrPost (M : MG A K) (T : Nat → (Int → K) → Int → K) (W : Nat → Int → Prop) (ℓ : Nat) (m m' : Mem A K) :
    Prop where
  upd : ∀ n, W ℓ n → m' (M.arr ℓ .fineDelta) n =
    T ℓ (fun i => m (M.arr (ℓ + 1) .state) i - m (M.arr (ℓ + 1) .pre) i) n
  updOff : ∀ n, ¬ W ℓ n → m' (M.arr ℓ .fineDelta) n = m (M.arr ℓ .fineDelta) n
  state : ∀ n, 0 ≤ n → n < M.size ℓ → m' (M.arr ℓ .state) n = m (M.arr ℓ .state) n +
    (if ℓ = 0 then M.relaxFine else M.relaxCoarse) * m' (M.arr ℓ .fineDelta) n
  frame : ∀ b, b ≠ M.arr ℓ .state → b ≠ M.arr ℓ .fineDelta → b ≠ M.arr (ℓ + 1) .delta → m' b = m b

theorem correct_det {ℓ : Nat} (hℓ : ℓ + 1 < M.nlev) (m : Mem A K) :
    ∃ m', Det sz (M.correct ℓ) m m' ∧ CorrPost M T W ℓ m m' := by
  have hℓ' : ℓ < M.nlev := by omega
  have hT := hM.prol ℓ hℓ
  obtain ⟨m1, d1, w1⟩ := delta_det (N := M.size (ℓ + 1)) (s := M.arr (ℓ + 1) .state) (s0 := M.arr (ℓ + 1) .pre)
    (d := M.arr (ℓ + 1) .delta) (sz := sz) (hM.ne (Or.inr (by decide))) (hM.ne (Or.inr (by decide)))
    (hM.size _ hℓ _) (hM.size _ hℓ _) (hM.size _ hℓ _) m
  obtain ⟨m2, d2, r2, o2, f2⟩ := hT.run (M.arr (ℓ + 1) .delta) (M.arr ℓ .fineDelta) m1
    (hM.ne (Or.inl (by omega))) (hM.size _ hℓ _) (hM.size _ hℓ' _)
  obtain ⟨m3, d3, w3⟩ := relax_det (N := M.size ℓ) (if ℓ = 0 then M.relaxFine else M.relaxCoarse)
    (u := M.arr ℓ .fineDelta) (s := M.arr ℓ .state) (sz := sz) (hM.ne (Or.inr (by decide)))
    (hM.size _ hℓ' _) (hM.size _ hℓ' _) m2
  have fd : m3 (M.arr ℓ .fineDelta) = m2 (M.arr ℓ .fineDelta) := w3.frame _ (hM.ne (Or.inr (by decide)))
  refine ⟨m3, ?_, ?_, ?_, ?_, ?_⟩
  · unfold MG.correct
    exact det_append (det_append d1 d2) d3
  · intro n hn
    rw [fd, r2 n hn]
    refine hT.reads _ _ (fun i hi => ?_) n hn
    obtain ⟨a0, a1⟩ := hM.prolReads ℓ hℓ i hi
    exact w1.view i a0 a1
  · intro n hn
    rw [fd, o2 n hn, w1.frame _ (hM.ne (Or.inl (by omega)))]
  · intro n h0 h1
    rw [w3.view n h0 h1, fd, f2 _ (hM.ne (Or.inr (by decide))), w1.frame _ (hM.ne (Or.inl (by omega)))]
  · intro b b1 b2 b3
    rw [w3.frame b b1, f2 b b2, w1.frame b b3]

end

section
variable [LinearOrder K]
variable {M : MG A K} {sz : A → Int} {scratch : A → Prop} {fx : A → Option (Int → K)} {P : Nat → C → Prop} {loc : Nat → C → Int}
  {F : Nat → (C → K) → C → K} {H : Nat → (C → K) → Int → K} {R T : Nat → (Int → K) → Int → K} {V W : Nat → Int → Prop}
  (hM : M.Ok sz scratch fx P loc F H R T V W)
include hM

theorem smooth_det (dt time δ : K) {ℓ : Nat} (hℓ : ℓ < M.nlev) (m : Mem A K) (hfx : Holds fx m) :
    ∃ m', CDet sz (doSmooth (M.size ℓ) (M.levelRHS dt ℓ) (M.rk ℓ) time δ) m () m' ∧
      SmoothPost (M.size ℓ) scratch (P ℓ) (loc ℓ) (M.par ℓ) (M.field F dt ℓ) (H ℓ) (M.rk ℓ) δ m m' :=
  doSmooth_det (hM.levelRhs dt hℓ) (hM.rkOk hℓ) (hM.par_notMem ℓ) (hM.par_fresh ℓ)
    (fun a ha => by
      simp only [MG.rk, List.mem_cons, List.not_mem_nil, or_false] at ha
      rcases ha with rfl | rfl | rfl | rfl | rfl | rfl | rfl <;> exact hM.free _ _)
    hM.freeScratch time δ m hfx

/-- Arrays that no cycle writes. -/
def MG.Kept (M : MG A K) (scratch : A → Prop) (b : A) : Prop :=
  ¬ scratch b ∧ ∀ ℓ ρ, b = M.arr ℓ ρ → ρ = .old ∨ ρ = .res0

theorem MG.Ok.kept_holds {m m' : Mem A K} (hfx : Holds fx m) (h : ∀ b, M.Kept scratch b → m' b = m b) : Holds fx m' :=
  hfx.frame fun b hb => h b ⟨(hM.off hb).1, fun ℓ ρ e => absurd e ((hM.off hb).2 ℓ ρ)⟩

/-- Every schedule that stays in the range of levels runs to completion on any memory, with a single outcome. -/
theorem stages_total (dt time : K) (ss : List Int) : ∀ (p : MGPos K) (m : Mem A K),
    Holds fx m → (∀ x ∈ visits p.lvl ss, 0 ≤ x.1 ∧ x.1 < M.nlev ∧ (x.2 = 0 ∨ (x.2 = 1 ∧ x.1 + 1 < M.nlev) ∨ (x.2 = -1 ∧ 0 < x.1))) →
    ∃ p' m', CDet sz (M.stages dt time ss p) m p' m' ∧ (p'.lvl : Int) = p.lvl + ss.sum ∧
      ∀ b, M.Kept scratch b → m' b = m b := by
  induction ss with
  | nil => intro p m _ _; exact ⟨p, m, CDet.ret _ _, by simp, fun _ _ => rfl⟩
  | cons s ss ih =>
    intro p m hfx hv
    rw [visits] at hv
    obtain ⟨-, h1, hs⟩ := hv _ (List.mem_cons_self)
    dsimp only at h1 hs
    have hrest := fun x hx => hv x (List.mem_cons_of_mem _ hx)
    have hl : p.lvl < M.nlev := by exact_mod_cast h1
    have key : ∃ p1 m1, CDet sz (M.stage dt time p s) m p1 m1 ∧ (p1.lvl : Int) = p.lvl + s ∧
        ∀ b, M.Kept scratch b → m1 b = m b := by
      rcases hs with rfl | ⟨rfl, h2⟩ | ⟨rfl, h2⟩
      · obtain ⟨m1, d, q⟩ := smooth_det hM dt time (p.dts p.lvl) hl m hfx
        refine ⟨⟨p.lvl, fun i => if i = p.lvl then M.smoothDt i else p.dts i⟩, m1, ?_, by simp, ?_⟩
        · unfold MG.stage
          rw [if_pos rfl, if_pos hl]
          exact d.bind (CDet.ret _ _)
        · intro b hb
          refine q.frame b ?_ hb.1
          intro hmem
          simp only [MG.rk, List.mem_cons, List.not_mem_nil, or_false] at hmem
          rcases hmem with rfl | rfl | rfl | rfl | rfl | rfl | rfl <;>
            rcases hb.2 _ _ rfl with h | h <;> cases h
      · have hl2 : p.lvl + 1 < M.nlev := by exact_mod_cast h2
        obtain ⟨m1, d, q⟩ := setCoarse_det hM dt time hl2 m hfx
        refine ⟨⟨p.lvl + 1, p.dts⟩, m1, ?_, by simp, ?_⟩
        · unfold MG.stage
          rw [if_neg (by decide), if_pos rfl, if_pos hl2]
          exact (CDet.ofHost d).bind (CDet.ret _ _)
        · intro b hb
          refine q.frame b hb.1 ?_
          rintro ρ hρ rfl
          simp only [List.mem_cons, List.not_mem_nil, or_false] at hρ
          rcases hb.2 _ _ rfl with h | h <;> subst h <;> simp at hρ
      · have hl2 : 0 < p.lvl := by exact_mod_cast h2
        obtain ⟨m1, d, q⟩ := correct_det hM (ℓ := p.lvl - 1) (by omega) m
        refine ⟨⟨p.lvl - 1, p.dts⟩, m1, ?_, by simp; omega, ?_⟩
        · unfold MG.stage
          rw [if_neg (by decide), if_neg (by decide), if_pos rfl, if_pos ⟨hl2, hl⟩]
          exact (CDet.ofHost d).bind (CDet.ret _ _)
        · intro b hb
          refine q.frame b ?_ ?_ ?_ <;> rintro rfl <;> rcases hb.2 _ _ rfl with h | h <;> cases h
    obtain ⟨p1, m1, d1, e1, f1⟩ := key
    obtain ⟨p2, m2, d2, e2, f2⟩ := ih p1 m1 (hM.kept_holds hfx f1) (by rw [e1]; exact hrest)
    refine ⟨p2, m2, ?_, ?_, ?_⟩
    · unfold MG.stages; exact d1.bind d2
    · rw [e2, e1, List.sum_cons]; ring
    · intro b hb; rw [f2 b hb, f1 b hb]

theorem stages_append (dt time : K) (a b : List Int) : ∀ (p p1 p2 : MGPos K) (m m1 m2 : Mem A K),
    CDet sz (M.stages dt time a p) m p1 m1 → CDet sz (M.stages dt time b p1) m1 p2 m2 →
    CDet sz (M.stages dt time (a ++ b) p) m p2 m2 := by
  have assoc : ∀ {α β γ : Type} (c : Cmd A K α) (f : α → Cmd A K β) (g : β → Cmd A K γ),
      (c.bind f).bind g = c.bind fun x => (f x).bind g := by
    intro α β γ c f g
    induction c with
    | ret x => rfl
    | loop ps k ih => simp only [Cmd.bind, ih]
    | reduce op i ps k ih => simp only [Cmd.bind, ih]
    | load a i k ih => simp only [Cmd.bind, ih]
    | store a i v k ih => simp only [Cmd.bind, ih]
    | fail e => rfl
  have eq : ∀ (a : List Int) (p : MGPos K), M.stages dt time (a ++ b) p =
      (M.stages dt time a p).bind fun p1 => M.stages dt time b p1 := by
    intro a
    induction a with
    | nil => intro p; rfl
    | cons s a ih => intro p; simp only [List.cons_append, MG.stages, ih, assoc]
  intro p p1 p2 m m1 m2 h1 h2
  rw [eq]
  exact h1.bind h2

end

end Madg
