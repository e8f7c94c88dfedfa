/-
Level right-hand sides of the multigrid integrator and its smoother.
-/
import Verif.Model.Multigrid
import Verif.Spec.Multigrid
import Verif.Proofs.RK
import Verif.Proofs.Reduce

set_option linter.unusedSectionVars false
set_option linter.unusedVariables false

namespace Madg
open Spec
variable {A K C : Type} [DecidableEq A] [Field K]

local macro "ne!" : tactic => `(tactic| first | assumption | (apply Ne.symm; assumption))

theorem Spec.Holds.frame {fx : A → Option (Int → K)} {m m' : Mem A K} (h : Holds fx m)
    (hf : ∀ a, fx a ≠ none → m' a = m a) : Holds fx m' := fun a v e => by
  rw [hf a (by rw [e]; simp)]; exact h a v e

/-- `FillRhs` with a parameter array `par` that the routine only reads. -/
structure ParRhs (sz : A → Int) (N : Int) (scratch : A → Prop) (fx : A → Option (Int → K)) (P : C → Prop) (loc : C → Int) (par : A)
    (G : (C → K) → (C → K) → C → K) (H : (C → K) → Int → K) (rhs : A → A → K → Host A K) : Prop where
  range : ∀ c, P c → 0 ≤ loc c ∧ loc c < N
  interior : ∀ q q' u v, (∀ c, P c → q c = q' c) → (∀ c, P c → u c = v c) → ∀ c, P c → G q u c = G q' v c
  fill : ∀ u v, (∀ c, P c → u c = v c) → ∀ n, 0 ≤ n → n < N → H u n = H v n
  keep : ∀ u c, P c → H u (loc c) = u c
  run : ∀ s r t m, Holds fx m → s ≠ r → s ≠ par → r ≠ par → ¬ scratch s → ¬ scratch r → fx s = none → fx r = none → sz s = N → sz r = N →
    ∃ m', Det sz (rhs s r t) m m' ∧
      (∀ c, P c → m' r (loc c) = G (inner loc m par) (inner loc m s) c) ∧
      (∀ n, 0 ≤ n → n < N → m' s n = H (inner loc m s) n) ∧
      (∀ b, b ≠ s → b ≠ r → ¬ scratch b → m' b = m b)

section loops
variable {sz : A → Int} {N : Int}

theorem copy_det {a b : A} (hne : a ≠ b) (ha : sz a = N) (hb : sz b = N) (m : Mem A K) :
    ∃ m', Det sz (copyLoop N a b) m m' ∧ WritesAll N b m m' (m a) := by
  refine forAll_det N (fun i => .load a i fun x => .store b i x (.pure ())) _ m (fun i h0 h1 => ?_)
    (fun i h0 h1 => Mem.set_same _ _ _ _)
  refine ⟨?_, Or.inl hne, fun _ => ⟨?_, ⟨rfl, rfl⟩, trivial⟩⟩
  · rw [InB, ha]; exact ⟨h0, h1⟩
  · rw [InB, hb]; exact ⟨h0, h1⟩

theorem unsteady_det (dt : K) {old s r : A} (h1 : s ≠ r) (h2 : old ≠ r) (ho : sz old = N) (hs : sz s = N)
    (hr : sz r = N) (m : Mem A K) : ∃ m', Det sz (unsteadyLoop N dt old s r) m m' ∧
      WritesAll N r m m' (fun n => m r n - 1 / dt * (m s n - m old n)) := by
  refine forAll_det N (fun i => .load r i fun x => .load s i fun u => .load old i fun u0 =>
    .store r i (x - 1 / dt * (u - u0)) (.pure ())) _ m (fun i h0 h1' => ?_)
    (fun i h0 h1 => Mem.set_same _ _ _ _)
  refine ⟨?_, Or.inr rfl, fun _ => ⟨?_, Or.inl h1, fun _ => ⟨?_, Or.inl h2, fun _ => ⟨?_, ⟨rfl, rfl⟩, trivial⟩⟩⟩⟩
  · rw [InB, hr]; exact ⟨h0, h1'⟩
  · rw [InB, hs]; exact ⟨h0, h1'⟩
  · rw [InB, ho]; exact ⟨h0, h1'⟩
  · rw [InB, hr]; exact ⟨h0, h1'⟩

theorem addSource_det {q r : A} (h1 : q ≠ r) (hq : sz q = N) (hr : sz r = N) (m : Mem A K) :
    ∃ m', Det sz (sourceLoop N q r) m m' ∧ WritesAll N r m m' (fun n => m r n + m q n) := by
  refine forAll_det N (fun i => .load r i fun x => .load q i fun u => .store r i (x + u) (.pure ())) _ m
    (fun i h0 h1' => ?_) (fun i h0 h1 => Mem.set_same _ _ _ _)
  refine ⟨?_, Or.inr rfl, fun _ => ⟨?_, Or.inl h1, fun _ => ⟨?_, ⟨rfl, rfl⟩, trivial⟩⟩⟩
  · rw [InB, hr]; exact ⟨h0, h1'⟩
  · rw [InB, hq]; exact ⟨h0, h1'⟩
  · rw [InB, hr]; exact ⟨h0, h1'⟩

theorem sourceSet_det {a b c : A} (h1 : a ≠ c) (h2 : b ≠ c) (ha : sz a = N) (hb : sz b = N) (hc : sz c = N)
    (m : Mem A K) : ∃ m', Det sz (sourceSetLoop N a b c) m m' ∧ WritesAll N c m m' (fun n => -m a n + m b n) := by
  refine forAll_det N (fun i => .load a i fun x => .load b i fun u => .store c i (-x + u) (.pure ())) _ m
    (fun i h0 h1' => ?_) (fun i h0 h1 => Mem.set_same _ _ _ _)
  refine ⟨?_, Or.inl h1, fun _ => ⟨?_, Or.inl h2, fun _ => ⟨?_, ⟨rfl, rfl⟩, trivial⟩⟩⟩
  · rw [InB, ha]; exact ⟨h0, h1'⟩
  · rw [InB, hb]; exact ⟨h0, h1'⟩
  · rw [InB, hc]; exact ⟨h0, h1'⟩

theorem delta_det {s s0 d : A} (h1 : s ≠ d) (h2 : s0 ≠ d) (hs : sz s = N) (hs0 : sz s0 = N) (hd : sz d = N)
    (m : Mem A K) : ∃ m', Det sz (deltaLoop N s s0 d) m m' ∧ WritesAll N d m m' (fun n => m s n - m s0 n) := by
  refine forAll_det N (fun i => .load s0 i fun x => .load s i fun u => .store d i (u - x) (.pure ())) _ m
    (fun i h0 h1' => ?_) (fun i h0 h1 => Mem.set_same _ _ _ _)
  refine ⟨?_, Or.inl h2, fun _ => ⟨?_, Or.inl h1, fun _ => ⟨?_, ⟨rfl, rfl⟩, trivial⟩⟩⟩
  · rw [InB, hs0]; exact ⟨h0, h1'⟩
  · rw [InB, hs]; exact ⟨h0, h1'⟩
  · rw [InB, hd]; exact ⟨h0, h1'⟩

theorem relax_det (r : K) {u s : A} (h1 : u ≠ s) (hu : sz u = N) (hs : sz s = N) (m : Mem A K) :
    ∃ m', Det sz (relaxLoop N r u s) m m' ∧ WritesAll N s m m' (fun n => m s n + r * m u n) := by
  refine forAll_det N (fun i => .load s i fun x => .load u i fun y => .store s i (x + r * y) (.pure ())) _ m
    (fun i h0 h1' => ?_) (fun i h0 h1 => Mem.set_same _ _ _ _)
  refine ⟨?_, Or.inr rfl, fun _ => ⟨?_, Or.inl h1, fun _ => ⟨?_, ⟨rfl, rfl⟩, trivial⟩⟩⟩
  · rw [InB, hs]; exact ⟨h0, h1'⟩
  · rw [InB, hu]; exact ⟨h0, h1'⟩
  · rw [InB, hs]; exact ⟨h0, h1'⟩

end loops

/-! ### Level right-hand sides -/

section
variable {sz : A → Int} {N : Int} {scratch : A → Prop} {fx : A → Option (Int → K)} {P : C → Prop} {loc : C → Int}
  {F : (C → K) → C → K} {H : (C → K) → Int → K} {rhs : A → A → K → Host A K}

/-- The problem of the finest level: `F(u) - (u - u_old) / dt`, or `F(u)` in a steady computation. -/
def fineField (F : (C → K) → C → K) (unsteady : Bool) (dt : K) (q u : C → K) (c : C) : K :=
  if unsteady then F u c - 1 / dt * (u c - q c) else F u c

/-- The problem of a coarse level: `F(u) + source`. -/
def coarseField (F : (C → K) → C → K) (q u : C → K) (c : C) : K := F u c + q c

theorem fine_par (hR : FillRhs sz N scratch fx P loc F H rhs) (unsteady : Bool) (dt : K) {old : A} (hsz : sz old = N)
    (hf : ¬ scratch old) :
    ParRhs sz N scratch fx P loc old (fineField F unsteady dt) H (fineRHS N rhs unsteady dt old) := by
  refine ⟨hR.range, ?_, hR.fill, hR.keep, ?_⟩
  · intro q q' u v hq hu c hc
    unfold fineField
    rw [hR.interior u v hu c hc, hq c hc, hu c hc]
  · intro s r t m hfx h1 h2 h3 hs hr hfs hfr hzs hzr
    obtain ⟨m1, d1, r1, k1, f1⟩ := hR.run s r t m hfx h1 hs hr hfs hfr hzs hzr
    cases unsteady with
    | false =>
      refine ⟨m1, ?_, fun c hc => ?_, k1, f1⟩
      · unfold fineRHS; exact det_append d1 (det_nil _ _)
      · rw [r1 c hc]; rfl
    | true =>
      obtain ⟨m2, d2, w2⟩ := unsteady_det dt h1 (Ne.symm h3) hsz hzs hzr m1
      refine ⟨m2, ?_, fun c hc => ?_, fun n n0 n1 => ?_, fun b b1 b2 b3 => ?_⟩
      · unfold fineRHS; exact det_append d1 d2
      · obtain ⟨p0, p1⟩ := hR.range c hc
        rw [w2.view _ p0 p1, r1 c hc, k1 _ p0 p1, hR.keep _ c hc, f1 old (Ne.symm h2) (Ne.symm h3) hf]
        rfl
      · rw [w2.frame s h1]; exact k1 n n0 n1
      · rw [w2.frame b b2, f1 b b1 b2 b3]

theorem coarse_par (hR : FillRhs sz N scratch fx P loc F H rhs) {src : A} (hsz : sz src = N) (hf : ¬ scratch src) :
    ParRhs sz N scratch fx P loc src (coarseField F) H (coarseRHS N rhs src) := by
  refine ⟨hR.range, ?_, hR.fill, hR.keep, ?_⟩
  · intro q q' u v hq hu c hc
    unfold coarseField
    rw [hR.interior u v hu c hc, hq c hc]
  · intro s r t m hfx h1 h2 h3 hs hr hfs hfr hzs hzr
    obtain ⟨m1, d1, r1, k1, f1⟩ := hR.run s r t m hfx h1 hs hr hfs hfr hzs hzr
    obtain ⟨m2, d2, w2⟩ := addSource_det (Ne.symm h3) hsz hzr m1
    refine ⟨m2, ?_, fun c hc => ?_, fun n n0 n1 => ?_, fun b b1 b2 b3 => ?_⟩
    · unfold coarseRHS; exact det_append d1 d2
    · obtain ⟨p0, p1⟩ := hR.range c hc
      rw [w2.view _ p0 p1, r1 c hc, f1 src (Ne.symm h2) (Ne.symm h3) hf]
      rfl
    · rw [w2.frame s h1]; exact k1 n n0 n1
    · rw [w2.frame b b2, f1 b b1 b2 b3]

end

/-! ### The smoother -/

section
variable {sz : A → Int} {N : Int} {scratch : A → Prop} {fx : A → Option (Int → K)} {P : C → Prop} {loc : C → Int} {par : A}
  {G : (C → K) → (C → K) → C → K} {H : (C → K) → Int → K} {rhs : A → A → K → Host A K}

/-- Effect of a smoothing pass: one Bogacki–Shampine step of size `dt` for the level problem. -/
structure SmoothPost (N : Int) (scratch : A → Prop) (P : C → Prop) (loc : C → Int) (par : A)
    (G : (C → K) → (C → K) → C → K) (H : (C → K) → Int → K) (w : RKArr A) (dt : K) (m m' : Mem A K) : Prop where
  sol : ∀ c, P c → m' w.sol (loc c) =
    (bs23 : Tableau K).step (fun _ => G (inner loc m par)) 0 dt (inner loc m w.sol) c
  full : ∀ n, 0 ≤ n → n < N → m' w.sol n =
    H ((bs23 : Tableau K).step (fun _ => G (inner loc m par)) 0 dt (inner loc m w.sol)) n
  res : ∀ c, P c → m' w.res (loc c) =
    (bs23 : Tableau K).slope (fun _ => G (inner loc m par)) 0 dt (inner loc m w.sol) c
  k4 : ∀ c, P c → m' w.k4 (loc c) = G (inner loc m par)
    ((bs23 : Tableau K).step (fun _ => G (inner loc m par)) 0 dt (inner loc m w.sol)) c
  frame : ∀ b, b ∉ [w.sol, w.res, w.k1, w.k2, w.k3, w.k4, w.stage] → ¬ scratch b → m' b = m b

variable (hR : ParRhs sz N scratch fx P loc par G H rhs) {w : RKArr A} (hw : w.Ok sz N scratch)
  (hp : par ∉ [w.sol, w.res, w.k1, w.k2, w.k3, w.k4, w.stage]) (hps : ¬ scratch par)
  (hwf : ∀ a ∈ [w.sol, w.res, w.k1, w.k2, w.k3, w.k4, w.stage], fx a = none) (hsf : ∀ a, scratch a → fx a = none)
include hR hw hp hps hwf hsf

theorem smoothHost_det (time dt : K) (m : Mem A K) (hfx : Holds fx m) :
    ∃ m', Det sz (smoothHost N rhs w time dt) m m' ∧ SmoothPost N scratch P loc par G H w dt m m' := by
  have hnd := hw.nodup
  simp only [List.nodup_cons, List.mem_cons, not_or, List.not_mem_nil, not_false_eq_true,
    List.nodup_nil, and_true] at hnd hp
  obtain ⟨⟨n1, n2, n3, n4, n5, n6⟩, ⟨n7, n8, n9, n10, n11⟩, ⟨n12, n13, n14, n15⟩, ⟨n16, n17, n18⟩, ⟨n19, n20⟩, n21⟩ := hnd
  obtain ⟨p1, p2, p3, p4, p5, p6, p7⟩ := hp
  have s1 : ¬ scratch w.sol := hw.fresh _ (by simp)
  have s2 : ¬ scratch w.res := hw.fresh _ (by simp)
  have s3 : ¬ scratch w.k1 := hw.fresh _ (by simp)
  have s4 : ¬ scratch w.k2 := hw.fresh _ (by simp)
  have s5 : ¬ scratch w.k3 := hw.fresh _ (by simp)
  have s6 : ¬ scratch w.k4 := hw.fresh _ (by simp)
  have s7 : ¬ scratch w.stage := hw.fresh _ (by simp)
  have ff : ∀ {b : A}, fx b ≠ none → ¬ scratch b ∧ ∀ a ∈ [w.sol, w.res, w.k1, w.k2, w.k3, w.k4, w.stage], b ≠ a :=
    fun hb => ⟨fun h => hb (hsf _ h), fun a ha e => hb (e ▸ hwf a ha)⟩
  obtain ⟨m1, d1, r1, k1, f1⟩ := hR.run w.sol w.k1 time m hfx (by ne!) (by ne!) (by ne!) s1 s3 (hwf _ (by simp))
    (hwf _ (by simp)) (hw.size _ (by simp))
    (hw.size _ (by simp))
  have x1 : Holds fx m1 := hfx.frame fun b hb => f1 b ((ff hb).2 _ (by simp)) ((ff hb).2 _ (by simp)) (ff hb).1
  obtain ⟨m2, d2, w2⟩ := stage2_det hw dt (1 / 2) m1
  have x2 : Holds fx m2 := x1.frame fun b hb => w2.frame b ((ff hb).2 _ (by simp))
  obtain ⟨m3, d3, r3, k3, f3⟩ := hR.run w.stage w.k2 (time + 1 / 2 * dt) m2 x2 (by ne!) (by ne!) (by ne!) s7 s4
    (hwf _ (by simp)) (hwf _ (by simp))
    (hw.size _ (by simp)) (hw.size _ (by simp))
  have x3 : Holds fx m3 := x2.frame fun b hb => f3 b ((ff hb).2 _ (by simp)) ((ff hb).2 _ (by simp)) (ff hb).1
  obtain ⟨m4, d4, w4⟩ := stage3_det hw dt 0 (3 / 4) m3
  have x4 : Holds fx m4 := x3.frame fun b hb => w4.frame b ((ff hb).2 _ (by simp))
  obtain ⟨m5, d5, r5, k5, f5⟩ := hR.run w.stage w.k3 (time + 3 / 4 * dt) m4 x4 (by ne!) (by ne!) (by ne!) s7 s5
    (hwf _ (by simp)) (hwf _ (by simp))
    (hw.size _ (by simp)) (hw.size _ (by simp))
  obtain ⟨m6, d6, w6⟩ := residual_det hw (2 / 9) (1 / 3) (4 / 9) m5
  obtain ⟨m7, d7, w7⟩ := update_det hw dt m6
  have x7 : Holds fx m7 := x4.frame fun b hb => by
    rw [w7.frame b ((ff hb).2 _ (by simp)), w6.frame b ((ff hb).2 _ (by simp)),
      f5 b ((ff hb).2 _ (by simp)) ((ff hb).2 _ (by simp)) (ff hb).1]
  obtain ⟨m8, d8, r8, k8, f8⟩ := hR.run w.sol w.k4 (time + 1 * dt) m7 x7 (by ne!) (by ne!) (by ne!) s1 s6
    (hwf _ (by simp)) (hwf _ (by simp))
    (hw.size _ (by simp)) (hw.size _ (by simp))
  -- the parameter array
  have q1 : m1 par = m par := f1 _ (by ne!) (by ne!) hps
  have q2 : m2 par = m par := by rw [w2.frame _ (by ne!), q1]
  have q3 : m3 par = m par := by rw [f3 _ (by ne!) (by ne!) hps, q2]
  have q4 : m4 par = m par := by rw [w4.frame _ (by ne!), q3]
  have q5 : m5 par = m par := by rw [f5 _ (by ne!) (by ne!) hps, q4]
  have q7 : m7 par = m par := by rw [w7.frame _ (by ne!), w6.frame _ (by ne!), q5]
  -- the state
  have t2 : m2 w.sol = m1 w.sol := w2.frame _ (by ne!)
  have t3 : m3 w.sol = m1 w.sol := by rw [f3 _ (by ne!) (by ne!) s1, t2]
  have t4 : m4 w.sol = m1 w.sol := by rw [w4.frame _ (by ne!), t3]
  have t5 : m5 w.sol = m1 w.sol := by rw [f5 _ (by ne!) (by ne!) s1, t4]
  have t6 : m6 w.sol = m1 w.sol := by rw [w6.frame _ (by ne!), t5]
  -- first slope
  have u2 : m2 w.k1 = m1 w.k1 := w2.frame _ (by ne!)
  have u3 : m3 w.k1 = m1 w.k1 := by rw [f3 _ (by ne!) (by ne!) s3, u2]
  have u4 : m4 w.k1 = m1 w.k1 := by rw [w4.frame _ (by ne!), u3]
  have u5 : m5 w.k1 = m1 w.k1 := by rw [f5 _ (by ne!) (by ne!) s3, u4]
  -- second slope
  have v4 : m4 w.k2 = m3 w.k2 := w4.frame _ (by ne!)
  have v5 : m5 w.k2 = m3 w.k2 := by rw [f5 _ (by ne!) (by ne!) s4, v4]
  set q := inner loc m par with hq
  set y := inner loc m w.sol with hy
  set Φ : K → (C → K) → C → K := fun _ => G q with hΦ
  have par_eq : ∀ {μ : Mem A K}, μ par = m par → inner loc μ par = q := fun h => by
    rw [hq]; unfold inner; rw [h]
  have sol1 : ∀ c, P c → m1 w.sol (loc c) = y c := fun c hc => by
    obtain ⟨a0, a1⟩ := hR.range c hc
    rw [k1 _ a0 a1, hR.keep _ c hc]
  have κ1 : ∀ c, P c → m1 w.k1 (loc c) = (bs23 : Tableau K).stage Φ 0 dt y 0 c := fun c hc => by
    rw [r1 c hc, bs23_stage0]
  have κ2 : ∀ c, P c → m3 w.k2 (loc c) = (bs23 : Tableau K).stage Φ 0 dt y 1 c := fun c hc => by
    rw [r3 c hc, bs23_stage1, par_eq q2]
    refine hR.interior _ _ _ _ (fun _ _ => rfl) (fun c hc => ?_) c hc
    obtain ⟨a0, a1⟩ := hR.range c hc
    unfold inner
    rw [w2.view _ a0 a1, sol1 c hc, κ1 c hc, bs23_stage0]; rfl
  have κ3 : ∀ c, P c → m5 w.k3 (loc c) = (bs23 : Tableau K).stage Φ 0 dt y 2 c := fun c hc => by
    rw [r5 c hc, bs23_stage2, par_eq q4]
    refine hR.interior _ _ _ _ (fun _ _ => rfl) (fun c hc => ?_) c hc
    obtain ⟨a0, a1⟩ := hR.range c hc
    unfold inner
    rw [w4.view _ a0 a1, t3, u3, sol1 c hc, κ1 c hc, κ2 c hc, bs23_stage0, bs23_stage1]; rfl
  have hres : ∀ c, P c → m6 w.res (loc c) = (bs23 : Tableau K).slope Φ 0 dt y c := fun c hc => by
    obtain ⟨a0, a1⟩ := hR.range c hc
    rw [w6.view _ a0 a1, u5, v5, κ1 c hc, κ2 c hc, κ3 c hc, bs23_slope]; rfl
  have hsol : ∀ c, P c → m7 w.sol (loc c) = (bs23 : Tableau K).step Φ 0 dt y c := fun c hc => by
    obtain ⟨a0, a1⟩ := hR.range c hc
    rw [w7.view _ a0 a1, t6, sol1 c hc, hres c hc]; rfl
  refine ⟨m8, ?_, ?_, ?_, ?_, ?_, ?_⟩
  · unfold smoothHost
    exact det_append (det_append (det_append (det_append (det_append (det_append (det_append d1 d2) d3) d4) d5) d6) d7) d8
  · intro c hc
    obtain ⟨a0, a1⟩ := hR.range c hc
    rw [k8 _ a0 a1, hR.keep _ c hc]; exact hsol c hc
  · intro n a0 a1
    rw [k8 n a0 a1]
    exact hR.fill _ _ hsol n a0 a1
  · intro c hc
    rw [f8 _ (by ne!) (by ne!) s2, w7.frame _ (by ne!)]; exact hres c hc
  · intro c hc
    rw [r8 c hc, par_eq q7]
    exact hR.interior _ _ _ _ (fun _ _ => rfl) hsol c hc
  · intro b hb hs
    simp only [List.mem_cons, List.not_mem_nil, or_false, not_or] at hb
    obtain ⟨x1, x2, x3, x4, x5, x6, x7⟩ := hb
    rw [f8 b x1 x6 hs, w7.frame b x1, w6.frame b x2, f5 b x7 x5 hs, w4.frame b x7, f3 b x7 x4 hs, w2.frame b x7,
      f1 b x1 x3 hs]

end

section
variable [LinearOrder K] {sz : A → Int} {N : Int} {scratch : A → Prop} {w : RKArr A} (hw : w.Ok sz N scratch)
include hw

theorem err_det (m : Mem A K) : ∃ r, CDet sz (Cmd.reduceOf max 0 (ode23ErrBodies (K := K) N w)) m r m := by
  refine ⟨_, CDet.reduce max_assoc max_comm (irange 0 N) _
    (fun i => fabs (m w.res i - (7 / 24 * m w.k1 i + 1 / 4 * m w.k2 i + 1 / 3 * m w.k3 i + 1 / 8 * m w.k4 i))) 0 m ?_⟩
  intro i hi
  simp only [mem_irange] at hi
  have hb : ∀ a ∈ [w.sol, w.res, w.k1, w.k2, w.k3, w.k4, w.stage], InB sz a i := fun a ha => by
    rw [InB, hw.size a ha]; exact hi
  simp only [Prog.monad_bind]
  rw [run_bind_ok (run_rd (hb _ (by simp)) m), run_bind_ok (run_rd (hb _ (by simp)) m),
    run_bind_ok (run_rd (hb _ (by simp)) m), run_bind_ok (run_rd (hb _ (by simp)) m),
    run_bind_ok (run_rd (hb _ (by simp)) m)]
  rfl

end

section
variable [LinearOrder K] {sz : A → Int} {N : Int} {scratch : A → Prop} {fx : A → Option (Int → K)} {P : C → Prop} {loc : C → Int} {par : A}
  {G : (C → K) → (C → K) → C → K} {H : (C → K) → Int → K} {rhs : A → A → K → Host A K}
variable (hR : ParRhs sz N scratch fx P loc par G H rhs) {w : RKArr A} (hw : w.Ok sz N scratch)
  (hp : par ∉ [w.sol, w.res, w.k1, w.k2, w.k3, w.k4, w.stage]) (hps : ¬ scratch par)
  (hwf : ∀ a ∈ [w.sol, w.res, w.k1, w.k2, w.k3, w.k4, w.stage], fx a = none) (hsf : ∀ a, scratch a → fx a = none)
include hR hw hp hps hwf hsf

theorem doSmooth_det (time dt : K) (m : Mem A K) (hfx : Holds fx m) :
    ∃ m', CDet sz (doSmooth N rhs w time dt) m () m' ∧ SmoothPost N scratch P loc par G H w dt m m' := by
  obtain ⟨m', d, q⟩ := smoothHost_det hR hw hp hps hwf hsf time dt m hfx
  obtain ⟨r, dr⟩ := err_det (K := K) hw m'
  exact ⟨m', (CDet.ofHost d).bind (dr.bind (CDet.ret _ _)), q⟩

end

/-! ### Steady states of the level problem -/

theorem bs23_slope_zero (Φ : (C → K) → C → K) (P : C → Prop)
    (hΦ : ∀ u v, (∀ c, P c → u c = v c) → ∀ c, P c → Φ u c = Φ v c) (dt : K) (y : C → K)
    (h0 : ∀ c, P c → Φ y c = 0) : ∀ c, P c → (bs23 : Tableau K).slope (fun _ => Φ) 0 dt y c = 0 := by
  have e0 : ∀ c, P c → (bs23 : Tableau K).stage (fun _ => Φ) 0 dt y 0 c = 0 := fun c hc => by
    rw [bs23_stage0]; exact h0 c hc
  have e1 : ∀ c, P c → (bs23 : Tableau K).stage (fun _ => Φ) 0 dt y 1 c = 0 := fun c hc => by
    rw [bs23_stage1, hΦ _ y (fun c hc => ?_) c hc]
    · exact h0 c hc
    · simp only [Pi.add_apply, Pi.smul_apply, h0 c hc, smul_zero, add_zero]
  have e2 : ∀ c, P c → (bs23 : Tableau K).stage (fun _ => Φ) 0 dt y 2 c = 0 := fun c hc => by
    rw [bs23_stage2, ← bs23_stage1 (F := fun _ => Φ) (t := 0), hΦ _ y (fun c hc => ?_) c hc]
    · exact h0 c hc
    · simp only [Pi.add_apply, Pi.smul_apply, h0 c hc, e1 c hc, smul_zero, add_zero]
  intro c hc
  rw [bs23_slope]
  simp only [Pi.add_apply, Pi.smul_apply, e0 c hc, e1 c hc, e2 c hc, smul_zero, add_zero]

theorem bs23_step_fixed (Φ : (C → K) → C → K) (P : C → Prop)
    (hΦ : ∀ u v, (∀ c, P c → u c = v c) → ∀ c, P c → Φ u c = Φ v c) (dt : K) (y : C → K)
    (h0 : ∀ c, P c → Φ y c = 0) : ∀ c, P c → (bs23 : Tableau K).step (fun _ => Φ) 0 dt y c = y c := by
  intro c hc
  simp only [Tableau.step, Pi.add_apply, Pi.smul_apply, bs23_slope_zero Φ P hΦ dt y h0 c hc, smul_zero, add_zero]

end Madg
