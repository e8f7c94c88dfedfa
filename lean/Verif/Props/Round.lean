/-
C94, C95, C96: sums, right-hand sides and the mean concentration in rounded arithmetic.
-/
import Verif.Proofs.RoundStep

set_option linter.unusedSectionVars false
set_option linter.unusedVariables false

namespace Madg
open Spec
variable {A K : Type} [DecidableEq A] [Field K] [LinearOrder K] [IsStrictOrderedRing K]
variable {rnd : K → K} {u τ : K}

/-! ### C94: sums -/

/-- C94. However a sum over cells is split among threads and combined, the result is within `((1+u)^(n-1) - 1) Σ(|x| + τ)` of the
exact sum of its `n` terms. -/
theorem C94_sum (hr : Rounds rnd u τ) (xs : List (Fl rnd)) (s : Fl rnd) (h : Comb (· + ·) xs s) :
    |s.val - (xs.map Fl.val).sum| ≤ ((1 + u) ^ (xs.length - 1) - 1) * (xs.map fun x => |x.val| + τ).sum :=
  (Near.comb hr h).1.close

/-- C94. The residual norm: every execution ends normally, leaves memory as it is, and takes the root of a number `s` whose
distance from the exact mean square over the `n` cells is at most `(1+u)^(n+4) - 1` times that mean square, up to a multiple of
the underflow threshold `τ`. In particular two runs of the program on the same data agree on the logged residual up to this
error. -/
theorem C94_residual (hr : Rounds rnd u τ) (rt : Fl rnd → Fl rnd) (sz : A → Int) (l : List Int) (hl : l ≠ []) (a : A)
    (ha : ∀ n ∈ l, InB sz a n) (m : Mem A (Fl rnd)) :
    (∃ r, CmdOut sz (residNorm rt l a) m r) ∧
    ∀ r, CmdOut sz (residNorm rt l a) m r → ∃ s, r = .ok (rt s, m) ∧
      |s.val - (l.map fun n => (m a n).val ^ 2).sum / l.length| ≤
        ((1 + u) ^ (l.length + 4) - 1) * (((l.map fun n => (m a n).val ^ 2).sum + (2 * l.length + 1) * τ) / l.length) := by
  have run : ∀ n ∈ l, Prog.run sz ((Prog.rd a n).bind fun v => (.pure (v ^ 2) : Prog A (Fl rnd) (Fl rnd))) m = .ok (m a n ^ 2, m) :=
    fun n hn => by rw [run_bind_ok (run_rd (ha n hn) m)]; rfl
  unfold residNorm
  rw [redIdx_eq_map]
  constructor
  · refine ⟨_, CmdOut.reduce _ _ _ _ _ (l.map fun n => m a n ^ 2) _ _ ?_ (comb_foldl _ _ _) (CmdOut.ret _ _)⟩
    rw [List.forall₂_map_left_iff, List.forall₂_map_right_iff, List.forall₂_same]
    exact run
  · intro r h
    rcases cmdOut_bind.1 h with ⟨x, m1, h1, h2⟩ | ⟨e, h1, rfl⟩
    · cases h2
      cases h1 with
      | reduce _ _ _ _ _ xs r _ hx hc hk =>
        cases hk
        have : xs = l.map fun n => m a n ^ 2 := by
          clear hc ha hl h
          induction l generalizing xs with
          | nil => cases hx; rfl
          | cons n l ih =>
            cases hx with
            | cons h1 h2 =>
              rw [run n (List.mem_cons_self ..)] at h1
              cases h1
              rw [ih (fun n hn => run n (List.mem_cons_of_mem _ hn)) _ h2]; rfl
        subst this
        exact ⟨_, rfl, near_meanSq hr hl hc⟩
    · cases h1 with
      | reduce _ _ _ _ _ _ _ _ _ _ hk => cases hk
      | reduceFault _ _ _ _ _ p hp _ hf =>
        obtain ⟨n, hn, rfl⟩ := List.mem_map.1 hp
        rw [run n hn] at hf
        cases hf

example (m : Mem Nat (Fl binary64.round)) (r) (h : CmdOut (fun _ => 5) (residNorm id [1, 2, 4] 7) m r) :
    ∃ s : Fl binary64.round, r = .ok (s, m) ∧
      |s.val - ((m 7 1).val ^ 2 + ((m 7 2).val ^ 2 + ((m 7 4).val ^ 2 + 0))) / 3| ≤
        ((1 + 1 / 2 ^ 53) ^ 7 - 1) * (((m 7 1).val ^ 2 + ((m 7 2).val ^ 2 + ((m 7 4).val ^ 2 + 0)) + (2 * 3 + 1) * (1 / 2 ^ 1022)) / 3) :=
  (C94_residual binary64_rounds id (fun _ => 5) [1, 2, 4] (by decide) 7 (fun n hn => by
    simp only [List.mem_cons, List.not_mem_nil, or_false] at hn; show 0 ≤ n ∧ n < 5; omega) m).2 r h

/-! ### C95: the right-hand side -/

/-- C95. In rounded arithmetic, on every schedule and with every implementation of the right-hand side, the number stored in each
interior cell differs from the exact finite-difference right-hand side of the stored concentrations by at most
`(1+u)^25 - 1` times the size of its terms, where `M` bounds the concentrations. -/
theorem C95_rhs_error (hr : Rounds rnd u τ) (g : Grid3) (bx bY bz : BCType) (G : Geom3) (hG : mkGeom3 g bx bY bz = .ok G)
    (sz : A → Int) (c r a1 a2 a3 a4 : A) (hnd : [c, r, a1, a2, a3, a4].Nodup)
    (hsz : ∀ x ∈ [c, r, a1, a2, a3, a4], sz x = g.size) (hn : 2 ≤ g.nhalo) (hi : 1 ≤ g.ni ∧ g.nhalo ≤ g.ni)
    (hj : 1 ≤ g.nj ∧ g.nhalo ≤ g.nj) (hk : 1 ≤ g.nk ∧ g.nhalo ≤ g.nk) (v : Int) (hv : ctorCH3 v = .ok ()) (p : CHParams (Fl rnd))
    (dx : Fl rnd) (hdx : Spacing τ dx.val) (M : K) (hM : 1 ≤ M) (m : Mem A (Fl rnd))
    (hm : ∀ i j k, (0 ≤ i ∧ i < g.ni) → (0 ≤ j ∧ j < g.nj) → (0 ≤ k ∧ k < g.nk) → |(m c (g.at3 i j k)).val| ≤ M) :
    ∃ m', Det sz (G.evalRHS v p dx ⟨c, r, a1, a2, a3, a4⟩) m m' ∧
      ∀ i j k, (0 ≤ i ∧ i < g.ni) → (0 ≤ j ∧ j < g.nj) → (0 ≤ k ∧ k < g.nk) →
        |(m' r (g.at3 i j k)).val -
            chRhs3 (valuesOf p) dx.val (ext3 bx bY bz g.ni g.nj g.nk fun i j k => (m c (g.at3 i j k)).val) i j k| ≤
          ((1 + u) ^ 25 - 1) * rhsSize (valuesOf p) dx.val M := by
  obtain ⟨hGo, rfl, rfl, rfl, rfl⟩ := Geom3.ok_of_mk ⟨hi.1, hj.1, hk.1, by omega⟩ hG
  obtain ⟨m', d, f⟩ := evalRHS_detA hGo (sz := sz) (w := ⟨c, r, a1, a2, a3, a4⟩) ⟨hnd, hsz⟩ hn hi.2 hj.2 hk.2 hv p dx m
  refine ⟨m', d, fun i j k h1 h2 h3 => ?_⟩
  rw [f.rhs i j k ⟨h1, h2, h3⟩]
  exact (near_field hr hi.1 hj.1 hk.1 hM hdx (t := (0 : Fl rnd)) (t' := 0) (y := fun q => m c (G.g.at3 q.1 q.2.1 q.2.2))
    (fun q hq => hm _ _ _ hq.1 hq.2.1 hq.2.2) (i, j, k)).close

example : ∃ G, mkGeom3 ⟨2, 3, 4, 2⟩ .periodic .neumann .periodic = .ok G ∧
    ∃ m', Det (fun _ => 336) (G.evalRHS 1 ⟨⟨1 / 1024⟩, ⟨1⟩, ⟨0⟩⟩ ⟨1 / 2⟩ ⟨0, 1, 2, 3, 4, 5⟩)
        (fun _ n => (⟨if n = 100 then 1 else 1 / 2⟩ : Fl binary64.round)) m' ∧
      ∀ i j k, (0 ≤ i ∧ i < 2) → (0 ≤ j ∧ j < 3) → (0 ≤ k ∧ k < 4) →
        |(m' 1 ((⟨2, 3, 4, 2⟩ : Grid3).at3 i j k)).val - chRhs3 ⟨1 / 1024, 1, 0⟩ (1 / 2)
            (ext3 .periodic .neumann .periodic 2 3 4 fun i j k => if (⟨2, 3, 4, 2⟩ : Grid3).at3 i j k = 100 then 1 else 1 / 2) i j k| ≤
          1 / 10 ^ 12 := by
  have e := mkGeom3_ok (g := ⟨2, 3, 4, 2⟩) ⟨by decide, by decide, by decide, by decide⟩ .periodic .neumann .periodic
  obtain ⟨m', d, h⟩ := C95_rhs_error binary64_rounds _ _ _ _ _ e (fun _ : Nat => 336) 0 1 2 3 4 5 (by decide) (fun _ _ => by decide)
    (by decide) (by decide) (by decide) (by decide) 1 (by decide) ⟨⟨1 / 1024⟩, ⟨1⟩, ⟨0⟩⟩ ⟨1 / 2⟩ (spacing64 (by norm_num)) 1 le_rfl
    (fun _ n => ⟨if n = 100 then 1 else 1 / 2⟩) (fun i j k _ _ _ => by dsimp only; split <;> norm_num)
  refine ⟨_, e, m', d, fun i j k h1 h2 h3 => (h i j k h1 h2 h3).trans ?_⟩
  unfold rhsSize valuesOf
  norm_num

/-! ### C96: the mean concentration -/

section
variable (hr : Rounds rnd u τ) (g : Grid3) (hn : 2 ≤ g.ni ∧ 2 ≤ g.nj ∧ 2 ≤ g.nk) (hh : g.nhalo = 2) (G : Geom3)
  (hG : mkGeom3 g .periodic .periodic .periodic = .ok G) (v : Int) (hv : v = 0 ∨ v = 1 ∨ v = 2) (sz : A → Int) (l1 l2 l3 l4 : A)
  (hl : [l1, l2, l3, l4].Nodup) (hls : ∀ a ∈ [l1, l2, l3, l4], sz a = g.size)
  (w : RKArr A) (hnd : [w.sol, w.res, w.k1, w.k2, w.k3, w.k4, w.stage].Nodup)
  (hsz : ∀ a ∈ [w.sol, w.res, w.k1, w.k2, w.k3, w.k4, w.stage], sz a = g.size)
  (hfr : ∀ a ∈ [w.sol, w.res, w.k1, w.k2, w.k3, w.k4, w.stage], a ∉ [l1, l2, l3, l4])
  (p : CHParams (Fl rnd)) (dx : Fl rnd) (hdx : Spacing τ dx.val) (M : K) (hM : 1 ≤ M)
include hr hn hh hG hv hl hls hnd hsz hfr hdx hM

/-- C96. One rk3ssp step on a periodic grid in rounded arithmetic. If the stored concentrations and the two stage values are at
most `M`, the deviation of the total from `N m` is multiplied by `1 - z + z²/2 - z³/6`, `z = σ dt`, up to `(1 + 2z) N` times the
error of a cell; with `σ = 0` the total is kept up to this error. -/
theorem C96_rk3_step (t dt : Fl rnd) (hdt : 2 * τ ≤ dt.val) (h0 : 0 ≤ p.sigma.val) (h1 : p.sigma.val * dt.val ≤ 1)
    (m m' : Mem A (Fl rnd)) (d : Det sz (rk3Step g.size (fun s r _ => G.evalRHS v p dx ⟨s, r, l1, l2, l3, l4⟩) w t dt) m m')
    (hb : ∀ i j k, (0 ≤ i ∧ i < g.ni) → (0 ≤ j ∧ j < g.nj) → (0 ≤ k ∧ k < g.nk) →
      |(m w.sol (g.at3 i j k)).val| ≤ M ∧
      |(m w.sol (g.at3 i j k) + dt * 1 * m' w.k1 (g.at3 i j k)).val| ≤ M ∧
      |(m w.sol (g.at3 i j k) + dt * (1 / 4 * m' w.k1 (g.at3 i j k) + 1 / 4 * m' w.k2 (g.at3 i j k))).val| ≤ M) :
    |(sum3 g.ni g.nj g.nk (fun i j k => (m' w.sol (g.at3 i j k)).val) - ((g.ni * g.nj * g.nk : Int) : K) * p.m.val) -
        (1 - p.sigma.val * dt.val + (p.sigma.val * dt.val) ^ 2 / 2 - (p.sigma.val * dt.val) ^ 3 / 6) *
          (sum3 g.ni g.nj g.nk (fun i j k => (m w.sol (g.at3 i j k)).val) - ((g.ni * g.nj * g.nk : Int) : K) * p.m.val)| ≤
      (1 + 2 * (p.sigma.val * dt.val)) * (((g.ni * g.nj * g.nk : Int) : K) *
        (((1 + u) ^ 34 - 1) * (2 * M + dt.val * rhsSize (valuesOf p) dx.val M))) := by
  obtain ⟨m1, d1, q, -⟩ := rk3_onA (ch3_contractA hn hh hG hv hl hls p dx) ⟨hnd, hsz, hfr⟩ t dt m trivial
  obtain rfl := d.unique d1
  have t0 := hr.tiny.1
  have hd : |dt.val| = dt.val := abs_of_nonneg (by linarith)
  obtain ⟨y2, y3, e2, e3, e4⟩ := rk3_errors hr (by omega) (by omega) (by omega) hM hdx (by rw [hd]; exact hdt) q
    (fun c hc => (hb _ _ _ hc.1 hc.2.1 hc.2.2).1) (fun c hc => (hb _ _ _ hc.1 hc.2.1 hc.2.2).2.1)
    (fun c hc => (hb _ _ _ hc.1 hc.2.1 hc.2.2).2.2)
  rw [hd] at e2 e3 e4
  generalize ((1 + u) ^ 34 - 1) * (2 * M + dt.val * rhsSize (valuesOf p) dx.val M) = δ at e2 e3 e4 ⊢
  have key := drift_rk3 (ni := g.ni) (nj := g.nj) (nk := g.nk) (by omega) (by omega) (by omega) (valuesOf p) dx.val
    (dt := dt.val) (δ := δ) (mul_nonneg h0 (by linarith)) h1 (y := fun c => (m w.sol (g.at3 c.1 c.2.1 c.2.2)).val) (y2 := y2)
    (y3 := y3) (y' := fun c => (m' w.sol (g.at3 c.1 c.2.1 c.2.2)).val) e2 e3 e4
  exact key

/-- C96. A whole rk3ssp run: after `n` steps of sizes at most `T` the total is as close to `N m` as at the start, up to `n` times
an error of a few hundred roundings per cell. -/
theorem C96_rk3_run (n : Nat) (ts dts : Nat → Fl rnd) (T : K) (hdt : ∀ i < n, 2 * τ ≤ (dts i).val ∧ (dts i).val ≤ T)
    (h0 : 0 ≤ p.sigma.val) (h1 : ∀ i < n, p.sigma.val * (dts i).val ≤ 1) (ms : Nat → Mem A (Fl rnd))
    (d : ∀ i < n, Det sz (rk3Step g.size (fun s r _ => G.evalRHS v p dx ⟨s, r, l1, l2, l3, l4⟩) w (ts i) (dts i)) (ms i) (ms (i + 1)))
    (hb : ∀ i' < n, ∀ i j k, (0 ≤ i ∧ i < g.ni) → (0 ≤ j ∧ j < g.nj) → (0 ≤ k ∧ k < g.nk) →
      |(ms i' w.sol (g.at3 i j k)).val| ≤ M ∧
      |(ms i' w.sol (g.at3 i j k) + dts i' * 1 * ms (i' + 1) w.k1 (g.at3 i j k)).val| ≤ M ∧
      |(ms i' w.sol (g.at3 i j k) + dts i' * (1 / 4 * ms (i' + 1) w.k1 (g.at3 i j k) + 1 / 4 * ms (i' + 1) w.k2 (g.at3 i j k))).val| ≤ M) :
    |sum3 g.ni g.nj g.nk (fun i j k => (ms n w.sol (g.at3 i j k)).val) - ((g.ni * g.nj * g.nk : Int) : K) * p.m.val| ≤
      |sum3 g.ni g.nj g.nk (fun i j k => (ms 0 w.sol (g.at3 i j k)).val) - ((g.ni * g.nj * g.nk : Int) : K) * p.m.val| +
        n * (3 * (((g.ni * g.nj * g.nk : Int) : K) * (((1 + u) ^ 34 - 1) * (2 * M + T * rhsSize (valuesOf p) dx.val M)))) := by
  have hR := rhsSize_ge hr (by omega) (by omega) (by omega) hM hdx (ni := g.ni) (nj := g.nj) (nk := g.nk) (p := p)
  have hN : (0 : K) < ((g.ni * g.nj * g.nk : Int) : K) := by
    have : 0 < g.ni * g.nj * g.nk := by have := hn.1; have := hn.2.1; have := hn.2.2; positivity
    exact_mod_cast this
  induction n with
  | zero => simp
  | succ n ih =>
    have ih := ih (fun i hi => hdt i (by omega)) (fun i hi => h1 i (by omega)) (fun i hi => d i (by omega)) (fun i hi => hb i (by omega))
    have st := C96_rk3_step hr g hn hh G hG v hv sz l1 l2 l3 l4 hl hls w hnd hsz hfr p dx hdx M hM (ts n) (dts n)
      (hdt n (by omega)).1 h0 (h1 n (by omega)) (ms n) (ms (n + 1)) (d n (by omega)) (hb n (by omega))
    exact run_step hr hN.le (by have := hr.tiny.1; linarith) (by linarith) h0 (hdt n (by omega)) (h1 n (by omega)) st ih

/-- C96. With `σ = 0` the mean concentration after `n` rk3ssp steps is that of the initial state up to `n` times the error of a
cell. -/
theorem C96_rk3_mean (n : Nat) (ts dts : Nat → Fl rnd) (T : K) (hdt : ∀ i < n, 2 * τ ≤ (dts i).val ∧ (dts i).val ≤ T)
    (h0 : p.sigma.val = 0) (ms : Nat → Mem A (Fl rnd))
    (d : ∀ i < n, Det sz (rk3Step g.size (fun s r _ => G.evalRHS v p dx ⟨s, r, l1, l2, l3, l4⟩) w (ts i) (dts i)) (ms i) (ms (i + 1)))
    (hb : ∀ i' < n, ∀ i j k, (0 ≤ i ∧ i < g.ni) → (0 ≤ j ∧ j < g.nj) → (0 ≤ k ∧ k < g.nk) →
      |(ms i' w.sol (g.at3 i j k)).val| ≤ M ∧
      |(ms i' w.sol (g.at3 i j k) + dts i' * 1 * ms (i' + 1) w.k1 (g.at3 i j k)).val| ≤ M ∧
      |(ms i' w.sol (g.at3 i j k) + dts i' * (1 / 4 * ms (i' + 1) w.k1 (g.at3 i j k) + 1 / 4 * ms (i' + 1) w.k2 (g.at3 i j k))).val| ≤ M) :
    |sum3 g.ni g.nj g.nk (fun i j k => (ms n w.sol (g.at3 i j k)).val) / ((g.ni * g.nj * g.nk : Int) : K) -
        sum3 g.ni g.nj g.nk (fun i j k => (ms 0 w.sol (g.at3 i j k)).val) / ((g.ni * g.nj * g.nk : Int) : K)| ≤
      n * (((1 + u) ^ 34 - 1) * (2 * M + T * rhsSize (valuesOf p) dx.val M)) := by
  have hR := rhsSize_ge hr (by omega) (by omega) (by omega) hM hdx (ni := g.ni) (nj := g.nj) (nk := g.nk) (p := p)
  have hN : (0 : K) < ((g.ni * g.nj * g.nk : Int) : K) := by
    have : 0 < g.ni * g.nj * g.nk := by have := hn.1; have := hn.2.1; have := hn.2.2; positivity
    exact_mod_cast this
  induction n with
  | zero => simp
  | succ n ih =>
    have ih := ih (fun i hi => hdt i (by omega)) (fun i hi => d i (by omega)) (fun i hi => hb i (by omega))
    have st := C96_rk3_step hr g hn hh G hG v hv sz l1 l2 l3 l4 hl hls w hnd hsz hfr p dx hdx M hM (ts n) (dts n)
      (hdt n (by omega)).1 h0.ge (by rw [h0, zero_mul]; exact zero_le_one) (ms n) (ms (n + 1)) (d n (by omega)) (hb n (by omega))
    rw [h0] at st
    exact mean_step hr hN (by have := hr.tiny.1; linarith) (hdt n (by omega)) st ih

/-- Every step of an ode23 run starts from the slope at its state. -/
theorem ode23_posts (n : Nat) (ts dts : Nat → Fl rnd) (ms : Nat → Mem A (Fl rnd))
    (d : ∀ i < n, Det sz (ode23Host g.size (fun s r _ => G.evalRHS v p dx ⟨s, r, l1, l2, l3, l4⟩) w (decide (i = 0)) (ts i) (dts i))
      (ms i) (ms (i + 1))) :
    ∀ i < n, Ode23Post (In3 g.ni g.nj g.nk) (fun c : Int × Int × Int => g.at3 c.1 c.2.1 c.2.2)
      (chFieldA v p dx .periodic .periodic .periodic g.ni g.nj g.nk) w (ts i) (dts i) (ms i) (ms (i + 1)) := by
  intro i
  induction i with
  | zero =>
    intro hi
    obtain ⟨m1, d1, q, -⟩ := ode23_onA (ch3_contractA hn hh hG hv hl hls p dx) ⟨hnd, hsz, hfr⟩ (decide (0 = 0)) (ts 0) (dts 0) (ms 0)
      trivial (by simp)
    obtain rfl := (d 0 hi).unique d1
    exact q
  | succ i ih =>
    intro hi
    obtain ⟨m1, d1, q, -⟩ := ode23_onA (ch3_contractA hn hh hG hv hl hls p dx) ⟨hnd, hsz, hfr⟩ (decide (i + 1 = 0)) (ts (i + 1))
      (dts (i + 1)) (ms (i + 1)) trivial (fun _ c hc => (ih (by omega)).k4 c hc)
    rw [(d (i + 1) hi).unique d1]
    exact q

/-- C96. The step after `n` ode23 steps, of which only the very first evaluates its first slope. -/
theorem C96_ode23_step (n : Nat) (ts dts : Nat → Fl rnd) (ms : Nat → Mem A (Fl rnd))
    (d : ∀ i < n + 1, Det sz (ode23Host g.size (fun s r _ => G.evalRHS v p dx ⟨s, r, l1, l2, l3, l4⟩) w (decide (i = 0)) (ts i) (dts i))
      (ms i) (ms (i + 1)))
    (hdt : 2 * τ ≤ (dts n).val) (h0 : 0 ≤ p.sigma.val) (h1 : p.sigma.val * (dts n).val ≤ 1)
    (hb : ∀ i j k, (0 ≤ i ∧ i < g.ni) → (0 ≤ j ∧ j < g.nj) → (0 ≤ k ∧ k < g.nk) →
      |(ms n w.sol (g.at3 i j k)).val| ≤ M ∧
      |(ms n w.sol (g.at3 i j k) + dts n * (1 / 2) * ms (n + 1) w.k1 (g.at3 i j k)).val| ≤ M ∧
      |(ms n w.sol (g.at3 i j k) + dts n * (0 * ms (n + 1) w.k1 (g.at3 i j k) + 3 / 4 * ms (n + 1) w.k2 (g.at3 i j k))).val| ≤ M) :
    |(sum3 g.ni g.nj g.nk (fun i j k => (ms (n + 1) w.sol (g.at3 i j k)).val) - ((g.ni * g.nj * g.nk : Int) : K) * p.m.val) -
        (1 - p.sigma.val * (dts n).val + (p.sigma.val * (dts n).val) ^ 2 / 2 - (p.sigma.val * (dts n).val) ^ 3 / 6) *
          (sum3 g.ni g.nj g.nk (fun i j k => (ms n w.sol (g.at3 i j k)).val) - ((g.ni * g.nj * g.nk : Int) : K) * p.m.val)| ≤
      (1 + 2 * (p.sigma.val * (dts n).val)) * (((g.ni * g.nj * g.nk : Int) : K) *
        (((1 + u) ^ 34 - 1) * (2 * M + (dts n).val * rhsSize (valuesOf p) dx.val M))) := by
  have post := ode23_posts hr g hn hh G hG v hv sz l1 l2 l3 l4 hl hls w hnd hsz hfr p dx hdx M hM (n + 1) ts dts ms d
  have q := post n (by omega)
  have t0 := hr.tiny.1
  have hd : |(dts n).val| = (dts n).val := abs_of_nonneg (by linarith)
  obtain ⟨y2, y3, e2, e3, e4⟩ := ode23_errors hr (by omega) (by omega) (by omega) hM hdx (by rw [hd]; exact hdt) q
    (fun c hc => (hb _ _ _ hc.1 hc.2.1 hc.2.2).1) (fun c hc => (hb _ _ _ hc.1 hc.2.1 hc.2.2).2.1)
    (fun c hc => (hb _ _ _ hc.1 hc.2.1 hc.2.2).2.2)
  rw [hd] at e2 e3 e4
  generalize ((1 + u) ^ 34 - 1) * (2 * M + (dts n).val * rhsSize (valuesOf p) dx.val M) = δ at e2 e3 e4 ⊢
  have key := drift_ode23 (ni := g.ni) (nj := g.nj) (nk := g.nk) (by omega) (by omega) (by omega) (valuesOf p) dx.val
    (dt := (dts n).val) (δ := δ) (mul_nonneg h0 (by linarith)) h1 (y := fun c => (ms n w.sol (g.at3 c.1 c.2.1 c.2.2)).val) (y2 := y2)
    (y3 := y3) (y' := fun c => (ms (n + 1) w.sol (g.at3 c.1 c.2.1 c.2.2)).val) e2 e3 e4
  exact key

/-- C96. A whole ode23 run, the first step evaluating its first slope and the others taking over the last one of the step before: after `n` steps of sizes at most `T` the total is as close to `N m` as at the start, up to `n` times
an error of a few hundred roundings per cell. -/
theorem C96_ode23_run (n : Nat) (ts dts : Nat → Fl rnd) (T : K) (hdt : ∀ i < n, 2 * τ ≤ (dts i).val ∧ (dts i).val ≤ T)
    (h0 : 0 ≤ p.sigma.val) (h1 : ∀ i < n, p.sigma.val * (dts i).val ≤ 1) (ms : Nat → Mem A (Fl rnd))
    (d : ∀ i < n, Det sz (ode23Host g.size (fun s r _ => G.evalRHS v p dx ⟨s, r, l1, l2, l3, l4⟩) w (decide (i = 0)) (ts i) (dts i)) (ms i) (ms (i + 1)))
    (hb : ∀ i' < n, ∀ i j k, (0 ≤ i ∧ i < g.ni) → (0 ≤ j ∧ j < g.nj) → (0 ≤ k ∧ k < g.nk) →
      |(ms i' w.sol (g.at3 i j k)).val| ≤ M ∧
      |(ms i' w.sol (g.at3 i j k) + dts i' * (1 / 2) * ms (i' + 1) w.k1 (g.at3 i j k)).val| ≤ M ∧
      |(ms i' w.sol (g.at3 i j k) + dts i' * (0 * ms (i' + 1) w.k1 (g.at3 i j k) + 3 / 4 * ms (i' + 1) w.k2 (g.at3 i j k))).val| ≤ M) :
    |sum3 g.ni g.nj g.nk (fun i j k => (ms n w.sol (g.at3 i j k)).val) - ((g.ni * g.nj * g.nk : Int) : K) * p.m.val| ≤
      |sum3 g.ni g.nj g.nk (fun i j k => (ms 0 w.sol (g.at3 i j k)).val) - ((g.ni * g.nj * g.nk : Int) : K) * p.m.val| +
        n * (3 * (((g.ni * g.nj * g.nk : Int) : K) * (((1 + u) ^ 34 - 1) * (2 * M + T * rhsSize (valuesOf p) dx.val M)))) := by
  have hR := rhsSize_ge hr (by omega) (by omega) (by omega) hM hdx (ni := g.ni) (nj := g.nj) (nk := g.nk) (p := p)
  have hN : (0 : K) < ((g.ni * g.nj * g.nk : Int) : K) := by
    have : 0 < g.ni * g.nj * g.nk := by have := hn.1; have := hn.2.1; have := hn.2.2; positivity
    exact_mod_cast this
  induction n with
  | zero => simp
  | succ n ih =>
    have D := d
    have ih := ih (fun i hi => hdt i (by omega)) (fun i hi => h1 i (by omega)) (fun i hi => d i (by omega)) (fun i hi => hb i (by omega))
    have st := C96_ode23_step hr g hn hh G hG v hv sz l1 l2 l3 l4 hl hls w hnd hsz hfr p dx hdx M hM n ts dts ms D
      (hdt n (by omega)).1 h0 (h1 n (by omega)) (hb n (by omega))
    exact run_step hr hN.le (by have := hr.tiny.1; linarith) (by linarith) h0 (hdt n (by omega)) (h1 n (by omega)) st ih

/-- C96. With `σ = 0` the mean concentration after `n` ode23 steps is that of the initial state up to `n` times the error of a
cell. -/
theorem C96_ode23_mean (n : Nat) (ts dts : Nat → Fl rnd) (T : K) (hdt : ∀ i < n, 2 * τ ≤ (dts i).val ∧ (dts i).val ≤ T)
    (h0 : p.sigma.val = 0) (ms : Nat → Mem A (Fl rnd))
    (d : ∀ i < n, Det sz (ode23Host g.size (fun s r _ => G.evalRHS v p dx ⟨s, r, l1, l2, l3, l4⟩) w (decide (i = 0)) (ts i) (dts i)) (ms i) (ms (i + 1)))
    (hb : ∀ i' < n, ∀ i j k, (0 ≤ i ∧ i < g.ni) → (0 ≤ j ∧ j < g.nj) → (0 ≤ k ∧ k < g.nk) →
      |(ms i' w.sol (g.at3 i j k)).val| ≤ M ∧
      |(ms i' w.sol (g.at3 i j k) + dts i' * (1 / 2) * ms (i' + 1) w.k1 (g.at3 i j k)).val| ≤ M ∧
      |(ms i' w.sol (g.at3 i j k) + dts i' * (0 * ms (i' + 1) w.k1 (g.at3 i j k) + 3 / 4 * ms (i' + 1) w.k2 (g.at3 i j k))).val| ≤ M) :
    |sum3 g.ni g.nj g.nk (fun i j k => (ms n w.sol (g.at3 i j k)).val) / ((g.ni * g.nj * g.nk : Int) : K) -
        sum3 g.ni g.nj g.nk (fun i j k => (ms 0 w.sol (g.at3 i j k)).val) / ((g.ni * g.nj * g.nk : Int) : K)| ≤
      n * (((1 + u) ^ 34 - 1) * (2 * M + T * rhsSize (valuesOf p) dx.val M)) := by
  have hR := rhsSize_ge hr (by omega) (by omega) (by omega) hM hdx (ni := g.ni) (nj := g.nj) (nk := g.nk) (p := p)
  have hN : (0 : K) < ((g.ni * g.nj * g.nk : Int) : K) := by
    have : 0 < g.ni * g.nj * g.nk := by have := hn.1; have := hn.2.1; have := hn.2.2; positivity
    exact_mod_cast this
  induction n with
  | zero => simp
  | succ n ih =>
    have D := d
    have ih := ih (fun i hi => hdt i (by omega)) (fun i hi => d i (by omega)) (fun i hi => hb i (by omega))
    have st := C96_ode23_step hr g hn hh G hG v hv sz l1 l2 l3 l4 hl hls w hnd hsz hfr p dx hdx M hM n ts dts ms D
      (hdt n (by omega)).1 h0.ge (by rw [h0, zero_mul]; exact zero_le_one) (hb n (by omega))
    rw [h0] at st
    exact mean_step hr hN (by have := hr.tiny.1; linarith) (hdt n (by omega)) st ih

/-- C96. The same without conditions on the stages, for rk3ssp steps so small that `4 T` times the size of the right-hand side is
at most `M`, where `M / 2` bounds the states: the mean changes by at most `9/4 ((1+u)^34 - 1) M` per step. -/
theorem C96_rk3_small_steps (hM2 : 2 ≤ M) (h34 : (1 + u) ^ 34 ≤ 5 / 4) (n : Nat) (ts dts : Nat → Fl rnd) (T : K)
    (hT : T * rhsSize (valuesOf p) dx.val M ≤ M / 4) (hdt : ∀ i < n, 2 * τ ≤ (dts i).val ∧ (dts i).val ≤ T)
    (h0 : p.sigma.val = 0) (ms : Nat → Mem A (Fl rnd))
    (d : ∀ i < n, Det sz (rk3Step g.size (fun s r _ => G.evalRHS v p dx ⟨s, r, l1, l2, l3, l4⟩) w (ts i) (dts i)) (ms i) (ms (i + 1)))
    (hb : ∀ i' < n, ∀ i j k, (0 ≤ i ∧ i < g.ni) → (0 ≤ j ∧ j < g.nj) → (0 ≤ k ∧ k < g.nk) →
      |(ms i' w.sol (g.at3 i j k)).val| ≤ M / 2) :
    |sum3 g.ni g.nj g.nk (fun i j k => (ms n w.sol (g.at3 i j k)).val) / ((g.ni * g.nj * g.nk : Int) : K) -
        sum3 g.ni g.nj g.nk (fun i j k => (ms 0 w.sol (g.at3 i j k)).val) / ((g.ni * g.nj * g.nk : Int) : K)| ≤
      n * (9 / 4 * ((1 + u) ^ 34 - 1) * M) := by
  have hR := rhsSize_ge hr (by omega) (by omega) (by omega) hM hdx (ni := g.ni) (nj := g.nj) (nk := g.nk) (p := p)
  have t0 := hr.tiny.1
  have ρ := sub_nonneg.2 (Near.one_le hr.unit.1 34)
  refine le_trans (C96_rk3_mean hr g hn hh G hG v hv sz l1 l2 l3 l4 hl hls w hnd hsz hfr p dx hdx M hM n ts dts T hdt h0 ms d ?_)
    (mul_le_mul_of_nonneg_left ?_ (Nat.cast_nonneg n))
  · intro i hi
    obtain ⟨m1, d1, q, -⟩ := rk3_onA (ch3_contractA hn hh hG hv hl hls p dx) ⟨hnd, hsz, hfr⟩ (ts i) (dts i) (ms i) trivial
    rw [← (d i hi).unique d1] at q
    have hd : |(dts i).val| = (dts i).val := abs_of_nonneg (by have := hdt i hi; linarith)
    obtain ⟨x, y, z⟩ := rk3_stages hr (by omega) (by omega) (by omega) hM hdx h34 hM2 (by rw [hd]; exact (hdt i hi).1)
      (by rw [hd]; exact (mul_le_mul_of_nonneg_right (hdt i hi).2 (by linarith)).trans hT) q
      (fun c hc => hb i hi _ _ _ hc.1 hc.2.1 hc.2.2)
    exact fun a b c ha hb hc => ⟨x (a, b, c) ⟨ha, hb, hc⟩, y (a, b, c) ⟨ha, hb, hc⟩, z (a, b, c) ⟨ha, hb, hc⟩⟩
  · calc ((1 + u) ^ 34 - 1) * (2 * M + T * rhsSize (valuesOf p) dx.val M) ≤ ((1 + u) ^ 34 - 1) * (2 * M + M / 4) := by gcongr
      _ = 9 / 4 * ((1 + u) ^ 34 - 1) * M := by ring

/-- C96. The same without conditions on the stages, for ode23 steps so small that `4 T` times the size of the right-hand side is
at most `M`, where `M / 2` bounds the states: the mean changes by at most `9/4 ((1+u)^34 - 1) M` per step. -/
theorem C96_ode23_small_steps (hM2 : 2 ≤ M) (h34 : (1 + u) ^ 34 ≤ 5 / 4) (n : Nat) (ts dts : Nat → Fl rnd) (T : K)
    (hT : T * rhsSize (valuesOf p) dx.val M ≤ M / 4) (hdt : ∀ i < n, 2 * τ ≤ (dts i).val ∧ (dts i).val ≤ T)
    (h0 : p.sigma.val = 0) (ms : Nat → Mem A (Fl rnd))
    (d : ∀ i < n, Det sz (ode23Host g.size (fun s r _ => G.evalRHS v p dx ⟨s, r, l1, l2, l3, l4⟩) w (decide (i = 0)) (ts i) (dts i)) (ms i) (ms (i + 1)))
    (hb : ∀ i' < n, ∀ i j k, (0 ≤ i ∧ i < g.ni) → (0 ≤ j ∧ j < g.nj) → (0 ≤ k ∧ k < g.nk) →
      |(ms i' w.sol (g.at3 i j k)).val| ≤ M / 2) :
    |sum3 g.ni g.nj g.nk (fun i j k => (ms n w.sol (g.at3 i j k)).val) / ((g.ni * g.nj * g.nk : Int) : K) -
        sum3 g.ni g.nj g.nk (fun i j k => (ms 0 w.sol (g.at3 i j k)).val) / ((g.ni * g.nj * g.nk : Int) : K)| ≤
      n * (9 / 4 * ((1 + u) ^ 34 - 1) * M) := by
  have hR := rhsSize_ge hr (by omega) (by omega) (by omega) hM hdx (ni := g.ni) (nj := g.nj) (nk := g.nk) (p := p)
  have t0 := hr.tiny.1
  have ρ := sub_nonneg.2 (Near.one_le hr.unit.1 34)
  refine le_trans (C96_ode23_mean hr g hn hh G hG v hv sz l1 l2 l3 l4 hl hls w hnd hsz hfr p dx hdx M hM n ts dts T hdt h0 ms d ?_)
    (mul_le_mul_of_nonneg_left ?_ (Nat.cast_nonneg n))
  · intro i hi
    have q := ode23_posts hr g hn hh G hG v hv sz l1 l2 l3 l4 hl hls w hnd hsz hfr p dx hdx M hM n ts dts ms d i hi
    have hd : |(dts i).val| = (dts i).val := abs_of_nonneg (by have := hdt i hi; linarith)
    obtain ⟨x, y, z⟩ := ode23_stages hr (by omega) (by omega) (by omega) hM hdx h34 hM2 (by rw [hd]; exact (hdt i hi).1)
      (by rw [hd]; exact (mul_le_mul_of_nonneg_right (hdt i hi).2 (by linarith)).trans hT) q
      (fun c hc => hb i hi _ _ _ hc.1 hc.2.1 hc.2.2)
    exact fun a b c ha hb hc => ⟨x (a, b, c) ⟨ha, hb, hc⟩, y (a, b, c) ⟨ha, hb, hc⟩, z (a, b, c) ⟨ha, hb, hc⟩⟩
  · calc ((1 + u) ^ 34 - 1) * (2 * M + T * rhsSize (valuesOf p) dx.val M) ≤ ((1 + u) ^ 34 - 1) * (2 * M + M / 4) := by gcongr
      _ = 9 / 4 * ((1 + u) ^ 34 - 1) * M := by ring

end

/-- Half a unit of concentration everywhere but in one cell. -/
def roundDemo : Mem Nat (Fl binary64.round) := fun _ n => ⟨if n = 100 then 1 else 1 / 2⟩

example : ∃ (G : Geom3) (m' : Mem Nat (Fl binary64.round)), mkGeom3 ⟨2, 2, 3, 2⟩ .periodic .periodic .periodic = .ok G ∧
    Det (fun _ => 252) (rk3Step 252 (fun s r _ => G.evalRHS 2 ⟨⟨1 / 1024⟩, ⟨0⟩, ⟨0⟩⟩ ⟨1⟩ ⟨s, r, 7, 8, 9, 10⟩) ⟨0, 1, 2, 3, 4, 5, 6⟩ ⟨0⟩ ⟨1 / 512⟩)
      roundDemo m' ∧
    |sum3 2 2 3 (fun i j k => (m' 0 ((⟨2, 2, 3, 2⟩ : Grid3).at3 i j k)).val) / ((2 * 2 * 3 : Int) : ℚ) -
      sum3 2 2 3 (fun i j k => (roundDemo 0 ((⟨2, 2, 3, 2⟩ : Grid3).at3 i j k)).val) / ((2 * 2 * 3 : Int) : ℚ)| ≤
      ((1 : Nat) : ℚ) * (9 / 4 * ((1 + 1 / 2 ^ 53) ^ 34 - 1) * 2) := by
  have e := mkGeom3_ok (g := ⟨2, 2, 3, 2⟩) ⟨by decide, by decide, by decide, by decide⟩ .periodic .periodic .periodic
  obtain ⟨m', d, -⟩ := rk3_onA (w := (⟨0, 1, 2, 3, 4, 5, 6⟩ : RKArr Nat)) (ch3_contractA (A := Nat) (g := ⟨2, 2, 3, 2⟩) (by decide) rfl e
    (v := 2) (by decide) (sz := fun _ => 252) (l1 := 7) (l2 := 8) (l3 := 9) (l4 := 10) (by decide) (fun _ _ => by decide)
    ⟨⟨1 / 1024⟩, ⟨0⟩, ⟨0⟩⟩ ⟨1⟩) ⟨by decide, fun _ _ => by decide, by decide⟩ ⟨0⟩ ⟨1 / 512⟩ roundDemo trivial
  refine ⟨_, m', e, d, ?_⟩
  obtain ⟨u, τ, hr, hu, c34, cdt, csp⟩ : ∃ u τ : ℚ, Rounds binary64.round u τ ∧ u = 1 / 2 ^ 53 ∧ (1 + u) ^ 34 ≤ 5 / 4 ∧ 2 * τ ≤ 1 / 512 ∧
      Spacing τ 1 :=
    ⟨_, _, binary64_rounds, rfl, by norm_num, by have := tiny64.2; linarith, spacing64 (by norm_num)⟩
  rw [← hu]
  have cT : (1 / 512 : ℚ) * rhsSize (valuesOf (rnd := binary64.round) ⟨⟨1 / 1024⟩, ⟨0⟩, ⟨0⟩⟩) 1 2 ≤ 2 / 4 := by
    unfold rhsSize valuesOf; norm_num
  have cb : ∀ n, |(roundDemo 0 n).val| ≤ 2 / 2 := fun n => by unfold roundDemo; dsimp only; split <;> norm_num
  obtain ⟨ms, h0, h1⟩ : ∃ ms : Nat → Mem Nat (Fl binary64.round), ms 0 = roundDemo ∧ ms 1 = m' :=
    ⟨fun i => if i = 0 then roundDemo else m', rfl, rfl⟩
  have := C96_rk3_small_steps hr ⟨2, 2, 3, 2⟩ (by decide) rfl _ e 2 (by decide) (fun _ => 252) 7 8 9 10 (by decide)
    (fun _ _ => by decide) ⟨0, 1, 2, 3, 4, 5, 6⟩ (by decide) (fun _ _ => by decide) (by decide) ⟨⟨1 / 1024⟩, ⟨0⟩, ⟨0⟩⟩ ⟨1⟩
    csp 2 (by norm_num) le_rfl c34 1 (fun _ => ⟨0⟩) (fun _ => ⟨1 / 512⟩) (1 / 512)
    cT (fun _ _ => ⟨cdt, le_rfl⟩) rfl ms
    (fun i hi => by
      obtain rfl : i = 0 := by omega
      have h1' : ms (0 + 1) = m' := h1
      rw [h0, h1']
      exact d)
    (fun i hi a b c _ _ _ => by
      obtain rfl : i = 0 := by omega
      rw [h0]
      exact cb _)
  rw [h0, h1] at this
  exact this

example : ∃ (G : Geom3) (m' : Mem Nat (Fl binary64.round)), mkGeom3 ⟨2, 2, 3, 2⟩ .periodic .periodic .periodic = .ok G ∧
    Det (fun _ => 252) (ode23Host 252 (fun s r _ => G.evalRHS 2 ⟨⟨1 / 1024⟩, ⟨0⟩, ⟨0⟩⟩ ⟨1⟩ ⟨s, r, 7, 8, 9, 10⟩) ⟨0, 1, 2, 3, 4, 5, 6⟩ true ⟨0⟩ ⟨1 / 512⟩)
      roundDemo m' ∧
    |sum3 2 2 3 (fun i j k => (m' 0 ((⟨2, 2, 3, 2⟩ : Grid3).at3 i j k)).val) / ((2 * 2 * 3 : Int) : ℚ) -
      sum3 2 2 3 (fun i j k => (roundDemo 0 ((⟨2, 2, 3, 2⟩ : Grid3).at3 i j k)).val) / ((2 * 2 * 3 : Int) : ℚ)| ≤
      ((1 : Nat) : ℚ) * (9 / 4 * ((1 + 1 / 2 ^ 53) ^ 34 - 1) * 2) := by
  have e := mkGeom3_ok (g := ⟨2, 2, 3, 2⟩) ⟨by decide, by decide, by decide, by decide⟩ .periodic .periodic .periodic
  obtain ⟨m', d, -⟩ := ode23_onA (w := (⟨0, 1, 2, 3, 4, 5, 6⟩ : RKArr Nat)) (ch3_contractA (A := Nat) (g := ⟨2, 2, 3, 2⟩) (by decide) rfl e
    (v := 2) (by decide) (sz := fun _ => 252) (l1 := 7) (l2 := 8) (l3 := 9) (l4 := 10) (by decide) (fun _ _ => by decide)
    ⟨⟨1 / 1024⟩, ⟨0⟩, ⟨0⟩⟩ ⟨1⟩) ⟨by decide, fun _ _ => by decide, by decide⟩ true ⟨0⟩ ⟨1 / 512⟩ roundDemo trivial
    (by simp)
  refine ⟨_, m', e, d, ?_⟩
  obtain ⟨u, τ, hr, hu, c34, cdt, csp⟩ : ∃ u τ : ℚ, Rounds binary64.round u τ ∧ u = 1 / 2 ^ 53 ∧ (1 + u) ^ 34 ≤ 5 / 4 ∧ 2 * τ ≤ 1 / 512 ∧
      Spacing τ 1 :=
    ⟨_, _, binary64_rounds, rfl, by norm_num, by have := tiny64.2; linarith, spacing64 (by norm_num)⟩
  rw [← hu]
  have cT : (1 / 512 : ℚ) * rhsSize (valuesOf (rnd := binary64.round) ⟨⟨1 / 1024⟩, ⟨0⟩, ⟨0⟩⟩) 1 2 ≤ 2 / 4 := by
    unfold rhsSize valuesOf; norm_num
  have cb : ∀ n, |(roundDemo 0 n).val| ≤ 2 / 2 := fun n => by unfold roundDemo; dsimp only; split <;> norm_num
  obtain ⟨ms, h0, h1⟩ : ∃ ms : Nat → Mem Nat (Fl binary64.round), ms 0 = roundDemo ∧ ms 1 = m' :=
    ⟨fun i => if i = 0 then roundDemo else m', rfl, rfl⟩
  have := C96_ode23_small_steps hr ⟨2, 2, 3, 2⟩ (by decide) rfl _ e 2 (by decide) (fun _ => 252) 7 8 9 10 (by decide)
    (fun _ _ => by decide) ⟨0, 1, 2, 3, 4, 5, 6⟩ (by decide) (fun _ _ => by decide) (by decide) ⟨⟨1 / 1024⟩, ⟨0⟩, ⟨0⟩⟩ ⟨1⟩
    csp 2 (by norm_num) le_rfl c34 1 (fun _ => ⟨0⟩) (fun _ => ⟨1 / 512⟩) (1 / 512)
    cT (fun _ _ => ⟨cdt, le_rfl⟩) rfl ms
    (fun i hi => by
      obtain rfl : i = 0 := by omega
      have h1' : ms (0 + 1) = m' := h1
      rw [h0, h1']
      exact d)
    (fun i hi a b c _ _ _ => by
      obtain rfl : i = 0 := by omega
      rw [h0]
      exact cb _)
  rw [h0, h1] at this
  exact this

end Madg
