/-
Convergence of whole Cahn–Hilliard simulations to the solution of the differential equation (C83).
-/
import Verif.Proofs.CHField
import Verif.Props.RK
import Mathlib.Analysis.SpecialFunctions.ExpDeriv

set_option linter.unusedVariables false

namespace Madg
open Spec

theorem le_sum3 {ni nj nk : Int} {f : Int → Int → Int → ℝ} (h : ∀ i j k, 0 ≤ f i j k) {i j k : Int} (hi : 0 ≤ i ∧ i < ni)
    (hj : 0 ≤ j ∧ j < nj) (hk : 0 ≤ k ∧ k < nk) : f i j k ≤ sum3 ni nj nk f := by
  have := sum_cells3 ni nj nk fun c => f c.1 c.2.1 c.2.2
  rw [← this]
  exact Finset.single_le_sum (f := fun c : Int × Int × Int => f c.1 c.2.1 c.2.2) (fun c _ => h _ _ _)
    ((mem_cells3 ni nj nk (i, j, k)).2 ⟨hi, hj, hk⟩)

theorem le_sum2 {n : Int} {f : Int → Int → ℝ} (h : ∀ i j, 0 ≤ f i j) {i j : Int} (hi : 0 ≤ i ∧ i < n)
    (hj : 0 ≤ j ∧ j < n) : f i j ≤ sum2 n n f := by
  have := sum_cells2 n fun c => f c.1 c.2
  rw [← this]
  exact Finset.single_le_sum (f := fun c : Int × Int => f c.1 c.2) (fun c _ => h _ _) ((mem_cells2 n (i, j)).2 ⟨hi, hj⟩)

/-- C83. For every smooth periodic solution of the Cahn–Hilliard equation on `[0, T]` there are a constant and a largest spacing
such that on every finer periodic grid, with any right-hand-side kernel variant, started within `a dx²` of the initial state, every
run of the rk3ssp integrator with steps `dt ≤ dx⁴ / (4608 ε²)` (sizes may vary), whatever halos and scratch arrays contain and
whatever the schedule, ends without fault in a state whose root-mean-square distance from the solution at the time reached is at most
that constant times `dx²`; and the error at each single cell is at most a constant times `√dx`. -/
theorem C83_rk3_3d (p : CHParams ℝ) (he : 0 < p.eps2) (L : Fin 3 → ℝ) (hL : ∀ a, 0 < L a) (T : ℝ)
    (u : ℝ → (Fin 3 → ℝ) → ℝ) (hu : CHSolution p L T u) (a : ℝ) (ha : 0 ≤ a) :
    ∃ Cst h0, 0 ≤ Cst ∧ 0 < h0 ∧ ∀ (A : Type) [DecidableEq A] (g : Grid3) (hn : 2 ≤ g.ni ∧ 2 ≤ g.nj ∧ 2 ≤ g.nk) (hh : g.nhalo = 2)
      (G : Geom3) (hG : mkGeom3 g .periodic .periodic .periodic = .ok G) (v : Int) (hv : v = 0 ∨ v = 1 ∨ v = 2)
      (sz : A → Int) (w : RKArr A) (l1 l2 l3 l4 : A)
      (hnd : [w.sol, w.res, w.k1, w.k2, w.k3, w.k4, w.stage, l1, l2, l3, l4].Nodup)
      (hsz : ∀ a ∈ [w.sol, w.res, w.k1, w.k2, w.k3, w.k4, w.stage, l1, l2, l3, l4], sz a = g.size)
      (dx : ℝ) (hdx : dx ≤ h0) (e0 : g.ni * dx = L 0) (e1 : g.nj * dx = L 1) (e2 : g.nk * dx = L 2) (o : Fin 3 → ℝ)
      (time : ℝ) (dts : List ℝ) (hdts : ∀ dt ∈ dts, 0 ≤ dt ∧ 4608 * p.eps2 * dt ≤ dx ^ 4) (hsum : dts.sum ≤ T)
      (m : Mem A ℝ) (hm : ∀ i j k, (0 ≤ i ∧ i < g.ni) → (0 ≤ j ∧ j < g.nj) → (0 ≤ k ∧ k < g.nk) →
        |m w.sol (g.at3 i j k) - u 0 (centre3 o dx i j k)| ≤ a * dx ^ 2),
      ∃ m', Det sz (rk3Run g.size (fun s r _ => G.evalRHS v p dx ⟨s, r, l1, l2, l3, l4⟩) w time dts) m m' ∧
        (sum3 g.ni g.nj g.nk fun i j k => (m' w.sol (g.at3 i j k) - u dts.sum (centre3 o dx i j k)) ^ 2) ≤
          ((g.ni * g.nj * g.nk : Int) : ℝ) * (Cst * dx ^ 2) ^ 2 ∧
        ∀ i j k, (0 ≤ i ∧ i < g.ni) → (0 ≤ j ∧ j < g.nj) → (0 ≤ k ∧ k < g.nk) →
          (m' w.sol (g.at3 i j k) - u dts.sum (centre3 o dx i j k)) ^ 2 ≤ Cst ^ 2 * (L 0 * L 1 * L 2) * dx := by
  obtain ⟨Cst, h0, c0, h00, H⟩ := field3_converges p he hL hu a ha
  refine ⟨Cst, h0, c0, h00, ?_⟩
  intro A _ g hn hh G hG v hv sz w l1 l2 l3 l4 hnd hsz dx hdx e0 e1 e2 o time dts hdts hsum m hm
  obtain ⟨m', d, e⟩ := C33_cahn_hilliard3 g hn hh .periodic .periodic .periodic G hG v hv sz w l1 l2 l3 l4 hnd hsz p dx time dts m
  have key := H g.ni g.nj g.nk (by omega) (by omega) (by omega) dx hdx e0 e1 e2 o ssp3c dts hdts hsum
    (fun c => m w.sol (g.at3 c.1 c.2.1 c.2.2)) (fun c hc => hm _ _ _ hc.1 hc.2.1 hc.2.2)
  have S : (sum3 g.ni g.nj g.nk fun i j k => (m' w.sol (g.at3 i j k) - u dts.sum (centre3 o dx i j k)) ^ 2) ≤
      ((g.ni * g.nj * g.nk : Int) : ℝ) * (Cst * dx ^ 2) ^ 2 := by
    refine (le_of_eq (sum3_congr fun i j k h1 h2 h3 => ?_)).trans key
    rw [e i j k h1 h2 h3, ssp3c_run _ (fun _ _ => rfl)]
  refine ⟨m', d, S, fun i j k h1 h2 h3 => ?_⟩
  refine (le_sum3 (f := fun i j k => (m' w.sol (g.at3 i j k) - u dts.sum (centre3 o dx i j k)) ^ 2) (fun _ _ _ => sq_nonneg _)
    h1 h2 h3).trans (S.trans (le_of_eq ?_))
  rw [← e0, ← e1, ← e2]; push_cast; ring

/-- C83 for the ode23 integrator, its stage arrays zero outside the interior (as allocated). -/
theorem C83_ode23_3d (p : CHParams ℝ) (he : 0 < p.eps2) (L : Fin 3 → ℝ) (hL : ∀ a, 0 < L a) (T : ℝ)
    (u : ℝ → (Fin 3 → ℝ) → ℝ) (hu : CHSolution p L T u) (a : ℝ) (ha : 0 ≤ a) :
    ∃ Cst h0, 0 ≤ Cst ∧ 0 < h0 ∧ ∀ (A : Type) [DecidableEq A] (g : Grid3) (hn : 2 ≤ g.ni ∧ 2 ≤ g.nj ∧ 2 ≤ g.nk) (hh : g.nhalo = 2)
      (G : Geom3) (hG : mkGeom3 g .periodic .periodic .periodic = .ok G) (v : Int) (hv : v = 0 ∨ v = 1 ∨ v = 2)
      (sz : A → Int) (w : RKArr A) (l1 l2 l3 l4 : A)
      (hnd : [w.sol, w.res, w.k1, w.k2, w.k3, w.k4, w.stage, l1, l2, l3, l4].Nodup)
      (hsz : ∀ a ∈ [w.sol, w.res, w.k1, w.k2, w.k3, w.k4, w.stage, l1, l2, l3, l4], sz a = g.size)
      (dx : ℝ) (hdx : dx ≤ h0) (e0 : g.ni * dx = L 0) (e1 : g.nj * dx = L 1) (e2 : g.nk * dx = L 2) (o : Fin 3 → ℝ)
      (time : ℝ) (dts : List ℝ) (hdts : ∀ dt ∈ dts, 0 ≤ dt ∧ 4608 * p.eps2 * dt ≤ dx ^ 4) (hsum : dts.sum ≤ T)
      (m : Mem A ℝ) (hm : ∀ i j k, (0 ≤ i ∧ i < g.ni) → (0 ≤ j ∧ j < g.nj) → (0 ≤ k ∧ k < g.nk) →
        |m w.sol (g.at3 i j k) - u 0 (centre3 o dx i j k)| ≤ a * dx ^ 2)
      (hz : ∀ n, 0 ≤ n → n < g.size → (∀ i j k, (0 ≤ i ∧ i < g.ni) ∧ (0 ≤ j ∧ j < g.nj) ∧ (0 ≤ k ∧ k < g.nk) →
        g.at3 i j k ≠ n) → m w.k1 n = 0 ∧ m w.k2 n = 0 ∧ m w.k3 n = 0 ∧ m w.k4 n = 0),
      ∃ st es m', CDet sz (ode23Run g.size (fun s r _ => G.evalRHS v p dx ⟨s, r, l1, l2, l3, l4⟩) w ode23Init time dts) m
          (st, es) m' ∧
        (sum3 g.ni g.nj g.nk fun i j k => (m' w.sol (g.at3 i j k) - u dts.sum (centre3 o dx i j k)) ^ 2) ≤
          ((g.ni * g.nj * g.nk : Int) : ℝ) * (Cst * dx ^ 2) ^ 2 ∧
        ∀ i j k, (0 ≤ i ∧ i < g.ni) → (0 ≤ j ∧ j < g.nj) → (0 ≤ k ∧ k < g.nk) →
          (m' w.sol (g.at3 i j k) - u dts.sum (centre3 o dx i j k)) ^ 2 ≤ Cst ^ 2 * (L 0 * L 1 * L 2) * dx := by
  obtain ⟨Cst, h0, c0, h00, H⟩ := field3_converges p he hL hu a ha
  refine ⟨Cst, h0, c0, h00, ?_⟩
  intro A _ g hn hh G hG v hv sz w l1 l2 l3 l4 hnd hsz dx hdx e0 e1 e2 o time dts hdts hsum m hm hz
  obtain ⟨st, es, m', d, e, -⟩ := C34_cahn_hilliard3 g hn hh .periodic .periodic .periodic G hG v hv sz w l1 l2 l3 l4 hnd hsz p dx
    time dts m hz
  have key := H g.ni g.nj g.nk (by omega) (by omega) (by omega) dx hdx e0 e1 e2 o bs3c dts hdts hsum
    (fun c => m w.sol (g.at3 c.1 c.2.1 c.2.2)) (fun c hc => hm _ _ _ hc.1 hc.2.1 hc.2.2)
  have S : (sum3 g.ni g.nj g.nk fun i j k => (m' w.sol (g.at3 i j k) - u dts.sum (centre3 o dx i j k)) ^ 2) ≤
      ((g.ni * g.nj * g.nk : Int) : ℝ) * (Cst * dx ^ 2) ^ 2 := by
    refine (le_of_eq (sum3_congr fun i j k h1 h2 h3 => ?_)).trans key
    rw [e i j k h1 h2 h3, bs3c_run _ (fun _ _ => rfl)]
  refine ⟨st, es, m', d, S, fun i j k h1 h2 h3 => ?_⟩
  refine (le_sum3 (f := fun i j k => (m' w.sol (g.at3 i j k) - u dts.sum (centre3 o dx i j k)) ^ 2) (fun _ _ _ => sq_nonneg _)
    h1 h2 h3).trans (S.trans (le_of_eq ?_))
  rw [← e0, ← e1, ← e2]; push_cast; ring

/-- C83 in two dimensions, rk3ssp; the error at each single cell is at most a constant times `dx`. -/
theorem C83_rk3_2d (p : CHParams ℝ) (he : 0 < p.eps2) (L : Fin 2 → ℝ) (hL : ∀ a, 0 < L a) (T : ℝ)
    (u : ℝ → (Fin 2 → ℝ) → ℝ) (hu : CHSolution p L T u) (a : ℝ) (ha : 0 ≤ a) :
    ∃ Cst h0, 0 ≤ Cst ∧ 0 < h0 ∧ ∀ (A : Type) [DecidableEq A] (n : Int) (hn : 2 ≤ n) (G : Geom2) (hG : mkGeom2 n 2 = .ok G)
      (sz : A → Int) (w : RKArr A) (l1 l2 l3 l4 : A)
      (hnd : [w.sol, w.res, w.k1, w.k2, w.k3, w.k4, w.stage, l1, l2, l3, l4].Nodup)
      (hsz : ∀ a ∈ [w.sol, w.res, w.k1, w.k2, w.k3, w.k4, w.stage, l1, l2, l3, l4], sz a = (n + 2 * 2) * (n + 2 * 2))
      (dx : ℝ) (hdx : dx ≤ h0) (e : ∀ a, n * dx = L a) (o : Fin 2 → ℝ)
      (time : ℝ) (dts : List ℝ) (hdts : ∀ dt ∈ dts, 0 ≤ dt ∧ 4608 * p.eps2 * dt ≤ dx ^ 4) (hsum : dts.sum ≤ T)
      (m : Mem A ℝ) (hm : ∀ i j, (0 ≤ i ∧ i < n) → (0 ≤ j ∧ j < n) →
        |m w.sol (G.g.at2 i j) - u 0 (centre2 o dx i j)| ≤ a * dx ^ 2),
      ∃ m', Det sz (rk3Run ((n + 2 * 2) * (n + 2 * 2)) (fun s r _ => G.evalRHS p dx ⟨s, r, l1, l2, l3, l4⟩) w time dts) m m' ∧
        (sum2 n n fun i j => (m' w.sol (G.g.at2 i j) - u dts.sum (centre2 o dx i j)) ^ 2) ≤
          ((n * n : Int) : ℝ) * (Cst * dx ^ 2) ^ 2 ∧
        ∀ i j, (0 ≤ i ∧ i < n) → (0 ≤ j ∧ j < n) →
          (m' w.sol (G.g.at2 i j) - u dts.sum (centre2 o dx i j)) ^ 2 ≤ Cst ^ 2 * (L 0 * L 1) * dx ^ 2 := by
  obtain ⟨Cst, h0, c0, h00, H⟩ := field2_converges p he hL hu a ha
  refine ⟨Cst, h0, c0, h00, ?_⟩
  intro A _ n hn G hG sz w l1 l2 l3 l4 hnd hsz dx hdx e o time dts hdts hsum m hm
  obtain ⟨m', d, ev⟩ := C33_cahn_hilliard2 n hn G hG sz w l1 l2 l3 l4 hnd hsz p dx time dts m
  have key := H n (by omega) dx hdx e o ssp3c dts hdts hsum (fun c => m w.sol (G.g.at2 c.1 c.2)) (fun c hc => hm _ _ hc.1 hc.2)
  have S : (sum2 n n fun i j => (m' w.sol (G.g.at2 i j) - u dts.sum (centre2 o dx i j)) ^ 2) ≤
      ((n * n : Int) : ℝ) * (Cst * dx ^ 2) ^ 2 := by
    refine (le_of_eq (sum2_congr fun i j h1 h2 => ?_)).trans key
    rw [ev i j h1 h2, ssp3c_run _ (fun _ _ => rfl)]
  refine ⟨m', d, S, fun i j h1 h2 => ?_⟩
  refine (le_sum2 (f := fun i j => (m' w.sol (G.g.at2 i j) - u dts.sum (centre2 o dx i j)) ^ 2) (fun _ _ => sq_nonneg _)
    h1 h2).trans (S.trans (le_of_eq ?_))
  rw [← e 0, ← e 1]; push_cast; ring

/-- C83 in two dimensions, ode23. -/
theorem C83_ode23_2d (p : CHParams ℝ) (he : 0 < p.eps2) (L : Fin 2 → ℝ) (hL : ∀ a, 0 < L a) (T : ℝ)
    (u : ℝ → (Fin 2 → ℝ) → ℝ) (hu : CHSolution p L T u) (a : ℝ) (ha : 0 ≤ a) :
    ∃ Cst h0, 0 ≤ Cst ∧ 0 < h0 ∧ ∀ (A : Type) [DecidableEq A] (n : Int) (hn : 2 ≤ n) (G : Geom2) (hG : mkGeom2 n 2 = .ok G)
      (sz : A → Int) (w : RKArr A) (l1 l2 l3 l4 : A)
      (hnd : [w.sol, w.res, w.k1, w.k2, w.k3, w.k4, w.stage, l1, l2, l3, l4].Nodup)
      (hsz : ∀ a ∈ [w.sol, w.res, w.k1, w.k2, w.k3, w.k4, w.stage, l1, l2, l3, l4], sz a = (n + 2 * 2) * (n + 2 * 2))
      (dx : ℝ) (hdx : dx ≤ h0) (e : ∀ a, n * dx = L a) (o : Fin 2 → ℝ)
      (time : ℝ) (dts : List ℝ) (hdts : ∀ dt ∈ dts, 0 ≤ dt ∧ 4608 * p.eps2 * dt ≤ dx ^ 4) (hsum : dts.sum ≤ T)
      (m : Mem A ℝ) (hm : ∀ i j, (0 ≤ i ∧ i < n) → (0 ≤ j ∧ j < n) →
        |m w.sol (G.g.at2 i j) - u 0 (centre2 o dx i j)| ≤ a * dx ^ 2)
      (hz : ∀ x, 0 ≤ x → x < (n + 2 * 2) * (n + 2 * 2) → (∀ i j, (0 ≤ i ∧ i < n) ∧ (0 ≤ j ∧ j < n) →
        G.g.at2 i j ≠ x) → m w.k1 x = 0 ∧ m w.k2 x = 0 ∧ m w.k3 x = 0 ∧ m w.k4 x = 0),
      ∃ st es m', CDet sz (ode23Run ((n + 2 * 2) * (n + 2 * 2)) (fun s r _ => G.evalRHS p dx ⟨s, r, l1, l2, l3, l4⟩) w
          ode23Init time dts) m (st, es) m' ∧
        (sum2 n n fun i j => (m' w.sol (G.g.at2 i j) - u dts.sum (centre2 o dx i j)) ^ 2) ≤
          ((n * n : Int) : ℝ) * (Cst * dx ^ 2) ^ 2 ∧
        ∀ i j, (0 ≤ i ∧ i < n) → (0 ≤ j ∧ j < n) →
          (m' w.sol (G.g.at2 i j) - u dts.sum (centre2 o dx i j)) ^ 2 ≤ Cst ^ 2 * (L 0 * L 1) * dx ^ 2 := by
  obtain ⟨Cst, h0, c0, h00, H⟩ := field2_converges p he hL hu a ha
  refine ⟨Cst, h0, c0, h00, ?_⟩
  intro A _ n hn G hG sz w l1 l2 l3 l4 hnd hsz dx hdx e o time dts hdts hsum m hm hz
  obtain ⟨st, es, m', d, ev, -⟩ := C34_cahn_hilliard2 n hn G hG sz w l1 l2 l3 l4 hnd hsz p dx time dts m hz
  have key := H n (by omega) dx hdx e o bs3c dts hdts hsum (fun c => m w.sol (G.g.at2 c.1 c.2)) (fun c hc => hm _ _ hc.1 hc.2)
  have S : (sum2 n n fun i j => (m' w.sol (G.g.at2 i j) - u dts.sum (centre2 o dx i j)) ^ 2) ≤
      ((n * n : Int) : ℝ) * (Cst * dx ^ 2) ^ 2 := by
    refine (le_of_eq (sum2_congr fun i j h1 h2 => ?_)).trans key
    rw [ev i j h1 h2, bs3c_run _ (fun _ _ => rfl)]
  refine ⟨st, es, m', d, S, fun i j h1 h2 => ?_⟩
  refine (le_sum2 (f := fun i j => (m' w.sol (G.g.at2 i j) - u dts.sum (centre2 o dx i j)) ^ 2) (fun _ _ => sq_nonneg _)
    h1 h2).trans (S.trans (le_of_eq ?_))
  rw [← e 0, ← e 1]; push_cast; ring

/-- The laplacian of a constant function vanishes. -/
theorem laplace_const {d : Nat} (c : ℝ) : (laplace fun _ : Fin d → ℝ => c) = fun _ => 0 := by
  funext x
  unfold laplace pd
  simp

/-- A solution that decays in time towards the target mean: the hypotheses of C83 can be met for every box and every final time. -/
theorem uniform_solution {d : Nat} (p : CHParams ℝ) (L : Fin d → ℝ) (T b : ℝ) :
    CHSolution p L T fun t _ => p.m + b * Real.exp (-(p.sigma * t)) where
  smooth := by
    have h1 : ContDiff ℝ (6 : ℕ) fun q : ℝ × (Fin d → ℝ) => -(p.sigma * q.1) := (contDiff_const.mul contDiff_fst).neg
    exact contDiff_const.add (contDiff_const.mul h1.exp)
  periodic := fun t _ _ a x => rfl
  eqn := by
    intro t _ _ x
    have e : chCont p (fun _ : Fin d → ℝ => p.m + b * Real.exp (-(p.sigma * t))) x = b * (Real.exp (-(p.sigma * t)) * -(p.sigma * 1)) := by
      unfold chCont
      simp only [laplace_const]
      ring
    rw [e]
    exact (((hasDerivAt_id t).const_mul p.sigma).fun_neg.exp.const_mul b).const_add p.m

/-- The hypotheses are met: a moving solution, a grid as fine as wished, a step that is allowed, and exact initial data. -/
example : ∃ (p : CHParams ℝ) (u : ℝ → (Fin 3 → ℝ) → ℝ), 0 < p.eps2 ∧ CHSolution p (fun _ => 1) 1 u ∧ u 0 0 ≠ u 1 0 ∧
    ∀ h0 : ℝ, 0 < h0 → ∃ (g : Grid3) (G : Geom3) (dx dt : ℝ), (2 ≤ g.ni ∧ 2 ≤ g.nj ∧ 2 ≤ g.nk) ∧ g.nhalo = 2 ∧
      mkGeom3 g .periodic .periodic .periodic = .ok G ∧ dx ≤ h0 ∧ g.ni * dx = 1 ∧ g.nj * dx = 1 ∧ g.nk * dx = 1 ∧ 0 < dt ∧
      4608 * p.eps2 * dt ≤ dx ^ 4 ∧ dt ≤ 1 := by
  refine ⟨⟨1, 1, 0⟩, _, one_pos, uniform_solution _ _ 1 1, ?_, fun h0 hh => ?_⟩
  · have : Real.exp (-(1 * 1)) < 1 := by rw [Real.exp_lt_one_iff]; norm_num
    simp only [mul_zero, neg_zero, Real.exp_zero]
    intro h
    linarith
  · obtain ⟨n, hn⟩ := exists_nat_gt (1 / h0)
    have hN : (0 : ℝ) < (n : ℝ) + 2 := by positivity
    refine ⟨⟨(n : Int) + 2, (n : Int) + 2, (n : Int) + 2, 2⟩, _, 1 / ((n : ℝ) + 2), 1 / (4608 * ((n : ℝ) + 2) ^ 4), ⟨?_, ?_, ?_⟩, rfl,
      mkGeom3_ok ⟨?_, ?_, ?_, ?_⟩ _ _ _, ?_, ?_, ?_, ?_, by positivity, ?_, ?_⟩
    all_goals first | (dsimp only; omega) | skip
    · rw [div_le_iff₀ hN]
      rw [div_lt_iff₀ hh] at hn
      nlinarith
    · push_cast; field_simp
    · push_cast; field_simp
    · push_cast; field_simp
    · apply le_of_eq; field_simp
    · rw [div_le_one (by positivity)]
      have : (1 : ℝ) ≤ ((n : ℝ) + 2) ^ 4 := one_le_pow₀ (by linarith [Nat.cast_nonneg (α := ℝ) n])
      linarith

end Madg
