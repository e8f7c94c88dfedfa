/-
C98: explicit runs in rounded arithmetic approximate the solution of the differential equation.
-/
import Verif.Proofs.RoundConv
import Verif.Props.Convergence
import Verif.Props.Round

set_option linter.unusedSectionVars false
set_option linter.unusedVariables false

namespace Madg
open Spec

/-- C98. For every smooth periodic solution of the Cahn–Hilliard equation with rational parameters there are a constant and a
largest spacing such that for every rounded arithmetic, on every finer periodic grid, with any right-hand-side kernel variant,
started within `a dx²` of the initial state, every run of the rk3ssp integrator with steps `dt ≤ dx⁴ / (4608 ε²)`, so many that
the accumulated rounding `n ((1+u)^34 - 1)` is at most `a dx²`, ends without fault in a state whose root-mean-square distance from
the solution is at most that constant times `dx²`, and whose error at each single cell is at most a constant times `√dx`. No bound
on the states is assumed. -/
theorem C98_rk3 (p : CHParams ℚ) (he : 0 < p.eps2) (L : Fin 3 → ℝ) (hL : ∀ a, 0 < L a) (T : ℝ)
    (U : ℝ → (Fin 3 → ℝ) → ℝ) (hU : CHSolution (realParams p) L T U) (a : ℝ) (ha : 0 ≤ a) :
    ∃ Cst h0 : ℝ, 0 ≤ Cst ∧ 0 < h0 ∧ ∀ (A : Type) [DecidableEq A] (rnd : ℚ → ℚ) (u τ : ℚ) (hr : Rounds rnd u τ)
      (g : Grid3) (hn : 2 ≤ g.ni ∧ 2 ≤ g.nj ∧ 2 ≤ g.nk) (hh : g.nhalo = 2)
      (G : Geom3) (hG : mkGeom3 g .periodic .periodic .periodic = .ok G) (v : Int) (hv : v = 0 ∨ v = 1 ∨ v = 2)
      (sz : A → Int) (w : RKArr A) (l1 l2 l3 l4 : A)
      (hnd : [w.sol, w.res, w.k1, w.k2, w.k3, w.k4, w.stage, l1, l2, l3, l4].Nodup)
      (hsz : ∀ a ∈ [w.sol, w.res, w.k1, w.k2, w.k3, w.k4, w.stage, l1, l2, l3, l4], sz a = g.size)
      (pf : CHParams (Fl rnd)) (hp : valuesOf pf = p) (dx : Fl rnd) (hs : Spacing τ dx.val) (hdx : (dx.val : ℝ) ≤ h0)
      (e0 : g.ni * (dx.val : ℝ) = L 0) (e1 : g.nj * (dx.val : ℝ) = L 1) (e2 : g.nk * (dx.val : ℝ) = L 2) (o : Fin 3 → ℝ)
      (time : Fl rnd) (dts : List (Fl rnd)) (hdts : ∀ dt ∈ dts, 2 * τ ≤ dt.val ∧ 4608 * p.eps2 * dt.val ≤ dx.val ^ 4)
      (hsum : (dts.map fun d => (d.val : ℝ)).sum ≤ T) (hlen : (dts.length : ℝ) * ((1 + u) ^ 34 - 1) ≤ a * (dx.val : ℝ) ^ 2)
      (m : Mem A (Fl rnd)) (hm : ∀ i j k, (0 ≤ i ∧ i < g.ni) → (0 ≤ j ∧ j < g.nj) → (0 ≤ k ∧ k < g.nk) →
        |((m w.sol (g.at3 i j k)).val : ℝ) - U 0 (centre3 o dx.val i j k)| ≤ a * (dx.val : ℝ) ^ 2),
      ∃ m', Det sz (rk3Run g.size (fun s r _ => G.evalRHS v pf dx ⟨s, r, l1, l2, l3, l4⟩) w time dts) m m' ∧
        (sum3 g.ni g.nj g.nk fun i j k =>
          (((m' w.sol (g.at3 i j k)).val : ℝ) - U (dts.map fun d => (d.val : ℝ)).sum (centre3 o dx.val i j k)) ^ 2) ≤
          ((g.ni * g.nj * g.nk : Int) : ℝ) * (Cst * (dx.val : ℝ) ^ 2) ^ 2 ∧
        ∀ i j k, (0 ≤ i ∧ i < g.ni) → (0 ≤ j ∧ j < g.nj) → (0 ≤ k ∧ k < g.nk) →
          (((m' w.sol (g.at3 i j k)).val : ℝ) - U (dts.map fun d => (d.val : ℝ)).sum (centre3 o dx.val i j k)) ^ 2 ≤
            Cst ^ 2 * (L 0 * L 1 * L 2) * dx.val := by
  obtain ⟨Cst, h0, Mx, c0, h00, hM, H⟩ := chain3_converges (realParams p)
    (show (0 : ℝ) < (p.eps2 : ℝ) by exact_mod_cast he) hL hU (9 / 4 * a) (by positivity)
  refine ⟨Cst, min h0 (min (1 / (4 * (a + 1))) (Convg.limit p Mx)), c0, ?_, ?_⟩
  · exact lt_min h00 (lt_min (by positivity) (Convg.limit_pos he))
  intro A _ rnd u τ hr g hn hh G hG v hv sz w l1 l2 l3 l4 hnd hsz pf hp dx hs hdx e0 e1 e2 o time dts hdts hsum hlen m hm
  have hd1 := hdx.trans (min_le_left _ _)
  have hd2 := (hdx.trans (min_le_right _ _)).trans (min_le_left _ _)
  have hd3 := (hdx.trans (min_le_right _ _)).trans (min_le_right _ _)
  obtain ⟨hok, hls⟩ := Convg.arrays hnd hsz
  obtain ⟨m', d, ch⟩ := rk3_chain (ch3_contractA hn hh hG hv hls.1 hls.2 pf dx) hok dts time m trivial
  have S := H g.ni g.nj g.nk (by omega) (by omega) (by omega) dx.val hd1 e0 e1 e2 o ssp3c
    (fun c dt c' => ∃ dtf ∈ dts, dt = (dtf.val : ℝ) ∧ ∃ m m' t, Rk3Post (In3 g.ni g.nj g.nk)
      (fun c : Int × Int × Int => g.at3 c.1 c.2.1 c.2.2) (chFieldA v pf dx .periodic .periodic .periodic g.ni g.nj g.nk) w t dtf m m' ∧
      c = (fun c : Int × Int × Int => ((m w.sol (g.at3 c.1 c.2.1 c.2.2)).val : ℝ)) ∧
      c' = (fun c : Int × Int × Int => ((m' w.sol (g.at3 c.1 c.2.1 c.2.2)).val : ℝ)))
    ((9 / 4 * ((1 + u) ^ 34 - 1) : ℚ) : ℝ) (Convg.noise_nonneg hr) (dts.map fun d => (d.val : ℝ))
    (by
      rintro dt - c c' hc ⟨dtf, hmem, rfl, m, m', t, q, rfl, rfl⟩
      have h34 := Convg.noise_small hr ha hd2 hs hlen hmem
      have hsm := Convg.small he hM hs hd3 (hdts dtf hmem) hr
      have := rk3_noisy hr (by omega) (by omega) (by omega) (M := (Mx : ℚ)) (by exact_mod_cast hM) hs h34 (hdts dtf hmem).1
        (by rw [hp]; exact hsm) (fun c hc' => by
          have := hc c ((mem_cells3 _ _ _ c).2 hc')
          have e : ((|(m w.sol (g.at3 c.1 c.2.1 c.2.2)).val| : ℚ) : ℝ) ≤ (((Mx : ℚ) / 2 : ℚ) : ℝ) := by
            push_cast; exact this
          exact_mod_cast e) q
      rw [hp] at this
      exact_mod_cast this)
    (by
      intro dt hdt
      obtain ⟨dtf, hmem, rfl⟩ := List.mem_map.1 hdt
      exact Convg.step_ok hr (hdts dtf hmem))
    hsum (by rw [List.length_map]; exact Convg.length_ok hlen) _ _ (fun c hc => (hm _ _ _ hc.1 hc.2.1 hc.2.2).trans (by
      have : 0 ≤ a * (dx.val : ℝ) ^ 2 := by positivity
      linarith))
    (Convg.chain_cast ch)
  refine ⟨m', d, S, fun i j k h1 h2 h3 => ?_⟩
  refine (le_sum3 (f := fun i j k => (((m' w.sol (g.at3 i j k)).val : ℝ) -
      U (dts.map fun d => (d.val : ℝ)).sum (centre3 o dx.val i j k)) ^ 2) (fun _ _ _ => sq_nonneg _) h1 h2 h3).trans (S.trans (le_of_eq ?_))
  rw [← e0, ← e1, ← e2]; push_cast; ring

/-- C98, the ode23 integrator: the same from a freshly built integrator. -/
theorem C98_ode23 (p : CHParams ℚ) (he : 0 < p.eps2) (L : Fin 3 → ℝ) (hL : ∀ a, 0 < L a) (T : ℝ)
    (U : ℝ → (Fin 3 → ℝ) → ℝ) (hU : CHSolution (realParams p) L T U) (a : ℝ) (ha : 0 ≤ a) :
    ∃ Cst h0 : ℝ, 0 ≤ Cst ∧ 0 < h0 ∧ ∀ (A : Type) [DecidableEq A] (rnd : ℚ → ℚ) (u τ : ℚ) (hr : Rounds rnd u τ)
      (g : Grid3) (hn : 2 ≤ g.ni ∧ 2 ≤ g.nj ∧ 2 ≤ g.nk) (hh : g.nhalo = 2)
      (G : Geom3) (hG : mkGeom3 g .periodic .periodic .periodic = .ok G) (v : Int) (hv : v = 0 ∨ v = 1 ∨ v = 2)
      (sz : A → Int) (w : RKArr A) (l1 l2 l3 l4 : A)
      (hnd : [w.sol, w.res, w.k1, w.k2, w.k3, w.k4, w.stage, l1, l2, l3, l4].Nodup)
      (hsz : ∀ a ∈ [w.sol, w.res, w.k1, w.k2, w.k3, w.k4, w.stage, l1, l2, l3, l4], sz a = g.size)
      (pf : CHParams (Fl rnd)) (hp : valuesOf pf = p) (dx : Fl rnd) (hs : Spacing τ dx.val) (hdx : (dx.val : ℝ) ≤ h0)
      (e0 : g.ni * (dx.val : ℝ) = L 0) (e1 : g.nj * (dx.val : ℝ) = L 1) (e2 : g.nk * (dx.val : ℝ) = L 2) (o : Fin 3 → ℝ)
      (time : Fl rnd) (dts : List (Fl rnd)) (hdts : ∀ dt ∈ dts, 2 * τ ≤ dt.val ∧ 4608 * p.eps2 * dt.val ≤ dx.val ^ 4)
      (hsum : (dts.map fun d => (d.val : ℝ)).sum ≤ T) (hlen : (dts.length : ℝ) * ((1 + u) ^ 34 - 1) ≤ a * (dx.val : ℝ) ^ 2)
      (m : Mem A (Fl rnd)) (hm : ∀ i j k, (0 ≤ i ∧ i < g.ni) → (0 ≤ j ∧ j < g.nj) → (0 ≤ k ∧ k < g.nk) →
        |((m w.sol (g.at3 i j k)).val : ℝ) - U 0 (centre3 o dx.val i j k)| ≤ a * (dx.val : ℝ) ^ 2),
      ∃ st es m', CDet sz (ode23Run g.size (fun s r _ => G.evalRHS v pf dx ⟨s, r, l1, l2, l3, l4⟩) w ode23Init time dts) m (st, es) m' ∧
        (sum3 g.ni g.nj g.nk fun i j k =>
          (((m' w.sol (g.at3 i j k)).val : ℝ) - U (dts.map fun d => (d.val : ℝ)).sum (centre3 o dx.val i j k)) ^ 2) ≤
          ((g.ni * g.nj * g.nk : Int) : ℝ) * (Cst * (dx.val : ℝ) ^ 2) ^ 2 ∧
        ∀ i j k, (0 ≤ i ∧ i < g.ni) → (0 ≤ j ∧ j < g.nj) → (0 ≤ k ∧ k < g.nk) →
          (((m' w.sol (g.at3 i j k)).val : ℝ) - U (dts.map fun d => (d.val : ℝ)).sum (centre3 o dx.val i j k)) ^ 2 ≤
            Cst ^ 2 * (L 0 * L 1 * L 2) * dx.val := by
  obtain ⟨Cst, h0, Mx, c0, h00, hM, H⟩ := chain3_converges (realParams p)
    (show (0 : ℝ) < (p.eps2 : ℝ) by exact_mod_cast he) hL hU (9 / 4 * a) (by positivity)
  refine ⟨Cst, min h0 (min (1 / (4 * (a + 1))) (Convg.limit p Mx)), c0, ?_, ?_⟩
  · exact lt_min h00 (lt_min (by positivity) (Convg.limit_pos he))
  intro A _ rnd u τ hr g hn hh G hG v hv sz w l1 l2 l3 l4 hnd hsz pf hp dx hs hdx e0 e1 e2 o time dts hdts hsum hlen m hm
  have hd1 := hdx.trans (min_le_left _ _)
  have hd2 := (hdx.trans (min_le_right _ _)).trans (min_le_left _ _)
  have hd3 := (hdx.trans (min_le_right _ _)).trans (min_le_right _ _)
  obtain ⟨hok, hls⟩ := Convg.arrays hnd hsz
  obtain ⟨st, es, m', d, ch⟩ := ode23_chain (ch3_contractA hn hh hG hv hls.1 hls.2 pf dx) hok (fun _ _ => rfl) dts ode23Init time m
    trivial (fun h => by simp [ode23Init] at h)
  have S := H g.ni g.nj g.nk (by omega) (by omega) (by omega) dx.val hd1 e0 e1 e2 o bs3c
    (fun c dt c' => ∃ dtf ∈ dts, dt = (dtf.val : ℝ) ∧ ∃ m m' t, Ode23Post (In3 g.ni g.nj g.nk)
      (fun c : Int × Int × Int => g.at3 c.1 c.2.1 c.2.2) (chFieldA v pf dx .periodic .periodic .periodic g.ni g.nj g.nk) w t dtf m m' ∧
      c = (fun c : Int × Int × Int => ((m w.sol (g.at3 c.1 c.2.1 c.2.2)).val : ℝ)) ∧
      c' = (fun c : Int × Int × Int => ((m' w.sol (g.at3 c.1 c.2.1 c.2.2)).val : ℝ)))
    ((9 / 4 * ((1 + u) ^ 34 - 1) : ℚ) : ℝ) (Convg.noise_nonneg hr) (dts.map fun d => (d.val : ℝ))
    (by
      rintro dt - c c' hc ⟨dtf, hmem, rfl, m, m', t, q, rfl, rfl⟩
      have h34 := Convg.noise_small hr ha hd2 hs hlen hmem
      have hsm := Convg.small he hM hs hd3 (hdts dtf hmem) hr
      have := ode23_noisy hr (by omega) (by omega) (by omega) (M := (Mx : ℚ)) (by exact_mod_cast hM) hs h34 (hdts dtf hmem).1
        (by rw [hp]; exact hsm) (fun c hc' => by
          have := hc c ((mem_cells3 _ _ _ c).2 hc')
          have e : ((|(m w.sol (g.at3 c.1 c.2.1 c.2.2)).val| : ℚ) : ℝ) ≤ (((Mx : ℚ) / 2 : ℚ) : ℝ) := by
            push_cast; exact this
          exact_mod_cast e) q
      rw [hp] at this
      exact_mod_cast this)
    (by
      intro dt hdt
      obtain ⟨dtf, hmem, rfl⟩ := List.mem_map.1 hdt
      exact Convg.step_ok hr (hdts dtf hmem))
    hsum (by rw [List.length_map]; exact Convg.length_ok hlen) _ _ (fun c hc => (hm _ _ _ hc.1 hc.2.1 hc.2.2).trans (by
      have : 0 ≤ a * (dx.val : ℝ) ^ 2 := by positivity
      linarith))
    (Convg.chain_cast ch)
  refine ⟨st, es, m', d, S, fun i j k h1 h2 h3 => ?_⟩
  refine (le_sum3 (f := fun i j k => (((m' w.sol (g.at3 i j k)).val : ℝ) -
      U (dts.map fun d => (d.val : ℝ)).sum (centre3 o dx.val i j k)) ^ 2) (fun _ _ _ => sq_nonneg _) h1 h2 h3).trans (S.trans (le_of_eq ?_))
  rw [← e0, ← e1, ← e2]; push_cast; ring

/-- A floating-point format with `2 k + 7` significant bits. -/
def fineFmt (k : ℕ) : FloatFmt := ⟨2 * k + 7, -(6 * k + 20 : ℕ)⟩

theorem fineFmt_rounds (k : ℕ) : Rounds (fineFmt k).round (1 / 2 ^ (2 * k + 7)) (1 / 2 ^ (4 * k + 14)) := by
  refine ⟨⟨by positivity, ?_⟩, ⟨by positivity, ?_⟩, fun x => ?_⟩
  · refine one_div_le_one_div_of_le (by norm_num) ?_
    calc (2 : ℚ) = 2 ^ 1 := by norm_num
      _ ≤ _ := pow_le_pow_right₀ (by norm_num) (by omega)
  · refine one_div_le_one_div_of_le (by norm_num) ?_
    calc (20 : ℚ) ≤ 2 ^ 5 := by norm_num
      _ ≤ _ := pow_le_pow_right₀ (by norm_num) (by omega)
  · have h := (fineFmt k).round_rel x
    have e : (2 : ℚ) ^ (fineFmt k).emin / 2 * 2 ^ (fineFmt k).prec = 1 / 2 ^ (4 * k + 14) := by
      show (2 : ℚ) ^ (-((6 * k + 20 : ℕ) : ℤ)) / 2 * 2 ^ (2 * k + 7) = _
      rw [zpow_neg, zpow_natCast]
      field_simp
      rw [← pow_add, ← pow_succ]
      congr 1
      omega
    rw [e] at h
    exact h

/-- The hypotheses are met: a moving solution, a grid as fine as wished, a format precise enough, a step that is allowed, and exact
initial data. -/
example : ∃ U : ℝ → (Fin 3 → ℝ) → ℝ, CHSolution (realParams ⟨1, 1, 0⟩) (fun _ => 1) 1 U ∧ U 0 0 ≠ U 1 0 ∧
    ∀ h0 : ℝ, 0 < h0 → ∃ (F : FloatFmt) (u τ : ℚ) (g : Grid3) (G : Geom3) (dx dt : Fl F.round), Rounds F.round u τ ∧ 0 < u ∧
      (2 ≤ g.ni ∧ 2 ≤ g.nj ∧ 2 ≤ g.nk) ∧ g.nhalo = 2 ∧ mkGeom3 g .periodic .periodic .periodic = .ok G ∧ Spacing τ dx.val ∧
      (dx.val : ℝ) ≤ h0 ∧ g.ni * (dx.val : ℝ) = 1 ∧ g.nj * (dx.val : ℝ) = 1 ∧ g.nk * (dx.val : ℝ) = 1 ∧
      (2 * τ ≤ dt.val ∧ 4608 * 1 * dt.val ≤ dx.val ^ 4) ∧ ([dt].map fun d => (d.val : ℝ)).sum ≤ 1 ∧
      (([dt].length : ℕ) : ℝ) * ((1 + (u : ℝ)) ^ 34 - 1) ≤ 1 * (dx.val : ℝ) ^ 2 ∧
      ∀ i j k, |(((fun _ _ => ⟨1⟩ : Mem Nat (Fl F.round)) 0 (g.at3 i j k)).val : ℝ) - U 0 (centre3 0 dx.val i j k)| ≤
        1 * (dx.val : ℝ) ^ 2 := by
  refine ⟨_, uniform_solution (realParams ⟨1, 1, 0⟩) _ 1 1, ?_, fun h0 hh => ?_⟩
  · have : Real.exp (-(1 * 1)) < 1 := by rw [Real.exp_lt_one_iff]; norm_num
    simp only [realParams, Rat.cast_one, Rat.cast_zero, mul_zero, neg_zero, Real.exp_zero]
    intro h
    linarith
  · obtain ⟨n, hn⟩ := exists_nat_gt (1 / h0)
    have hN : (n : ℝ) ≤ 2 ^ (n + 1) := by
      have := Nat.lt_two_pow_self (n := n)
      have h2 : n ≤ 2 ^ (n + 1) := by rw [pow_succ]; omega
      exact_mod_cast h2
    have hN2 : (2 : Int) ≤ 2 ^ (n + 1) := by
      calc (2 : Int) = 2 ^ 1 := by norm_num
        _ ≤ _ := pow_le_pow_right₀ (by norm_num) (by omega)
    have e1 : (((2 : Int) ^ (n + 1) : Int) : ℝ) * ((1 / 2 ^ (n + 1) : ℚ) : ℝ) = 1 := by push_cast; field_simp
    refine ⟨fineFmt (n + 1), _, _, ⟨2 ^ (n + 1), 2 ^ (n + 1), 2 ^ (n + 1), 2⟩, _, ⟨1 / 2 ^ (n + 1)⟩, ⟨1 / 2 ^ (4 * (n + 1) + 13)⟩,
      fineFmt_rounds _, by positivity, ⟨hN2, hN2, hN2⟩, rfl,
      mkGeom3_ok ⟨?_, ?_, ?_, ?_⟩ _ _ _, ⟨by positivity, ?_, ?_⟩, ?_, e1, e1, e1, ⟨?_, ?_⟩, ?_, ?_, fun i j k => ?_⟩
    all_goals first | (dsimp only; omega) | skip
    all_goals generalize n + 1 = k at *
    · dsimp only
      rw [div_pow, one_pow, ← pow_mul, Nat.mul_comm k 4, pow_add]
      field_simp
      norm_num
    · dsimp only
      rw [div_pow, one_pow, div_mul_div_comm, div_le_one (by positivity), one_mul]
      exact one_le_mul_of_one_le_of_one_le (one_le_pow₀ (by norm_num)) (one_le_pow₀ (one_le_pow₀ (by norm_num)))
    · push_cast
      rw [div_le_iff₀ (by positivity)]
      rw [div_lt_iff₀ hh] at hn
      nlinarith
    · dsimp only
      rw [pow_add, pow_add]
      field_simp
      norm_num
    · dsimp only
      rw [div_pow, one_pow, ← pow_mul, Nat.mul_comm k 4, pow_add]
      field_simp
      norm_num
    · simp only [List.map_cons, List.map_nil, List.sum_cons, List.sum_nil, add_zero]
      push_cast
      rw [div_le_one (by positivity)]
      exact one_le_pow₀ (by norm_num)
    · simp only [List.length_cons, List.length_nil]
      push_cast
      have p4 : (1 : ℝ) ≤ 4 ^ k := one_le_pow₀ (by norm_num)
      have ep : (2 : ℝ) ^ (2 * k + 7) = 4 ^ k * 128 := by rw [pow_add, pow_mul]; norm_num
      have ep2 : ((1 : ℝ) / 2 ^ k) ^ 2 = 1 / 4 ^ k := by rw [div_pow, one_pow, ← pow_mul, Nat.mul_comm, pow_mul]; norm_num
      rw [ep, ep2]
      obtain ⟨x, hx⟩ : ∃ x : ℝ, x = 1 / 4 ^ k := ⟨_, rfl⟩
      have x0 : 0 < x := by rw [hx]; positivity
      have x1 : x ≤ 1 := by rw [hx, div_le_one (by positivity)]; exact p4
      have ex : (1 : ℝ) / (4 ^ k * 128) = x / 128 := by rw [hx]; field_simp
      rw [ex, ← hx]
      have b := one_add_mul_le_pow (a := -(x / 128)) (by linarith) 34
      have c : (1 + -(x / 128)) ^ 34 * (1 + x / 128) ^ 34 ≤ 1 := by
        rw [← mul_pow]
        refine pow_le_one₀ ?_ ?_ <;> nlinarith
      have d : (0 : ℝ) < (1 + x / 128) ^ 34 := by positivity
      have f : (1 - 34 * x / 128) * (1 + x / 128) ^ 34 ≤ 1 := by
        refine le_trans (mul_le_mul_of_nonneg_right ?_ d.le) c
        refine le_trans (le_of_eq ?_) b
        push_cast; ring
      generalize (1 + x / 128) ^ 34 = y at *
      nlinarith
    · simp only [realParams, Rat.cast_one, Rat.cast_zero, mul_zero, neg_zero, Real.exp_zero, zero_add, mul_one, sub_self, abs_zero, one_mul]
      positivity

end Madg
