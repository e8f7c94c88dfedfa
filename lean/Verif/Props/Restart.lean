/-
Restarting from a solution file (C62).
-/
import Verif.Proofs.Restart
import Verif.Props.VTK
import Verif.Props.RK

set_option linter.unusedSectionVars false
set_option linter.unusedVariables false

namespace Madg
open Spec

/-! ### The time loop -/

section
variable {A W K S : Type} [DecidableEq A] [Field K] [LinearOrder K]

theorem fields_of_write3 {io : RealText K} {g : Grid3} {xv yv zv c : A} {s : Status K} {sz : A → Int} {m m' : Mem A K} {f : VtsFile}
    (h : (vtkWrite3 io g xv yv zv c s).run sz m = .ok (f, m')) : f.fields = statusFields io s := by
  unfold vtkWrite3 at h
  simp only [bind] at h
  rw [run_bind] at h
  obtain ⟨r, h1, h2⟩ := except_bind_ok h
  rw [run_bind] at h2
  obtain ⟨r', h3, h4⟩ := except_bind_ok h2
  cases h4; rfl

theorem fields_of_write2 {io : RealText K} {g : Grid2} {xv yv c : A} {s : Status K} {sz : A → Int} {m m' : Mem A K} {f : VtsFile}
    (h : (vtkWrite2 io g xv yv c s).run sz m = .ok (f, m')) : f.fields = statusFields io s := by
  unfold vtkWrite2 at h
  simp only [bind] at h
  rw [run_bind] at h
  obtain ⟨r, h1, h2⟩ := except_bind_ok h
  rw [run_bind] at h2
  obtain ⟨r', h3, h4⟩ := except_bind_ok h2
  cases h4; rfl

variable (E : LoopEnv W K) (π : W → S)
  (hstep : ∀ w w' t dt, π w = π w' → (E.doStep w t dt).map π = (E.doStep w' t dt).map π)
  (hnotify : ∀ w w' i t dt, π w = π w' → (E.notify w i t dt).map π = (E.notify w' i t dt).map π)
  (hnext : ∀ w w' dt, π w = π w' → π (E.nextDT w dt).1 = π (E.nextDT w' dt).1 ∧ (E.nextDT w dt).2 = (E.nextDT w' dt).2)
  (o : TimeOpts K) (hc : o.useCfl = false) (hr : o.relTol = 0) (ha : o.absTol = 0)
include hstep hnotify hnext hc hr ha

/-- Let the calls of the loop depend on the world only through `π` (for instance: the interior of the solution).  Run to
the step limit `n`, not yet at the final time; write a file; restart from any world with the same `π`, taking step number,
time and step from the file, with limit `N > n`.  Then this run and the uninterrupted run with limit `N` give the same
result (or the same error), iteration, time and step, after the same number of further iterations. -/
theorem C62_restart (n N : Int) (hn : o.initialStep < n) (hn0 : 0 < n) (hN : n < N) (w : W) (fB : Nat) (lB : LoopSt W K)
    (hB : solve E { o with maxSteps := n } fB w = some (.ok lB)) (ht : lB.time < o.tfinal) (ht' : lB.time + lB.dt < o.tfinal)
    (io : RealText K) (sz : A → Int) (m m' : Mem A K) (f : VtsFile)
    (hf : (∃ g xv yv zv c, (vtkWrite3 io g xv yv zv c ⟨lB.iter, lB.time, lB.dt⟩).run sz m = .ok (f, m')) ∨
      ∃ g xv yv c, (vtkWrite2 io g xv yv c ⟨lB.iter, lB.time, lB.dt⟩).run sz m = .ok (f, m'))
    (hi : n < 2147483648) (he : ShortExact io lB.time ∧ ShortExact io lB.dt) (wR : W) (hw : π wR = π lB.w) :
    ∃ o', setInitialTimeStep io f { o with maxSteps := N } = .ok o' ∧ ∃ p, ∀ k,
      (solve E o' k wR).map (Except.map fun l => (π l.w, l.iter, l.time, l.dt)) =
        (solve E { o with maxSteps := N } (p + k) w).map (Except.map fun l => (π l.w, l.iter, l.time, l.dt)) := by
  have hff : f.fields = statusFields io ⟨lB.iter, lB.time, lB.dt⟩ := by
    rcases hf with ⟨g, xv, yv, zv, c, h⟩ | ⟨g, xv, yv, c, h⟩
    · exact fields_of_write3 h
    · exact fields_of_write2 h
  have hB' : loop E { o with maxSteps := n } fB false ⟨w, o.initialStep, o.t0, o.dt0, o.dt0, []⟩ = some (.ok lB) := by
    unfold solve at hB
    rw [if_neg (by simp [hc])] at hB
    exact hB
  obtain ⟨p, h1, h2⟩ := loop_split E o hc hr ha n N hN hn0 fB _ lB hn hB' ht ht'
  refine ⟨_, setInitialTimeStep_ok io f ⟨lB.iter, lB.time, lB.dt⟩ { o with maxSteps := N } hff ⟨he.1.1, he.2.1⟩ he.1.2 he.2.2
    (by dsimp only; omega), p, fun k => ?_⟩
  unfold solve
  dsimp only
  rw [if_neg (by simp [hc]), if_neg (by simp [hc]), h2 k]
  have key := loop_respects E π ⟨hstep, hnotify, hnext⟩ { o with maxSteps := N } hc hr ha k false
    ⟨wR, lB.iter, lB.time, lB.dt, lB.dt, []⟩ lB (by simp [LoopSt.view, hw])
  refine Eq.trans ?_ key
  rw [← loop_opts E { o with maxSteps := N } lB.time lB.dt lB.iter]
  rfl

end

/-! ### The Cahn–Hilliard solver

Here the worlds are the arrays, and `π` is the interior of the solution. -/

theorem tableau_run_append {K V : Type} [Field K] [AddCommGroup V] [Module K V] (T : Tableau K) (F : K → V → V) (d1 d2 : List K) :
    ∀ (t : K) (y : V), T.run F t (d1 ++ d2) y = T.run F (t + d1.sum) d2 (T.run F t d1 y) := by
  induction d1 with
  | nil => intro t y; simp [Tableau.run]
  | cons d d1 ih =>
    intro t y
    rw [List.cons_append, Tableau.run, Tableau.run, ih, List.sum_cons, add_assoc]

section
variable {A K : Type} [DecidableEq A] [Field K] [LinearOrder K] [IsStrictOrderedRing K]
variable (io : RealText K) (g : Grid3) (hn : (2 ≤ g.ni ∧ g.ni < 2147483648) ∧ (2 ≤ g.nj ∧ g.nj < 2147483648) ∧ (2 ≤ g.nk ∧ g.nk < 2147483648))
  (hh : g.nhalo = 2) (xbc ybc zbc : BCType)
  (G : Geom3) (hG : mkGeom3 g xbc ybc zbc = .ok G) (v : Int) (hv : v = 0 ∨ v = 1 ∨ v = 2)
  (sz : A → Int) (w : RKArr A) (l1 l2 l3 l4 xv yv zv : A)
  (hnd : [w.sol, w.res, w.k1, w.k2, w.k3, w.k4, w.stage, l1, l2, l3, l4].Nodup)
  (hsz : ∀ a ∈ [w.sol, w.res, w.k1, w.k2, w.k3, w.k4, w.stage, l1, l2, l3, l4],
    sz a = (g.ni + 2 * g.nhalo) * (g.nj + 2 * g.nhalo) * (g.nk + 2 * g.nhalo))
  (hsv : ∀ a ∈ [xv, yv, zv], sz a = (g.ni + 1 + 2 * g.nhalo) * (g.nj + 1 + 2 * g.nhalo) * (g.nk + 1 + 2 * g.nhalo))
  (p : CHParams K) (dx : K)
include hn hh hG hv hnd hsz hsv

/-- rk3ssp on the 3D Cahn–Hilliard equation: step with sizes `d1`, write a file, read it into a process whose memory holds
anything, step with sizes `d2`: the interior is that of the uninterrupted run, if the values in the file are exact. -/
theorem C62_cahn_hilliard3_rk3 (time : K) (d1 d2 : List K) (m : Mem A K) (s : Status K) :
    ∃ m1, Det sz (rk3Run g.size (fun s r _ => G.evalRHS v p dx ⟨s, r, l1, l2, l3, l4⟩) w time d1) m m1 ∧
      ((∀ i j k, 0 ≤ i → i ≤ g.ni → 0 ≤ j → j ≤ g.nj → 0 ≤ k → k ≤ g.nk →
        Exact io (m1 xv (g.vert.at3 i j k)) ∧ Exact io (m1 yv (g.vert.at3 i j k)) ∧ Exact io (m1 zv (g.vert.at3 i j k))) →
      (∀ i j k, 0 ≤ i → i < g.ni → 0 ≤ j → j < g.nj → 0 ≤ k → k < g.nk → Exact io (m1 w.sol (g.at3 i j k))) →
      ∃ f, (vtkWrite3 io g xv yv zv w.sol s).run sz m1 = .ok (f, m1) ∧ ∀ fresh : Mem A K,
        ∃ mR m2 mF, (setSolution io f (.d3 g w.sol)).run sz fresh = .ok ((), mR) ∧
          Det sz (rk3Run g.size (fun s r _ => G.evalRHS v p dx ⟨s, r, l1, l2, l3, l4⟩) w (time + d1.sum) d2) mR m2 ∧
          Det sz (rk3Run g.size (fun s r _ => G.evalRHS v p dx ⟨s, r, l1, l2, l3, l4⟩) w time (d1 ++ d2)) m mF ∧
          ∀ i j k, 0 ≤ i → i < g.ni → 0 ≤ j → j < g.nj → 0 ≤ k → k < g.nk → m2 w.sol (g.at3 i j k) = mF w.sol (g.at3 i j k)) := by
  have hn' : 2 ≤ g.ni ∧ 2 ≤ g.nj ∧ 2 ≤ g.nk := by omega
  obtain ⟨hR, hw⟩ := ch3_setup g hn' hh xbc ybc zbc G hG v hv sz w l1 l2 l3 l4 hnd hsz p dx
  obtain ⟨m1, e1, e2⟩ := C33_cahn_hilliard3 g hn' hh xbc ybc zbc G hG v hv sz w l1 l2 l3 l4 hnd hsz p dx time d1 m
  refine ⟨m1, e1, fun hx hc => ?_⟩
  obtain ⟨f, e3, e4⟩ := C60_round_trip3 io g (by omega) (by omega) (by omega) (by omega) xv yv zv w.sol (hsz _ (by simp)) hsv s m1 hx hc
  refine ⟨f, e3, fun fresh => ?_⟩
  obtain ⟨mR, e5, e6, -, -⟩ := e4 sz w.sol fresh (hsz _ (by simp))
  obtain ⟨m2, e7, e8⟩ := C33_cahn_hilliard3 g hn' hh xbc ybc zbc G hG v hv sz w l1 l2 l3 l4 hnd hsz p dx (time + d1.sum) d2 mR
  obtain ⟨mF, e9, e10⟩ := C33_cahn_hilliard3 g hn' hh xbc ybc zbc G hG v hv sz w l1 l2 l3 l4 hnd hsz p dx time (d1 ++ d2) m
  refine ⟨mR, m2, mF, e5, e7, e9, fun i j k h1 h2 h3 h4 h5 h6 => ?_⟩
  rw [e8 i j k ⟨h1, h2⟩ ⟨h3, h4⟩ ⟨h5, h6⟩, e10 i j k ⟨h1, h2⟩ ⟨h3, h4⟩ ⟨h5, h6⟩, tableau_run_append]
  refine run_congr hR hw _ d2 _ _ _ ?_ (i, j, k) ⟨⟨h1, h2⟩, ⟨h3, h4⟩, ⟨h5, h6⟩⟩
  rintro ⟨i, j, k⟩ ⟨h1, h2, h3⟩
  dsimp only at h1 h2 h3 ⊢
  rw [e6 i j k h1.1 h1.2 h2.1 h2.2 h3.1 h3.2, e2 i j k h1 h2 h3]

/-- The same for ode23.  The restarted process starts again with a first evaluation instead of reusing the last stage of
the previous step; the result is the same.  The stage arrays are zero outside the interior, as after allocation. -/
theorem C62_cahn_hilliard3_ode23 (time : K) (d1 d2 : List K) (m : Mem A K) (s : Status K)
    (hz : ∀ n, 0 ≤ n → n < g.size → (∀ i j k, (0 ≤ i ∧ i < g.ni) ∧ (0 ≤ j ∧ j < g.nj) ∧ (0 ≤ k ∧ k < g.nk) →
      g.at3 i j k ≠ n) → m w.k1 n = 0 ∧ m w.k2 n = 0 ∧ m w.k3 n = 0 ∧ m w.k4 n = 0) :
    ∃ st1 es1 m1, CDet sz (ode23Run g.size (fun s r _ => G.evalRHS v p dx ⟨s, r, l1, l2, l3, l4⟩) w ode23Init time d1) m (st1, es1) m1 ∧
      ((∀ i j k, 0 ≤ i → i ≤ g.ni → 0 ≤ j → j ≤ g.nj → 0 ≤ k → k ≤ g.nk →
        Exact io (m1 xv (g.vert.at3 i j k)) ∧ Exact io (m1 yv (g.vert.at3 i j k)) ∧ Exact io (m1 zv (g.vert.at3 i j k))) →
      (∀ i j k, 0 ≤ i → i < g.ni → 0 ≤ j → j < g.nj → 0 ≤ k → k < g.nk → Exact io (m1 w.sol (g.at3 i j k))) →
      ∃ f, (vtkWrite3 io g xv yv zv w.sol s).run sz m1 = .ok (f, m1) ∧ ∀ fresh : Mem A K,
        (∀ n, 0 ≤ n → n < g.size → (∀ i j k, (0 ≤ i ∧ i < g.ni) ∧ (0 ≤ j ∧ j < g.nj) ∧ (0 ≤ k ∧ k < g.nk) →
          g.at3 i j k ≠ n) → fresh w.k1 n = 0 ∧ fresh w.k2 n = 0 ∧ fresh w.k3 n = 0 ∧ fresh w.k4 n = 0) →
        ∃ mR st2 es2 m2 st es mF, (setSolution io f (.d3 g w.sol)).run sz fresh = .ok ((), mR) ∧
          CDet sz (ode23Run g.size (fun s r _ => G.evalRHS v p dx ⟨s, r, l1, l2, l3, l4⟩) w ode23Init (time + d1.sum) d2) mR (st2, es2) m2 ∧
          CDet sz (ode23Run g.size (fun s r _ => G.evalRHS v p dx ⟨s, r, l1, l2, l3, l4⟩) w ode23Init time (d1 ++ d2)) m (st, es) mF ∧
          ∀ i j k, 0 ≤ i → i < g.ni → 0 ≤ j → j < g.nj → 0 ≤ k → k < g.nk → m2 w.sol (g.at3 i j k) = mF w.sol (g.at3 i j k)) := by
  have hn' : 2 ≤ g.ni ∧ 2 ≤ g.nj ∧ 2 ≤ g.nk := by omega
  obtain ⟨hR, hw⟩ := ch3_setup g hn' hh xbc ybc zbc G hG v hv sz w l1 l2 l3 l4 hnd hsz p dx
  obtain ⟨st1, es1, m1, e1, e2, -⟩ := C34_cahn_hilliard3 g hn' hh xbc ybc zbc G hG v hv sz w l1 l2 l3 l4 hnd hsz p dx time d1 m hz
  refine ⟨st1, es1, m1, e1, fun hx hc => ?_⟩
  obtain ⟨f, e3, e4⟩ := C60_round_trip3 io g (by omega) (by omega) (by omega) (by omega) xv yv zv w.sol (hsz _ (by simp)) hsv s m1 hx hc
  refine ⟨f, e3, fun fresh hfz => ?_⟩
  obtain ⟨mR, e5, e6, -, e6'⟩ := e4 sz w.sol fresh (hsz _ (by simp))
  have hne : w.sol ∉ [w.res, w.k1, w.k2, w.k3, w.k4, w.stage, l1, l2, l3, l4] := (List.nodup_cons.1 hnd).1
  simp only [List.mem_cons, not_or] at hne
  obtain ⟨-, hk1, hk2, hk3, hk4, -⟩ := hne
  obtain ⟨st2, es2, m2, e7, e8, -⟩ := C34_cahn_hilliard3 g hn' hh xbc ybc zbc G hG v hv sz w l1 l2 l3 l4 hnd hsz p dx
    (time + d1.sum) d2 mR (by
      intro n h1 h2 h3
      rw [e6' _ (Ne.symm hk1), e6' _ (Ne.symm hk2), e6' _ (Ne.symm hk3), e6' _ (Ne.symm hk4)]
      exact hfz n h1 h2 h3)
  obtain ⟨st, es, mF, e9, e10, -⟩ := C34_cahn_hilliard3 g hn' hh xbc ybc zbc G hG v hv sz w l1 l2 l3 l4 hnd hsz p dx time (d1 ++ d2) m hz
  refine ⟨mR, st2, es2, m2, st, es, mF, e5, e7, e9, fun i j k h1 h2 h3 h4 h5 h6 => ?_⟩
  rw [e8 i j k ⟨h1, h2⟩ ⟨h3, h4⟩ ⟨h5, h6⟩, e10 i j k ⟨h1, h2⟩ ⟨h3, h4⟩ ⟨h5, h6⟩, tableau_run_append]
  refine run_congr hR hw _ d2 _ _ _ ?_ (i, j, k) ⟨⟨h1, h2⟩, ⟨h3, h4⟩, ⟨h5, h6⟩⟩
  rintro ⟨i, j, k⟩ ⟨h1, h2, h3⟩
  dsimp only at h1 h2 h3 ⊢
  rw [e6 i j k h1.1 h1.2 h2.1 h2.2 h3.1 h3.2, e2 i j k h1 h2 h3]

end

/-! ### Digits of time and step -/

/-- Time and step are written with seven significant digits: a double that is the one nearest to a decimal number with at
most seven digits survives. -/
theorem C62_seven_digits (D : Nat) (E : Int) (h1 : 10 ^ 6 ≤ D) (h2 : D < 10 ^ 7) (hE : -300 ≤ E) :
    ShortExact doubleText (binary64.round (D * (10 : ℚ) ^ E)) := by
  refine ⟨word_sci 6 _, ?_⟩
  show readFloat binary64 (sci 6 _) = _
  have h10 : (0 : ℚ) < (10 : ℚ) ^ E := zpow_pos (by norm_num) _
  have hD1 : (1000000 : ℚ) ≤ D := by exact_mod_cast h1
  have hD2 : (D : ℚ) + 1 ≤ 10000000 := by exact_mod_cast h2
  set q : ℚ := D * (10 : ℚ) ^ E with hq
  have hqpos : 0 < q := by rw [hq]; exact mul_pos (by linarith) h10
  set x := binary64.round q with hx
  -- relative error
  have hlog := Int.zpow_log_le_self (b := 2) (by decide) hqpos
  push_cast at hlog
  have hlogE : (-1000 : Int) ≤ Int.log 2 q := by
    rw [← Int.zpow_le_iff_le_log (by decide) hqpos]
    have hb : (10 : ℚ) ^ (-300 : Int) ≤ (10 : ℚ) ^ E := zpow_le_zpow_right₀ (by norm_num) hE
    have hc : ((2 : Nat) : ℚ) ^ (-1000 : Int) ≤ (10 : ℚ) ^ (-300 : Int) := by
      rw [zpow_neg, zpow_neg]
      apply inv_anti₀ (zpow_pos (by norm_num) _)
      have : (10 : Nat) ^ 300 ≤ 2 ^ 1000 := by decide +kernel
      exact_mod_cast this
    rw [hq]
    nlinarith
  have hu : binary64.ulpExp q = Int.log 2 q - 52 := by
    unfold FloatFmt.ulpExp
    rw [abs_of_pos hqpos]
    show max (Int.log 2 q + 1 - ((53 : Nat) : Int)) (-1074) = _
    rw [max_eq_left (by push_cast; omega)]
    push_cast; ring
  have herr : |x - q| * 9007199254740992 ≤ q := by
    rw [hx]
    unfold FloatFmt.round
    rw [if_neg hqpos.ne', hu]
    have hpow : (2 : ℚ) ^ (Int.log 2 q - 52) * 4503599627370496 = (2 : ℚ) ^ Int.log 2 q := by
      rw [show (4503599627370496 : ℚ) = (2 : ℚ) ^ (52 : Int) by norm_num, ← zpow_add₀ (by norm_num)]
      congr 1; ring
    have hp : (0 : ℚ) < (2 : ℚ) ^ (Int.log 2 q - 52) := zpow_pos (by norm_num) _
    have hr := roundEven_err (q / (2 : ℚ) ^ (Int.log 2 q - 52))
    set r : ℚ := ((roundEven (q / (2 : ℚ) ^ (Int.log 2 q - 52)) : Int) : ℚ) with hrr
    have h3 : r * (2 : ℚ) ^ (Int.log 2 q - 52) - q = (r - q / (2 : ℚ) ^ (Int.log 2 q - 52)) * (2 : ℚ) ^ (Int.log 2 q - 52) := by
      rw [sub_mul, div_mul_cancel₀ _ hp.ne']
    rw [h3, abs_mul, abs_of_pos hp, abs_sub_comm]
    nlinarith
  have herr' : |x - q| * 9007199254740992 ≤ 10000000 * (10 : ℚ) ^ E := by nlinarith
  have hxq := abs_le.1 (le_refl |x - q|)
  have hxpos : 0 < x := by nlinarith
  have hdiv : ∀ z : ℚ, |x - z * (10 : ℚ) ^ E| * 2 < (10 : ℚ) ^ E → |x / (10 : ℚ) ^ E - z| < 1 / 2 := by
    intro z hz
    have : x / (10 : ℚ) ^ E - z = (x - z * (10 : ℚ) ^ E) / (10 : ℚ) ^ E := by
      rw [sub_div, mul_div_cancel_right₀ _ h10.ne']
    rw [this, abs_div, abs_of_pos h10, div_lt_iff₀ h10]
    linarith
  have hval : sciVal 6 (sciRound 6 x) = q := by
    by_cases hc : (10 : ℚ) ^ (E + 6) ≤ x
    · have hl : Int.log 10 x = E + 6 := by
        apply le_antisymm
        · have : x < ((10 : Nat) : ℚ) ^ (E + 7) := by
            push_cast
            rw [show E + 7 = E + (7 : Int) from rfl, zpow_add₀ (by norm_num)]
            norm_num
            nlinarith
          have := (Int.lt_zpow_iff_log_lt (by decide) hxpos).1 this
          omega
        · rw [← Int.zpow_le_iff_le_log (by decide) hxpos]; exact_mod_cast hc
      unfold sciRound
      rw [hl]
      dsimp only
      rw [show E + 6 - ((6 : Nat) : Int) = E by push_cast; ring, roundEven_eq (n := D) (by
        push_cast
        apply hdiv
        rw [← hq]; nlinarith), Int.toNat_natCast, if_neg (by omega)]
      unfold sciVal
      dsimp only
      rw [show E + 6 - ((6 : Nat) : Int) = E by push_cast; ring]
    · push Not at hc
      rw [zpow_add₀ (by norm_num)] at hc
      norm_num at hc
      have hDe : D = 1000000 := by
        by_contra hne
        have : (1000001 : ℚ) ≤ D := by exact_mod_cast (by omega : 1000001 ≤ D)
        nlinarith
      have hl : Int.log 10 x = E + 5 := by
        apply le_antisymm
        · have : x < ((10 : Nat) : ℚ) ^ (E + 6) := by
            push_cast
            rw [zpow_add₀ (by norm_num)]
            norm_num
            linarith
          have := (Int.lt_zpow_iff_log_lt (by decide) hxpos).1 this
          omega
        · rw [← Int.zpow_le_iff_le_log (by decide) hxpos]
          push_cast
          rw [zpow_add₀ (by norm_num)]
          norm_num
          nlinarith
      have hE1 : (10 : ℚ) ^ (E + 5 - ((6 : Nat) : Int)) = (10 : ℚ) ^ E / 10 := by
        rw [show E + 5 - ((6 : Nat) : Int) = E - 1 by push_cast; ring, zpow_sub₀ (by norm_num), zpow_one]
      have hr : |x / ((10 : ℚ) ^ E / 10) - ((10000000 : Int) : ℚ)| < 1 / 2 := by
        have : x / ((10 : ℚ) ^ E / 10) - ((10000000 : Int) : ℚ) = (x - q) * 10 / (10 : ℚ) ^ E := by
          rw [hq, hDe]; push_cast; field_simp; ring
        rw [this, abs_div, abs_mul, abs_of_pos h10, div_lt_iff₀ h10, abs_of_pos (by norm_num : (0 : ℚ) < 10)]
        nlinarith
      unfold sciRound
      rw [hl]
      dsimp only
      rw [hE1, roundEven_eq hr, if_pos (by decide)]
      unfold sciVal
      dsimp only
      rw [show E + 5 + 1 - ((6 : Nat) : Int) = E by push_cast; ring, hq, hDe]
      push_cast; norm_num
  unfold readFloat
  rw [readDec_sci, Option.map_some]
  unfold sciDec
  rw [if_neg hxpos.ne', if_neg (not_lt.2 hxpos.le), hval]

theorem shortExact_half : ShortExact doubleText (1 / 2 : ℚ) := by
  have h := C62_seven_digits 5000000 (-7) (by decide) (by decide) (by decide)
  have e : binary64.round (((5000000 : Nat) : ℚ) * (10 : ℚ) ^ (-7 : Int)) = 1 / 2 := by
    have : ((5000000 : Nat) : ℚ) * (10 : ℚ) ^ (-7 : Int) = 1 / 2 := by norm_num
    rw [this]
    have hu : binary64.ulpExp (1 / 2) = -53 := by
      unfold FloatFmt.ulpExp
      have : Int.log 2 |(1 / 2 : ℚ)| = -1 := by
        rw [abs_of_pos (by norm_num), show (1 / 2 : ℚ) = ((2 : Nat) : ℚ) ^ (-1 : Int) by norm_num, Int.log_zpow (by decide)]
      rw [this]; rfl
    refine FloatFmt.round_of_close binary64 (by norm_num) 4503599627370496 ?_ ?_ <;> rw [hu] <;> norm_num
  rwa [e] at h

/-- The hypotheses of `C62_restart` on the interrupted run can be met: one step of size 1/2 from time 0, final time 10. -/
example : ∃ lB, solve (K := ℚ) (W := Nat) ⟨fun w _ _ => .ok (w + 1), fun w dt => (w, dt), fun w _ _ _ => .ok w, fun _ => []⟩
      ⟨0, 10, 1 / 2, false, 1, 0, 0, 0⟩ 1 0 = some (.ok lB) ∧ lB.time < 10 ∧ lB.time + lB.dt < 10 ∧
      ShortExact doubleText lB.time ∧ ShortExact doubleText lB.dt := by
  refine ⟨⟨1, 1, 0 + 1 / 2, 1 / 2, 1 / 2, [⟨0, 1 / 2, 1 / 2⟩]⟩, ?_, by norm_num, by norm_num, ?_, shortExact_half⟩
  · simp [solve, loop, nextTimestep, relStop]
    norm_num
  · rw [zero_add]; exact shortExact_half

/-- Other doubles do not: the time `1 + 2⁻³⁰` is read back as 1. -/
theorem C62_time_lost : ∃ t : ℚ, IsFloat binary64 t ∧ ∃ t' : ℚ, doubleText.parse (doubleText.short t) = some t' ∧ t' ≠ t := by
  refine ⟨1 + 1 / 1073741824, ⟨1073741825, -30, by decide, by decide, by norm_num⟩, 1, ?_, by norm_num⟩
  show readFloat binary64 (sci 6 _) = _
  have hl : Int.log 10 (1 + 1 / 1073741824 : ℚ) = 0 := by
    rw [Int.log_of_one_le_right 10 (by norm_num)]
    have : ⌊(1 + 1 / 1073741824 : ℚ)⌋₊ = 1 := by
      rw [Nat.floor_eq_iff (by norm_num)]; push_cast; constructor <;> norm_num
    rw [this]; rfl
  have hr : sciRound 6 (1 + 1 / 1073741824 : ℚ) = (1000000, 0) := by
    unfold sciRound
    rw [hl]
    dsimp only
    rw [roundEven_eq (n := 1000000) (by push_cast; rw [abs_lt]; constructor <;> norm_num)]
    rfl
  unfold readFloat
  rw [readDec_sci, Option.map_some]
  unfold sciDec
  rw [if_neg (by norm_num), if_neg (by norm_num), hr]
  have hv : sciVal 6 (1000000, 0) = 1 := by unfold sciVal; norm_num
  rw [hv]
  congr 1
  have hu : binary64.ulpExp 1 = -52 := by
    unfold FloatFmt.ulpExp
    rw [abs_one, Int.log_one_right]
    rfl
  refine FloatFmt.round_of_close binary64 (by norm_num) 4503599627370496 ?_ ?_ <;> rw [hu] <;> norm_num

end Madg
