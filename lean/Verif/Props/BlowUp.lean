/-
C101: a solution that has blown up is never noticed.
-/
import Verif.Proofs.BlowUp
import Verif.Props.Controller
import Verif.Proofs.ProgramRK

set_option linter.unusedSectionVars false

namespace Madg
open Spec

/-! ### How it begins -/

section
variable {F : IeeeFmt} (hp : 3 ≤ F.prec) (he : F.emin ≤ 0) (hm : 3 ≤ F.emax)
include hp he hm

/-- C101. As soon as two neighbouring cells hold numbers of the same sign whose cubes are too large for the number format, the
right-hand side of the first one is not a number, whatever all other cells hold, and neither is its value after the next step. -/
theorem C101_overflow (v : Int) (par : CHParams (Ieee F)) (dx : Ieee F) (bx bY bz : BCType) (nx ny nz : Int) (t dt : Ieee F)
    (u : Int × Int × Int → Ieee F) (c c' : Int × Int × Int) (hc : In3 nx ny nz c) (hc' : In3 nx ny nz c') (hn : moves c c' = 1)
    (q q' : ℚ) (hs : q < 0 ↔ q' < 0) (h : u c = .num q) (h' : u c' = .num q') (hq : (2 : ℚ) ^ F.emax ≤ |q| ^ 3)
    (hq' : (2 : ℚ) ^ F.emax ≤ |q'| ^ 3) :
    rhsOps3 v par dx bx bY bz nx ny nz t u c = .nan ∧
      ssprk3Step (rhsOps3 v par dx bx bY bz nx ny nz) t dt u c = .nan := by
  have hN := Ieee.isNaN (F := F)
  have key := Ieee.rhs_overflow (Ieee.six hp he hm) v par dx (bx := bx) (bY := bY) (bz := bz) t u hc hc' hn
    (s := decide (q < 0)) (by rw [h, Ieee.cube_inf (by omega) (by omega) hq])
    (by rw [h', Ieee.cube_inf (by omega) (by omega) hq', decide_eq_decide.2 hs])
  refine ⟨key, ?_⟩
  unfold ssprk3Step
  rw [key]
  simp only [hN.mul_right, hN.add_left, hN.add_right]

end

/-- In double precision the numbers from 2^342, about 9·10^102, on are large enough. -/
example (t dt : Ieee ieee64) (par : CHParams (Ieee ieee64)) (dx : Ieee ieee64) :
    ssprk3Step (rhsOps3 0 par dx .periodic .neumann .periodic 4 4 4) t dt
      (fun c => if c = (0, 0, 0) ∨ c = (1, 0, 0) then .num (2 ^ 342) else .num 1) (0, 0, 0) = .nan := by
  have h : (2 : ℚ) ^ ieee64.emax ≤ |(2 : ℚ) ^ 342| ^ 3 := by
    rw [abs_of_pos (by positivity), ← pow_mul]
    show (2 : ℚ) ^ (1024 : Int) ≤ _
    rw [show ((1024 : Int)) = ((1024 : Nat) : Int) from rfl, zpow_natCast]
    exact pow_le_pow_right₀ (by norm_num) (by norm_num)
  exact (C101_overflow (by decide) (by decide) (by decide) 0 par dx .periodic .neumann .periodic 4 4 4 t dt _ (0, 0, 0) (1, 0, 0)
    (by unfold In3; decide) (by unfold In3; decide) (by decide) (2 ^ 342) (2 ^ 342) Iff.rfl (by simp) (by simp) h h).2

/-! ### How it goes on -/

theorem vts3_same {K : Type} [Arith K] (io : RealText K) (xb yb zb dx : K) {nx ny nz : Int} {u v : Int × Int × Int → K}
    (h : ∀ c, In3 nx ny nz c → u c = v c) (st : Status K) : vts3 io xb yb zb dx nx ny nz u st = vts3 io xb yb zb dx nx ny nz v st := by
  unfold vts3
  congr 1
  congr 2
  rw [List.flatMap_congr fun c hc => by rw [h c (mem_triples.1 hc)]]

section
variable {K : Type} [Arith K] [LT K] [LE K] {nan : K} (h : IsNaN nan) (v : Int) (par : CHParams K) (dx : K) (bx bY bz : BCType)
  (nx ny nz : Int) (t d : Nat → K) (u0 : Int × Int × Int → K) (u : Nat → Int × Int × Int → K)
  (hu : u = iterates (ssprk3Step (rhsOps3 v par dx bx bY bz nx ny nz)) t d u0)
include h hu

/-- C101. From a cell that is not a number after some step every further step loses all cells that are six moves further away;
nothing is ever recovered. -/
theorem C101_spreads (k j : Nat) (c0 c : Int × Int × Int) (h0 : In3 nx ny nz c0) (hk : u k c0 = nan) (hc : In3 nx ny nz c)
    (hm : moves c c0 ≤ 6 * j) : u (k + j) c = nan := by
  subst hu
  exact iterates_spread h v par dx t d u0 h0 hk j c hc hm

/-- C101. After a sixth as many steps as the grid has cells along its three edges the whole field is lost, and from then on every
solution file holds nothing but NaN. -/
theorem C101_all_lost (io : RealText K) (xb yb zb : K) (k : Nat) (c0 : Int × Int × Int) (h0 : In3 nx ny nz c0) (hk : u k c0 = nan)
    (i : Nat) (hi : nx + ny + nz - 3 ≤ 6 * ((i : Int) - k)) (hik : k ≤ i) :
    (∀ c, In3 nx ny nz c → u i c = nan) ∧
      ∀ st, vts3 io xb yb zb dx nx ny nz (u i) st = vts3 io xb yb zb dx nx ny nz (fun _ => nan) st := by
  have key : ∀ c, In3 nx ny nz c → u i c = nan := by
    intro c hc
    obtain ⟨j, rfl⟩ : ∃ j, i = k + j := ⟨i - k, by omega⟩
    refine C101_spreads h v par dx bx bY bz nx ny nz t d u0 u hu k j c0 c h0 hk hc ?_
    unfold moves
    unfold In3 at h0 hc
    omega
  exact ⟨key, fun st => vts3_same io xb yb zb dx key st⟩

end

/-- The value next to an overflow is lost after one step, every cell of a `4 × 4 × 4` grid after three. -/
example (t d : Nat → Ieee ieee64) (par : CHParams (Ieee ieee64)) (dx : Ieee ieee64) (c : Int × Int × Int) (hc : In3 4 4 4 c) :
    iterates (ssprk3Step (rhsOps3 0 par dx .periodic .neumann .periodic 4 4 4)) t d
      (fun c => if c = (0, 0, 0) ∨ c = (1, 0, 0) then .num (2 ^ 342) else .num 1) 3 c = .nan := by
  have h : (2 : ℚ) ^ ieee64.emax ≤ |(2 : ℚ) ^ 342| ^ 3 := by
    rw [abs_of_pos (by positivity), ← pow_mul]
    show (2 : ℚ) ^ (1024 : Int) ≤ _
    rw [show ((1024 : Int)) = ((1024 : Nat) : Int) from rfl, zpow_natCast]
    exact pow_le_pow_right₀ (by norm_num) (by norm_num)
  refine (C101_all_lost Ieee.isNaN 0 par dx .periodic .neumann .periodic 4 4 4 t d _ _ rfl
    ⟨fun _ => [], fun _ => [], fun _ => none⟩ 0 0 0 1 (0, 0, 0) (by unfold In3; decide) ?_ 3 (by norm_num) (by norm_num)).1 c hc
  exact (C101_overflow (by decide) (by decide) (by decide) 0 par dx .periodic .neumann .periodic 4 4 4 (t 0) (d 0) _ (0, 0, 0) (1, 0, 0)
    (by unfold In3; decide) (by unfold In3; decide) (by decide) (2 ^ 342) (2 ^ 342) Iff.rfl (by simp [iterates]) (by simp [iterates]) h h).2

/-! ### How it ends -/

section
variable {A K : Type} [DecidableEq A] [Arith K] [LT K] [DecidableLT K] [LE K] [DecidableLE K] [DecidableEq K] [Max K] [Min K] [Pow K K]
  (hS : Selects K) (sz : A → Int) (E : Env K) (o : RunOpts K) (w : ProgArr A)
  (heq : o.sel.equation = "cahn-hilliard") (hint : o.sel.integrator = "rk3ssp") (hcfl : o.useCfl = false) (hlf : o.logFreq ≠ 0)
  (hms : 0 < o.maxSteps) (hM : o.maxSteps < 2147483648) (hrt : o.relTol = 0) (hat : o.absTol = 0) {bx bY bz : BCType}
  (hbx : (o.sel.bcx, bx) ∈ [("periodic", BCType.periodic), ("neumann", .neumann), ("dirichlet", .dirichlet)])
  (hby : (o.sel.bcy, bY) ∈ [("periodic", BCType.periodic), ("neumann", .neumann), ("dirichlet", .dirichlet)])
  (hbz : (o.sel.bcz, bz) ∈ [("periodic", BCType.periodic), ("neumann", .neumann), ("dirichlet", .dirichlet)])
  (hdim : o.sel.dimension = 3) (hv : o.variant = 0 ∨ o.variant = 1 ∨ o.variant = 2)
  (hn : 2 ≤ o.nx ∧ 2 ≤ o.ny ∧ 2 ≤ o.nz) (hw : Arrays3 sz w o.nx o.ny o.nz)
include hS heq hint hcfl hlf hms hM hrt hat hbx hby hbz hdim hv hn hw

/-- C101. In any arithmetic, with infinities and NaN or without, a fresh 3D Cahn–Hilliard run with the explicit integrator `rk3ssp`
and no convergence tolerance always ends normally, with the same number and sizes of steps and the same file names whatever becomes of
the solution: nothing looks at the values. The smallest and largest value reported are values of the field or those from which the
search starts. -/
theorem C101_run3 (t d p : Nat → K) (hm : Marching o.tfinal o.t0 o.dt0 t d p) (hp : ∀ k, p (k + 1) = d k)
    (dx : K) (hdx : dx = (o.box.xend - o.box.xbeg) / (o.nx : K)) (u : Nat → Int × Int × Int → K)
    (hu : u = iterates (ssprk3Step (rhsOps3 o.variant o.par dx bx bY bz o.nx o.ny o.nz)) t d
      (initialAny3 E.draw o.par.m o.nx o.ny o.nz)) (W : Nat) (hW : W = max (Nat.log 10 o.maxSteps + 1) 4) (m : Mem A K) :
    RunsAny sz (program E o none w) m ⟨o.t0, o.tfinal, o.dt0, false, o.maxSteps, 0, 0, 0⟩ o.logFreq.natAbs o.saveEvery.natAbs t d p
      (fun k => Seen3 E.big E.tiny o.nx o.ny o.nz (u (k + 1))) (stepName o.base W) (stepName (finalBase o.base) W)
      (fun k => vts3 E.io o.box.xbeg o.box.ybeg o.box.zbeg dx o.nx o.ny o.nz (u (k + 1))) := by
  have h := run3_raw (domain_none_any (E := E) (o := o) (by omega)) (file := none) (ti := ⟨o.t0, o.tfinal, o.dt0, false, o.maxSteps, 0, 0, 0⟩)
    (by dsimp only; rw [timeOpts_any hcfl hM, hrt, hat]) heq rfl hlf hms (by dsimp only; omega) le_rfl rfl rfl hbx hby hbz hdim hv hn hw
    (by dsimp only; omega) (u0 := initialAny3 E.draw o.par.m o.nx o.ny o.nz)
    (fun G hG hg m => by
      obtain ⟨m1, h1, h2, h3⟩ := ic3_none_any (E := E) (o := o) hG (sz := sz) (sol := w.rk.sol)
        (by rw [hg]; exact hw.cells _ (by simp)) (.d3 ⟨o.nx, o.ny, o.nz, 2⟩ w.rk.sol) m
      rw [hg] at h2
      exact ⟨m1, h1, by rw [hg]; exact h2, h3⟩)
    hint hm hp (u := u) (by
      rw [hu, hdx, chFieldA_eq]
      rfl)
    (Q := fun k => Seen3 E.big E.tiny o.nx o.ny o.nz (u (k + 1)))
    (fun G hGo hGg hs k m1 h1 => by
      have := solMon3_raw hS (m := m1) hGo (by rw [hGg]; dsimp only; omega) hs E.rt E.big E.tiny ((o.box.xend - o.box.xbeg) / (o.nx : K))
        (u (k + 1)) (by rw [hGg] at h1 ⊢; exact h1)
      rw [hGg] at this
      exact this) m
  rw [hW, hdx]
  exact h

end

section
variable {A K : Type} [DecidableEq A] [Arith K] [LT K] [DecidableLT K] [LE K] [DecidableLE K] [DecidableEq K] [Max K] [Min K]
  {sz : A → Int} {nan : K} (hN : IsNaN nan)
include hN

/-- C101. If one entry of the update is not a number, so is the reported residual; the largest residual so far stays. -/
theorem C101_residual (rt : K → K) (hrt : rt nan = nan) (l : List Int) (a : A) (h : ∀ n ∈ l, InB sz a n)
    (m : Mem A K) (n : Int) (hn : n ∈ l) (hm : m a n = nan) (mx : K) :
    AllEnd sz (residualCalculator rt mx l a) m fun r m' => m' = m ∧ r.2 = mx ∧ r.1 =
      if mx = 0 then [("res_c", nan), ("abs_res", 1), ("rel_res", 1)] else [("res_c", nan), ("abs_res", nan), ("rel_res", nan)] := by
  refine (resid_nan hN hrt h m hn hm mx).mono ?_
  rintro r m' ⟨rfl, rfl⟩
  have e : stdMax mx nan = mx := by unfold stdMax; rw [if_neg (hN.lt_right mx)]
  refine ⟨rfl, ?_, ?_⟩
  · unfold residRecord
    dsimp only
    rw [e]
    split <;> rfl
  · unfold residRecord
    dsimp only
    rw [e, hN.div_left]
    by_cases h0 : mx = 0
    · rw [if_neg (by simpa using h0), if_pos h0]
    · rw [if_pos h0, if_neg h0]

/-- C101. With such a residual no convergence tolerance ends the run: it goes on to the final time or the step limit. (A relative
tolerance above 1 would end every run at once.) -/
theorem C101_no_stop {H : Type} (S : Sim A K H) (o : TimeOpts K) (hcfl : o.useCfl = false) (hrel : ¬ (1 : K) < o.relTol) (d : Drv H K)
    (mx : K) (hd : d.resMon = if mx = 0 then [("res_c", nan), ("abs_res", 1), ("rel_res", 1)] else
      [("res_c", nan), ("abs_res", nan), ("rel_res", nan)]) (st : Status K) (m : Mem A K)
    (hnext : AllEnd sz (S.nextDT d.h st.dt) m fun _ _ => True) :
    AllEnd sz (S.nextStep o d st) m fun r _ => r.2.2.2 = decide (o.maxSteps ≠ 0 ∧ o.maxSteps ≤ st.iter) := by
  have hr : relStop o.relTol d.resMon = false := by
    rw [hd]
    unfold relStop
    by_cases h0 : o.relTol = 0
    · rw [if_neg (by simpa using h0)]
    · rw [if_pos h0]
      by_cases hm : mx = 0
      · rw [if_pos hm]
        exact decide_eq_false hrel
      · rw [if_neg hm]
        exact decide_eq_false (hN.lt_left _)
  unfold Sim.nextStep
  refine hnext.bind ?_
  rintro ⟨h, p⟩ m1 -
  dsimp only
  rw [if_neg (by rw [hcfl]; decide), hr]
  by_cases ha : o.absTol = 0
  · rw [if_neg (by simpa using ha)]
    exact AllEnd.ret (by dsimp only; rw [Bool.or_false, Bool.decide_and])
  · rw [if_pos ha, hd]
    by_cases hm : mx = 0
    · rw [if_pos hm]
      exact AllEnd.ret (by dsimp only; rw [Bool.or_false, decide_eq_false (hN.lt_left _), Bool.or_false, Bool.decide_and])
    · rw [if_neg hm]
      exact AllEnd.ret (by dsimp only; rw [Bool.or_false, decide_eq_false (hN.lt_left _), Bool.or_false, Bool.decide_and])

end

/-- The hypotheses are met by an array of two entries, the second of them NaN. -/
example : AllEnd (fun _ : Nat => 2) (residualCalculator (fun x : Ieee ieee64 => x) 1 [0, 1] 0) (fun _ i => if i = 1 then .nan else 0)
    fun r _ => r.1 = [("res_c", .nan), ("abs_res", .nan), ("rel_res", .nan)] :=
  (C101_residual (sz := fun _ : Nat => 2) Ieee.isNaN (fun x => x) rfl [0, 1] 0 (fun n hn => by simp at hn; rcases hn with rfl | rfl <;> decide) _ 1 (by simp)
    (by simp) 1).mono fun r m' h => by rw [h.2.2, if_neg (by decide +kernel)]

/-- A tolerance of 1/2, and a method that keeps its step. -/
example (S : Sim Nat (Ieee ieee64) Unit) (hS : S.nextDT = fun h dt => .ret (h, dt)) (m : Mem Nat (Ieee ieee64)) :
    AllEnd (fun _ => 0) (S.nextStep ⟨0, 1, 1, false, 10, 0, 1 / 2, 1 / 2⟩
      { h := (), resMon := [("res_c", .nan), ("abs_res", .nan), ("rel_res", .nan)], solMon := [], timeMon := [],
        maxRes := 1, files := [], rows := [], nStep := 0, nSol := 0 } ⟨3, 0, 1⟩) m
      fun r _ => r.2.2.2 = false :=
  C101_no_stop (sz := fun _ => 0) Ieee.isNaN S _ rfl (by decide +kernel) _ 1 (by rw [if_neg (by decide +kernel)]) _ m
    (by rw [hS]; exact AllEnd.ret trivial)

/-! ### The adaptive integrator -/

section
variable {A : Type} [DecidableEq A] {F : IeeeFmt} {g : Grid3} (hn : 2 ≤ g.ni ∧ 2 ≤ g.nj ∧ 2 ≤ g.nk) (hh : g.nhalo = 2) {bx bY bz : BCType}
  {G : Geom3} (hG : mkGeom3 g bx bY bz = .ok G) {v : Int} (hv : v = 0 ∨ v = 1 ∨ v = 2) {sz : A → Int} {w : RKArr A} {l1 l2 l3 l4 : A}
  (hnd : [w.sol, w.res, w.k1, w.k2, w.k3, w.k4, w.stage, l1, l2, l3, l4].Nodup)
  (hsz : ∀ a ∈ [w.sol, w.res, w.k1, w.k2, w.k3, w.k4, w.stage, l1, l2, l3, l4], sz a = g.size)
include hn hh hG hv hnd hsz

/-- C101. Once all cells are lost, the error estimate of every further step of `ode23` is 0, the best possible one, in every
execution, and the cells stay lost. Outside the grid the slopes are zero, as they are when allocated. -/
theorem C101_error_estimate (p : CHParams (Ieee F)) (dx : Ieee F) (dts : List (Ieee F)) (st : Ode23 (Ieee F)) (t : Ieee F)
    (m : Mem A (Ieee F)) (hsol : ∀ i j k, g.Int3 i j k → m w.sol (g.at3 i j k) = .nan)
    (hk4 : st.first = false → ∀ i j k, g.Int3 i j k → m w.k4 (g.at3 i j k) = .nan)
    (hout : ∀ n, 0 ≤ n → n < g.size → (∀ i j k, g.Int3 i j k → g.at3 i j k ≠ n) →
      m w.k1 n = 0 ∧ m w.k2 n = 0 ∧ m w.k3 n = 0 ∧ m w.k4 n = 0) :
    AllEnd sz (ode23Run g.size (fun s r _ => G.evalRHS v p dx ⟨s, r, l1, l2, l3, l4⟩) w st t dts) m fun r m' =>
      r.2 = dts.map (fun _ => 0) ∧ ∀ i j k, g.Int3 i j k → m' w.sol (g.at3 i j k) = .nan := by
  have hd4 : ([w.sol, w.res, w.k1, w.k2, w.k3, w.k4, w.stage] ++ [l1, l2, l3, l4]).Nodup := hnd
  obtain ⟨d5, d6, d7⟩ := List.nodup_append.1 hd4
  have hR := ch3_contractA (A := A) hn hh hG hv (sz := sz) d6
    (fun a ha => hsz a (List.mem_append_right [w.sol, w.res, w.k1, w.k2, w.k3, w.k4, w.stage] ha)) p dx
  have hwo : w.Ok sz g.size (· ∈ [l1, l2, l3, l4]) :=
    ⟨d5, fun a ha => hsz a (List.mem_append_left [l1, l2, l3, l4] ha), fun a ha h => d7 a ha a h rfl⟩
  have key := ode23Run_lost hR hwo (fun t u c hc hu => by
    rw [chFieldA_eq]
    exact rhs_nan Ieee.isNaN v p dx t u hc (by unfold moves; omega) hu) dts st t m
    ⟨fun c hc => hsol _ _ _ hc, fun e c hc => hk4 e _ _ _ hc, fun n h0 h1 h => hout n h0 h1 fun i j k hi => h (i, j, k) hi⟩
  exact key.mono fun r m' h => ⟨h.1, fun i j k hi => h.2 (i, j, k) hi⟩

end

/-- The hypotheses are met by a solution of NaN with all other arrays zero. -/
example (p : CHParams (Ieee ieee64)) (dx t : Ieee ieee64) (dts : List (Ieee ieee64)) :
    ∃ G, mkGeom3 ⟨2, 2, 3, 2⟩ .periodic .neumann .periodic = .ok G ∧
    AllEnd (fun _ : Nat => 252) (ode23Run 252 (fun s r _ => G.evalRHS 1 p dx ⟨s, r, 7, 8, 9, 10⟩) ⟨0, 1, 2, 3, 4, 5, 6⟩ ode23Init t dts)
      (fun a _ => if a = 0 then .nan else 0) fun r _ => r.2 = dts.map (fun _ => 0) := by
  obtain ⟨G, hG⟩ : ∃ G, mkGeom3 ⟨2, 2, 3, 2⟩ .periodic .neumann .periodic = .ok G := ⟨_, mkGeom3_ok ⟨by decide, by decide, by decide, by decide⟩ _ _ _⟩
  refine ⟨G, hG, ?_⟩
  exact (C101_error_estimate (F := ieee64) (g := ⟨2, 2, 3, 2⟩) (by decide) rfl hG (Or.inr (Or.inl rfl)) (sz := fun _ => 252)
    (w := ⟨0, 1, 2, 3, 4, 5, 6⟩) (l1 := 7) (l2 := 8) (l3 := 9) (l4 := 10) (by decide) (fun _ _ => by decide) p dx dts ode23Init t
    (fun a _ => if a = 0 then .nan else 0) (fun _ _ _ _ => by simp) (fun h => by cases h)
    (fun _ _ _ _ => ⟨by simp, by simp, by simp, by simp⟩)).mono fun _ _ h => h.1

/-- With three error estimates of zero the suggestion is at least 1.1 times the current step. -/
theorem pidStep_zero {tol s1 s2 : ℝ} (htol : (11 / 10) ^ 8 / 2 ^ 52 ≤ tol) (h1 : 0 < s1) (h2 : 0 < s2) :
    11 / 10 * s2 ≤ pidStep tol s1 s2 (1 / 2 ^ 52) (1 / 2 ^ 52) (1 / 2 ^ 52) := by
  unfold pidStep
  dsimp only
  have hω : 0 < s2 / s1 := div_pos h2 h1
  generalize s2 / s1 = ω at hω
  have hr : (11 / 10 : ℝ) ^ 8 ≤ tol / (1 / 2 ^ 52) := by
    rw [le_div_iff₀ (by positivity)]
    calc (11 / 10 : ℝ) ^ 8 * (1 / 2 ^ 52) = (11 / 10) ^ 8 / 2 ^ 52 := by ring
      _ ≤ tol := htol
  have hinv : (1 / 2 ^ 52 : ℝ) / tol = (tol / (1 / 2 ^ 52))⁻¹ := by rw [inv_div]
  rw [hinv]
  generalize tol / (1 / 2 ^ 52) = r at hr
  have hr0 : 0 < r := lt_of_lt_of_le (by norm_num) hr
  have e : s2 * r ^ ((39 / 100 + 1 / 5 * ω / (1 + ω)) / 2) * r⁻¹ ^ ((7 / 50 + 1 / 5 * ω) / 2) * r ^ (1 / 5 * ω ^ 2 / (1 + ω) / 2) =
      s2 * r ^ (1 / 8 : ℝ) := by
    rw [Real.inv_rpow hr0.le, ← Real.rpow_neg hr0.le, mul_assoc, mul_assoc, ← Real.rpow_add hr0, ← Real.rpow_add hr0]
    congr 2
    have : (1 + ω) ≠ 0 := by positivity
    field_simp
    ring
  rw [e]
  have : (11 / 10 : ℝ) ≤ r ^ (1 / 8 : ℝ) := by
    calc (11 / 10 : ℝ) = ((11 / 10 : ℝ) ^ (8 : Nat)) ^ (1 / 8 : ℝ) := by
          rw [← Real.rpow_natCast, ← Real.rpow_mul (by norm_num)]; norm_num
      _ ≤ r ^ (1 / 8 : ℝ) := Real.rpow_le_rpow (by positivity) hr (by norm_num)
  nlinarith

/-- C101. After three steps with the error estimate 0 the controller enlarges every step by the full 10 percent, up to the largest
step allowed. -/
theorem C101_growth (tol mn mx : ℝ) (htol : (11 / 10) ^ 8 / 2 ^ 52 ≤ tol) (d e : Nat → ℝ) (hd : ∀ k, 0 < d k) (k : Nat) (hk : 3 ≤ k)
    (he : e k = 0 ∧ e (k - 1) = 0 ∧ e (k - 2) = 0) : proposal tol mn mx d e k = max (min (11 / 10 * d k) mx) mn := by
  unfold proposal
  dsimp only
  rw [if_neg (by omega), he.1, he.2.1, he.2.2, max_eq_right (by positivity : (0 : ℝ) ≤ 1 / 2 ^ 52),
    min_eq_right (pidStep_zero htol (hd _) (hd _)), max_eq_left (a := 11 / 10 * d k) (by have := hd k; linarith)]

/-- C101. In closed form: as long as the final time is not reached, the steps grow like the powers of 1.1 to the largest step allowed
and stay there. -/
theorem C101_step_sizes (tol mn mx : ℝ) (htol : (11 / 10) ^ 8 / 2 ^ 52 ≤ tol) (d e : Nat → ℝ) (hd : ∀ k, 0 < d k) (K : Nat) (hK : 3 ≤ K)
    (he : ∀ k, K ≤ k + 2 → e k = 0) (hlo : mn ≤ d K) (hhi : d K ≤ mx) (n : Nat)
    (hstep : ∀ k, K ≤ k → k < K + n → d (k + 1) = proposal tol mn mx d e k) : d (K + n) = min ((11 / 10) ^ n * d K) mx := by
  induction n with
  | zero => rw [pow_zero, one_mul, Nat.add_zero, min_eq_left hhi]
  | succ n ih =>
    have hi := ih fun k h1 h2 => hstep k h1 (by omega)
    rw [show K + (n + 1) = K + n + 1 from rfl, hstep (K + n) (by omega) (by omega),
      C101_growth tol mn mx htol d e hd (K + n) (by omega) ⟨he _ (by omega), he _ (by omega), he _ (by omega)⟩, hi]
    have h0 := hd K
    have hmx : 0 < mx := lt_of_lt_of_le h0 hhi
    have h1 : (1 : ℝ) ≤ (11 / 10) ^ n := one_le_pow₀ (by norm_num)
    have e1 : min (11 / 10 * min ((11 / 10) ^ n * d K) mx) mx = min ((11 / 10) ^ (n + 1) * d K) mx := by
      rcases le_total ((11 / 10 : ℝ) ^ n * d K) mx with h | h
      · rw [min_eq_left h, pow_succ]; congr 1; ring
      · rw [min_eq_right h, min_eq_right (by linarith), min_eq_right]
        rw [pow_succ]
        nlinarith
    rw [e1, max_eq_left]
    refine le_min ?_ (hlo.trans hhi)
    calc mn ≤ d K := hlo
      _ ≤ (11 / 10) ^ (n + 1) * d K := le_mul_of_one_le_left h0.le (one_le_pow₀ (by norm_num))

/-- Steps of 1, 1.1, 1.21, … up to 10: the hypotheses are met. -/
example : ∃ d e : Nat → ℝ, (∀ k, 0 < d k) ∧ d 3 = 1 ∧ (∀ k, e k = 0) ∧
    (∀ n, d (3 + n) = min ((11 / 10) ^ n * d 3) 10) := by
  let f : Nat → ℝ := fun n => Nat.rec 1 (fun _ x => max (min (11 / 10 * x) 10) (1 / 100)) n
  have hf : ∀ n, 0 < f n := by
    intro n
    cases n with
    | zero => exact one_pos
    | succ n => exact lt_of_lt_of_le (by norm_num) (le_max_right _ _)
  let d : Nat → ℝ := fun k => f (k - 3)
  have h0 : ∀ k, 0 < d k := fun k => hf _
  refine ⟨d, fun _ => 0, h0, rfl, fun _ => rfl, fun n => ?_⟩
  refine C101_step_sizes (1 / 1000) (1 / 100) 10 (by norm_num) d (fun _ => 0) h0 3 le_rfl (fun _ _ => rfl) ?_ ?_ n ?_
  · show (1 / 100 : ℝ) ≤ 1; norm_num
  · show (1 : ℝ) ≤ 10; norm_num
  · intro k hk _
    rw [C101_growth (1 / 1000) (1 / 100) 10 (by norm_num) d _ h0 k hk ⟨rfl, rfl, rfl⟩]
    obtain ⟨j, rfl⟩ : ∃ j, k = 3 + j := ⟨k - 3, by omega⟩
    show f (3 + j + 1 - 3) = max (min (11 / 10 * f (3 + j - 3)) 10) (1 / 100)
    rw [show 3 + j + 1 - 3 = j + 1 by omega, show 3 + j - 3 = j by omega]

/-! ### A run in double precision with infinities and NaN -/

/-- Mean concentration of the example (test data). -/
def hugeMean : Ieee ieee64 := .num (2 ^ 1000)

/-- From 0 to 2 in steps of 1/2 around a huge mean concentration (test data). -/
def blowOpts : RunOpts (Ieee ieee64) where
  sel := ⟨3, "periodic", "neumann", "periodic", "cahn-hilliard", "rk3ssp", false⟩
  nx := 2
  ny := 2
  nz := 3
  box := ⟨0, 1, 0, 0⟩
  variant := 1
  par := { m := hugeMean, sigma := 1, eps2 := 1 }
  t0 := 0
  tfinal := 2
  dt0 := 1 / 2
  useCfl := false
  maxSteps := 100
  relTol := 0
  absTol := 0
  errTol := 1
  minStep := 0
  maxStep := 1
  logFreq := 1
  saveEvery := 1
  logFile := []
  solFile := ['s']
  mg := ⟨1, 1, 100, 1, 1, 1, 1, "nearest"⟩

/-- The hypotheses of `C101_run3` are met, and there is a run that ends normally with files that hold nothing but NaN. -/
example [Pow (Ieee ieee64) (Ieee ieee64)] (E : Env (Ieee ieee64)) (hE : E.draw = fun _ => 0) :
    ∀ m, ∃ N, 1 ≤ N ∧ ∀ fuel, N ≤ fuel → AllEnd (demoSize 392 252) (program E blowOpts none demoArr fuel) m fun r _ => ∃ files rows,
      r = .done files rows ∧ files ≠ [] ∧ ∀ f ∈ files, ∃ st, f.2 = vts3 E.io 0 0 0 ((1 - 0) / ((2 : Int) : Ieee ieee64)) 2 2 3 (fun _ => .nan) st := by
  intro m
  obtain ⟨t, d, p, hm, hp⟩ := exists_marching blowOpts.tfinal blowOpts.t0 blowOpts.dt0
  obtain ⟨dx, hdx⟩ : ∃ dx, dx = (blowOpts.box.xend - blowOpts.box.xbeg) / (blowOpts.nx : Ieee ieee64) := ⟨_, rfl⟩
  obtain ⟨u, hu⟩ : ∃ u, u = iterates (ssprk3Step (rhsOps3 blowOpts.variant blowOpts.par dx .periodic .neumann .periodic blowOpts.nx
    blowOpts.ny blowOpts.nz)) t d (initialAny3 E.draw blowOpts.par.m blowOpts.nx blowOpts.ny blowOpts.nz) := ⟨_, rfl⟩
  obtain ⟨N, hN, r, -⟩ := C101_run3 Ieee.selects (demoSize 392 252) E blowOpts demoArr (bx := .periodic) (bY := .neumann) (bz := .periodic)
    rfl rfl rfl (by decide) (by decide) (by decide) rfl rfl (by simp [blowOpts]) (by simp [blowOpts]) (by simp [blowOpts]) rfl
    (by simp [blowOpts]) (by simp [blowOpts]) ⟨by simp [demoArr], by simp [demoArr, demoSize, blowOpts], by simp [demoArr, demoSize, blowOpts]⟩
    t d p hm hp dx hdx u hu _ rfl m
  have h0 : ∀ c, u 0 c = hugeMean := by
    intro c
    rw [hu]
    show initialAny3 E.draw hugeMean 2 2 3 c = _
    unfold initialAny3
    rw [hE]
    dsimp only
    decide +kernel
  have hbig : (2 : ℚ) ^ ieee64.emax ≤ |(2 : ℚ) ^ 1000| ^ 3 := by
    rw [abs_of_pos (by positivity), ← pow_mul]
    show (2 : ℚ) ^ (1024 : Int) ≤ _
    rw [show ((1024 : Int)) = ((1024 : Nat) : Int) from rfl, zpow_natCast]
    exact pow_le_pow_right₀ (by norm_num) (by norm_num)
  have h1 : ∀ c, In3 2 2 3 c → u 1 c = .nan := by
    intro c hc
    have hc' : In3 2 2 3 (1 - c.1, c.2.1, c.2.2) := by unfold In3 at hc ⊢; dsimp only; omega
    have := (C101_overflow (F := ieee64) (by decide) (by decide) (by decide) blowOpts.variant blowOpts.par dx .periodic .neumann .periodic 2 2 3
      (t 0) (d 0) (u 0) c (1 - c.1, c.2.1, c.2.2) hc hc' (by unfold In3 at hc; unfold moves; dsimp only; omega) (2 ^ 1000) (2 ^ 1000) Iff.rfl
      (h0 c) (h0 _) hbig hbig).2
    rw [hu] at this ⊢
    exact this
  have hall : ∀ k st, vts3 E.io blowOpts.box.xbeg blowOpts.box.ybeg blowOpts.box.zbeg dx blowOpts.nx blowOpts.ny blowOpts.nz (u (k + 1)) st =
      vts3 E.io 0 0 0 ((1 - 0) / ((2 : Int) : Ieee ieee64)) 2 2 3 (fun _ => .nan) st := by
    intro k st
    rw [← show dx = (1 - 0) / ((2 : Int) : Ieee ieee64) from hdx]
    refine vts3_same _ _ _ _ _ (fun c hc => ?_) st
    rw [Nat.add_comm]
    exact C101_spreads Ieee.isNaN blowOpts.variant blowOpts.par dx .periodic .neumann .periodic 2 2 3 t d _ u hu 1 k c c hc
      (h1 c hc) hc (by unfold moves; omega)
  refine ⟨N, hN.1, fun fuel hf => (r fuel hf).mono ?_⟩
  rintro x m' ⟨rows, -, rfl⟩
  refine ⟨_, rows, rfl, by simp, fun f hf => ?_⟩
  rcases List.mem_append.1 hf with hf | hf
  · obtain ⟨k, -, rfl⟩ := List.mem_map.1 hf
    exact ⟨_, hall _ _⟩
  · rw [List.mem_singleton.1 hf]
    exact ⟨_, hall _ _⟩

end Madg
