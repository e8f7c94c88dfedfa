/-
C99: explicit runs in floating-point arithmetic can be interrupted and resumed without changing a single digit.
-/
import Verif.Proofs.ResumeFl
import Verif.Props.Program
import Verif.Props.FloatTime
import Verif.Props.Restart

set_option linter.unusedSectionVars false

namespace Madg
open Spec

theorem chFieldA_eq {K : Type} [Arith K] (v : Int) (p : CHParams K) (dx : K) (bx bY bz : BCType) (nx ny nz : Int) :
    chFieldA v p dx bx bY bz nx ny nz = rhsOps3 v p dx bx bY bz nx ny nz := by
  funext t u c
  simp only [chFieldA, chA, bihA, lapA, dx4A, Geom3.biharmExpr, Geom3.lapExpr, rhsOps3, add_zero]

section
variable {A K : Type} [DecidableEq A] [Arith K] [LinearOrder K] [Pow K K] (sz : A → Int) (E : Env K) (o : RunOpts K) (w : ProgArr A)
  (heq : o.sel.equation = "cahn-hilliard") (hint : o.sel.integrator = "rk3ssp") (hcfl : o.useCfl = false) (hlf : o.logFreq ≠ 0)
  (hms : 0 < o.maxSteps) (hM : o.maxSteps < 2147483648) (hrt : o.relTol = 0) (hat : o.absTol = 0) {bx bY bz : BCType}
  (hbx : (o.sel.bcx, bx) ∈ [("periodic", BCType.periodic), ("neumann", .neumann), ("dirichlet", .dirichlet)])
  (hby : (o.sel.bcy, bY) ∈ [("periodic", BCType.periodic), ("neumann", .neumann), ("dirichlet", .dirichlet)])
  (hbz : (o.sel.bcz, bz) ∈ [("periodic", BCType.periodic), ("neumann", .neumann), ("dirichlet", .dirichlet)])
  (hdim : o.sel.dimension = 3) (hv : o.variant = 0 ∨ o.variant = 1 ∨ o.variant = 2)
  (hn : 2 ≤ o.nx ∧ 2 ≤ o.ny ∧ 2 ≤ o.nz) (hw : Arrays3 sz w o.nx o.ny o.nz)
include heq hint hcfl hlf hms hM hrt hat hbx hby hbz hdim hv hn hw

/-- C99. In any arithmetic a fresh 3D Cahn–Hilliard run with the explicit integrator `rk3ssp` and no convergence tolerance always
ends normally, and every execution takes the same steps, leaves the same files, digit for digit, and logs the same numbers, times,
step sizes and smallest and largest values. The states are those of the method carried out operation by operation. -/
theorem C99_run3 (t d p : Nat → K) (hm : Marching o.tfinal o.t0 o.dt0 t d p) (hp : ∀ k, p (k + 1) = d k)
    (dx : K) (hdx : dx = (o.box.xend - o.box.xbeg) / (o.nx : K)) (u : Nat → Int × Int × Int → K)
    (hu : u = iterates (ssprk3Step (rhsOps3 o.variant o.par dx bx bY bz o.nx o.ny o.nz)) t d
      (initialAny3 E.draw o.par.m o.nx o.ny o.nz)) (W : Nat) (hW : W = max (Nat.log 10 o.maxSteps + 1) 4) (m : Mem A K) :
    RunsAny sz (program E o none w) m ⟨o.t0, o.tfinal, o.dt0, false, o.maxSteps, 0, 0, 0⟩ o.logFreq.natAbs o.saveEvery.natAbs t d p
      (fun k => Range3 E.big E.tiny o.nx o.ny o.nz (u (k + 1))) (stepName o.base W) (stepName (finalBase o.base) W)
      (fun k => vts3 E.io o.box.xbeg o.box.ybeg o.box.zbeg dx o.nx o.ny o.nz (u (k + 1))) := by
  have h := run3_any (domain_none_any (E := E) (o := o) (by omega)) (file := none) (ti := ⟨o.t0, o.tfinal, o.dt0, false, o.maxSteps, 0, 0, 0⟩)
    (by dsimp only; rw [timeOpts_any hcfl hM, hrt, hat]) heq rfl hlf hms (by dsimp only; omega) le_rfl rfl rfl hbx hby hbz hdim hv hn hw
    (by dsimp only; omega) (u0 := initialAny3 E.draw o.par.m o.nx o.ny o.nz)
    (fun G hG hg m => by
      obtain ⟨m1, h1, h2, h3⟩ := ic3_none_any (E := E) (o := o) hG (sz := sz) (sol := w.rk.sol)
        (by rw [hg]; exact hw.cells _ (by simp)) (.d3 ⟨o.nx, o.ny, o.nz, 2⟩ w.rk.sol) m
      rw [hg] at h2
      exact ⟨m1, h1, by rw [hg]; exact h2, h3⟩)
    hint hm hp (u := u) (by
      rw [hu, hdx, chFieldA_eq]
      rfl) m
  rw [hW, hdx]
  exact h

end

/-! ### Resuming -/

/-- When every step is saved, the files of a run are those up to any step followed by those after it. -/
theorem C99_saved_split {K F : Type} (i0 : Int) (t d : Nat → K) (name : Int → Text) (file : Nat → Status K → F) {n N : Nat} (h : n ≤ N) :
    savedFiles i0 1 t d name file N = savedFiles i0 1 t d name file n ++
      savedFiles (i0 + n) 1 (fun k => t (n + k)) (fun k => d (n + k)) name (fun k => file (n + k)) (N - n) := by
  obtain ⟨j, rfl⟩ : ∃ j, N = n + j := ⟨N - n, by omega⟩
  rw [savedFiles_every, savedFiles_every, savedFiles_every, List.range_add, List.map_append, List.map_map, Nat.add_sub_cancel_left]
  congr 1
  refine List.map_congr_left fun k _ => ?_
  simp only [Function.comp_def]
  have e : i0 + ((n + k : Nat) : Int) + 1 = i0 + (n : Int) + (k : Int) + 1 := by push_cast; ring
  rw [e]
  rfl

/-- When only every `s`-th step is saved, `s ≥ 2`, a resumed run saves other steps: the counter starts again, so the step after
the one resumed from is saved, which the uninterrupted run does not save. -/
theorem C99_saves_shift {K F : Type} (t d t' d' : Nat → K) (name : Int → Text) (hname : ∀ i j : Int, 0 ≤ i → 0 ≤ j → name i = name j → i = j)
    (file file' : Nat → Status K → F) {s n N : Nat} (hs : 2 ≤ s) (h1 : 1 ≤ n) (hsaved : s ∣ n - 1) (h : n < N) :
    (∃ v, (name (n + 1), v) ∈ savedFiles n s t' d' name file' (N - n)) ∧ ∀ v, (name (n + 1), v) ∉ savedFiles 0 s t d name file N := by
  constructor
  · refine ⟨file' 0 ⟨n + 1, t' 1, d' 0⟩, List.mem_map.2 ⟨0, List.mem_filter.2 ⟨List.mem_range.2 (by omega), ?_⟩, ?_⟩⟩
    · simp only [ne_eq, dvd_zero, and_true, decide_eq_true_eq]
      omega
    · simp only [Nat.cast_zero, add_zero, zero_add]
  · intro v hv
    obtain ⟨k, hk, e⟩ := List.mem_map.1 hv
    have hk2 := (List.mem_filter.1 hk).2
    simp only [ne_eq, decide_eq_true_eq] at hk2
    have := hname _ _ (by omega) (by omega) (Prod.mk.inj e).1
    have hkn : k = n := by omega
    subst hkn
    have h3 : s ∣ k - (k - 1) := Nat.dvd_sub hk2.2 hsaved
    have : k - (k - 1) = 1 := by omega
    rw [this, Nat.dvd_one] at h3
    omega

example := C99_saves_shift (K := ℚ) (F := Nat) (fun _ => 0) (fun _ => 0) (fun _ => 0) (fun _ => 0) (fun i => List.replicate i.toNat 'a')
  (fun i j hi hj h => by have := congrArg List.length h; simp at this; omega) (fun k _ => k) (fun k _ => k) (s := 3) (n := 4) (N := 10)
  (by decide) (by decide) (by decide) (by decide)

section
variable {A : Type} [DecidableEq A] {F : FloatFmt} [Pow (Fl F.round) (Fl F.round)] (sz : A → Int) (E : Env (Fl F.round))
  (o : RunOpts (Fl F.round)) (w : ProgArr A)
  (heq : o.sel.equation = "cahn-hilliard") (hint : o.sel.integrator = "rk3ssp") (hcfl : o.useCfl = false) (hlf : o.logFreq ≠ 0)
  (hms : 0 < o.maxSteps) (hM : o.maxSteps < 2147483648) (hrt : o.relTol = 0) (hat : o.absTol = 0) {bx bY bz : BCType}
  (hbx : (o.sel.bcx, bx) ∈ [("periodic", BCType.periodic), ("neumann", .neumann), ("dirichlet", .dirichlet)])
  (hby : (o.sel.bcy, bY) ∈ [("periodic", BCType.periodic), ("neumann", .neumann), ("dirichlet", .dirichlet)])
  (hbz : (o.sel.bcz, bz) ∈ [("periodic", BCType.periodic), ("neumann", .neumann), ("dirichlet", .dirichlet)])
  (hdim : o.sel.dimension = 3) (hv : o.variant = 0 ∨ o.variant = 1 ∨ o.variant = 2)
  (hF : 1 ≤ F.prec) (hio : ∀ x : Fl F.round, IsFloat F x.val → Exact E.io x)

section
variable (hn : 2 ≤ o.nx ∧ 2 ≤ o.ny ∧ 2 ≤ o.nz) (hn' : o.nx < 2147483648 ∧ o.ny < 2147483648 ∧ o.nz < 2147483648)
  (hw : Arrays3 sz w o.nx o.ny o.nz) (hbox : IsFloat F o.box.xbeg.val ∧ IsFloat F o.box.ybeg.val ∧ IsFloat F o.box.zbeg.val)
  (hle : o.box.xbeg ≤ o.box.xend)
include heq hint hcfl hlf hms hM hrt hat hbx hby hbz hdim hv hF hio hn hn' hw hbox hle

/-- C99. A fresh explicit run in floating-point arithmetic can be stopped after any step `n` before the last and resumed from the
file of that step: the resumed run takes exactly the remaining `N - n` steps, in the same sizes and with the same states, so that
every later file, and in particular the last one, has the same text as if the run had not been interrupted. Required are that the
printed digits restore every number of the format (17 digits do so for `double`), that time and step size of that file survive the
seven digits they are printed with, that step `n` is not already cut to end at the final time, and that the spacing computed from
the points of the file is the spacing of the run. -/
theorem C99_resume (t d p : Nat → Fl F.round) (hm : Marching o.tfinal o.t0 o.dt0 t d p) (hp : ∀ k, p (k + 1) = d k)
    (dx : Fl F.round) (hdx : dx = (o.box.xend - o.box.xbeg) / (o.nx : Fl F.round))
    (hkeep : (o.box.xbeg + dx * (o.nx : Fl F.round) - o.box.xbeg) / (o.nx : Fl F.round) = dx)
    (u : Nat → Int × Int × Int → Fl F.round)
    (hu : u = iterates (ssprk3Step (rhsOps3 o.variant o.par dx bx bY bz o.nx o.ny o.nz)) t d
      (initialAny3 E.draw o.par.m o.nx o.ny o.nz)) (W : Nat) (hW : W = max (Nat.log 10 o.maxSteps + 1) 4) (N : Nat)
    (hN : EndsAfter ⟨o.t0, o.tfinal, o.dt0, false, o.maxSteps, 0, 0, 0⟩ o.logFreq.natAbs t p (fun _ => 0) N)
    (file : Nat → Status (Fl F.round) → VtsFile)
    (hfile : file = fun k => vts3 E.io o.box.xbeg o.box.ybeg o.box.zbeg dx o.nx o.ny o.nz (u (k + 1)))
    (last : Text × VtsFile) (hlast : last = (stepName (finalBase o.base) W N, file (N - 1) (finalStatus 0 o.tfinal t d p N))) :
    (∀ m fuel, N ≤ fuel → AllEnd sz (program E o none w fuel) m fun r _ => ∃ rows,
      LogOf 0 o.logFreq.natAbs t d (fun k => Range3 E.big E.tiny o.nx o.ny o.nz (u (k + 1))) N rows ∧
      r = .done (savedFiles 0 o.saveEvery.natAbs t d (stepName o.base W) file N ++ [last]) rows) ∧
    ∀ n, 1 ≤ n → n < N → ShortExact E.io (t n) → ShortExact E.io (d n) → ¬ (o.tfinal ≤ t n + d (n - 1)) →
      ∀ m fuel, N - n ≤ fuel → AllEnd sz (program E o (some (file (n - 1) ⟨n, t n, d (n - 1)⟩)) w fuel) m fun r _ => ∃ rows,
        LogOf n o.logFreq.natAbs (fun k => t (n + k)) (fun k => d (n + k))
          (fun k => Range3 E.big E.tiny o.nx o.ny o.nz (u (n + (k + 1)))) (N - n) rows ∧
        r = .done (savedFiles n o.saveEvery.natAbs (fun k => t (n + k)) (fun k => d (n + k)) (stepName o.base W)
          (fun k => file (n + k)) (N - n) ++ [last]) rows := by
  have hinit : ∀ (G : Geom3), G.Ok → G.g = ⟨o.nx, o.ny, o.nz, 2⟩ → ∀ m : Mem A (Fl F.round), ∃ m1,
      CDet sz (icOf E o none G.interior (.d3 ⟨o.nx, o.ny, o.nz, 2⟩ w.rk.sol) w.rk.sol) m () m1 ∧
      (∀ c, In3 o.nx o.ny o.nz c → m1 w.rk.sol (G.g.at3 c.1 c.2.1 c.2.2) = initialAny3 E.draw o.par.m o.nx o.ny o.nz c) ∧
      ∀ b, b ≠ w.rk.sol → m1 b = m b := by
    intro G hG hg m
    obtain ⟨m1, h1, h2, h3⟩ := ic3_none_any (E := E) (o := o) hG (sz := sz) (sol := w.rk.sol)
      (by rw [hg]; exact hw.cells _ (by simp)) (.d3 ⟨o.nx, o.ny, o.nz, 2⟩ w.rk.sol) m
    rw [hg] at h2
    exact ⟨m1, h1, by rw [hg]; exact h2, h3⟩
  have hdx0 : 0 ≤ dx.val := by
    rw [hdx]
    show 0 ≤ F.round (F.round (o.box.xend.val - o.box.xbeg.val) / F.round (o.nx : ℚ))
    have h1 : o.box.xbeg.val ≤ o.box.xend.val := hle
    have h2 : (0 : ℚ) ≤ (o.nx : ℚ) := by exact_mod_cast (by omega : 0 ≤ o.nx)
    exact F.round_nonneg (div_nonneg (F.round_nonneg (by linarith)) (F.round_nonneg h2))
  refine ⟨fun m fuel hf => ?_, fun n h1 h2 hst hsd hlt m fuel hf => ?_⟩
  · obtain ⟨N', hN', r, -⟩ := C99_run3 sz E o w heq hint hcfl hlf hms hM hrt hat hbx hby hbz hdim hv hn hw t d p hm hp dx hdx u hu W hW m
    have e : N' = N := hN'.unique hN
    subst e
    refine (r fuel hf).mono ?_
    rintro x m' ⟨rows, q1, q2⟩
    refine ⟨rows, q1, ?_⟩
    rw [hlast, hfile, q2]
    simp
  · rw [← chFieldA_eq] at hu
    obtain ⟨⟨N', hN', r, -⟩, hE, hfs⟩ := resume_any (domain_none_any (E := E) (o := o) (by omega)) (t0 := o.t0) (dt0 := o.dt0) (i0 := 0)
      (by dsimp only; rw [timeOpts_any hcfl hM, hrt, hat]) heq hcfl hlf hms hM ⟨le_rfl, by omega⟩ hrt hat hbx hby hbz hdim hv hn hw hint
      hinit hdx (xe' := o.box.xbeg + dx * (o.nx : Fl F.round)) hkeep
      (fun v s => domain_vts3_fl hF hio ⟨by omega, hn'.1⟩ ⟨by omega, hn'.2.1⟩ ⟨by omega, hn'.2.2⟩ hbox.1 hbox.2.1 hbox.2.2 hdx0 v s)
      (fun t dt v c => hio _ (F.round_isFloat hF _)) hW hm hp hN hu h1 h2 hst hsd hlt m
    have e : N' = N - n := hN'.unique hE
    subst e
    have e2 : n - 1 + 1 = n := by omega
    have e3 : n + (N - n - 1 + 1) = N := by omega
    have e4 : N - 1 + 1 = N := by omega
    have e5 : (n : Int) + ((N - n : Nat) : Int) = (N : Int) := by omega
    rw [hfile]
    dsimp only
    rw [e2]
    have r' := r fuel hf
    rw [zero_add] at r' hfs
    refine r'.mono ?_
    rintro x m' ⟨rows, q1, q2⟩
    refine ⟨rows, q1, ?_⟩
    rw [q2, hlast, hfile]
    dsimp only
    rw [hfs, e3, e4, e5]
    rfl

end

section
variable {nx ny nz : Int} (hn : 2 ≤ nx ∧ 2 ≤ ny ∧ 2 ≤ nz) (hn' : nx < 2147483648 ∧ ny < 2147483648 ∧ nz < 2147483648)
  (hw : Arrays3 sz w nx ny nz) {xb yb zb dx : Fl F.round} (hbox : IsFloat F xb.val ∧ IsFloat F yb.val ∧ IsFloat F zb.val)
  (hdx0 : 0 ≤ dx.val) (hkeep : (xb + dx * (nx : Fl F.round) - xb) / (nx : Fl F.round) = dx)
  (u0 : Int × Int × Int → Fl F.round) (hu0 : ∀ c, In3 nx ny nz c → IsFloat F (u0 c).val) (s0 : Status (Fl F.round))
  (hs0 : ShortExact E.io s0.time ∧ ShortExact E.io s0.dt) (hi0 : 0 ≤ s0.iter ∧ s0.iter < 2147483647)
include heq hint hcfl hlf hms hM hrt hat hbx hby hbz hdim hv hF hio hn hn' hw hbox hdx0 hkeep hu0 hs0 hi0

/-- C99. The same for a run that was itself started from a file, so that a computation may be interrupted any number of times. -/
theorem C99_resume_again (t d p : Nat → Fl F.round) (hm : Marching o.tfinal s0.time s0.dt t d p) (hp : ∀ k, p (k + 1) = d k)
    (u : Nat → Int × Int × Int → Fl F.round)
    (hu : u = iterates (ssprk3Step (rhsOps3 o.variant o.par dx bx bY bz nx ny nz)) t d u0)
    (W : Nat) (hW : W = max (Nat.log 10 o.maxSteps + 1) 4) (N : Nat)
    (hN : EndsAfter ⟨s0.time, o.tfinal, s0.dt, false, o.maxSteps, s0.iter, 0, 0⟩ o.logFreq.natAbs t p (fun _ => 0) N)
    (file : Nat → Status (Fl F.round) → VtsFile)
    (hfile : file = fun k => vts3 E.io xb yb zb dx nx ny nz (u (k + 1)))
    (last : Text × VtsFile)
    (hlast : last = (stepName (finalBase o.base) W (s0.iter + N), file (N - 1) (finalStatus s0.iter o.tfinal t d p N))) :
    (∀ m fuel, N ≤ fuel → AllEnd sz (program E o (some (vts3 E.io xb yb zb dx nx ny nz u0 s0)) w fuel) m fun r _ => ∃ rows,
      LogOf s0.iter o.logFreq.natAbs t d (fun k => Range3 E.big E.tiny nx ny nz (u (k + 1))) N rows ∧
      r = .done (savedFiles s0.iter o.saveEvery.natAbs t d (stepName o.base W) file N ++ [last]) rows) ∧
    ∀ n, 1 ≤ n → n < N → ShortExact E.io (t n) → ShortExact E.io (d n) → ¬ (o.tfinal ≤ t n + d (n - 1)) →
      ∀ m fuel, N - n ≤ fuel → AllEnd sz (program E o (some (file (n - 1) ⟨s0.iter + n, t n, d (n - 1)⟩)) w fuel) m fun r _ => ∃ rows,
        LogOf (s0.iter + n) o.logFreq.natAbs (fun k => t (n + k)) (fun k => d (n + k))
          (fun k => Range3 E.big E.tiny nx ny nz (u (n + (k + 1)))) (N - n) rows ∧
        r = .done (savedFiles (s0.iter + n) o.saveEvery.natAbs (fun k => t (n + k)) (fun k => d (n + k)) (stepName o.base W)
          (fun k => file (n + k)) (N - n) ++ [last]) rows := by
  have hre := fun v s => domain_vts3_fl hF hio (nx := nx) (ny := ny) (nz := nz) ⟨by omega, hn'.1⟩ ⟨by omega, hn'.2.1⟩ ⟨by omega, hn'.2.2⟩
    hbox.1 hbox.2.1 hbox.2.2 hdx0 v s
  have hinit : ∀ (G : Geom3), G.Ok → G.g = ⟨nx, ny, nz, 2⟩ → ∀ m : Mem A (Fl F.round), ∃ m1,
      CDet sz (icOf E o (some (vts3 E.io xb yb zb dx nx ny nz u0 s0)) G.interior (.d3 ⟨nx, ny, nz, 2⟩ w.rk.sol) w.rk.sol) m () m1 ∧
      (∀ c, In3 nx ny nz c → m1 w.rk.sol (G.g.at3 c.1 c.2.1 c.2.2) = u0 c) ∧ ∀ b, b ≠ w.rk.sol → m1 b = m b := by
    intro G hG hg m
    rw [hg]
    exact ic3_file ⟨by omega, by omega, by omega⟩ (hre u0 s0) (fun c hc => hio _ (hu0 c hc)) (hw.cells _ (by simp)) G.interior m
  have htime := time_file (o := o) (f := vts3 E.io xb yb zb dx nx ny nz u0 s0) (s := s0) rfl hs0.1 hs0.2 ⟨hi0.1, by omega⟩ hcfl hM
  rw [hrt, hat] at htime
  rw [← chFieldA_eq] at hu
  refine ⟨fun m fuel hf => ?_, fun n h1 h2 hst hsd hlt m fuel hf => ?_⟩
  · have hdx2 : (FileDomain.box (⟨nx, ny, nz, xb, xb + dx * (nx : Fl F.round), yb, zb⟩ : FileDomain (Fl F.round))).dx nx = dx := hkeep
    obtain ⟨N', hN', r, -⟩ := run3_any (E := E) (o := o) (dom := ⟨nx, ny, nz, xb, xb + dx * (nx : Fl F.round), yb, zb⟩) (hre u0 s0)
      (file := some (vts3 E.io xb yb zb dx nx ny nz u0 s0))
      htime heq rfl hlf hms (by dsimp only; omega) hi0.1 rfl rfl hbx hby hbz hdim hv hn hw (by dsimp only; omega) hinit hint hm hp (u := u)
      (by dsimp only; rw [hdx2, hu]) m
    dsimp only at hN' r
    have e : N' = N := hN'.unique hN
    subst e
    refine (r fuel hf).mono ?_
    rintro x m' ⟨rows, q1, q2⟩
    refine ⟨rows, q1, ?_⟩
    rw [hlast, hfile, q2, hdx2, hW]
  · obtain ⟨⟨N', hN', r, -⟩, hE, hfs⟩ := resume_any (E := E) (o := o) (hre u0 s0) (t0 := s0.time) (dt0 := s0.dt) (i0 := s0.iter)
      (file := some (vts3 E.io xb yb zb dx nx ny nz u0 s0))
      htime heq hcfl hlf hms hM hi0 hrt hat hbx hby hbz hdim hv hn hw hint hinit hkeep.symm hkeep hre
      (fun t dt v c => hio _ (F.round_isFloat hF _)) hW hm hp hN hu h1 h2 hst hsd hlt m
    have e : N' = N - n := hN'.unique hE
    subst e
    have e2 : n - 1 + 1 = n := by omega
    have e3 : n + (N - n - 1 + 1) = N := by omega
    have e4 : N - 1 + 1 = N := by omega
    have e5 : s0.iter + (n : Int) + ((N - n : Nat) : Int) = s0.iter + (N : Int) := by omega
    rw [hfile]
    dsimp only
    rw [e2]
    refine (r fuel hf).mono ?_
    rintro x m' ⟨rows, q1, q2⟩
    refine ⟨rows, q1, ?_⟩
    rw [q2, hlast, hfile]
    dsimp only
    rw [hfs, e3, e4, e5]
    rfl

end

end

/-! ### The spacing after reading a file -/

/-- C99. For a domain that begins at 0 the spacing computed from the points of a file is the spacing with which they were written,
in every binary format and for every number of cells below `2^prec`. -/
theorem C99_spacing_kept (F : FloatFmt) (hF : 1 ≤ F.prec) (hE : F.emin ≤ 0) (xe : Fl F.round) (hxe : IsFloat F xe.val) (h0 : 0 ≤ xe.val)
    (n : Int) (hn : 1 ≤ n) (hn2 : n < 2 ^ F.prec) (dx : Fl F.round) (hdx : dx = (xe - 0) / (n : Fl F.round)) :
    (0 + dx * (n : Fl F.round) - 0) / (n : Fl F.round) = dx := by
  obtain ⟨k, rfl⟩ : ∃ k : Nat, n = k := ⟨n.toNat, by omega⟩
  have hk : F.round ((k : Int) : ℚ) = (k : ℚ) := by
    rw [Int.cast_natCast]
    exact F.round_float ⟨k, 0, by rw [abs_of_nonneg (by positivity)]; exact hn2, hE, by simp⟩
  apply Fl.eq_of_val
  rw [hdx]
  show F.round (F.round (F.round (0 + F.round (F.round (F.round (xe.val - 0) / F.round ((k : Int) : ℚ)) * F.round ((k : Int) : ℚ))) - 0) /
    F.round ((k : Int) : ℚ)) = F.round (F.round (xe.val - 0) / F.round ((k : Int) : ℚ))
  rw [hk, sub_zero, sub_zero, zero_add, F.round_float hxe, F.round_float (F.round_isFloat hF (F.round _)), F.round_float (F.round_isFloat hF _)]
  exact F.div_mul_div hF hxe h0 (by omega) (by exact_mod_cast hn2)

example : (0 + (dbl (3 / 10) - 0) / ((7 : Int) : Fl binary64.round) * ((7 : Int) : Fl binary64.round) - 0) / ((7 : Int) : Fl binary64.round) =
    (dbl (3 / 10) - 0) / ((7 : Int) : Fl binary64.round) :=
  C99_spacing_kept binary64 (by decide) (by decide) _ (FloatFmt.round_isFloat binary64 (by decide) (3 / 10)) (by decide +kernel) 7 (by decide)
    (by decide) _ rfl

/-- C99. It need not be so for other domains: in double precision, with 11 cells from 0.2 to 1, the spacing computed from the points
of the file is not that of the run. A resumed run then solves with a different spacing. -/
theorem C99_spacing_changes :
    let xb := dbl (2 / 10)
    let dx := (dbl 1 - xb) / ((11 : Int) : Fl binary64.round)
    (∀ u s, getCartesianDomain doubleText.fl (vts3 doubleText.fl xb (dbl 0) (dbl 0) dx 11 11 11 u s) =
      .ok ⟨11, 11, 11, xb, xb + dx * ((11 : Int) : Fl binary64.round), dbl 0, dbl 0⟩) ∧
    (xb + dx * ((11 : Int) : Fl binary64.round) - xb) / ((11 : Int) : Fl binary64.round) ≠ dx := by
  intro xb dx
  refine ⟨fun u s => ?_, by decide +kernel⟩
  refine domain_vts3_fl (by decide) doubleText_fl_exact ⟨by omega, by omega⟩ ⟨by omega, by omega⟩ ⟨by omega, by omega⟩ ?_ ?_ ?_ ?_ u s
  · exact FloatFmt.round_isFloat binary64 (by decide) (2 / 10)
  · exact FloatFmt.round_isFloat binary64 (by decide) 0
  · exact FloatFmt.round_isFloat binary64 (by decide) 0
  · decide +kernel

/-! ### Double precision -/

section
variable {A : Type} [DecidableEq A] [Pow (Fl binary64.round) (Fl binary64.round)] (sz : A → Int) (E : Env (Fl binary64.round))
  (o : RunOpts (Fl binary64.round)) (w : ProgArr A)

/-- C99. In double precision, with a domain beginning at 0, a fresh explicit run can be interrupted after any step whose time and
step size have at most seven digits, and resumed: every later file has the text it would have had. -/
theorem C99_double (hE : E.io = doubleText.fl) (heq : o.sel.equation = "cahn-hilliard") (hint : o.sel.integrator = "rk3ssp")
    (hcfl : o.useCfl = false) (hlf : o.logFreq ≠ 0) (hms : 0 < o.maxSteps) (hM : o.maxSteps < 2147483648) (hrt : o.relTol = 0)
    (hat : o.absTol = 0) {bx bY bz : BCType}
    (hbx : (o.sel.bcx, bx) ∈ [("periodic", BCType.periodic), ("neumann", .neumann), ("dirichlet", .dirichlet)])
    (hby : (o.sel.bcy, bY) ∈ [("periodic", BCType.periodic), ("neumann", .neumann), ("dirichlet", .dirichlet)])
    (hbz : (o.sel.bcz, bz) ∈ [("periodic", BCType.periodic), ("neumann", .neumann), ("dirichlet", .dirichlet)])
    (hdim : o.sel.dimension = 3) (hv : o.variant = 0 ∨ o.variant = 1 ∨ o.variant = 2)
    (hn : 2 ≤ o.nx ∧ 2 ≤ o.ny ∧ 2 ≤ o.nz) (hn' : o.nx < 2147483648 ∧ o.ny < 2147483648 ∧ o.nz < 2147483648)
    (hw : Arrays3 sz w o.nx o.ny o.nz) (hx0 : o.box.xbeg = 0) (hxe : IsFloat binary64 o.box.xend.val) (hxe0 : 0 ≤ o.box.xend.val)
    (hyb : IsFloat binary64 o.box.ybeg.val) (hzb : IsFloat binary64 o.box.zbeg.val)
    (t d p : Nat → Fl binary64.round) (hm : Marching o.tfinal o.t0 o.dt0 t d p) (hp : ∀ k, p (k + 1) = d k)
    (dx : Fl binary64.round) (hdx : dx = (o.box.xend - 0) / (o.nx : Fl binary64.round))
    (u : Nat → Int × Int × Int → Fl binary64.round)
    (hu : u = iterates (ssprk3Step (rhsOps3 o.variant o.par dx bx bY bz o.nx o.ny o.nz)) t d
      (initialAny3 E.draw o.par.m o.nx o.ny o.nz)) (W : Nat) (hW : W = max (Nat.log 10 o.maxSteps + 1) 4) (N : Nat)
    (hN : EndsAfter ⟨o.t0, o.tfinal, o.dt0, false, o.maxSteps, 0, 0, 0⟩ o.logFreq.natAbs t p (fun _ => 0) N)
    (file : Nat → Status (Fl binary64.round) → VtsFile)
    (hfile : file = fun k => vts3 doubleText.fl 0 o.box.ybeg o.box.zbeg dx o.nx o.ny o.nz (u (k + 1)))
    (last : Text × VtsFile) (hlast : last = (stepName (finalBase o.base) W N, file (N - 1) (finalStatus 0 o.tfinal t d p N)))
    (n : Nat) (h1 : 1 ≤ n) (h2 : n < N) (Dt Dd : Nat) (et ed : Int) (hDt : 10 ^ 6 ≤ Dt ∧ Dt < 10 ^ 7 ∧ -300 ≤ et)
    (hDd : 10 ^ 6 ≤ Dd ∧ Dd < 10 ^ 7 ∧ -300 ≤ ed) (htn : t n = dbl (Dt * (10 : ℚ) ^ et)) (hdn : d n = dbl (Dd * (10 : ℚ) ^ ed))
    (hlt : ¬ (o.tfinal ≤ t n + d (n - 1))) :
    (∀ m fuel, N ≤ fuel → AllEnd sz (program E o none w fuel) m fun r _ => ∃ rows,
      r = .done (savedFiles 0 o.saveEvery.natAbs t d (stepName o.base W) file N ++ [last]) rows) ∧
    ∀ m fuel, N - n ≤ fuel → AllEnd sz (program E o (some (file (n - 1) ⟨n, t n, d (n - 1)⟩)) w fuel) m fun r _ => ∃ rows,
      r = .done (savedFiles n o.saveEvery.natAbs (fun k => t (n + k)) (fun k => d (n + k)) (stepName o.base W)
        (fun k => file (n + k)) (N - n) ++ [last]) rows := by
  have hk := C99_spacing_kept binary64 (by decide) (by decide) o.box.xend hxe hxe0 o.nx (by omega)
    (lt_trans hn'.1 (by decide)) dx hdx
  have h0 : IsFloat binary64 (0 : ℚ) := ⟨0, 0, by decide, by decide, by simp⟩
  obtain ⟨b, r⟩ := C99_resume sz E o w heq hint hcfl hlf hms hM hrt hat hbx hby hbz hdim hv (by decide)
    (by rw [hE]; exact doubleText_fl_exact) hn hn' hw ⟨by rw [hx0]; exact h0, hyb, hzb⟩ (by rw [hx0]; exact hxe0) t d p hm hp dx
    (by rw [hx0]; exact hdx) (by rw [hx0]; exact hk) u hu W hW N hN file (by rw [hE, hx0]; exact hfile) last hlast
  refine ⟨fun m fuel hf => (b m fuel hf).mono fun x m' ⟨rows, _, h⟩ => ⟨rows, h⟩, fun m fuel hf => ?_⟩
  have hst : ShortExact E.io (t n) := by
    rw [hE, htn]; exact shortExact_fl (C62_seven_digits Dt et hDt.1 hDt.2.1 hDt.2.2)
  have hsd : ShortExact E.io (d n) := by
    rw [hE, hdn]; exact shortExact_fl (C62_seven_digits Dd ed hDd.1 hDd.2.1 hDd.2.2)
  exact (r n h1 h2 hst hsd hlt m fuel hf).mono fun x m' ⟨rows, _, h⟩ => ⟨rows, h⟩

end

/-- From 0 to 2 in steps of 1/2, in double precision (test data). -/
def resumeOpts : RunOpts (Fl binary64.round) where
  sel := ⟨3, "periodic", "neumann", "periodic", "cahn-hilliard", "rk3ssp", false⟩
  nx := 2
  ny := 2
  nz := 3
  box := ⟨0, dbl (3 / 10), 0, 0⟩
  variant := 1
  par := ⟨dbl (1 / 10), dbl (1 / 10), dbl (1 / 10)⟩
  t0 := 0
  tfinal := dbl 2
  dt0 := dbl (1 / 2)
  useCfl := false
  maxSteps := 100
  relTol := 0
  absTol := 0
  errTol := 1
  minStep := 0
  maxStep := 1
  logFreq := 1
  saveEvery := 1
  logFile := []
  solFile := ['s']
  mg := ⟨1, 1, 100, dbl (1 / 100), 1, 1, 1, "nearest"⟩

/-- The hypotheses are met, and the run continued from the first file leaves the same last file. -/
example [Pow (Fl binary64.round) (Fl binary64.round)] (E : Env (Fl binary64.round))
    (hE : E.io = doubleText.fl) :
    ∃ N first last, ∀ m fuel, N ≤ fuel →
      (AllEnd (demoSize 392 252) (program E resumeOpts none demoArr fuel) m fun r _ => ∃ files rows,
        r = .done (first :: files ++ [last]) rows) ∧
      AllEnd (demoSize 392 252) (program E resumeOpts (some first.2) demoArr fuel) m fun r _ => ∃ files rows,
        r = .done (files ++ [last]) rows := by
  obtain ⟨t, d, p, hm, hp⟩ := exists_marching resumeOpts.tfinal resumeOpts.t0 resumeOpts.dt0
  obtain ⟨N, hN⟩ := exists_end (⟨resumeOpts.t0, resumeOpts.tfinal, resumeOpts.dt0, false, resumeOpts.maxSteps, 0, 0, 0⟩ : TimeOpts _)
    resumeOpts.logFreq.natAbs t p (fun _ => 0) (by decide)
  have hN1 : 1 < N := by
    rcases hN with ⟨h1, h2, -⟩
    by_contra h
    have : N = 1 := by omega
    subst this
    rcases h2 with h2 | h2
    · exact absurd h2.1 (by decide)
    · rw [stopAt_zero rfl rfl] at h2
      revert h2
      decide
  have ht1 : t 1 = dbl (1 / 2) := by
    rw [show t 1 = t 0 + d 0 from hm.t_succ 0, hm.t_zero, hm.d_zero]
    decide +kernel
  have hlt : ¬ (resumeOpts.tfinal ≤ t 1 + d 0) := by
    rw [ht1, hm.d_zero]
    decide +kernel
  have hd1 : d 1 = dbl (1 / 2) := by
    rw [show d 1 = _ from hm.d_succ 0, hp 0, if_neg hlt, hm.d_zero]
    rfl
  have hhalf : ((5000000 : Nat) : ℚ) * (10 : ℚ) ^ (-7 : Int) = 1 / 2 := by norm_num
  obtain ⟨dx, hdx⟩ : ∃ dx, dx = (resumeOpts.box.xend - 0) / (resumeOpts.nx : Fl binary64.round) := ⟨_, rfl⟩
  obtain ⟨u, hu⟩ : ∃ u, u = iterates (ssprk3Step (rhsOps3 resumeOpts.variant resumeOpts.par dx .periodic .neumann .periodic resumeOpts.nx
    resumeOpts.ny resumeOpts.nz)) t d (initialAny3 E.draw resumeOpts.par.m resumeOpts.nx resumeOpts.ny resumeOpts.nz) := ⟨_, rfl⟩
  obtain ⟨file, hfile⟩ : ∃ file : Nat → Status (Fl binary64.round) → VtsFile, file = fun k => vts3 doubleText.fl 0 resumeOpts.box.ybeg
    resumeOpts.box.zbeg dx resumeOpts.nx resumeOpts.ny resumeOpts.nz (u (k + 1)) := ⟨_, rfl⟩
  obtain ⟨last, hlast⟩ : ∃ last, last = (stepName (finalBase resumeOpts.base) 4 N, file (N - 1)
    (finalStatus 0 resumeOpts.tfinal t d p N)) := ⟨_, rfl⟩
  have h00 : IsFloat binary64 (0 : ℚ) := ⟨0, 0, by decide, by decide, by simp⟩
  obtain ⟨b, r⟩ := C99_double (bx := .periodic) (bY := .neumann) (bz := .periodic) (demoSize 392 252) E resumeOpts demoArr hE rfl rfl rfl
    (by decide) (by decide) (by decide) rfl rfl (by simp [resumeOpts]) (by simp [resumeOpts]) (by simp [resumeOpts]) rfl (by simp [resumeOpts])
    (by simp [resumeOpts]) (by simp [resumeOpts])
    ⟨by simp [demoArr], by simp [demoArr, demoSize, resumeOpts], by simp [demoArr, demoSize, resumeOpts]⟩ rfl
    (FloatFmt.round_isFloat binary64 (by decide) (3 / 10)) (by decide +kernel) h00 h00 t d p hm hp dx hdx u hu 4
    (by simp only [resumeOpts]; decide +kernel) N hN file hfile last hlast
    1 le_rfl hN1 5000000 5000000 (-7) (-7) (by norm_num) (by norm_num) (by rw [hhalf]; exact ht1) (by rw [hhalf]; exact hd1) hlt
  refine ⟨N, (stepName resumeOpts.base 4 1, file 0 ⟨1, t 1, d 0⟩), last, fun m fuel hf => ⟨(b m fuel hf).mono ?_, (r m fuel (by omega)).mono ?_⟩⟩
  · rintro x m' ⟨rows, h⟩
    rw [show resumeOpts.saveEvery.natAbs = 1 from rfl, C99_saved_split 0 t d _ file (n := 1) hN1.le, savedFiles_every (N := 1)] at h
    exact ⟨_, rows, h⟩
  · rintro x m' ⟨rows, h⟩
    exact ⟨_, rows, h⟩

/-- A run started from a file: the hypotheses of `C99_resume_again` are met. -/
example [Pow (Fl binary64.round) (Fl binary64.round)] (E : Env (Fl binary64.round)) (hE : E.io = doubleText.fl) :
    ∃ N last, ∀ m fuel, N ≤ fuel → AllEnd (demoSize 392 252) (program E resumeOpts
      (some (vts3 doubleText.fl 0 0 0 ((dbl (3 / 10) - 0) / ((2 : Int) : Fl binary64.round)) 2 2 3 (fun c => dbl c.1)
        ⟨5, dbl (1 / 2), dbl (1 / 2)⟩)) demoArr fuel) m fun r _ => ∃ files rows, r = .done (files ++ [last]) rows := by
  obtain ⟨t, d, p, hm, hp⟩ := exists_marching resumeOpts.tfinal (dbl (1 / 2)) (dbl (1 / 2))
  obtain ⟨N, hN⟩ := exists_end (⟨dbl (1 / 2), resumeOpts.tfinal, dbl (1 / 2), false, resumeOpts.maxSteps, 5, 0, 0⟩ : TimeOpts _)
    resumeOpts.logFreq.natAbs t p (fun _ => 0) (by decide)
  have h00 : IsFloat binary64 (0 : ℚ) := ⟨0, 0, by decide, by decide, by simp⟩
  have hhalf : ((5000000 : Nat) : ℚ) * (10 : ℚ) ^ (-7 : Int) = 1 / 2 := by norm_num
  have hsh : ShortExact E.io (dbl (1 / 2)) := by
    have := C62_seven_digits 5000000 (-7) (by norm_num) (by norm_num) (by norm_num)
    rw [hhalf] at this
    rw [hE]
    exact shortExact_fl this
  obtain ⟨dx, hdx⟩ : ∃ dx, dx = (dbl (3 / 10) - 0) / ((2 : Int) : Fl binary64.round) := ⟨_, rfl⟩
  obtain ⟨u, hu⟩ : ∃ u, u = iterates (ssprk3Step (rhsOps3 resumeOpts.variant resumeOpts.par dx .periodic .neumann .periodic 2 2 3)) t d
    (fun c => dbl c.1) := ⟨_, rfl⟩
  obtain ⟨last, hlast⟩ : ∃ last : Text × VtsFile, last = (stepName (finalBase resumeOpts.base) 4 (5 + N), vts3 E.io 0 0 0 dx 2 2 3 (u (N - 1 + 1))
    (finalStatus 5 resumeOpts.tfinal t d p N)) := ⟨_, rfl⟩
  obtain ⟨b, -⟩ := C99_resume_again (bx := .periodic) (bY := .neumann) (bz := .periodic) (demoSize 392 252) E resumeOpts demoArr rfl rfl rfl
    (by decide) (by decide) (by decide) rfl rfl (by simp [resumeOpts]) (by simp [resumeOpts]) (by simp [resumeOpts]) rfl (by simp [resumeOpts])
    (by decide) (by rw [hE]; exact doubleText_fl_exact) (nx := 2) (ny := 2) (nz := 3) (by decide) (by decide)
    ⟨by simp [demoArr], by simp [demoArr, demoSize], by simp [demoArr, demoSize]⟩ (xb := 0) (yb := 0) (zb := 0) ⟨h00, h00, h00⟩
    (dx := dx) (by rw [hdx]; decide +kernel)
    (C99_spacing_kept binary64 (by decide) (by decide) _ (FloatFmt.round_isFloat binary64 (by decide) (3 / 10)) (by decide +kernel) 2 (by decide)
      (by decide) dx hdx)
    (fun c => dbl c.1) (fun c _ => FloatFmt.round_isFloat binary64 (by decide) _) ⟨5, dbl (1 / 2), dbl (1 / 2)⟩ ⟨hsh, hsh⟩ (by decide)
    t d p hm hp u hu 4 (by simp only [resumeOpts]; decide +kernel) N hN _ rfl last hlast
  rw [hE, hdx] at b
  refine ⟨N, last, fun m fuel hf => (b m fuel hf).mono ?_⟩
  rintro x m' ⟨rows, -, h⟩
  exact ⟨_, rows, h⟩

end Madg
