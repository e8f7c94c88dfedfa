/-
C85, C86: whole runs of the program, from the options to the log and the solution files.
-/
import Verif.Proofs.ProgramInit

set_option linter.unusedSectionVars false

namespace Madg
open Spec

section
variable {A : Type} [DecidableEq A] (sz : A → Int) (E : Env ℝ) (o : RunOpts) (w : ProgArr A)
  (heq : o.sel.equation = "cahn-hilliard") (hcfl : o.useCfl = false) (hlf : o.logFreq ≠ 0) (hms : 0 < o.maxSteps)

theorem domain_none (h : 0 < o.nx) : o.domain E none =
    .ok ⟨o.nx, o.ny, o.nz, o.box.xbeg, o.box.xend, o.box.ybeg, o.box.zbeg⟩ := by
  unfold RunOpts.domain domainEnd
  rw [if_neg (by omega), if_neg (by omega)]

theorem timeOpts_eq (hcfl : o.useCfl = false) (h : o.maxSteps < 2147483648) :
    o.timeOpts = ⟨o.t0, o.tfinal, o.dt0, false, o.maxSteps, 0, o.relTol, o.absTol⟩ := by
  unfold RunOpts.timeOpts
  rw [hcfl, maxSteps_small _ h]

/-- C85. The files of a run are named after `solution_output_file` when it is given, otherwise after the log file. -/
theorem C85_file_base (o : RunOpts) :
    (o.solFile ≠ [] → o.base = o.solFile) ∧ (o.solFile = [] → o.base = o.logFile) := by
  unfold RunOpts.base
  exact ⟨fun h => if_neg h, fun h => if_pos h⟩

/-! ### C85: rk3ssp -/

section
variable {bx bY bz : BCType}
  (hbx : (o.sel.bcx, bx) ∈ [("periodic", BCType.periodic), ("neumann", .neumann), ("dirichlet", .dirichlet)])
  (hby : (o.sel.bcy, bY) ∈ [("periodic", BCType.periodic), ("neumann", .neumann), ("dirichlet", .dirichlet)])
  (hbz : (o.sel.bcz, bz) ∈ [("periodic", BCType.periodic), ("neumann", .neumann), ("dirichlet", .dirichlet)])
  (hdim : o.sel.dimension = 3) (hv : o.variant = 0 ∨ o.variant = 1 ∨ o.variant = 2)
  (hn : 2 ≤ o.nx ∧ 2 ≤ o.ny ∧ 2 ≤ o.nz) (hw : Arrays3 sz w o.nx o.ny o.nz) (hmax : o.maxSteps < 2147483648)
include heq hcfl hlf hms hbx hby hbz hdim hv hn hw hmax

/-- A 3D run with rk3ssp, from any contents of the memory, under every schedule of its loops and reductions: the initial
field is the random field with the prescribed mean, each step is one step of the three-stage method on the discretised
equation with the chosen boundary conditions, and the log rows, file names and file contents are those of the fields
passed through; the run ends by itself after the number of steps given by final time, step limit and tolerances. -/
theorem C85_rk3ssp3 (hint : o.sel.integrator = "rk3ssp") (t d p : Nat → ℝ) (hm : Marching o.tfinal o.t0 o.dt0 t d p)
    (hp : ∀ k, p (k + 1) = d k) (dx : ℝ) (hdx : dx = (o.box.xend - o.box.xbeg) / o.nx)
    (F : ℝ → (Int × Int × Int → ℝ) → Int × Int × Int → ℝ) (hF : F = chField3 o.par dx bx bY bz o.nx o.ny o.nz)
    (u : Nat → Int × Int × Int → ℝ) (hu : u = states ssprk3 F t d (initial3 E.draw o.par.m o.nx o.ny o.nz))
    (W : Nat) (hW : W = max (Nat.log 10 o.maxSteps + 1) 4) (m : Mem A ℝ) :
    RunsAs sz (program E o none w) m ⟨o.t0, o.tfinal, o.dt0, false, o.maxSteps, 0, o.relTol, o.absTol⟩
      o.logFreq.natAbs o.saveEvery.natAbs t d p
      (fun k => rms3 E.rt o.nx o.ny o.nz ((ssprk3 : Tableau ℝ).slope F (t k) (d k) (u k)))
      (fun k => Monitors3 E.rt E.big E.tiny dx o.nx o.ny o.nz (u (k + 1)))
      (stepName o.base W) (stepName (o.base ++ "_final".toList) W)
      (fun k => vts3 E.io o.box.xbeg o.box.ybeg o.box.zbeg dx o.nx o.ny o.nz (u (k + 1))) := by
  subst hdx hu hW
  exact run3_rk3 (file := none) (domain_none E o (by omega)) (by rw [timeOpts_eq o hcfl hmax]) heq rfl hlf hms
    (by dsimp only; omega) (le_refl 0) hbx hby hbz hdim hv hn hw (by dsimp only; omega)
    (fun G hG hg m => by
      have := ic3_none (sz := sz) (E := E) (o := o) hG (sol := w.rk.sol)
        (by rw [hg]; exact hw.cells _ (by simp)) (.d3 ⟨o.nx, o.ny, o.nz, 2⟩ w.rk.sol) m
      rw [hg] at this ⊢
      exact this) hint hm hp F hF m

/-- A 3D run with ode23 whose stage arrays are zero at the start, as they are when freshly allocated. Each step is one step
of the Bogacki–Shampine method; the proposed sizes follow from the error estimates by the stated rule. -/
theorem C86_ode23_3 (hint : o.sel.integrator = "ode23") (t d p e : Nat → ℝ) (hm : Marching o.tfinal o.t0 o.dt0 t d p)
    (dx : ℝ) (hdx : dx = (o.box.xend - o.box.xbeg) / o.nx)
    (F : ℝ → (Int × Int × Int → ℝ) → Int × Int × Int → ℝ) (hF : F = chField3 o.par dx bx bY bz o.nx o.ny o.nz)
    (u : Nat → Int × Int × Int → ℝ) (hu : u = states bs23 F t d (initial3 E.draw o.par.m o.nx o.ny o.nz))
    (he : Estimates bs23 F (In3 o.nx o.ny o.nz) t d u e)
    (hp : ∀ k, p (k + 1) = proposal o.errTol o.minStep o.maxStep d e k)
    (W : Nat) (hW : W = max (Nat.log 10 o.maxSteps + 1) 4) (m : Mem A ℝ)
    (hz : ∀ a ∈ [w.rk.k1, w.rk.k2, w.rk.k3, w.rk.k4], ∀ n, m a n = 0) :
    RunsAs sz (program E o none w) m ⟨o.t0, o.tfinal, o.dt0, false, o.maxSteps, 0, o.relTol, o.absTol⟩
      o.logFreq.natAbs o.saveEvery.natAbs t d p
      (fun k => rms3 E.rt o.nx o.ny o.nz ((bs23 : Tableau ℝ).slope F (t k) (d k) (u k)))
      (fun k => Monitors3 E.rt E.big E.tiny dx o.nx o.ny o.nz (u (k + 1)))
      (stepName o.base W) (stepName (o.base ++ "_final".toList) W)
      (fun k => vts3 E.io o.box.xbeg o.box.ybeg o.box.zbeg dx o.nx o.ny o.nz (u (k + 1))) := by
  subst hdx hu hW
  exact run3_ode23 (file := none) (domain_none E o (by omega)) (by rw [timeOpts_eq o hcfl hmax]) heq rfl hlf hms
    (by dsimp only; omega) (le_refl 0) hbx hby hbz hdim hv hn hw (by dsimp only; omega)
    (fun G hG hg m => by
      have := ic3_none (sz := sz) (E := E) (o := o) hG (sol := w.rk.sol)
        (by rw [hg]; exact hw.cells _ (by simp)) (.d3 ⟨o.nx, o.ny, o.nz, 2⟩ w.rk.sol) m
      rw [hg] at this ⊢
      exact this) hint hm F hF he hp m hz

end

section
variable (hbx : o.sel.bcx ∈ ["periodic", "neumann", "dirichlet"]) (hby : o.sel.bcy ∈ ["periodic", "neumann", "dirichlet"])
  (hbz : o.sel.bcz ∈ ["periodic", "neumann", "dirichlet"]) (hdim : o.sel.dimension = 2) (hn : 2 ≤ o.nx)
  (hw : Arrays2 sz w o.nx) (hmax : o.maxSteps < 1000000)
include heq hcfl hlf hms hbx hby hbz hdim hn hw hmax

/-- A 2D run with rk3ssp: the boundary options must be valid names but have no effect. -/
theorem C85_rk3ssp2 (hint : o.sel.integrator = "rk3ssp") (t d p : Nat → ℝ) (hm : Marching o.tfinal o.t0 o.dt0 t d p)
    (hp : ∀ k, p (k + 1) = d k) (dx : ℝ) (hdx : dx = (o.box.xend - o.box.xbeg) / o.nx)
    (F : ℝ → (Int × Int → ℝ) → Int × Int → ℝ) (hF : F = chField2 o.par dx o.nx)
    (u : Nat → Int × Int → ℝ) (hu : u = states ssprk3 F t d (initial2 E.draw o.par.m o.nx))
    (W : Nat) (hW : W = Nat.log 10 o.maxSteps + 1) (m : Mem A ℝ) :
    RunsAs sz (program E o none w) m ⟨o.t0, o.tfinal, o.dt0, false, o.maxSteps, 0, o.relTol, o.absTol⟩
      o.logFreq.natAbs o.saveEvery.natAbs t d p
      (fun k => rms2 E.rt o.nx ((ssprk3 : Tableau ℝ).slope F (t k) (d k) (u k)))
      (fun k => Monitors2 E.rt E.big E.tiny dx o.nx (u (k + 1)))
      (stepName o.base W) (stepName (o.base ++ "_final".toList) W)
      (fun k => vts2 E.io o.box.xbeg o.box.ybeg dx o.nx (u (k + 1))) := by
  subst hdx hu hW
  exact run2_rk3 (file := none) (domain_none E o (by omega)) (by rw [timeOpts_eq o hcfl (by omega)]) heq rfl hlf hms
    (by dsimp only; omega) (le_refl 0) hbx hby hbz hdim hn hw (by dsimp only; omega)
    (fun G hG hg m => by
      have := ic2_none (sz := sz) (E := E) (o := o) hG (sol := w.rk.sol)
        (by rw [hg]; exact hw.cells _ (by simp)) (.d2 ⟨o.nx, o.nx, 2⟩ w.rk.sol) m
      rw [hg] at this ⊢
      exact this) hint hm hp F hF m

/-- A 2D run with ode23. -/
theorem C86_ode23_2 (hint : o.sel.integrator = "ode23") (t d p e : Nat → ℝ) (hm : Marching o.tfinal o.t0 o.dt0 t d p)
    (dx : ℝ) (hdx : dx = (o.box.xend - o.box.xbeg) / o.nx)
    (F : ℝ → (Int × Int → ℝ) → Int × Int → ℝ) (hF : F = chField2 o.par dx o.nx)
    (u : Nat → Int × Int → ℝ) (hu : u = states bs23 F t d (initial2 E.draw o.par.m o.nx))
    (he : Estimates bs23 F (In2 o.nx) t d u e) (hp : ∀ k, p (k + 1) = proposal o.errTol o.minStep o.maxStep d e k)
    (W : Nat) (hW : W = Nat.log 10 o.maxSteps + 1) (m : Mem A ℝ)
    (hz : ∀ a ∈ [w.rk.k1, w.rk.k2, w.rk.k3, w.rk.k4], ∀ n, m a n = 0) :
    RunsAs sz (program E o none w) m ⟨o.t0, o.tfinal, o.dt0, false, o.maxSteps, 0, o.relTol, o.absTol⟩
      o.logFreq.natAbs o.saveEvery.natAbs t d p
      (fun k => rms2 E.rt o.nx ((bs23 : Tableau ℝ).slope F (t k) (d k) (u k)))
      (fun k => Monitors2 E.rt E.big E.tiny dx o.nx (u (k + 1)))
      (stepName o.base W) (stepName (o.base ++ "_final".toList) W)
      (fun k => vts2 E.io o.box.xbeg o.box.ybeg dx o.nx (u (k + 1))) := by
  subst hdx hu hW
  exact run2_ode23 (file := none) (domain_none E o (by omega)) (by rw [timeOpts_eq o hcfl (by omega)]) heq rfl hlf hms
    (by dsimp only; omega) (le_refl 0) hbx hby hbz hdim hn hw (by dsimp only; omega)
    (fun G hG hg m => by
      have := ic2_none (sz := sz) (E := E) (o := o) hG (sol := w.rk.sol)
        (by rw [hg]; exact hw.cells _ (by simp)) (.d2 ⟨o.nx, o.nx, 2⟩ w.rk.sol) m
      rw [hg] at this ⊢
      exact this) hint hm F hF he hp m hz

end

end

/-! ### The sequences -/

/-- Times and sizes of a run with fixed step exist and are unique. -/
theorem C85_sequences (T t0 dt0 : ℝ) : ∃ t d p : Nat → ℝ, (Marching T t0 dt0 t d p ∧ ∀ k, p (k + 1) = d k) ∧
    ∀ t' d' p' : Nat → ℝ, Marching T t0 dt0 t' d' p' → (∀ k, p' (k + 1) = d' k) → t' = t ∧ d' = d := by
  refine ⟨_, _, _, ⟨fixedSeq_marching T t0 dt0, fun k => rfl⟩, fun t' d' p' hm hp => ?_⟩
  have key : ∀ k, t' k = (fixedSeq T t0 dt0 k).1 ∧ d' k = (fixedSeq T t0 dt0 k).2 := by
    intro k
    induction k with
    | zero => exact ⟨hm.t_zero, hm.d_zero⟩
    | succ k ih => rw [hm.d_succ, hm.t_succ, hp, ih.1, ih.2]; exact ⟨rfl, rfl⟩
  exact ⟨funext fun k => (key k).1, funext fun k => (key k).2⟩

/-- Without tolerances a run with fixed step takes as many steps as are needed to cover the time interval, at least two and
at most the step limit; if the limit allows, it ends exactly at the final time. -/
theorem C85_steps (t0 T dt : ℝ) (hdt : 0 < dt) (M : Nat) (hM : 0 < M) (t d p : Nat → ℝ) (hm : Marching T t0 dt t d p)
    (hp : ∀ k, p (k + 1) = d k) (f : Nat) (r : Nat → ℝ) (N : Nat)
    (hN : EndsAfter ⟨t0, T, dt, false, M, 0, 0, 0⟩ f t p r N) :
    N = min M (max 2 ⌈(T - t0) / dt⌉₊) ∧ (max 2 ⌈(T - t0) / dt⌉₊ ≤ M → t N = T) ∧
      ∀ k, k + 1 < max 2 ⌈(T - t0) / dt⌉₊ → t k = t0 + k * dt ∧ d k = dt := by
  have := fixed_ends (o := ⟨t0, T, dt, false, M, 0, 0, 0⟩) f r hm hp hdt rfl (by dsimp only; omega) rfl rfl hN
  simpa using this

/-- Sequences of an adaptive run exist, for every initial field. -/
theorem C86_sequences {C : Type} (F : ℝ → (C → ℝ) → C → ℝ) (P : C → Prop) (hP : {c | P c}.Finite) (u0 : C → ℝ)
    (T t0 dt0 tol mn mx : ℝ) : ∃ t d p e : Nat → ℝ, Marching T t0 dt0 t d p ∧
      Estimates bs23 F P t d (states bs23 F t d u0) e ∧ ∀ k, p (k + 1) = proposal tol mn mx d e k :=
  adaptive_exists F hP u0 T t0 dt0 tol mn mx

/-! ### Mean value -/

/-- On a periodic 3D grid the field in every solution file of a run has the prescribed mean, whatever the step sizes. -/
theorem C85_mean3 (T : Tableau ℝ) (par : CHParams ℝ) (dx : ℝ) (nx ny nz : Int) (hn : 1 ≤ nx ∧ 1 ≤ ny ∧ 1 ≤ nz)
    (draw : Nat → ℝ) (t d : Nat → ℝ) (k : Nat) :
    sum3 nx ny nz (fun i j l => states T (chField3 par dx .periodic .periodic .periodic nx ny nz) t d
      (initial3 draw par.m nx ny nz) k (i, j, l)) / ((nx * ny * nz : Int) : ℝ) = par.m := by
  have h := states_total T (chField3 par dx .periodic .periodic .periodic nx ny nz) (total3 nx ny nz) _ par.sigma
    (total3_rhs par dx hn.1 hn.2.1 hn.2.2) t d (u0 := initial3 draw par.m nx ny nz) (initial3_total draw par.m hn) k
  have hpos : 0 < nx * ny * nz := Int.mul_pos (Int.mul_pos (by omega) (by omega)) (by omega)
  have hne : ((nx * ny * nz : Int) : ℝ) ≠ 0 := by exact_mod_cast hpos.ne'
  rw [div_eq_iff hne, mul_comm par.m]
  exact h

/-- The same on a 2D grid. -/
theorem C85_mean2 (T : Tableau ℝ) (par : CHParams ℝ) (dx : ℝ) (n : Int) (hn : 1 ≤ n)
    (draw : Nat → ℝ) (t d : Nat → ℝ) (k : Nat) :
    sum2 n n (fun i j => states T (chField2 par dx n) t d (initial2 draw par.m n) k (i, j)) / ((n * n : Int) : ℝ) = par.m := by
  have h := states_total T (chField2 par dx n) (total2 n) _ par.sigma
    (total2_rhs par dx hn) t d (u0 := initial2 draw par.m n) (initial2_total draw par.m hn) k
  have hpos : 0 < n * n := Int.mul_pos (by omega) (by omega)
  have hne : ((n * n : Int) : ℝ) ≠ 0 := by exact_mod_cast hpos.ne'
  rw [div_eq_iff hne, mul_comm par.m]
  exact h

/-! ### No step limit -/

/-- With `max_time_steps = 0`, documented as "no limit", no run of the program ends normally: the name of the file written
at the end is computed from the logarithm of the limit. -/
theorem C85_no_limit {A : Type} [DecidableEq A] (sz : A → Int) (E : Env ℝ) (o : RunOpts) (w : ProgArr A)
    (file : Option VtsFile) (fuel : Nat) (m m' : Mem A ℝ) (R : RunResult ℝ) (h0 : o.maxSteps = 0)
    (h : CmdOut sz (program E o file w fuel) m (.ok (R, m'))) (files : List (Text × VtsFile))
    (rows : List (List (String × ℝ))) : R ≠ .done files rows := by
  have hn : ∀ (b : Text) (i : Int), ∃ e, stepName3 b (o.maxSteps : Int) i = .error e ∧ stepName2 b (o.maxSteps : Int) i = .error e := by
    intro b i
    have e : iterWidth (o.maxSteps : Int) = .error .badConv := by unfold iterWidth; rw [h0]; rfl
    unfold stepName3 stepName2 fileName3 fileName2
    rw [e]
    split <;> exact ⟨_, rfl, rfl⟩
  exact noDone_program hn m R m' h files rows

/-! ### A concrete run -/

/-- Distinct arrays of a 2×2×2 grid. -/
def demoArr : ProgArr Nat := ⟨⟨0, 1, 2, 3, 4, 5⟩, ⟨6, 7, 8, 9, 10, 11, 12⟩, 13, 14, 15, 16,
  ⟨fun _ _ => 17, fun _ => ⟨17, 17, 17, 17, 17, 17⟩, fun _ _ => 17⟩⟩

/-- Sizes of these arrays. -/
def demoSize (nv nc : Int) (a : Nat) : Int := if 3 ≤ a ∧ a ≤ 5 then nv else nc

noncomputable def demoOpts (integrator : String) : RunOpts where
  sel := ⟨3, "periodic", "neumann", "periodic", "cahn-hilliard", integrator, false⟩
  nx := 2
  ny := 2
  nz := 3
  box := ⟨0, 1, 0, 0⟩
  variant := 1
  par := ⟨1, 1, 1⟩
  t0 := 0
  tfinal := 1
  dt0 := 1 / 10
  useCfl := false
  maxSteps := 100
  relTol := 0
  absTol := 0
  errTol := 1
  minStep := 0
  maxStep := 1
  logFreq := 1
  saveEvery := 5
  logFile := []
  solFile := ['s']
  mg := ⟨1, 1, 100, 1 / 100, 1, 1, 1, "nearest"⟩

example (E : Env ℝ) (m : Mem Nat ℝ) : ∃ t d p r Q file, RunsAs (demoSize 392 252) (program E (demoOpts "rk3ssp") none demoArr) m
    ⟨0, 1, 1 / 10, false, 100, 0, 0, 0⟩ 1 5 t d p r Q (stepName ['s'] 4) (stepName "s_final".toList 4) file := by
  obtain ⟨t, d, p, ⟨hm, hp⟩, -⟩ := C85_sequences 1 0 (1 / 10)
  exact ⟨t, d, p, _, _, _, C85_rk3ssp3 (bx := .periodic) (bY := .neumann) (bz := .periodic) (demoSize 392 252) E (demoOpts "rk3ssp")
    demoArr rfl rfl (by simp [demoOpts]) (by simp [demoOpts]) (by simp [demoOpts]) (by simp [demoOpts]) (by simp [demoOpts]) rfl
    (by simp [demoOpts]) (by simp [demoOpts])
    ⟨by simp [demoArr], by simp [demoArr, demoSize, demoOpts], by simp [demoArr, demoSize, demoOpts]⟩ (by simp [demoOpts]) rfl t d p hm hp
    _ rfl _ rfl _ rfl 4 (by simp only [demoOpts]; decide +kernel) m⟩

example (E : Env ℝ) : ∃ t d p r Q file, RunsAs (demoSize 392 252) (program E (demoOpts "ode23") none demoArr) (fun _ _ => 0)
    ⟨0, 1, 1 / 10, false, 100, 0, 0, 0⟩ 1 5 t d p r Q (stepName ['s'] 4) (stepName "s_final".toList 4) file := by
  obtain ⟨t, d, p, e, hm, he, hp⟩ := C86_sequences
    (chField3 (demoOpts "ode23").par (((1 : ℝ) - 0) / ((2 : Int) : ℝ)) .periodic .neumann .periodic 2 2 3) (In3 2 2 3)
    (finite_in3 2 2 3) (initial3 E.draw (demoOpts "ode23").par.m 2 2 3) 1 0 (1 / 10) 1 0 1
  exact ⟨t, d, p, _, _, _, C86_ode23_3 (bx := .periodic) (bY := .neumann) (bz := .periodic) (demoSize 392 252) E (demoOpts "ode23")
    demoArr rfl rfl (by simp [demoOpts]) (by simp [demoOpts]) (by simp [demoOpts]) (by simp [demoOpts]) (by simp [demoOpts]) rfl
    (by simp [demoOpts]) (by simp [demoOpts])
    ⟨by simp [demoArr], by simp [demoArr, demoSize, demoOpts], by simp [demoArr, demoSize, demoOpts]⟩ (by simp [demoOpts]) rfl t d p e
    hm _ rfl _ rfl _ rfl he hp 4 (by simp only [demoOpts]; decide +kernel) _ (fun _ _ _ => rfl)⟩

noncomputable def demoOpts2 (integrator : String) : RunOpts :=
  { demoOpts integrator with sel := ⟨2, "periodic", "neumann", "periodic", "cahn-hilliard", integrator, false⟩, nx := 3 }

example (E : Env ℝ) (m : Mem Nat ℝ) : ∃ t d p r Q file, RunsAs (demoSize 64 49) (program E (demoOpts2 "rk3ssp") none demoArr) m
    ⟨0, 1, 1 / 10, false, 100, 0, 0, 0⟩ 1 5 t d p r Q (stepName ['s'] 3) (stepName "s_final".toList 3) file := by
  obtain ⟨t, d, p, ⟨hm, hp⟩, -⟩ := C85_sequences 1 0 (1 / 10)
  exact ⟨t, d, p, _, _, _, C85_rk3ssp2 (demoSize 64 49) E (demoOpts2 "rk3ssp")
    demoArr rfl rfl (by simp [demoOpts2, demoOpts]) (by simp [demoOpts2, demoOpts]) (by simp [demoOpts2]) (by simp [demoOpts2]) (by simp [demoOpts2]) rfl
    (by simp [demoOpts2])
    ⟨by simp [demoArr], by simp [demoArr, demoSize, demoOpts2], by simp [demoArr, demoSize, demoOpts2]⟩ (by simp [demoOpts2, demoOpts]) rfl t d p hm hp
    _ rfl _ rfl _ rfl 3 (by simp only [demoOpts2, demoOpts]; decide +kernel) m⟩

example (E : Env ℝ) : ∃ t d p r Q file, RunsAs (demoSize 64 49) (program E (demoOpts2 "ode23") none demoArr) (fun _ _ => 0)
    ⟨0, 1, 1 / 10, false, 100, 0, 0, 0⟩ 1 5 t d p r Q (stepName ['s'] 3) (stepName "s_final".toList 3) file := by
  obtain ⟨t, d, p, e, hm, he, hp⟩ := C86_sequences
    (chField2 (demoOpts2 "ode23").par (((1 : ℝ) - 0) / ((3 : Int) : ℝ)) 3) (In2 3)
    (finite_in2 3) (initial2 E.draw (demoOpts2 "ode23").par.m 3) 1 0 (1 / 10) 1 0 1
  exact ⟨t, d, p, _, _, _, C86_ode23_2 (demoSize 64 49) E (demoOpts2 "ode23")
    demoArr rfl rfl (by simp [demoOpts2, demoOpts]) (by simp [demoOpts2, demoOpts]) (by simp [demoOpts2]) (by simp [demoOpts2]) (by simp [demoOpts2]) rfl
    (by simp [demoOpts2])
    ⟨by simp [demoArr], by simp [demoArr, demoSize, demoOpts2], by simp [demoArr, demoSize, demoOpts2]⟩ (by simp [demoOpts2, demoOpts]) rfl t d p e
    hm _ rfl _ rfl _ rfl he hp 3 (by simp only [demoOpts2, demoOpts]; decide +kernel) _ (fun _ _ _ => rfl)⟩

/-- Ten steps of size 1/10 reach time 1. -/
example (t d p : Nat → ℝ) (hm : Marching 1 0 (1 / 10) t d p) (hp : ∀ k, p (k + 1) = d k) (r : Nat → ℝ) (N : Nat)
    (hN : EndsAfter ⟨0, 1, 1 / 10, false, (100 : Nat), 0, 0, 0⟩ 1 t p r N) : N = 10 ∧ t N = 1 := by
  have hc : ⌈((1 : ℝ) - 0) / (1 / 10)⌉₊ = 10 := by norm_num
  obtain ⟨h1, h2, -⟩ := C85_steps 0 1 (1 / 10) (by norm_num) 100 (by norm_num) t d p hm hp 1 r N hN
  rw [hc] at h1 h2
  exact ⟨h1, h2 (by norm_num)⟩

end Madg
