/-
The whole program: construction of the components and the run (initialization/puppeteer.cpp:27-87), for the Cahn–Hilliard
equation with the explicit integrators and, in three dimensions, both equations with the multigrid integrator.

The components are those of the other model files.  Not repeated here: the text of the log (Model/Logger) and its
messages, XML around the texts of a file (Model/VTK), the command line (Model/Options).
-/
import Verif.Model.RK
import Verif.Model.Controller
import Verif.Model.CH3
import Verif.Model.CH2
import Verif.Model.Reduce
import Verif.Model.InitCond
import Verif.Model.VTK
import Verif.Model.FileName
import Verif.Model.Options
import Verif.Model.MGPoisson

namespace Madg
open Spec (CHParams)

/-- What the driver reaches through its objects once they are constructed: the integrator's `doTimeStep` and
`computeNextDT` with the integrator's host fields `H` (time_stepping/time_integrator.hpp:36, 75), the residual calculator
and the solution monitor called by the observers (initialization/puppeteer.cpp:222-249), the solution writer without and
with its file name (file_io/vtk_solution_writer.cpp:16-31). -/
structure Sim (A K H : Type) where
  doStep : H → K → K → Cmd A K H
  nextDT : H → K → Cmd A K (H × K)
  resid : K → Cmd A K (List (String × K) × K)
  solMon : Cmd A K (K × K × K)
  write : Status K → Cmd A K VtsFile
  name : Text → Int → Except Err Text

/-- Host state of a run: integrator fields, the static `max_res` (governing_equations/residual_calculator.cpp:8), the three
monitors of the logger (logger/logger.hpp:45, logger/logger.cpp:319-335), the rows written to the log (names and values
in order, logger/logger.cpp:129-201), the files written with their names, and the notification counters of the two events
(utils/observer.hpp:21-64). -/
structure Drv (H K : Type) where
  h : H
  maxRes : K
  timeMon : List (String × K)
  resMon : List (String × K)
  solMon : List (String × K)
  rows : List (List (String × K))
  files : List (Text × VtsFile)
  nStep : Int
  nSol : Int

section
variable {A K H : Type} [Arith K] [LT K] [DecidableLT K] [LE K] [DecidableLE K] [DecidableEq K] [Max K] [Min K]

/-- State before the run (governing_equations/residual_calculator.cpp:8, utils/observer.hpp:23-29). -/
def Drv.new (h : H) : Drv H K := ⟨h, 0, [], [], [], [], [], 0, 0⟩

/-- Residual observer (initialization/puppeteer.cpp:222-227). -/
def Sim.onResidual (S : Sim A K H) (d : Drv H K) : Cmd A K (Drv H K) :=
  (S.resid d.maxRes).bind fun r => .ret { d with resMon := r.1, maxRes := r.2 }

/-- Solution observer (initialization/puppeteer.cpp:232-249); names
governing_equations/cahn_hilliard/cahn_hilliard_solution_monitor.cpp:56-60, 125-129. -/
def Sim.onSolution (S : Sim A K H) (d : Drv H K) : Cmd A K (Drv H K) :=
  S.solMon.bind fun v => .ret { d with solMon := [("min_c", v.1), ("max_c", v.2.1), ("grad_c_mag", v.2.2)] }

/-- Time observer (initialization/puppeteer.cpp:212-216) with `getIterationStatus`
(time_stepping/time_integrator.hpp:24-33). -/
def Drv.onTime (d : Drv H K) (st : Status K) : Drv H K :=
  { d with timeMon := [("iter", (st.iter : K)), ("time", st.time), ("dt", st.dt)] }

/-- Log observer (initialization/puppeteer.cpp:218): one row with all monitors (logger/logger.cpp:179-195). -/
def Drv.onLog (d : Drv H K) : Drv H K := { d with rows := d.rows ++ [d.timeMon ++ d.resMon ++ d.solMon] }

/-- `write_solution_to_vtk` (file_io/vtk_solution_writer.cpp:16-31): the name is composed first, then the file is
written. -/
def Sim.save (S : Sim A K H) (base : Text) (d : Drv H K) (st : Status K) : Cmd A K (Drv H K) :=
  (Cmd.ofExcept (S.name base st.iter)).bind fun n =>
  (S.write st).bind fun f => .ret { d with files := d.files ++ [(n, f)] }

/-- `notifyObservers(Event::TimeStepComplete)` (utils/observer.hpp:40-56) with the observers in the order in which the
driver attaches them (initialization/puppeteer.cpp:60-62). -/
def Sim.notifyStep (S : Sim A K H) (logFreq : Int) (d : Drv H K) (st : Status K) : Cmd A K (Drv H K) :=
  if logFreq = 0 then .fail .divByZero
  else if d.nStep.tmod logFreq = 0 then
    (S.onResidual d).bind fun d1 => (S.onSolution d1).bind fun d2 =>
      .ret { (d2.onTime st).onLog with nStep := d.nStep + 1 }
  else .ret { d with nStep := d.nStep + 1 }

/-- `notifyObservers(Event::SolutionUpdate)`; there is an observer only if `save_every` is not zero
(initialization/puppeteer.cpp:251-260, utils/observer.hpp:40-56). -/
def Sim.notifySolution (S : Sim A K H) (saveEvery : Int) (base : Text) (d : Drv H K) (st : Status K) :
    Cmd A K (Drv H K) :=
  if saveEvery = 0 then .ret d
  else if d.nSol.tmod saveEvery = 0 then
    (S.save base d st).bind fun d1 => .ret { d1 with nSol := d.nSol + 1 }
  else .ret { d with nSol := d.nSol + 1 }

/-- `computeNextTimestep` (time_stepping/time_integrator.cpp:73-124): step size, `last`, `stop`. -/
def Sim.nextStep (S : Sim A K H) (o : TimeOpts K) (d : Drv H K) (st : Status K) : Cmd A K (Drv H K × K × Bool × Bool) :=
  (S.nextDT d.h st.dt).bind fun r =>
  let d := { d with h := r.1 }
  if o.useCfl then .fail .abort
  else
    let last : Bool := decide (o.tfinal ≤ st.time + r.2)
    let dt := if last then o.tfinal - st.time else r.2
    let stop1 : Bool := decide (o.maxSteps ≠ 0) && decide (o.maxSteps ≤ st.iter)
    let stop2 : Bool := relStop o.relTol d.resMon
    if o.absTol ≠ 0 then
      match d.resMon with
      | [] => .fail .outOfBounds
      | kv :: _ => .ret (d, dt, last, stop1 || stop2 || decide (kv.2 < o.absTol))
    else .ret (d, dt, last, stop1 || stop2)

/-- The `while` loop of `solve` (time_stepping/time_integrator.cpp:25-44), at most `fuel` iterations; `st` holds `iter_`,
`time_` and `dt_`. `none` when the bound is exhausted. -/
def Sim.loop (S : Sim A K H) (o : TimeOpts K) (logFreq saveEvery : Int) (base : Text) :
    Nat → Bool → Drv H K → Status K → Cmd A K (Option (Drv H K × Status K))
  | 0, _, _, _ => .ret none
  | n + 1, last, d, st =>
    (S.doStep d.h st.time st.dt).bind fun h =>
    let st1 : Status K := ⟨st.iter + 1, st.time + st.dt, st.dt⟩
    (S.notifyStep logFreq { d with h := h } st1).bind fun d1 =>
    (S.notifySolution saveEvery base d1 st1).bind fun d2 =>
    if last then .ret (some (d2, st1))
    else
      (S.nextStep o d2 st1).bind fun r =>
      let st2 : Status K := { st1 with dt := r.2.1 }
      if r.2.2.2 then .ret (some (r.1, st2)) else S.loop o logFreq saveEvery base n r.2.2.1 r.1 st2

/-- How a run ends: with all files and log rows it has written, not within the given number of steps, or in a part of the
program that is not modelled here (initialization/puppeteer.cpp:72-87). -/
inductive RunResult (K : Type) where
  | done (files : List (Text × VtsFile)) (rows : List (List (String × K)))
  | outOfFuel
  | unmodelled

/-- `Puppeteer::run` (initialization/puppeteer.cpp:72-87) with `TimeIntegrator::solve`
(time_stepping/time_integrator.cpp:14-45): initial condition, initial time step (lines 48-64), loop, final file. -/
def Sim.run (S : Sim A K H) (o : TimeOpts K) (logFreq saveEvery : Int) (base : Text) (ic : Cmd A K Unit) (h0 : H)
    (fuel : Nat) : Cmd A K (RunResult K) :=
  ic.bind fun _ =>
  if o.useCfl then .fail .abort
  else
    (S.loop o logFreq saveEvery base fuel false (Drv.new h0) ⟨o.initialStep, o.t0, o.dt0⟩).bind fun r =>
    match r with
    | none => .ret .outOfFuel
    | some (d, st) => (S.save (finalBase base) d st).bind fun d1 => .ret (.done d1.files d1.rows)

/-- Name of a 3D file for a step counter of either sign (file_io/vtk_solution_writer.cpp:116-128): the fill characters are
put in front of the sign. -/
def stepName3 (base : Text) (maxSteps : Int) (iter : Int) : Except Err Text :=
  if 0 ≤ iter then fileName3 base maxSteps iter.toNat
  else (iterWidth maxSteps).bind fun w =>
    .ok (base ++ stepMark ++ padZero (max w 4) ('-' :: (showGen 17 (-iter).toNat).filter (· != ',')) ++ vtsExt)

/-- The same in 2D (file_io/vtk_solution_writer.cpp:41-50). -/
def stepName2 (base : Text) (maxSteps : Int) (iter : Int) : Except Err Text :=
  if 0 ≤ iter then fileName2 base maxSteps iter.toNat
  else (iterWidth maxSteps).bind fun w =>
    .ok (base ++ stepMark ++ padZero w ('-' :: showGen 6 (-iter).toNat) ++ vtsExt)

/-- What the environment supplies: printing and parsing of numbers, `sqrt`, `numeric_limits::max()` and `min()`
(governing_equations/cahn_hilliard/cahn_hilliard_solution_monitor.cpp:17-18), the values drawn by the random number
generator (governing_equations/cahn_hilliard/cahn_hilliard_initial_conditions.cpp:25-36), and `sin` and `cos`
(governing_equations/poisson/poisson_3d_fd.cpp:22-77). -/
structure Env (K : Type) where
  io : RealText K
  rt : K → K
  big : K
  tiny : K
  draw : Nat → K
  sn : K → K
  cs : K → K

/-- Arrays allocated by the multigrid integrator: those of the levels (time_stepping/bdf_multigrid.cpp:243-252,
time_stepping/ode23_smoother.cpp:8-12), and coordinates and work arrays of the coarse levels' discretizations and equations
(time_stepping/bdf_multigrid.cpp:240-241). -/
structure MGArr (A : Type) where
  lev : Nat → MGRole → A
  co : Nat → CoordArr A
  wk : Nat → Fin 4 → A

/-- Arrays of a run: coordinates (spatial_discretization/discretization_3d_cart.cpp:27-32), state, residual and stages of
the integrator (time_stepping/ode23.cpp:7-11), work arrays of the right-hand side
(governing_equations/cahn_hilliard/cahn_hilliard_3d_fd.cpp:10-13), arrays of the multigrid integrator. -/
structure ProgArr (A : Type) where
  co : CoordArr A
  rk : RKArr A
  l1 : A
  l2 : A
  l3 : A
  l4 : A
  mg : MGArr A

/-- Arrays of level `ℓ`: on the finest level the integrator is handed the state and the residual of the driver
(time_stepping/bdf_multigrid.cpp:58-68, 112-122). -/
def ProgArr.mgArr (w : ProgArr A) : Nat → MGRole → A
  | 0, .state => w.rk.sol
  | 0, .dstate => w.rk.res
  | ℓ, ρ => w.mg.lev ℓ ρ

/-- Coordinate arrays of level `ℓ` (time_stepping/bdf_multigrid.cpp:240; level 0 is the driver's discretization). -/
def ProgArr.mgCo (w : ProgArr A) : Nat → CoordArr A
  | 0 => w.co
  | ℓ + 1 => w.mg.co (ℓ + 1)

/-- Work arrays of the equations of level `ℓ` (time_stepping/bdf_multigrid.cpp:241,
governing_equations/cahn_hilliard/cahn_hilliard_3d_fd.cpp:10-13). -/
def ProgArr.mgWk (w : ProgArr A) : Nat → Fin 4 → A
  | 0, 0 => w.l1
  | 0, 1 => w.l2
  | 0, 2 => w.l3
  | 0, 3 => w.l4
  | ℓ + 1, x => w.mg.wk (ℓ + 1) x

/-- The 3D observers and writers around an integrator (initialization/puppeteer.cpp:222-260). -/
def sim3 (E : Env K) (G : Geom3) (dx : K) (w : ProgArr A) (maxSteps : Int) (doStep : H → K → K → Cmd A K H)
    (nextDT : H → K → Cmd A K (H × K)) : Sim A K H where
  doStep := doStep
  nextDT := nextDT
  resid mx := residualCalculator E.rt mx G.interior w.rk.res
  solMon := G.solMonitor E.rt E.big E.tiny dx w.rk.sol
  write st := Cmd.ofProg (vtkWrite3 E.io G.g w.co.xv w.co.yv w.co.zv w.rk.sol st)
  name base iter := stepName3 base maxSteps iter

/-- The 2D observers and writers around an integrator (initialization/puppeteer.cpp:222-260). -/
def sim2 (E : Env K) (G : Geom2) (dx : K) (w : ProgArr A) (maxSteps : Int) (doStep : H → K → K → Cmd A K H)
    (nextDT : H → K → Cmd A K (H × K)) : Sim A K H where
  doStep := doStep
  nextDT := nextDT
  resid mx := residualCalculator E.rt mx G.interior w.rk.res
  solMon := G.solMonitor E.rt E.big E.tiny dx w.rk.sol
  write st := Cmd.ofProg (vtkWrite2 E.io G.g w.co.xv w.co.yv w.rk.sol st)
  name base iter := stepName2 base maxSteps iter

/-- rk3ssp as an integrator: no host fields, `computeNextDT` keeps the step (time_stepping/rk3ssp.cpp:15-74,
time_stepping/time_integrator.cpp:67-70). -/
def rk3Do (N : Int) (rhs : A → A → K → Host A K) (w : RKArr A) (_ : Unit) (t dt : K) : Cmd A K Unit :=
  Cmd.ofHost (rk3Step N rhs w t dt)

/-- Default `computeNextDT` (time_stepping/time_integrator.cpp:67-70). -/
def keepDT (h : H) (dt : K) : Cmd A K (H × K) := .ret (h, dt)

end

section
variable {A K : Type} [Arith K] [LT K] [DecidableLT K] [LE K] [DecidableLE K] [DecidableEq K] [Max K] [Min K]

/-- ode23 as an integrator: its host fields and its controller (time_stepping/ode23.hpp:44-95). -/
def ode23Do (N : Int) (rhs : A → A → K → Host A K) (w : RKArr A) (h : Ode23 K × PID K) (t dt : K) :
    Cmd A K (Ode23 K × PID K) :=
  (ode23Step N rhs w h.1 t dt).bind fun e => .ret (e, h.2)

/-- `ODE23::computeNextDT` (time_stepping/ode23.cpp:128-132). The controller indexing past its histories is undefined
behaviour. -/
def ode23Next [Pow K K] (h : Ode23 K × PID K) (dt : K) : Cmd A K ((Ode23 K × PID K) × K) :=
  match h.2.adapt h.1.err dt with
  | some r => .ret ((h.1, r.1), r.2)
  | none => .fail .outOfBounds

/-- The multigrid integrator as used by the driver (time_stepping/bdf_multigrid.cpp:58-68): kept between steps are the
smoothers' step sizes. -/
def mgDo (M : MG A K) (cyc : List Int) (rt : K → K) (tol : K) (maxCycles : Int) (h : MGReport K)
    (t dt : K) : Cmd A K (MGReport K) :=
  M.doTimeStep cyc rt tol maxCycles t dt h.dts

/-- Before the first step the smoothers have step size `1e-6` (time_stepping/ode23_smoother.hpp:18). -/
def mgInit : MGReport K := ⟨0, 0, fun _ => 1 / 1000000⟩

/-- Multigrid options (program_options/program_options.hpp:59-67); `mg_verbosity` only controls messages. -/
structure MGOpts (K : Type := ℝ) where
  levels : Int
  nsmooth : Int
  maxCycles : Int
  relTol : K
  relax : K
  coarseRelax : K
  cfl : K
  interp : String

/-- Options of a run (program_options/program_options.hpp:25-90). `sel.restart` is ignored here: the program restarts if
there is a file. -/
structure RunOpts (K : Type := ℝ) where
  sel : SetupOpts
  nx : Int
  ny : Int
  nz : Int
  box : Box K
  variant : Int
  par : CHParams K
  t0 : K
  tfinal : K
  dt0 : K
  useCfl : Bool
  maxSteps : Nat
  relTol : K
  absTol : K
  errTol : K
  minStep : K
  maxStep : K
  logFreq : Int
  saveEvery : Int
  logFile : Text
  solFile : Text
  mg : MGOpts K

/-- How the failures of component creation end the process: `FatalMessage` aborts, the others are uncaught exceptions
(initialization/puppeteer.cpp:102, 137-141, 157-170, 208). -/
def SetupErr.toErr : SetupErr → Err
  | .badBC => .abort
  | .badDimension => .abort
  | .badEquation => .abort
  | .badCast => .thrown
  | .unknownIntegrator => .thrown

/-- A step of component creation (initialization/puppeteer.cpp:52-55). -/
def ofSetup {α : Type} : Except SetupErr α → Cmd A K α
  | .ok x => .ret x
  | .error e => .fail e.toErr

/-- Boundary type of a parsed name (initialization/puppeteer.cpp:89-105). -/
def BCName.toBC : BCName → BCType
  | .periodic => .periodic
  | .neumann => .neumann
  | .dirichlet => .dirichlet

/-- `getTimeOptionsUsingGlobalOptions` (time_stepping/time_integrator_options.hpp:97-112), `initial_step_` is 0
(time_stepping/time_integrator_options.hpp:15-27). -/
def RunOpts.timeOpts (o : RunOpts K) : TimeOpts K :=
  ⟨o.t0, o.tfinal, o.dt0, o.useCfl, maxStepsOfOption o.maxSteps, 0, o.relTol, o.absTol⟩

/-- Base of the file names (initialization/puppeteer.cpp:42-47). -/
def RunOpts.base (o : RunOpts K) : Text := if o.solFile = [] then o.logFile else o.solFile

/-- The domain of `geomFactory` (initialization/puppeteer.cpp:111-126): read from the file or taken from the options; the
latter computes the upper ends in y and z although nothing uses them, which divides by the x resolution. -/
def RunOpts.domain (o : RunOpts K) (E : Env K) (file : Option VtsFile) : Except Err (FileDomain K) :=
  match file with
  | some f => getCartesianDomain E.io f
  | none =>
    match domainEnd o.nx o.ny o.box.xbeg o.box.xend o.box.ybeg, domainEnd o.nx o.nz o.box.xbeg o.box.xend o.box.zbeg with
    | some _, some _ => .ok ⟨o.nx, o.ny, o.nz, o.box.xbeg, o.box.xend, o.box.ybeg, o.box.zbeg⟩
    | _, _ => .error .divByZero

/-- The box of a domain (spatial_discretization/spatial_discretization.hpp:9-23). -/
def FileDomain.box (d : FileDomain K) : Box K := ⟨d.xbeg, d.xend, d.ybeg, d.zbeg⟩

/-- Initial condition (initialization/puppeteer.cpp:179-198; governing_equations/initial_conditions_from_file.cpp:7-11). -/
def icOf (E : Env K) (o : RunOpts K) (file : Option VtsFile) (interior : List Int)
    (st : StateArr A) (sol : A) : Cmd A K Unit :=
  match file with
  | some f => Cmd.ofProg (setSolution E.io f st)
  | none => Cmd.ofHost (icRandom interior sol o.par.m E.draw)

/-- `timeIntegratorFactory` (initialization/puppeteer.cpp:201-209): time options, on restart changed by the file, then the
registry. -/
def timeSetup (o : RunOpts K) (E : Env K) (file : Option VtsFile) : Except Err (TimeOpts K × String) := do
  let t ← match file with
    | some f => setInitialTimeStep E.io f o.timeOpts
    | none => .ok o.timeOpts
  match (Registry.addAll (registeredIntegrators.map fun s => (s, s)) (fun _ => none)).lookup o.sel.integrator with
  | .error _ => .error .thrown
  | .ok s => .ok (t, s)

/-- Initial condition of the Poisson problem: the file or zero (initialization/puppeteer.cpp:179-198,
governing_equations/constant_initial_conditions.cpp:6-14). -/
def icPois (E : Env K) (file : Option VtsFile) (interior : List Int) (st : StateArr A) (sol : A) :
    Cmd A K Unit :=
  match file with
  | some f => Cmd.ofProg (setSolution E.io f st)
  | none => Cmd.ofHost (icConst interior sol 0)

/-- The coarse discretizations: the loop of the constructor (time_stepping/bdf_multigrid.cpp:18-24, 240), here for `more`
further levels below level `ℓ`; each has the box and the boundary types of the first and computes its own coordinates
(spatial_discretization/discretization_3d_cart.cpp:143-156, 8-140). -/
def mgGeoms (b : Box K) (co : Nat → CoordArr A) (bx bY bz : BCType) :
    Nat → Nat → Geom3 → Cmd A K (List Geom3)
  | 0, _, _ => .ret []
  | more + 1, ℓ, G =>
    (Cmd.ofExcept G.g.coarsen).bind fun gc =>
    (Cmd.ofExcept (mkGeom3 gc bx bY bz)).bind fun Gc =>
    (Cmd.ofHost (gc.fillCoords b (co (ℓ + 1)))).bind fun _ =>
    (mgGeoms b co bx bY bz more (ℓ + 1) Gc).bind fun l => .ret (Gc :: l)

/-- A run with the multigrid integrator (constructor time_stepping/bdf_multigrid.cpp:8-25, then
initialization/puppeteer.cpp:72-87): the cycle, the coarse levels, the run; `mk` builds the integrator from the
discretizations and their spacings. -/
def mgRun (E : Env K) (o : RunOpts K) (b : Box K) (w : ProgArr A) (bx bY bz : BCType) (G : Geom3)
    (t : TimeOpts K) (ic : Cmd A K Unit) (mk : (Nat → Geom3) → (Nat → K) → MG A K) (fuel : Nat) : Cmd A K (RunResult K) :=
  (Cmd.ofExcept (getMGCycle o.mg.levels o.mg.nsmooth)).bind fun cyc =>
  (mgGeoms b w.mgCo bx bY bz (o.mg.levels.toNat - 1) 0 G).bind fun l =>
  let Gs : Nat → Geom3 := fun ℓ => (G :: l).getD ℓ G
  let M := mk Gs fun ℓ => b.dx (Gs ℓ).g.ni
  (sim3 E G (b.dx G.g.ni) w o.maxSteps (mgDo M cyc E.rt o.mg.relTol o.mg.maxCycles) keepDT).run t o.logFreq o.saveEvery o.base
    ic mgInit fuel

/-- The multigrid integrator's constructor in 2D (time_stepping/bdf_multigrid.cpp:8-17): after the cycle it creates the smoother of
the finest level, which asks the equation for its time step scale (time_stepping/ode23_smoother.cpp:14); the 2D equation does not
define one and inherits a fatal error (governing_equations/time_integrable_rhs.hpp:68-72). -/
def mgCtor2 (o : RunOpts K) : Cmd A K (RunResult K) :=
  (Cmd.ofExcept (getMGCycle o.mg.levels o.mg.nsmooth)).bind fun _ => .fail .abort

/-- Constructor and run of the program (initialization/puppeteer.cpp:27-87, maDGiCart_main.cpp:5-14) after option parsing;
`file` is the restart file, `fuel` bounds the number of time steps. Arrays are allocated beforehand (their sizes are the
`sz` of the semantics). -/
def program [Pow K K] (E : Env K) (o : RunOpts K) (file : Option VtsFile) (w : ProgArr A) (fuel : Nat) :
    Cmd A K (RunResult K) :=
  (Cmd.ofExcept (o.domain E file)).bind fun dom =>
  (ofSetup (geomFactory o.sel)).bind fun gk =>
  match gk with
  | .cart3 bx bY bz =>
    let g : Grid3 := ⟨dom.nx, dom.ny, dom.nz, 2⟩
    (Cmd.ofExcept (mkGeom3 g bx.toBC bY.toBC bz.toBC)).bind fun G =>
    (Cmd.ofHost (g.fillCoords dom.box w.co)).bind fun _ =>
    (ofSetup (rhsFactory o.sel gk)).bind fun rk =>
    if rk = .poisson3 then
      (Cmd.ofExcept (timeSetup o E file)).bind fun ti =>
      let dx := dom.box.dx g.ni
      let rhs : A → A → K → Host A K := fun s r _ => G.poissonRHS E.sn E.cs dx ⟨s, r, w.co.x, w.co.y, w.co.z⟩
      let ic := icPois E file G.interior (.d3 g w.rk.sol) w.rk.sol
      if ti.2 = "rk3ssp" then
        (sim3 E G dx w o.maxSteps (rk3Do g.size rhs w.rk) keepDT).run ti.1 o.logFreq o.saveEvery o.base ic () fuel
      else if ti.2 = "ode23" then
        (sim3 E G dx w o.maxSteps (ode23Do g.size rhs w.rk) ode23Next).run ti.1 o.logFreq o.saveEvery o.base ic
          (ode23Init, PID.new o.errTol o.minStep o.maxStep) fuel
      else if ti.2 = "bdf1" ∨ ti.2 = "steady" then
        mgRun E o dom.box w bx.toBC bY.toBC bz.toBC G ti.1 ic
          (fun Gs dx => poissonMG o.mg.levels.toNat Gs dx E.sn E.cs
            (fun ℓ => ![(w.mgCo ℓ).x, (w.mgCo ℓ).y, (w.mgCo ℓ).z]) w.mgArr o.mg.interp o.mg.cfl o.mg.relax o.mg.coarseRelax
            (decide (ti.2 ≠ "steady"))) fuel
      else .ret .unmodelled
    else if rk ≠ .ch3 then .ret .unmodelled
    else
      (Cmd.ofExcept (ctorCH3 o.variant)).bind fun _ =>
      (Cmd.ofExcept (timeSetup o E file)).bind fun ti =>
      let dx := dom.box.dx g.ni
      let rhs : A → A → K → Host A K := fun s r _ => G.evalRHS o.variant o.par dx ⟨s, r, w.l1, w.l2, w.l3, w.l4⟩
      let ic := icOf E o file G.interior (.d3 g w.rk.sol) w.rk.sol
      if ti.2 = "rk3ssp" then
        (sim3 E G dx w o.maxSteps (rk3Do g.size rhs w.rk) keepDT).run ti.1 o.logFreq o.saveEvery o.base ic () fuel
      else if ti.2 = "ode23" then
        (sim3 E G dx w o.maxSteps (ode23Do g.size rhs w.rk) ode23Next).run ti.1 o.logFreq o.saveEvery o.base ic
          (ode23Init, PID.new o.errTol o.minStep o.maxStep) fuel
      else if ti.2 = "bdf1" ∨ ti.2 = "steady" then
        mgRun E o dom.box w bx.toBC bY.toBC bz.toBC G ti.1 ic
          (fun Gs dx => chMG o.mg.levels.toNat Gs dx o.variant o.par w.mgWk w.mgArr o.mg.interp o.mg.cfl o.mg.relax
            o.mg.coarseRelax (decide (ti.2 ≠ "steady"))) fuel
      else .ret .unmodelled
  | .cart2 =>
    let g : Grid2 := ⟨dom.nx, dom.nx, 2⟩
    (Cmd.ofExcept (mkGeom2 dom.nx 2)).bind fun G =>
    (Cmd.ofHost (g.fillCoords dom.box w.co)).bind fun _ =>
    (ofSetup (rhsFactory o.sel gk)).bind fun rk =>
    if rk ≠ .ch2 then .ret .unmodelled
    else
      (Cmd.ofExcept (timeSetup o E file)).bind fun ti =>
      let dx := dom.box.dx g.ni
      let rhs : A → A → K → Host A K := fun s r _ => G.evalRHS o.par dx ⟨s, r, w.l1, w.l2, w.l3, w.l4⟩
      let ic := icOf E o file G.interior (.d2 g w.rk.sol) w.rk.sol
      if ti.2 = "rk3ssp" then
        (sim2 E G dx w o.maxSteps (rk3Do g.size rhs w.rk) keepDT).run ti.1 o.logFreq o.saveEvery o.base ic () fuel
      else if ti.2 = "ode23" then
        (sim2 E G dx w o.maxSteps (ode23Do g.size rhs w.rk) ode23Next).run ti.1 o.logFreq o.saveEvery o.base ic
          (ode23Init, PID.new o.errTol o.minStep o.maxStep) fuel
      else if ti.2 = "bdf1" ∨ ti.2 = "steady" then mgCtor2 o
      else .ret .unmodelled

end

end Madg
