/-
The program from its command line on: maDGiCart_main.cpp, the constructor of `Puppeteer` and the uses of `Options::get()`.
-/
import Verif.Model.Settings
import Verif.Model.Program

namespace Madg

/-- A member of the `Options` singleton of type `double` (program_options/program_options.hpp:29-85); `none` if it has no value. -/
def dblSetting (vars : Text → Option OptVal) (n : String) : Option ℚ :=
  match vars n.toList with
  | some (.dbl x) => some x
  | _ => none

/-- A member of type `int` (program_options/program_options.hpp:26-67). -/
def intSetting (vars : Text → Option OptVal) (n : String) : Option Int :=
  match vars n.toList with
  | some (.int x) => some x
  | _ => none

/-- A member of type `unsigned` (program_options/program_options.hpp:79). -/
def uintSetting (vars : Text → Option OptVal) (n : String) : Option Nat :=
  match vars n.toList with
  | some (.uint x) => some x
  | _ => none

/-- A member of type `bool` (program_options/program_options.hpp:74-76). -/
def boolSetting (vars : Text → Option OptVal) (n : String) : Option Bool :=
  match vars n.toList with
  | some (.bool x) => some x
  | _ => none

/-- A member of type `std::string` (program_options/program_options.hpp:22-86). -/
def strSetting (vars : Text → Option OptVal) (n : String) : Option Text :=
  match vars n.toList with
  | some (.str x) => some x
  | _ => none

section
variable {A K : Type}

/-- The domain (initialization/puppeteer.cpp:117-125). -/
def boxOf (D : ℚ → K) (vars : Text → Option OptVal) : Option (Box K) := do
  let xb ← dblSetting vars "domain_x_begin"
  let xe ← dblSetting vars "domain_x_end"
  let yb ← dblSetting vars "domain_y_begin"
  let zb ← dblSetting vars "domain_z_begin"
  pure ⟨D xb, D xe, D yb, D zb⟩

/-- The choices of the factories (initialization/puppeteer.cpp:35-36, 130-134, 150-166, 208). -/
def selOf (vars : Text → Option OptVal) : Option SetupOpts := do
  let dim ← intSetting vars "dimension"
  let bx ← strSetting vars "bc_x"
  let bY ← strSetting vars "bc_y"
  let bz ← strSetting vars "bc_z"
  let eq ← strSetting vars "equation_type"
  let ti ← strSetting vars "time_integrator"
  let f ← strSetting vars "initial_condition_file"
  pure ⟨dim, String.ofList bx, String.ofList bY, String.ofList bz, String.ofList eq, String.ofList ti, decide (f ≠ "none".toList)⟩

/-- `CahnHilliardParameters` (governing_equations/cahn_hilliard/cahn_hilliard_parameters.hpp:14-16). -/
def chOf (D : ℚ → K) (vars : Text → Option OptVal) : Option (Spec.CHParams K) := do
  let eps2 ← dblSetting vars "eps2"
  let sigma ← dblSetting vars "sigma"
  let m ← dblSetting vars "m"
  pure ⟨D eps2, D sigma, D m⟩

/-- The multigrid options (program_options/program_options.hpp:59-67, time_stepping/bdf_multigrid.cpp:58-68, 235-252). -/
def mgOf (D : ℚ → K) (vars : Text → Option OptVal) : Option (MGOpts K) := do
  let levels ← intSetting vars "mg_levels"
  let nsmooth ← intSetting vars "mg_nsmooth"
  let maxCycles ← intSetting vars "mg_max_cycles"
  let relTol ← dblSetting vars "mg_rel_tol"
  let relax ← dblSetting vars "mg_relaxation"
  let coarse ← dblSetting vars "mg_coarse_relaxation"
  let cfl ← dblSetting vars "mg_cfl"
  let interp ← strSetting vars "mg_interpolation"
  pure ⟨levels, nsmooth, maxCycles, D relTol, D relax, D coarse, D cfl, String.ofList interp⟩

/-- All options of a run as the components read them from the singleton: initialization/puppeteer.cpp:42-64, 108-209,
time_stepping/time_integrator_options.hpp:97-112, program_options/program_options.hpp:22-86. `D` converts `double` to `real_wp`
(typedefs.hpp:6-14). -/
def runOptsOf (D : ℚ → K) (vars : Text → Option OptVal) : Option (RunOpts K) := do
  let sel ← selOf vars
  let nx ← intSetting vars "domain_resolution_x"
  let ny ← intSetting vars "domain_resolution_y"
  let nz ← intSetting vars "domain_resolution_z"
  let box ← boxOf D vars
  let variant ← intSetting vars "kernel_variant"
  let par ← chOf D vars
  let t0 ← dblSetting vars "initial_time"
  let tfinal ← dblSetting vars "final_time"
  let dt0 ← dblSetting vars "time_step_size"
  let useCfl ← boolSetting vars "use_cfl_time_step"
  let maxSteps ← uintSetting vars "max_time_steps"
  let relTol ← dblSetting vars "converged_rel_tol"
  let absTol ← dblSetting vars "converged_abs_tol"
  let errTol ← dblSetting vars "time_rel_err_tol"
  let minStep ← dblSetting vars "min_time_step_size"
  let maxStep ← dblSetting vars "max_time_step_size"
  let logFreq ← intSetting vars "log_frequency"
  let saveEvery ← intSetting vars "save_every"
  let logFile ← strSetting vars "log_file"
  let solFile ← strSetting vars "solution_output_file"
  let mg ← mgOf D vars
  pure ⟨sel, nx, ny, nz, box, variant, par, D t0, D tfinal, D dt0, useCfl, maxSteps, D relTol, D absTol, D errTol, D minStep,
    D maxStep, logFreq, saveEvery, logFile, solFile, mg⟩

/-- What the process does after reading its options (program_options/program_options_parser.cpp:219-262): it ends with an exit
code (lines 253, 259), or with an uncaught exception of Boost (lines 234-244), or it goes on. -/
inductive Started (A K : Type) where
  | exit (code : Nat)
  | thrown
  | runs (c : Cmd A K (RunResult K))

/-- `main` (maDGiCart_main.cpp:5-14, initialization/puppeteer.cpp:27-87). `files` are the config files, `disk` the solution files
that can be read as such. With any other name for the initial condition the reader follows a null pointer
(file_io/vtk_solution_reader.cpp:22-28), which is undefined. `D` converts `double` to `real_wp`. The members have no value before
the options are read; one that still had none could not be used (`uninit`). Simplification: the log file is not opened, the order of
the parse and the registration of the options is that of `parseInputOptions`. -/
def mainProgram [Arith K] [LT K] [DecidableLT K] [LE K] [DecidableLE K] [DecidableEq K] [Max K] [Min K] [Pow K K]
    (E : Env K) (D : ℚ → K) (files : Text → Option (List (Text × Text))) (disk : Text → Option VtsFile) (cmd : List (Text × Text))
    (w : ProgArr A) (fuel : Nat) : Started A K :=
  match parseInputOptions optTable files freshVars cmd with
  | .error .help => .exit 0
  | .error .noConfig => .exit 1
  | .error .unknown => .thrown
  | .error .twice => .thrown
  | .error .badValue => .thrown
  | .ok s =>
    match runOptsOf D s.vars, strSetting s.vars "initial_condition_file" with
    | some o, some f =>
      if f = "none".toList then .runs (program E o none w fuel)
      else
        match disk f with
        | some v => .runs (program E o (some v) w fuel)
        | none => .runs (.fail .outOfBounds)
    | _, _ => .runs (.fail .uninit)

end

end Madg
