/-
Factory registry (utils/registry.hpp), option parsing (program_options/) and the choice of components by the program's
entry object (initialization/puppeteer.cpp).

Strings are `String`. Tokenising the command line and the config file (boost::program_options) is not modelled: each source
is the list of (option, text) pairs it contains. What `store` and `notify` do with these pairs is modelled as documented by
boost: an option given twice in one source throws, a value given in an earlier source is final, defaults are entered for
absent options, `notify` assigns every entry to its bound variable.
-/
import Verif.Model.Arith
import Mathlib.Data.Int.Basic
import Mathlib.Algebra.Field.Defs
import Verif.Model.Memory

namespace Madg

/-! ### Registry -/

/-- `FactoryRegistry::registry` (utils/registry.hpp:59), as a finite map. -/
abbrev Registry (F : Type) := String → Option F

/-- `add` (utils/registry.hpp:31-35): `std::map::insert` keeps an existing entry; always returns `true`. -/
def Registry.add {F : Type} (r : Registry F) (name : String) (f : F) : Registry F × Bool := (mapInsert r name f, true)

/-- `lookup` (utils/registry.hpp:38-45): throws `std::runtime_error` for an unknown name. -/
def Registry.lookup {F : Type} (r : Registry F) (name : String) : Except String F :=
  match r name with
  | none => .error ("Unable to find " ++ name)
  | some f => .ok f

/-- A program's registrations, starting from the empty singleton (utils/registry.hpp:25-28). -/
def Registry.addAll {F : Type} (l : List (String × F)) (r : Registry F) : Registry F :=
  l.foldl (fun r e => (r.add e.1 e.2).1) r

/-! ### Options -/

/-- Ways in which parsing can stop the program: an option that is not declared, an option given twice in one source, a text
that is no value of the option's type (exceptions of boost::program_options), a missing config file (`exit(1)`,
program_options/program_options_parser.cpp:256-261), and the help text (`exit(0)`, lines 247-254). -/
inductive OptErr where
  | unknown | twice | badValue | noConfig | help
  deriving DecidableEq

/-- Declarations (program_options/program_options_parser.cpp:87-216): which options there are, their defaults and how texts
convert to values. `config` is `config_file`, `help` is `help`; `path` is the file name in a value (`none` for the
empty string). -/
structure OptDecl (N T V F : Type) where
  known : N → Bool
  default : N → Option V
  conv : N → T → Option V
  config : N
  help : N
  path : V → Option F

/-- `variables_map` (an entry knows whether it is a default) with its set of final names, and the variables bound to the
options: the data members of the `Options` singleton (program_options/program_options.hpp:92-142), which keep their
previous value unless assigned. -/
structure OptState (N V : Type) where
  vm : N → Option (V × Bool)
  final : N → Bool
  vars : N → Option V

section
variable {N T V F : Type} [DecidableEq N]

/-- First part of `po::store`: enter the given values (program_options/program_options_parser.cpp:233-239, 243). An option
that was final before this call is skipped; `new` collects this call's options. -/
def storeGiven (d : OptDecl N T V F) (final : N → Bool) : List (N × T) → (N → Option (V × Bool)) → (N → Bool) →
    Except OptErr ((N → Option (V × Bool)) × (N → Bool))
  | [], vm, new => .ok (vm, new)
  | (n, t) :: l, vm, new =>
    if final n then storeGiven d final l vm new
    else
      match vm n with
      | some (_, false) => .error .twice
      | _ =>
        match d.conv n t with
        | none => .error .badValue
        | some v => storeGiven d final l (mapSet vm n (v, false)) (fun i => i = n || new i)

/-- `po::store` with the parser's check for undeclared names (program_options/program_options_parser.cpp:233-239, 243). -/
def store (d : OptDecl N T V F) (given : List (N × T)) (s : OptState N V) : Except OptErr (OptState N V) :=
  if given.all (fun e => d.known e.1) then
    match storeGiven d s.final given s.vm (fun _ => false) with
    | .error e => .error e
    | .ok (vm, new) =>
      .ok ⟨fun n => match vm n with
          | some x => some x
          | none => if d.known n then (d.default n).map (fun v => (v, true)) else none,
        fun n => s.final n || new n, s.vars⟩
  else .error .unknown

/-- `po::notify`: assign every entry to its variable (program_options/program_options_parser.cpp:241, 244). -/
def notify (s : OptState N V) : OptState N V :=
  ⟨s.vm, s.final, fun n => match s.vm n with
    | some x => some x.1
    | none => s.vars n⟩

/-- `ProgramOptionsParser::parseInputOptions` (program_options/program_options_parser.cpp:219-262); `files` is the file
system, `vars` the singleton's members before the call. A file that cannot be opened contributes nothing. -/
def parseInputOptions (d : OptDecl N T V F) (files : F → Option (List (N × T))) (vars : N → Option V) (cmd : List (N × T)) :
    Except OptErr (OptState N V) :=
  match store d cmd ⟨fun _ => none, fun _ => false, vars⟩ with
  | .error e => .error e
  | .ok s0 =>
    let s1 := notify s0
    let cfg := (s1.vars d.config).bind d.path
    let given := ((cfg.bind files).getD [])
    match store d given s1 with
    | .error e => .error e
    | .ok s2 =>
      let s3 := notify s2
      if (s3.vm d.help).isSome then .error .help
      else
        match (s3.vars d.config).bind d.path with
        | none => .ok s3
        | some f => if (files f).isSome then .ok s3 else .error .noConfig

end

/-- `domain_y_end` and `domain_z_end` (program_options/program_options.hpp:42-50): `n0` is `domain_resolution_x_`, `n` that
of the other direction, `xb`, `xe` the x box, `b` the start in the other direction. The cell counts are divided as
integers; a zero divisor has no defined result (`none`), and so has the overflowing quotient of the least `int` by -1. -/
def domainEnd {K : Type} [Arith K] (n0 n : Int) (xb xe b : K) : Option K :=
  if n0 = 0 ∨ (n = -2147483648 ∧ n0 = -1) then none
  else some (((n.tdiv n0 : Int) : K) * (xe - xb) + b)

/-! ### Components -/

/-- `BCType` names accepted by `parseBC` (initialization/puppeteer.cpp:89-105). -/
inductive BCName where
  | periodic | neumann | dirichlet
  deriving DecidableEq

/-- Ways in which construction of the components stops: `FatalMessage` aborts, a failed `dynamic_cast` and an unknown time
integrator throw (initialization/puppeteer.cpp:102, 137-141, 157-170, 208). -/
inductive SetupErr where
  | badBC | badDimension | badEquation | badCast | unknownIntegrator
  deriving DecidableEq

/-- `parseBC` (initialization/puppeteer.cpp:89-105). -/
def parseBC (s : String) : Except SetupErr BCName :=
  if s = "periodic" then .ok .periodic
  else if s = "neumann" then .ok .neumann
  else if s = "dirichlet" then .ok .dirichlet
  else .error .badBC

/-- Grid kinds (initialization/puppeteer.cpp:135-139). -/
inductive GeomKind where
  | cart2 | cart3 (x y z : BCName)
  deriving DecidableEq

/-- Equation kinds (initialization/puppeteer.cpp:150-167). -/
inductive RhsKind where
  | ch2 | ch3 | poisson3
  deriving DecidableEq

/-- Initial condition kinds (initialization/puppeteer.cpp:182-191). -/
inductive InitKind where
  | fromFile | cahnHilliard | zero
  deriving DecidableEq

/-- Options that select components (program_options/program_options.hpp:25, 31, 54-57, 71). -/
structure SetupOpts where
  dimension : Int
  bcx : String
  bcy : String
  bcz : String
  equation : String
  integrator : String
  restart : Bool

/-- `geomFactory` (initialization/puppeteer.cpp:108-144). The domain's numbers are not modelled here. -/
def geomFactory (o : SetupOpts) : Except SetupErr GeomKind :=
  (parseBC o.bcx).bind fun x => (parseBC o.bcy).bind fun y => (parseBC o.bcz).bind fun z =>
  if o.dimension = 2 then .ok .cart2
  else if o.dimension = 3 then .ok (.cart3 x y z)
  else .error .badDimension

/-- `rhsFactory` (initialization/puppeteer.cpp:147-176). -/
def rhsFactory (o : SetupOpts) (g : GeomKind) : Except SetupErr RhsKind :=
  if o.equation = "cahn-hilliard" then
    if o.dimension = 2 then (match g with | .cart2 => .ok .ch2 | .cart3 _ _ _ => .error .badCast)
    else if o.dimension = 3 then (match g with | .cart2 => .error .badCast | .cart3 _ _ _ => .ok .ch3)
    else .error .badDimension
  else if o.equation = "poisson" then (match g with | .cart2 => .error .badCast | .cart3 _ _ _ => .ok .poisson3)
  else .error .badEquation

/-- `initialConditionsFactory` (initialization/puppeteer.cpp:179-198). -/
def initialConditionsFactory (o : SetupOpts) : Except SetupErr InitKind :=
  if o.restart then .ok .fromFile
  else if o.equation = "cahn-hilliard" then .ok .cahnHilliard
  else if o.equation = "poisson" then .ok .zero
  else .error .badEquation

/-- The time integrators registered at program start (time_stepping/ode23.cpp:167, petsc_time_integrator.cpp:639, 645, 651,
rk3ssp.cpp:77, bdf_multigrid.cpp:434, 439). The order in which static initialisers of different files run is not fixed by
the language; one order is listed. The registered creators are represented by their names. -/
def registeredIntegrators : List String :=
  ["rk3ssp", "ode23", "bdf1", "steady", "petsc_ode23", "petsc_jfnk_bdf", "petsc_jacobian_bdf"]

/-- The constructor's component creation (initialization/puppeteer.cpp:52-55), after the registrations `regs`. -/
def setup (regs : List String) (o : SetupOpts) : Except SetupErr (GeomKind × RhsKind × InitKind × String) :=
  (geomFactory o).bind fun g => (rhsFactory o g).bind fun r => (initialConditionsFactory o).bind fun i =>
  match (Registry.addAll (regs.map fun s => (s, s)) (fun _ => none)).lookup o.integrator with
  | .error _ => .error .unknownIntegrator
  | .ok t => .ok (g, r, i, t)

end Madg
