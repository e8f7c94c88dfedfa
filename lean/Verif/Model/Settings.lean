/-
The declared options with their types and defaults, the list of settings the program prints, and the reading of a config
file (program_options/program_options_parser.cpp).

The parts of Boost.Program_options and of the stream library used there are modelled by what their sources and documentation
say: `parse_config_file` line by line, the conversions of texts to the option types, and the default format of `double`.
-/
import Verif.Model.Options
import Verif.Model.Text
import Verif.Model.FileName
import Verif.Model.Logger

namespace Madg

/-! ### Numbers in the default format -/

/-- A point and the digits after it, or nothing (`operator<<(double)`, program_options/program_options_parser.cpp:280). -/
def pointed (f : Text) : Text := if f = [] then [] else '.' :: f

/-- A number `x > 0` in the default format with `p + 1` significant digits (`%g`): trailing zeros removed, scientific notation
if the decimal exponent is below -4 or above `p` (`operator<<(double)`, program_options/program_options_parser.cpp:280). -/
def generalPos (p : Nat) (x : ℚ) : Text :=
  let (M, e) := sciRound p x
  let ds := digitsN (p + 1) M
  if -4 ≤ e ∧ e ≤ p then
    if 0 ≤ e then ds.take (e.toNat + 1) ++ pointed (stripZeros (ds.drop (e.toNat + 1)))
    else '0' :: pointed (stripZeros (List.replicate (e.natAbs - 1) '0' ++ ds))
  else ds.take 1 ++ pointed (stripZeros (ds.drop 1)) ++ 'e' :: showExp e

/-- `os << x` for a finite `double` (program_options/program_options_parser.cpp:280) in a stream with default format and the
given number of digits minus one. Negative zero is not distinguished from zero; infinities and NaN are not modelled. -/
def general (p : Nat) (x : ℚ) : Text :=
  if x = 0 then ['0'] else if x < 0 then '-' :: generalPos p (-x) else generalPos p x

/-! ### The options -/

/-- The types of the options (program_options/program_options_parser.cpp:87-217). -/
inductive OptTy where
  | str | dbl | int | bool | uint
  deriving DecidableEq

/-- A value stored for an option (`boost::any`, program_options/program_options_parser.cpp:268-321). The two vector types of
that function are not used by any option. -/
inductive OptVal where
  | str (t : Text) | dbl (x : ℚ) | int (i : Int) | bool (b : Bool) | uint (n : Nat)
  deriving DecidableEq

/-- A declaration: name, type and default, if any (program_options/program_options_parser.cpp:87-217). -/
structure OptRow where
  name : Text
  ty : OptTy
  dflt : Option OptVal

/-- The `file` options (program_options/program_options_parser.cpp:90-105). -/
def fileRows : List OptRow := [
  ⟨"config_file".toList, .str, none⟩,
  ⟨"solution_output_file".toList, .str, none⟩,
  ⟨"initial_condition_file".toList, .str, some (.str "none".toList)⟩,
  ⟨"log_file".toList, .str, some (.str "maDGiCart".toList)⟩,
  ⟨"log_frequency".toList, .int, some (.int 20)⟩,
  ⟨"save_every".toList, .int, some (.int 0)⟩]

/-- The `physics` options (program_options/program_options_parser.cpp:109-122). -/
def physicsRows : List OptRow := [
  ⟨"equation_type".toList, .str, some (.str "cahn-hilliard".toList)⟩,
  ⟨"m".toList, .dbl, some (.dbl 0)⟩,
  ⟨"eps2".toList, .dbl, some (.dbl (binary64.round (2419753086419753 / 10 ^ 20)))⟩,
  ⟨"sigma".toList, .dbl, some (.dbl (binary64.round (2914488109293305 / 10 ^ 13)))⟩,
  ⟨"kernel_variant".toList, .int, some (.int 1)⟩]

/-- The `discretization` options (program_options/program_options_parser.cpp:126-155). -/
def discretizationRows : List OptRow := [
  ⟨"domain_x_begin".toList, .dbl, some (.dbl 0)⟩,
  ⟨"domain_y_begin".toList, .dbl, some (.dbl 0)⟩,
  ⟨"domain_z_begin".toList, .dbl, some (.dbl 0)⟩,
  ⟨"domain_x_end".toList, .dbl, some (.dbl 1)⟩,
  ⟨"domain_resolution_x".toList, .int, some (.int 128)⟩,
  ⟨"domain_resolution_y".toList, .int, some (.int 128)⟩,
  ⟨"domain_resolution_z".toList, .int, some (.int 128)⟩,
  ⟨"dimension".toList, .int, some (.int 2)⟩,
  ⟨"bc_x".toList, .str, some (.str "periodic".toList)⟩,
  ⟨"bc_y".toList, .str, some (.str "periodic".toList)⟩,
  ⟨"bc_z".toList, .str, some (.str "periodic".toList)⟩]

/-- The `multigrid` options (program_options/program_options_parser.cpp:196-215). -/
def multigridRows : List OptRow := [
  ⟨"mg_max_cycles".toList, .int, some (.int 100)⟩,
  ⟨"mg_rel_tol".toList, .dbl, some (.dbl (binary64.round (1 / 10 ^ 2)))⟩,
  ⟨"mg_verbosity".toList, .int, some (.int 2)⟩,
  ⟨"mg_relaxation".toList, .dbl, some (.dbl 1)⟩,
  ⟨"mg_coarse_relaxation".toList, .dbl, some (.dbl 1)⟩,
  ⟨"mg_nsmooth".toList, .int, some (.int 1)⟩,
  ⟨"mg_cfl".toList, .dbl, some (.dbl 1)⟩,
  ⟨"mg_levels".toList, .int, some (.int 1)⟩,
  ⟨"mg_interpolation".toList, .str, some (.str "nearest".toList)⟩]

/-- The `time_stepping` options (program_options/program_options_parser.cpp:159-193). -/
def timeRows : List OptRow := [
  ⟨"time_integrator".toList, .str, some (.str "rk3ssp".toList)⟩,
  ⟨"time_step_size".toList, .dbl, some (.dbl (binary64.round (1 / 10 ^ 6)))⟩,
  ⟨"initial_time".toList, .dbl, some (.dbl 0)⟩,
  ⟨"final_time".toList, .dbl, some (.dbl 1)⟩,
  ⟨"max_time_steps".toList, .uint, some (.uint 10000)⟩,
  ⟨"use_cfl_time_step".toList, .bool, some (.bool false)⟩,
  ⟨"cfl".toList, .dbl, some (.dbl 1)⟩,
  ⟨"use_adaptive_time_step".toList, .bool, some (.bool false)⟩,
  ⟨"min_time_step_size".toList, .dbl, some (.dbl (100 / 2 ^ 52))⟩,
  ⟨"max_time_step_size".toList, .dbl, some (.dbl (binary64.round ((2 ^ 1024 - 2 ^ 971) / 100)))⟩,
  ⟨"time_rel_err_tol".toList, .dbl, some (.dbl (binary64.round (1 / 10 ^ 2)))⟩,
  ⟨"converged_rel_tol".toList, .dbl, some (.dbl 0)⟩,
  ⟨"converged_abs_tol".toList, .dbl, some (.dbl 0)⟩,
  ⟨"petsc_options".toList, .str, none⟩]

/-- All options except `help`, in the order in which the settings are printed
(program_options/program_options_parser.cpp:336-364). -/
def optRows : List OptRow := fileRows ++ physicsRows ++ discretizationRows ++ multigridRows ++ timeRows

/-- `boost::lexical_cast<unsigned>` (program_options/program_options_parser.cpp:168): `none` where it throws. A negative
number wraps around. -/
def readUInt (t : Text) : Option Nat :=
  (readNat (readSign t).2).bind fun n =>
    if n < 4294967296 then some (if (readSign t).1 then (4294967296 - n) % 4294967296 else n) else none

/-- The texts for `bool` (`po::value<bool>`, program_options/program_options_parser.cpp:171, 175). Simplification: only lower
case, while Boost also takes upper case. -/
def readBool (t : Text) : Option Bool :=
  if t = [] ∨ t = "on".toList ∨ t = "yes".toList ∨ t = "1".toList ∨ t = "true".toList then some true
  else if t = "off".toList ∨ t = "no".toList ∨ t = "0".toList ∨ t = "false".toList then some false
  else none

/-- Conversion of a text to a value of the given type (`po::value<T>`, program_options/program_options_parser.cpp:87-217). -/
def readVal : OptTy → Text → Option OptVal
  | .str, t => some (.str t)
  | .dbl, t => (readFloat binary64 t).map .dbl
  | .int, t => (readInt t).map .int
  | .bool, t => (readBool t).map .bool
  | .uint, t => (readUInt t).map .uint

/-- The declaration of a name (program_options/program_options_parser.cpp:87-217). -/
def rowOf (n : Text) : Option OptRow := optRows.find? fun r => r.name = n

/-- The name of the option for the config file (program_options/program_options_parser.cpp:90). -/
def configName : Text := "config_file".toList

/-- The name of the option that asks for help (program_options/program_options_parser.cpp:87). -/
def helpName : Text := "help".toList

/-- The program's options as used by `parseInputOptions` (program_options/program_options_parser.cpp:85-217, 224-230). `help`
takes no value; here any text is one. -/
def optTable : OptDecl Text Text OptVal Text where
  known n := (rowOf n).isSome || decide (n = helpName)
  default n := (rowOf n).bind OptRow.dflt
  conv n t :=
    match rowOf n with
    | some r => readVal r.ty t
    | none => some (.str t)
  config := configName
  help := helpName
  path
    | .str t => if t = [] then none else some t
    | _ => none

/-- The members of the `Options` singleton at the start of the process (program_options/program_options.hpp:89-142): empty
strings; the others have no value yet. -/
def freshVars (n : Text) : Option OptVal :=
  match rowOf n with
  | some r => if r.ty = .str then some (.str []) else none
  | none => none

/-! ### The printed settings -/

/-- `operator<<(std::ostream&, const boost::any&)` with `boolalpha` (program_options/program_options_parser.cpp:267-321, 334);
nothing is printed for an option without value. -/
def showVal : Option OptVal → Text
  | none => []
  | some (.str t) => t
  | some (.dbl x) => general 5 x
  | some (.int i) => showInt i
  | some (.bool b) => if b then "true".toList else "false".toList
  | some (.uint n) => showNat n

/-- One line of the printed settings (program_options/program_options_parser.cpp:339, 345, 351, 357, 363). -/
def settingLine (vm : Text → Option OptVal) (r : OptRow) : Text := setw 30 r.name ++ " = ".toList ++ showVal (vm r.name)

/-- The lines of one group of options with its heading
(program_options/program_options_parser.cpp:336-340, 342-346, 348-352, 354-358, 360-364). -/
def settingGroup (vm : Text → Option OptVal) (title : Text) (rows : List OptRow) : List Text :=
  [[], "# ****** ".toList ++ title ++ " Options ****** #".toList, []] ++ rows.map (settingLine vm)

/-- `ProgramOptionsParser::getConfigurationFileTemplate` (program_options/program_options_parser.cpp:329-368), line by line. -/
def settingLines (vm : Text → Option OptVal) : List Text :=
  settingGroup vm "File".toList fileRows ++ settingGroup vm "Physics".toList physicsRows ++
    settingGroup vm "Discretization".toList discretizationRows ++ settingGroup vm "Multigrid".toList multigridRows ++
    settingGroup vm "Time Stepping".toList timeRows ++ [[]]

/-- `ProgramOptionsParser::getConfigurationFileTemplate` (program_options/program_options_parser.cpp:329-368). -/
def settingsText (vm : Text → Option OptVal) : Text := (settingLines vm).flatMap fun l => l ++ ['\n']

/-! ### Config files -/

/-- The characters Boost trims in config files (`po::parse_config_file`, program_options/program_options_parser.cpp:244). -/
def isCfgSpace (c : Char) : Bool := c == ' ' || c == '\t' || c == '\r' || c == '\n'

/-- `std::getline` until the end of the file (`po::parse_config_file`, program_options/program_options_parser.cpp:244); `cur`
is the line being collected. -/
def linesGo (cur : Text) : Text → List Text
  | [] => if cur = [] then [] else [cur]
  | c :: t => if c = '\n' then cur :: linesGo [] t else linesGo (cur ++ [c]) t

/-- Ways in which a config file can be rejected before its names are looked at: a line that is neither empty nor a section nor
an assignment, and a section without name, for which Boost reads outside a string
(`po::parse_config_file`, program_options/program_options_parser.cpp:244). -/
inductive CfgErr where
  | syntax | emptySection
  deriving DecidableEq

/-- One line of a config file: the section prefix for the lines after it, and the assignment, if it is one
(`po::parse_config_file`, program_options/program_options_parser.cpp:244): comments and blanks removed, then `[section]` or
`name = value`. -/
def cfgLine (pre l : Text) : Except CfgErr (Text × Option (Text × Text)) :=
  let s := trimIf isCfgSpace (l.takeWhile (· != '#'))
  if s = [] then .ok (pre, none)
  else if s.head? = some '[' ∧ s.getLast? = some ']' then
    let q := s.tail.dropLast
    if q = [] then .error .emptySection
    else .ok (if q.getLast? = some '.' then q else q ++ ['.'], none)
  else if s.contains '=' then
    .ok (pre, some (pre ++ trimIf isCfgSpace (s.takeWhile (· != '=')), trimIf isCfgSpace ((s.dropWhile (· != '=')).drop 1)))
  else .error .syntax

/-- The lines of a config file (`po::parse_config_file`, program_options/program_options_parser.cpp:244). -/
def cfgLines : Text → List Text → Except CfgErr (List (Text × Text))
  | _, [] => .ok []
  | pre, l :: ls =>
    match cfgLine pre l with
    | .error e => .error e
    | .ok (pre', a) =>
      match cfgLines pre' ls with
      | .error e => .error e
      | .ok as => .ok (a.toList ++ as)

/-- The assignments of a config file (`po::parse_config_file`, program_options/program_options_parser.cpp:243-244), before the
names are looked up. -/
def configEntries (t : Text) : Except CfgErr (List (Text × Text)) := cfgLines [] (linesGo [] t)

end Madg
