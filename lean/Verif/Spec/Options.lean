/-
Option precedence.
-/
import Verif.Model.Options

namespace Madg.Spec
variable {N T V F : Type} [DecidableEq N]

/-- The text a source gives for an option, if any. -/
def given (l : List (N × T)) (n : N) : Option T := (l.find? fun e => e.1 = n).map Prod.snd

/-- The command line's value if it gives one, else the config file's, else the default, else the previous value. -/
def effective (d : OptDecl N T V F) (cmd cfg : List (N × T)) (prev : N → Option V) (n : N) : Option V :=
  match given cmd n with
  | some t => d.conv n t
  | none =>
    match given cfg n with
    | some t => d.conv n t
    | none =>
      match d.default n with
      | some v => some v
      | none => prev n

/-- The config file's contents: of the file named on the command line, else by default or previously; nothing if no such
file. -/
def configOf (d : OptDecl N T V F) (files : F → Option (List (N × T))) (prev : N → Option V) (cmd : List (N × T)) : List (N × T) :=
  (((effective d cmd [] prev d.config).bind d.path).bind files).getD []

/-- What the program accepts. -/
structure Accepted (d : OptDecl N T V F) (files : F → Option (List (N × T))) (prev : N → Option V) (cmd : List (N × T)) : Prop where
  /-- All names are declared. -/
  known : ∀ e, e ∈ cmd ∨ e ∈ configOf d files prev cmd → d.known e.1 = true
  /-- No option twice on the command line; none twice in the config file, except those given on the command line. -/
  once : (cmd.map Prod.fst).Nodup
  onceConfig : ((configOf d files prev cmd).filter (fun e => (given cmd e.1).isNone)).map Prod.fst |>.Nodup
  /-- Texts are values, except, in the config file, for options given on the command line. -/
  value : ∀ e ∈ cmd, (d.conv e.1 e.2).isSome = true
  valueConfig : ∀ e ∈ configOf d files prev cmd, given cmd e.1 = none → (d.conv e.1 e.2).isSome = true
  /-- No request for help. -/
  noHelp : given cmd d.help = none ∧ given (configOf d files prev cmd) d.help = none
  /-- The config file exists. -/
  exists_ : ∀ f, (effective d cmd (configOf d files prev cmd) prev d.config).bind d.path = some f → (files f).isSome = true

end Madg.Spec
