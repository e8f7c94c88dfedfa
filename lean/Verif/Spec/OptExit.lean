/-
Options that can be read, whether or not a run follows.
-/
import Verif.Spec.Options

namespace Madg.Spec
variable {N T V F : Type} [DecidableEq N]

/-- All names are declared, none is given twice and all texts are values; in the config file the last two do not matter for options
given on the command line. -/
structure Readable (d : OptDecl N T V F) (files : F → Option (List (N × T))) (prev : N → Option V) (cmd : List (N × T)) : Prop where
  known : ∀ e, e ∈ cmd ∨ e ∈ configOf d files prev cmd → d.known e.1 = true
  once : (cmd.map Prod.fst).Nodup
  onceConfig : ((configOf d files prev cmd).filter (fun e => (given cmd e.1).isNone)).map Prod.fst |>.Nodup
  value : ∀ e ∈ cmd, (d.conv e.1 e.2).isSome = true
  valueConfig : ∀ e ∈ configOf d files prev cmd, given cmd e.1 = none → (d.conv e.1 e.2).isSome = true

end Madg.Spec
