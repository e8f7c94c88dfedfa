/-
Specification of boundary extension: how a field known on the interior is continued to all of ℤ³.
Independent of the model's kernels and index lists.
-/
import Verif.Model.Grid3

namespace Madg.Spec

/-- Periodic image of a coordinate. -/
def wrapIdx (n i : Int) : Int := i % n

/-- Nearest coordinate inside `[0, n)`: homogeneous Neumann continuation. -/
def clampIdx (n i : Int) : Int := max 0 (min i (n - 1))

/-- Coordinate continuation for one axis: clamp for Neumann, wrap otherwise. -/
def extIdx (bc : BCType) (n i : Int) : Int :=
  match bc with
  | .neumann => clampIdx n i
  | _ => wrapIdx n i

end Madg.Spec
