/-
"Not a number".
-/
import Verif.Model.Arith
import Verif.Spec.Semi

namespace Madg.Spec
variable {K : Type}

/-- `nan` behaves like a quiet NaN: arithmetic with it gives it again, and every comparison with it is false. -/
structure IsNaN [Arith K] [LT K] [LE K] (nan : K) : Prop where
  add_left : ∀ x, nan + x = nan
  add_right : ∀ x, x + nan = nan
  sub_left : ∀ x, nan - x = nan
  sub_right : ∀ x, x - nan = nan
  mul_left : ∀ x, nan * x = nan
  mul_right : ∀ x, x * nan = nan
  div_left : ∀ x, nan / x = nan
  div_right : ∀ x, x / nan = nan
  neg : -nan = nan
  pow : ∀ n : Nat, nan ^ (n + 1) = nan
  lt_left : ∀ x, ¬ nan < x
  lt_right : ∀ x, ¬ x < nan
  le_left : ∀ x, ¬ nan ≤ x
  le_right : ∀ x, ¬ x ≤ nan

/-- Maximum and minimum of two numbers are always one of them. -/
structure Selects (K : Type) [Max K] [Min K] : Prop where
  max : ∀ x y : K, max x y = x ∨ max x y = y
  min : ∀ x y : K, min x y = x ∨ min x y = y

/-- Number of moves from a cell to a neighbouring cell that lead from one cell to the other. -/
def moves (a b : Int × Int × Int) : Nat := (a.1 - b.1).natAbs + (a.2.1 - b.2.1).natAbs + (a.2.2 - b.2.2).natAbs

/-- Each of the two numbers is a value of the 3D field, or the value from which its search starts. -/
def Seen3 (big tiny : K) (nx ny nz : Int) (u : Int × Int × Int → K) (lo hi : K) : Prop :=
  (lo = big ∨ ∃ c, In3 nx ny nz c ∧ u c = lo) ∧ (hi = tiny ∨ ∃ c, In3 nx ny nz c ∧ u c = hi)

end Madg.Spec
