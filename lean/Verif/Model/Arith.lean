/-
Arithmetic of the solver's numbers.
-/
import Mathlib.Algebra.Field.Basic
import Mathlib.Data.Rat.Cast.Defs
import Mathlib.Algebra.Order.Group.Unbundled.Abs

namespace Madg

/-- The operations the solver applies to `real_wp` (typedefs.hpp:6-14), without any law: exact arithmetic is the instance of a
field, floating-point arithmetic rounds the result of each operation. Powers with a fixed exponent are the library's `pow`
(governing_equations/cahn_hilliard/cahn_hilliard_3d_fd.cpp:55), casts are conversions of whole numbers, `OfScientific` reads
decimal literals. -/
class Arith (K : Type) extends Zero K, One K, Add K, Sub K, Mul K, Div K, Neg K, NatCast K, IntCast K, Pow K ℕ,
  OfScientific K

/-- Exact arithmetic (typedefs.hpp:6-14 without rounding). -/
instance Field.toArith {K : Type} [Field K] : Arith K where

section
variable {K : Type} [LT K] [DecidableLT K]

/-- `std::max` (time_stepping/ode23.cpp:123, 138, 160, governing_equations/residual_calculator.cpp:34): the first argument unless it
is smaller. The comparisons of the solver's numbers are those of `LT`, `LE`, without any law, so that they may be false on NaN; `Max`
and `Min` are the combinations of RAJA's reductions. -/
def stdMax (a b : K) : K := if a < b then b else a

/-- `std::min` (time_stepping/ode23.cpp:160-161). -/
def stdMin (a b : K) : K := if b < a then b else a

/-- `std::fabs` (time_stepping/ode23.cpp:120), up to the sign of zero. -/
def fabs [Arith K] (x : K) : K := stdMax x (-x)

end

theorem stdMax_eq {K : Type} [LinearOrder K] (a b : K) : stdMax a b = max a b := by
  unfold stdMax
  split
  · next h => rw [max_eq_right h.le]
  · next h => rw [max_eq_left (not_lt.1 h)]

theorem stdMin_eq {K : Type} [LinearOrder K] (a b : K) : stdMin a b = min a b := by
  unfold stdMin
  split
  · next h => rw [min_eq_right h.le]
  · next h => rw [min_eq_left (not_lt.1 h)]

theorem fabs_eq {K : Type} [Field K] [LinearOrder K] (x : K) : fabs x = |x| := stdMax_eq _ _

end Madg
