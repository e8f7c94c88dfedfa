/-
Arithmetic of a floating-point type.
-/
import Verif.Model.Arith
import Verif.Model.Text
import Mathlib.Order.Lattice
import Mathlib.Order.Basic
import Mathlib.Data.Rat.Cast.Order

namespace Madg

/-- Numbers on which every operation is followed by the rounding `rnd` (`real_wp`, typedefs.hpp:6-14, one rounding per
operation of the source: results of operations are stored in variables of type `double` or `float`). Not modelled: overflow,
infinities and NaN, the sign of zero, and the fusing of a multiplication with an addition, which a compiler may do. -/
structure Fl {K : Type} (rnd : K → K) where
  val : K

variable {K : Type} {rnd : K → K}

/-- The operations of `real_wp` (typedefs.hpp:6-14): basic operations, conversions and literals round once; changing the sign
does not round; `pow` with a small whole exponent (governing_equations/cahn_hilliard/cahn_hilliard_3d_fd.cpp:55) is taken to be
correctly rounded, which the language does not promise. -/
instance Fl.arith [Field K] : Arith (Fl rnd) where
  zero := ⟨0⟩
  one := ⟨1⟩
  add x y := ⟨rnd (x.val + y.val)⟩
  sub x y := ⟨rnd (x.val - y.val)⟩
  mul x y := ⟨rnd (x.val * y.val)⟩
  div x y := ⟨rnd (x.val / y.val)⟩
  neg x := ⟨-x.val⟩
  natCast n := ⟨rnd n⟩
  intCast n := ⟨rnd n⟩
  pow x n := ⟨rnd (x.val ^ n)⟩
  ofScientific m s e := ⟨rnd ((OfScientific.ofScientific m s e : ℚ) : K)⟩

/-- Comparison of numbers (typedefs.hpp:6-14). -/
instance Fl.order [LinearOrder K] : LinearOrder (Fl rnd) :=
  LinearOrder.lift' Fl.val fun x y h => by cases x; cases y; congr

end Madg
