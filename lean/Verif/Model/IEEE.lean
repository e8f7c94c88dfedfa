/-
Floating-point arithmetic with overflow, infinities, signed zeros and NaN.
-/
import Verif.Model.Arith
import Verif.Model.Text

namespace Madg

/-- A binary interchange format: precision and smallest exponent of `FloatFmt`, and the exponent from which on magnitudes are too
large (`double`, typedefs.hpp:12-13). -/
structure IeeeFmt extends FloatFmt where
  emax : Int

/-- `double` (typedefs.hpp:12-13). -/
def ieee64 : IeeeFmt := ⟨binary64, 1024⟩
/-- `float` (typedefs.hpp:9-10). -/
def ieee32 : IeeeFmt := ⟨binary32, 128⟩

/-- A number of type `real_wp` (typedefs.hpp:6-14): not a number, an infinity, a zero with its sign, or another number. All NaN are
one, their sign and payload are not modelled. Equality of this type distinguishes the two zeros and makes NaN equal to itself,
unlike `==`; the quantities tested for equality (residual maximum, tolerances) are never NaN or a negative zero. -/
inductive Ieee (F : IeeeFmt) where
  | nan
  | inf (neg : Bool)
  | zero (neg : Bool)
  | num (x : ℚ)
  deriving DecidableEq

namespace Ieee
variable {F : IeeeFmt}

/-- Result of an operation whose exact result is `x` (typedefs.hpp:6-14): rounded to nearest, infinite if that is too large, a zero
with the sign of `x` if it rounds to zero, with the sign `neg` if `x` is zero. -/
def ofRat (neg : Bool) (x : ℚ) : Ieee F :=
  if x = 0 then .zero neg
  else if F.round x = 0 then .zero (decide (x < 0))
  else if (2 : ℚ) ^ F.emax ≤ |F.round x| then .inf (decide (x < 0))
  else .num (F.round x)

/-- Sign bit (typedefs.hpp:6-14); that of a NaN is taken to be clear. -/
def sign : Ieee F → Bool
  | nan => false
  | inf s => s
  | zero s => s
  | num x => decide (x < 0)

/-- Change of sign (typedefs.hpp:6-14). -/
def neg : Ieee F → Ieee F
  | nan => nan
  | inf s => inf (!s)
  | zero s => zero (!s)
  | num x => num (-x)

/-- Addition (typedefs.hpp:6-14). -/
def add : Ieee F → Ieee F → Ieee F
  | nan, _ => nan
  | _, nan => nan
  | inf s, inf t => if s = t then inf s else nan
  | inf s, _ => inf s
  | _, inf t => inf t
  | zero s, zero t => zero (s && t)
  | zero _, num y => num y
  | num x, zero _ => num x
  | num x, num y => ofRat false (x + y)

/-- Multiplication (typedefs.hpp:6-14). -/
def mul (a b : Ieee F) : Ieee F :=
  match a, b with
  | nan, _ => nan
  | _, nan => nan
  | inf _, zero _ => nan
  | zero _, inf _ => nan
  | inf _, _ => inf (xor a.sign b.sign)
  | _, inf _ => inf (xor a.sign b.sign)
  | num x, num y => ofRat false (x * y)
  | _, _ => zero (xor a.sign b.sign)

/-- Division (typedefs.hpp:6-14). -/
def div (a b : Ieee F) : Ieee F :=
  match a, b with
  | nan, _ => nan
  | _, nan => nan
  | inf _, inf _ => nan
  | zero _, zero _ => nan
  | inf _, _ => inf (xor a.sign b.sign)
  | _, inf _ => zero (xor a.sign b.sign)
  | _, zero _ => inf (xor a.sign b.sign)
  | zero _, _ => zero (xor a.sign b.sign)
  | num x, num y => ofRat false (x / y)

/-- `pow` with a whole exponent (governing_equations/cahn_hilliard/cahn_hilliard_3d_fd.cpp:55), taken to be correctly rounded; the
exponent 0 gives 1 for every number. -/
def npow (a : Ieee F) : Nat → Ieee F
  | 0 => ofRat false 1
  | n + 1 =>
    match a with
    | nan => nan
    | inf s => inf (s && decide ((n + 1) % 2 = 1))
    | zero s => zero (s && decide ((n + 1) % 2 = 1))
    | num x => ofRat false (x ^ (n + 1))

/-- The operations of `real_wp` (typedefs.hpp:6-14). -/
instance : Arith (Ieee F) where
  zero := .zero false
  one := ofRat false 1
  add := add
  sub a b := add a (neg b)
  mul := mul
  div := div
  neg := neg
  natCast n := ofRat false n
  intCast n := ofRat false n
  pow := npow
  ofScientific m s e := ofRat false (OfScientific.ofScientific m s e : ℚ)

/-- `a < b` (typedefs.hpp:6-14): false if one of them is not a number, zeros are equal. -/
def ltb : Ieee F → Ieee F → Bool
  | nan, _ => false
  | _, nan => false
  | inf s, inf t => s && !t
  | inf s, _ => s
  | _, inf t => !t
  | zero _, zero _ => false
  | zero _, num y => decide (0 < y)
  | num x, zero _ => decide (x < 0)
  | num x, num y => decide (x < y)

/-- `a <= b` (typedefs.hpp:6-14). -/
def leb : Ieee F → Ieee F → Bool
  | nan, _ => false
  | _, nan => false
  | inf s, inf t => s || !t
  | inf s, _ => s
  | _, inf t => !t
  | zero _, zero _ => true
  | zero _, num y => decide (0 ≤ y)
  | num x, zero _ => decide (x ≤ 0)
  | num x, num y => decide (x ≤ y)

instance : LT (Ieee F) := ⟨fun a b => ltb a b = true⟩
instance : LE (Ieee F) := ⟨fun a b => leb a b = true⟩
instance : DecidableLT (Ieee F) := fun a b => inferInstanceAs (Decidable (ltb a b = true))
instance : DecidableLE (Ieee F) := fun a b => inferInstanceAs (Decidable (leb a b = true))

/-- Combination of a maximum reduction (data_structures/exec_includes.hpp:26-86): the first argument unless it is smaller. With NaN
the result depends on the order of the arguments, which RAJA does not promise. -/
instance : Max (Ieee F) := ⟨stdMax⟩
/-- Combination of a minimum reduction (data_structures/exec_includes.hpp:26-86). -/
instance : Min (Ieee F) := ⟨stdMin⟩

end Ieee

end Madg
