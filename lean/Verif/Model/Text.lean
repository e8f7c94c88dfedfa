/-
Text as written and read by the solution files: trimming and splitting, decimal integers, real numbers in scientific
notation, and binary floating-point formats.

The C++ and Boost library functions used by file_io/vtk_solution_writer.cpp and file_io/vtk_solution_reader.cpp are
modelled here by what their documentation promises (correctly rounded printing and parsing).
-/
import Mathlib.Data.Int.Log
import Mathlib.Data.Rat.Floor
import Mathlib.Data.Nat.Log

namespace Madg

/-- A character string (`std::string`, file_io/vtk_solution_reader.cpp:29). -/
abbrev Text := List Char

/-- `boost::is_any_of("\t ")` (file_io/vtk_solution_reader.cpp:31, 36). -/
def isBlank (c : Char) : Bool := c == '\t' || c == ' '

/-- `boost::is_any_of("\t \n")` (file_io/vtk_solution_reader.cpp:72, 75, 86, 88, 136, 139, 194, 196). -/
def isSpaceNl (c : Char) : Bool := c == '\t' || c == ' ' || c == '\n'

/-- `boost::trim_if` (file_io/vtk_solution_reader.cpp:31): remove leading and trailing characters satisfying `p`. -/
def trimIf (p : Char → Bool) (t : Text) : Text := ((t.dropWhile p).reverse.dropWhile p).reverse

/-- Worker of `splitCompress` (file_io/vtk_solution_reader.cpp:36): `inSep` tells whether the previous character was a separator, `cur` is the token being
collected. -/
def splitGo (p : Char → Bool) : Bool → Text → Text → List Text
  | _, cur, [] => [cur]
  | inSep, cur, c :: t =>
    if p c then (if inSep then splitGo p true cur t else cur :: splitGo p true [] t)
    else splitGo p false (cur ++ [c]) t

/-- `boost::algorithm::split(…, token_compress_on)` (file_io/vtk_solution_reader.cpp:36): adjacent separators count as
one; separators at either end give empty tokens; the empty string gives one empty token. -/
def splitCompress (p : Char → Bool) (t : Text) : List Text := splitGo p false [] t

/-- The decimal digit with value `d < 10` (`operator<<`, file_io/vtk_solution_writer.cpp:66). -/
def digitChar (d : Nat) : Char := Char.ofNat (48 + d)

/-- The last `w` decimal digits of `n`, most significant first (`operator<<`, file_io/vtk_solution_writer.cpp:66). -/
def digitsN : Nat → Nat → Text
  | 0, _ => []
  | w + 1, n => digitsN w (n / 10) ++ [digitChar (n % 10)]

/-- Decimal digits of `n` without leading zeros (`operator<<`, file_io/vtk_solution_writer.cpp:66). -/
def showNat (n : Nat) : Text := digitsN (Nat.log 10 n + 1) n

/-- `fout << int` in the "C" locale (file_io/vtk_solution_writer.cpp:55, 66, 72). -/
def showInt (i : Int) : Text := if i < 0 then '-' :: showNat i.natAbs else showNat i.natAbs

/-- Value of one digit character (`boost::lexical_cast`, file_io/vtk_solution_reader.cpp:39). -/
def digitVal (c : Char) : Option Nat := if 48 ≤ c.toNat ∧ c.toNat ≤ 57 then some (c.toNat - 48) else none

/-- Value of a digit string continuing `acc` (`boost::lexical_cast`, file_io/vtk_solution_reader.cpp:39). -/
def readDigits : Nat → Text → Option Nat
  | acc, [] => some acc
  | acc, c :: t => (digitVal c).bind fun d => readDigits (acc * 10 + d) t

/-- A nonempty digit string (`boost::lexical_cast`, file_io/vtk_solution_reader.cpp:39). -/
def readNat (t : Text) : Option Nat := if t = [] then none else readDigits 0 t

/-- Leading sign (`boost::lexical_cast`, file_io/vtk_solution_reader.cpp:39). -/
def readSign : Text → Bool × Text
  | '-' :: t => (true, t)
  | '+' :: t => (false, t)
  | t => (false, t)

/-- `boost::lexical_cast<int>` (file_io/vtk_solution_reader.cpp:39-44, 203): `none` where it throws, that is unless the
whole text is a number in the range of `int`. -/
def readInt (t : Text) : Option Int :=
  (readNat (readSign t).2).bind fun n =>
    let i : Int := if (readSign t).1 then -(n : Int) else n
    if -2147483648 ≤ i ∧ i < 2147483648 then some i else none

/-- Round to the nearest integer, ties to even (the rounding of printing, file_io/vtk_solution_writer.cpp:86, and of
parsing, file_io/vtk_solution_reader.cpp:144). -/
def roundEven (x : ℚ) : Int :=
  if x - ⌊x⌋ < 1 / 2 then ⌊x⌋
  else if 1 / 2 < x - ⌊x⌋ then ⌊x⌋ + 1
  else if ⌊x⌋ % 2 = 0 then ⌊x⌋ else ⌊x⌋ + 1

/-- Decimal rounding of `x > 0` to `p + 1` significant digits: mantissa (an integer with `p + 1` digits) and decimal
exponent of its leading digit (`std::scientific` with `setprecision(p)`, file_io/vtk_solution_writer.cpp:69, 86). -/
def sciRound (p : Nat) (x : ℚ) : Nat × Int :=
  let D := Int.log 10 x
  let M := (roundEven (x / (10 : ℚ) ^ (D - p))).toNat
  if M = 10 ^ (p + 1) then (10 ^ p, D + 1) else (M, D)

/-- Exponent field of scientific notation: sign and at least two digits
(`std::scientific`, file_io/vtk_solution_writer.cpp:69). -/
def showExp (e : Int) : Text :=
  (if e < 0 then '-' else '+') :: digitsN (max 2 (Nat.log 10 e.natAbs + 1)) e.natAbs

/-- Nonnegative number in scientific notation with `p` digits after the point
(`std::scientific << std::setprecision(p)`, file_io/vtk_solution_writer.cpp:69, 86). -/
def sciNonneg (p : Nat) (x : ℚ) : Text :=
  let (M, e) := if x = 0 then (0, 0) else sciRound p x
  digitsN 1 (M / 10 ^ p) ++ '.' :: digitsN p M ++ 'e' :: showExp e

/-- `fout << std::scientific << std::setprecision(p) << x` for finite `x`, `p ≥ 1` (file_io/vtk_solution_writer.cpp:69,
86). Negative zero is not distinguished from zero; infinities and NaN are not modelled. -/
def sci (p : Nat) (x : ℚ) : Text := if x < 0 then '-' :: sciNonneg p (-x) else sciNonneg p x

/-- A binary floating-point format: precision in bits and least exponent of the unit in the last place
(`double`/`float`, typedefs.hpp:6-14). The largest exponent is not modelled: overflow does not occur here. -/
structure FloatFmt where
  prec : Nat
  emin : Int

/-- `double` (typedefs.hpp:12-13). -/
def binary64 : FloatFmt := ⟨53, -1074⟩
/-- `float` (typedefs.hpp:9-10). -/
def binary32 : FloatFmt := ⟨24, -149⟩

/-- Exponent of the unit in the last place at `r ≠ 0` (`double`, typedefs.hpp:12-13). -/
def FloatFmt.ulpExp (F : FloatFmt) (r : ℚ) : Int := max (Int.log 2 |r| + 1 - F.prec) F.emin

/-- Correctly rounded conversion of a real number to the format, ties to even
(`boost::lexical_cast<double>`, file_io/vtk_solution_reader.cpp:106-108, 144, 199, 207). -/
def FloatFmt.round (F : FloatFmt) (r : ℚ) : ℚ :=
  if r = 0 then 0 else roundEven (r / (2 : ℚ) ^ F.ulpExp r) * (2 : ℚ) ^ F.ulpExp r

/-- Exponent part of a decimal number: absent, or `e`/`E`, optional sign, digits
(`boost::lexical_cast<double>`, file_io/vtk_solution_reader.cpp:144). -/
def readExp : Text → Option Int
  | [] => some 0
  | c :: t =>
    if c = 'e' ∨ c = 'E' then
      (readNat (readSign t).2).map fun (n : Nat) => if (readSign t).1 then -(n : Int) else (n : Int)
    else none

/-- Is the character a decimal digit (`boost::lexical_cast<double>`, file_io/vtk_solution_reader.cpp:144). -/
def isDigitC (c : Char) : Bool := (digitVal c).isSome

/-- Fractional digits after an optional point, and the rest (`boost::lexical_cast<double>`,
file_io/vtk_solution_reader.cpp:144). -/
def readFrac : Text → Text × Text
  | [] => ([], [])
  | c :: t => if c = '.' then (t.takeWhile isDigitC, t.dropWhile isDigitC) else ([], c :: t)

/-- Unsigned decimal number: digits, optional point and digits, optional exponent
(`boost::lexical_cast<double>`, file_io/vtk_solution_reader.cpp:144). -/
def readUnsigned (t : Text) : Option ℚ :=
  let ip := t.takeWhile isDigitC
  let fr := readFrac (t.dropWhile isDigitC)
  (readNat (ip ++ fr.1)).bind fun N => (readExp fr.2).map fun (e : Int) => (N : ℚ) * (10 : ℚ) ^ (e - (fr.1.length : Int))

/-- Decimal number (`boost::lexical_cast<double>` before rounding, file_io/vtk_solution_reader.cpp:144); `inf` and `nan`
are not modelled. -/
def readDec (t : Text) : Option ℚ :=
  (readUnsigned (readSign t).2).map fun v => if (readSign t).1 then -v else v

/-- `boost::lexical_cast<double>` (file_io/vtk_solution_reader.cpp:106-108, 144, 199, 207): `none` where it throws. -/
def readFloat (F : FloatFmt) (t : Text) : Option ℚ := (readDec t).map F.round

end Madg
