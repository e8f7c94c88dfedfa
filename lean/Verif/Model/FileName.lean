/-
Names of the solution files (file_io/vtk_solution_writer.cpp:34-51 and 109-128, initialization/puppeteer.cpp:80-84 and
253-259).
-/
import Verif.Model.Prog
import Verif.Model.Text

namespace Madg

/-- `int(log10(max_time_steps) + 1)` (file_io/vtk_solution_writer.cpp:41, 116): the number of decimal digits.  For a
count that is not positive the logarithm is infinite or not a number and its conversion to `int` is undefined.
Simplification: `log10` is exact at powers of ten. -/
def iterWidth (maxSteps : Int) : Except Err Nat :=
  if maxSteps ≤ 0 then .error .badConv else .ok (Nat.log 10 maxSteps.toNat + 1)

/-- Significant digits without trailing zeros, as printed by the default floating-point format
(file_io/vtk_solution_writer.cpp:47). -/
def stripZeros (t : Text) : Text := (t.reverse.dropWhile (· == '0')).reverse

/-- A `double` holding the integer `n ≥ 0`, printed in the default format with `P ≥ 1` significant digits (`%.Pg`):
plain digits if the decimal exponent is below `P`, scientific otherwise.  `operator<<` uses `P = 6`
(file_io/vtk_solution_writer.cpp:47) and `boost::lexical_cast<std::string>(double)` uses `P = 17`
(file_io/vtk_solution_writer.cpp:120). -/
def showGen (P n : Nat) : Text :=
  if n = 0 then showNat 0
  else
    let (M, e) := sciRound (P - 1) n
    if e < P then showNat n
    else
      let frac := stripZeros (digitsN (P - 1) M)
      digitsN 1 (M / 10 ^ (P - 1)) ++ (if frac = [] then [] else '.' :: frac) ++ 'e' :: showExp e

/-- `std::setw(w) << std::setfill('0')` (file_io/vtk_solution_writer.cpp:47, 126): fill on the left. -/
def padZero (w : Nat) (t : Text) : Text := List.replicate (w - t.length) '0' ++ t

/-- The fixed middle part of the name (file_io/vtk_solution_writer.cpp:47, 126). -/
def stepMark : Text := ['_', 's', 't', 'e', 'p', '_']

/-- The extension (file_io/vtk_solution_writer.cpp:48, 127). -/
def vtsExt : Text := ['.', 'v', 't', 's']

/-- Name of a 2D solution file (file_io/vtk_solution_writer.cpp:41-50); `iter` is the step counter of the status
report, not negative. -/
def fileName2 (base : Text) (maxSteps : Int) (iter : Nat) : Except Err Text := do
  let w ← iterWidth maxSteps
  pure (base ++ stepMark ++ padZero w (showGen 6 iter) ++ vtsExt)

/-- Name of a 3D solution file (file_io/vtk_solution_writer.cpp:116-129): at least four digits, commas removed. -/
def fileName3 (base : Text) (maxSteps : Int) (iter : Nat) : Except Err Text := do
  let w ← iterWidth maxSteps
  pure (base ++ stepMark ++ padZero (max w 4) ((showGen 17 iter).filter (· != ',')) ++ vtsExt)

/-- Base name of the file written at the end of the run (initialization/puppeteer.cpp:84). -/
def finalBase (base : Text) : Text := base ++ ['_', 'f', 'i', 'n', 'a', 'l']

end Madg
