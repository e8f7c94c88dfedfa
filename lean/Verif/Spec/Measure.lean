/-
Interface measure of a field on a grid.  Specification only.
-/
import Verif.Spec.Sums

namespace Madg.Spec
variable {K : Type} [Field K]

/-- Difference quotient of `w` at `i`: forward at the first cell, backward at cell number `n - 1`, central elsewhere. -/
def diff1 (n : Int) (w : Int → K) (i : Int) (dx : K) : K :=
  if i = 0 then (w 1 - w 0) / dx else if i = n - 1 then (w (n - 1) - w (n - 2)) / dx else (w (i + 1) - w (i - 1)) / (2 * dx)

/-- Magnitude of the difference gradient; `bx`, `bY`, `bz` are the extents at which the one-sided difference is taken. -/
def gradMag3 (rt : K → K) (dx : K) (bx bY bz : Int) (w : Int → Int → Int → K) (i j k : Int) : K :=
  rt (diff1 bx (fun a => w a j k) i dx ^ 2 + diff1 bY (fun a => w i a k) j dx ^ 2 + diff1 bz (fun a => w i j a) k dx ^ 2)

/-- 2D version of `gradMag3`. -/
def gradMag2 (rt : K → K) (dx : K) (bx bY : Int) (w : Int → Int → K) (i j : Int) : K :=
  rt (diff1 bx (fun a => w a j) i dx ^ 2 + diff1 bY (fun a => w i a) j dx ^ 2)

/-- Integral of the gradient magnitude over the grid: cell volume times the sum over the cells. -/
def gradInt3 (rt : K → K) (dx : K) (ni nj nk : Int) (w : Int → Int → Int → K) : K :=
  sum3 ni nj nk fun i j k => gradMag3 rt dx ni nj nk w i j k * dx ^ 3

/-- 2D version of `gradInt3`. -/
def gradInt2 (rt : K → K) (dx : K) (n : Int) (w : Int → Int → K) : K :=
  sum2 n n fun i j => gradMag2 rt dx n n w i j * dx ^ 2

end Madg.Spec
