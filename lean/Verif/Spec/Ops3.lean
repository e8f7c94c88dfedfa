/-
Specification of the three-dimensional finite-difference operators on fields over ℤ³.
-/
import Verif.Spec.Ext
import Mathlib.Algebra.Field.Basic

namespace Madg.Spec
variable {K : Type} [Field K]

/-- Second difference along each axis. -/
def d2x (u : Int → Int → Int → K) (i j k : Int) : K := u (i + 1) j k - 2 * u i j k + u (i - 1) j k
def d2y (u : Int → Int → Int → K) (i j k : Int) : K := u i (j + 1) k - 2 * u i j k + u i (j - 1) k
def d2z (u : Int → Int → Int → K) (i j k : Int) : K := u i j (k + 1) - 2 * u i j k + u i j (k - 1)

/-- Second-order Laplacian on a uniform grid of spacing `dx`. -/
def lap3 (dx : K) (u : Int → Int → Int → K) (i j k : Int) : K :=
  (d2x u i j k + d2y u i j k + d2z u i j k) / dx ^ 2

/-- Discrete biharmonic operator: the Laplacian of the Laplacian. -/
def bih3 (dx : K) (u : Int → Int → Int → K) : Int → Int → Int → K := lap3 dx (lap3 dx u)

/-- Cahn–Hilliard parameters: interface coefficient, relaxation rate and mean concentration. -/
structure CHParams (K : Type) where
  eps2 : K
  sigma : K
  m : K

/-- `-ε² Δ²u + Δ(u³ - u) - σ(u - m)`. -/
def chRhs3 (p : CHParams K) (dx : K) (u : Int → Int → Int → K) (i j k : Int) : K :=
  -p.eps2 * bih3 dx u i j k + lap3 dx (fun x y z => u x y z ^ 3 - u x y z) i j k - p.sigma * (u i j k - p.m)

/-- Extension of interior data to ℤ³, axis by axis. -/
def ext3 {K : Type} (xbc ybc zbc : BCType) (ni nj nk : Int) (u : Int → Int → Int → K) (i j k : Int) : K :=
  u (extIdx xbc ni i) (extIdx ybc nj j) (extIdx zbc nk k)

end Madg.Spec
