/-
Linearisation of the Cahn–Hilliard right-hand side.
-/
import Verif.Spec.Ops3

namespace Madg.Spec
variable {K : Type} [Field K]

/-- Linearised right-hand side at `u` in direction `v`: `-ε² Δ²v + Δ((3u² - 1) v) - σ v`. -/
def chLin3 (p : CHParams K) (dx : K) (u v : Int → Int → Int → K) (i j k : Int) : K :=
  -p.eps2 * bih3 dx v i j k + lap3 dx (fun x y z => (3 * u x y z ^ 2 - 1) * v x y z) i j k - p.sigma * v i j k

/-- Number of an interior cell among all interior cells, last coordinate fastest. -/
def cellNo (nj nk i j k : Int) : Int := (i * nj + j) * nk + k

end Madg.Spec
