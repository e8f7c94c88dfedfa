/-
The semi-discrete equations `dc/dt = F(c)` on interior fields, and error measures.
Specification only; independent of the kernels.
-/
import Verif.Spec.Sums
import Verif.Spec.RK
import Mathlib.Algebra.Module.Pi

namespace Madg.Spec
variable {K : Type} [Field K]

/-- Interior cells of a 3D grid. -/
def In3 (ni nj nk : Int) (c : Int × Int × Int) : Prop :=
  (0 ≤ c.1 ∧ c.1 < ni) ∧ (0 ≤ c.2.1 ∧ c.2.1 < nj) ∧ (0 ≤ c.2.2 ∧ c.2.2 < nk)

/-- Interior cells of a 2D grid. -/
def In2 (n : Int) (c : Int × Int) : Prop := (0 ≤ c.1 ∧ c.1 < n) ∧ (0 ≤ c.2 ∧ c.2 < n)

/-- Cahn–Hilliard right-hand side as a map of interior fields (3D, any boundary mix). -/
def chField3 (p : CHParams K) (dx : K) (bx bY bz : BCType) (ni nj nk : Int) (_t : K) (u : Int × Int × Int → K) :
    Int × Int × Int → K :=
  fun c => chRhs3 p dx (ext3 bx bY bz ni nj nk fun i j k => u (i, j, k)) c.1 c.2.1 c.2.2

/-- Cahn–Hilliard right-hand side as a map of interior fields (2D periodic). -/
def chField2 (p : CHParams K) (dx : K) (n : Int) (_t : K) (u : Int × Int → K) : Int × Int → K :=
  fun c => chRhs2 p dx (ext2 n fun i j => u (i, j)) c.1 c.2

/-- `e` is the maximum of `|d c|` over the cells with `P c` (zero if there are none). -/
def IsMaxAbs [LinearOrder K] {C : Type} (P : C → Prop) (d : C → K) (e : K) : Prop :=
  0 ≤ e ∧ (∀ c, P c → |d c| ≤ e) ∧ (e = 0 ∨ ∃ c, P c ∧ e = |d c|)

/-- Error estimates of an embedded pair along a run: after each step `max 0 (dt * max_c |Σ(bᵢ - b̂ᵢ)kᵢ|)`. -/
def RunErrs [LinearOrder K] {C : Type} (T : Tableau K) (F : K → (C → K) → C → K) (P : C → Prop) :
    K → List K → (C → K) → List K → Prop
  | _, [], _, es => es = []
  | t, dt :: dts, y, es => ∃ E es', IsMaxAbs P (T.slope F t dt y - T.slopeHat F t dt y) E ∧
      es = max 0 (dt * E) :: es' ∧ RunErrs T F P (t + dt) dts (T.step F t dt y) es'

end Madg.Spec

namespace Madg.Spec
variable {K : Type} [Field K]

/-- Row sums equal the abscissae, and the weights satisfy the conditions up to order 2. -/
def Tableau.Order2 (T : Tableau K) (w : Nat → K) : Prop :=
  (∀ i : Fin T.s, ∑ j : Fin i, T.a i j = T.c i) ∧
  ∑ i : Fin T.s, w i = 1 ∧ ∑ i : Fin T.s, w i * T.c i = 1 / 2

/-- The conditions for order 3. -/
def Tableau.Order3 (T : Tableau K) (w : Nat → K) : Prop :=
  T.Order2 w ∧ ∑ i : Fin T.s, w i * T.c i ^ 2 = 1 / 3 ∧
  ∑ i : Fin T.s, w i * ∑ j : Fin i, T.a i j * T.c j = 1 / 6

end Madg.Spec
