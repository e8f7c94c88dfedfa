/-
Compensated summation and the random initial condition in any arithmetic.
-/
import Verif.Model.Arith

namespace Madg.Spec
variable {K : Type} [Arith K]

/-- One step of compensated (Kahan) summation: `(sum, correction)`. -/
def kahanStep (st : K × K) (x : K) : K × K :=
  (st.1 + (x - st.2), (st.1 + (x - st.2) - st.1) - (x - st.2))

/-- Compensated sum. -/
def kahan (xs : List K) : K := (xs.foldl kahanStep (0, 0)).1

end Madg.Spec
