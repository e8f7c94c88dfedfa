/-
Initial conditions (governing_equations/cahn_hilliard/cahn_hilliard_initial_conditions.cpp,
governing_equations/constant_initial_conditions.cpp).
-/
import Verif.Model.Arith
import Verif.Model.CSR

namespace Madg
variable {A K : Type} [Arith K]

/-- One pass of the first loop of `CahnHilliardInitialConditions::set`
(governing_equations/cahn_hilliard/cahn_hilliard_initial_conditions.cpp:34-40): `st` is `(sum, tmp)`, `draw ii` the `ii`-th
value returned by `dist(gen)`; the generator itself is not modelled. `sum` and `tmp` are doubles in the source whatever `real_wp`
is; the model has one number type. -/
def icStep (l : List Int) (c : A) (mm : K) (draw : Nat → K) (st : K × K) (ii : Nat) : Prog A K (K × K) := do
  let n ← Prog.idx l ii
  Prog.wr c n (mm + draw ii)
  let v ← Prog.rd c n
  let y := v - st.2
  let t := st.1 + y
  pure (t, (t - st.1) - y)

/-- One pass of the second loop (governing_equations/cahn_hilliard/cahn_hilliard_initial_conditions.cpp:44-46). -/
def icShift (l : List Int) (c : A) (s : K) (ii : Nat) : Prog A K Unit := do
  let n ← Prog.idx l ii
  let v ← Prog.rd c n
  Prog.wr c n (v - s)

/-- `CahnHilliardInitialConditions::set` (governing_equations/cahn_hilliard/cahn_hilliard_initial_conditions.cpp:16-47), `l` the
interior index list. Sequential host code. -/
def icRandom (l : List Int) (c : A) (mm : K) (draw : Nat → K) : Host A K :=
  [[(Prog.fold (icStep l c mm draw) (List.range l.length) (0, 0)).bind fun st =>
    Prog.forEach (List.range l.length) (icShift l c (st.1 / (l.length : K) - mm))]]

/-- `ConstantInitialConditions::set` (governing_equations/constant_initial_conditions.cpp:6-14). -/
def icConst (l : List Int) (c : A) (v : K) : Host A K := [forIdx l fun n => Prog.wr c n v]

end Madg
