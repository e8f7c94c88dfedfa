/-
Callbacks of the PETSc time integrator (time_stepping/petsc_time_integrator.cpp). PETSc itself is not modelled: a `Vec`
is an array with one value per interior cell.
-/
import Verif.Model.Jacobian

namespace Madg
open Spec (CHParams)
variable {A K : Type} [Field K]

/-- `copyPetscVecToSolutionState` (time_stepping/petsc_time_integrator.cpp:15-31): `s[idx[i]] = petsc_data[i]`. -/
def petscToState (idx : List Int) (x s : A) : Host A K :=
  [(List.range idx.length).map fun i =>
    (Prog.idx idx i).bind fun n => (Prog.rd x (i : Int)).bind fun v => Prog.wr s n v]

/-- `copySolutionStateToPetscVec` (time_stepping/petsc_time_integrator.cpp:33-50): `petsc_data[i] = s[idx[i]]`. -/
def stateToPetsc (idx : List Int) (s x : A) : Host A K :=
  [(List.range idx.length).map fun i =>
    (Prog.idx idx i).bind fun n => (Prog.rd s n).bind fun v => Prog.wr x (i : Int) v]

/-- `PetscRHSFunction` (time_stepping/petsc_time_integrator.cpp:53-69). -/
def petscRHS (G : Geom3) (v : Int) (p : CHParams K) (dx : K) (w : CHArr A) (x rhs : A) : Host A K :=
  petscToState G.interior x w.c ++ (G.evalRHS v p dx w ++ stateToPetsc G.interior w.r rhs)

/-- `PetscRHSJacobian` (time_stepping/petsc_time_integrator.cpp:72-91): the copy fills interior cells only and no boundary
fill follows. `MatAssemblyBegin/End` are not modelled. -/
def petscJacobian (G : Geom3) (p : CHParams K) (dx : K) (x c : A) (J : CSR A) : Host A K :=
  petscToState G.interior x c ++ evalJacobian G.g p dx c J

end Madg
