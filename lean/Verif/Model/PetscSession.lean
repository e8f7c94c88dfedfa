/-
One `TSSolve` of the PETSc time integrator seen from the application: the library calls the registered callbacks in an
order, and with vectors, of its own choosing (time_stepping/petsc_time_integrator.cpp).
-/
import Verif.Model.Petsc
import Verif.Model.Monitor

namespace Madg
open Spec (CHParams)

/-- What happens during `TSSolve` (time_stepping/petsc_time_integrator.cpp:249): the library stores values in one of its own
arrays, or calls `PetscRHSFunction` (53-69), `PetscRHSJacobian` (72-91) or `PetscTSMonitor` (159-167). The other registered
callbacks (93-156, 169-204) touch no array. -/
inductive TsEvent (A K : Type) where
  | library (x : A) (f : Int → K)
  | rhs (x r : A)
  | jacobian (x : A)
  | monitor (v : A)

/-- What the callbacks reach through `Ctx` (time_stepping/petsc_time_integrator.hpp:34-47) and the integrator's states
(time_stepping/petsc_time_integrator.hpp:28-32): discretisation, right-hand side settings and arrays, Jacobian. -/
structure TsCtx (A K : Type) where
  G : Geom3
  var : Int
  p : CHParams K
  dx : K
  w : CHArr A
  M : CSR A

section
variable {A K : Type} [DecidableEq A] [Field K]

/-- Kernels run by an event. `PetscTSMonitor` notifies the observers (time_stepping/petsc_time_integrator.cpp:159-167),
which read the states and write none (initialization/puppeteer.cpp:212-261). -/
def TsCtx.host (C : TsCtx A K) : TsEvent A K → Host A K
  | .rhs x r => petscRHS C.G C.var C.p C.dx C.w x r
  | .jacobian x => petscJacobian C.G C.p C.dx x C.w.c C.M
  | _ => []

/-- All possible runs of a list of events (time_stepping/petsc_time_integrator.cpp:53-167, 249). The list of memories is a
record for specification: the memory seen by the observers at each monitor call, and the memory after each Jacobian call. -/
inductive TsOut (sz : A → Int) (C : TsCtx A K) :
    List (TsEvent A K) → Mem A K → List (Mem A K) → Outcome A K → Prop
  | done (m) : TsOut sz C [] m [] (.ok m)
  | library (x f es m log o) (h : TsOut sz C es (fun a => if a = x then f else m a) log o) :
      TsOut sz C (.library x f :: es) m log o
  | rhs (x r es m m1 log o) (h1 : HostOut sz (C.host (.rhs x r)) m (.ok m1)) (h : TsOut sz C es m1 log o) :
      TsOut sz C (.rhs x r :: es) m log o
  | rhsFault (x r es m e) (h1 : HostOut sz (C.host (.rhs x r)) m (.fault e)) :
      TsOut sz C (.rhs x r :: es) m [] (.fault e)
  | jacobian (x es m m1 log o) (h1 : HostOut sz (C.host (.jacobian x)) m (.ok m1)) (h : TsOut sz C es m1 log o) :
      TsOut sz C (.jacobian x :: es) m (m1 :: log) o
  | jacobianFault (x es m e) (h1 : HostOut sz (C.host (.jacobian x)) m (.fault e)) :
      TsOut sz C (.jacobian x :: es) m [] (.fault e)
  | monitor (v es m log o) (h : TsOut sz C es m log o) : TsOut sz C (.monitor v :: es) m (m :: log) o

/-- `PetscTimeIntegrator::solve` after the initial condition has been set
(time_stepping/petsc_time_integrator.cpp:246-251): copy to the solution vector, `TSSolve`, copy back. -/
def petscSolve (sz : A → Int) (C : TsCtx A K) (soln : A) (es : List (TsEvent A K)) (m : Mem A K) (log : List (Mem A K))
    (o : Outcome A K) : Prop :=
  (∃ e, HostOut sz (stateToPetsc C.G.interior C.w.c soln) m (.fault e) ∧ log = [] ∧ o = .fault e) ∨
  ∃ m1, HostOut sz (stateToPetsc C.G.interior C.w.c soln) m (.ok m1) ∧
    ((∃ e, TsOut sz C es m1 log (.fault e) ∧ o = .fault e) ∨
     ∃ m2, TsOut sz C es m1 log (.ok m2) ∧ HostOut sz (petscToState C.G.interior soln C.w.c) m2 o)

end

section
variable {K : Type} [Field K] [LinearOrder K]

/-- Search of the residual monitor for an entry, ending in `FatalMessage` when it is missing
(time_stepping/petsc_time_integrator.cpp:108-117, 131-140). -/
def monEntry (mon : List (String × K)) (name : String) : Except Err K :=
  match mon with
  | [] => .error .abort
  | kv :: rest => if kv.1 = name then .ok kv.2 else monEntry rest name

/-- `PetscTSPostStep` (time_stepping/petsc_time_integrator.cpp:102-155): whether it sets `TS_CONVERGED_USER`. -/
def petscPostStep (absTol relTol : K) (mon : List (String × K)) : Except Err Bool :=
  (if absTol ≠ 0 then (monEntry mon "abs_res").map fun v => decide (v ≤ absTol) else .ok false).bind fun a =>
  (if relTol ≠ 0 then (monEntry mon "rel_res").map fun v => decide (v ≤ relTol) else .ok false).bind fun b =>
  .ok (a || b)

/-- Values handed to the library's setters by `initializePetsc` (time_stepping/petsc_time_integrator.cpp:571-602): `none` for
`maxSteps` and `maxTime` is the largest representable number. -/
structure TsSettings (K : Type) where
  dt : K
  t0 : K
  step0 : Int
  adaptive : Option (K × K × K)
  maxSteps : Option Int
  maxTime : Option K

/-- The setter calls of `initializePetsc` in their order (time_stepping/petsc_time_integrator.cpp:571-602). `optionDt` is
`Options::get().time_step_size()`, read again at line 587 for fixed step sizes; `rel`, `lo`, `hi` are
`time_rel_err_tol_`, `min_time_step_size_`, `max_time_step_size_`. Overrides from `petsc_options`
(`TSSetFromOptions`, 610) are not modelled. -/
def petscSettings (o : TimeOpts K) (adaptive : Bool) (rel lo hi optionDt : K) : TsSettings K :=
  { dt := if adaptive then o.dt0 else optionDt
    t0 := o.t0
    step0 := o.initialStep
    adaptive := if adaptive then some (lo, hi, rel) else none
    maxSteps := if o.maxSteps ≠ 0 then some o.maxSteps else none
    maxTime := if o.tfinal ≠ 0 then some o.tfinal else none }

end

end Madg
