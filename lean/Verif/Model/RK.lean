/-
Explicit Runge–Kutta integrators: time_stepping/rk3ssp.{hpp,cpp} and time_stepping/ode23.{hpp,cpp}.
The loop over `state.nvecs()` is modelled for the single vector all states of this code base have
(data_structures/scalar_solution_state.hpp:8-72).
-/
import Verif.Model.Arith
import Verif.Model.Cmd
import Mathlib.Algebra.Field.Basic
import Mathlib.Algebra.Order.Field.Basic

namespace Madg

/-- Arrays of an integrator: solution, residual (time_stepping/time_integrator.cpp:8-9), stage slopes and stage
solution (time_stepping/rk3ssp.cpp:8-11, time_stepping/ode23.cpp:7-11; `k4` only used by ode23). -/
structure RKArr (A : Type) where
  sol : A
  res : A
  k1 : A
  k2 : A
  k3 : A
  k4 : A
  stage : A

section
variable {A K : Type} [Arith K]

/-- `stage[i] = sol0[i] + dt * a21 * k1[i]` (time_stepping/rk3ssp.cpp:28-30, time_stepping/ode23.cpp:46-48). -/
def stage2Loop (N : Int) (w : RKArr A) (dt a21 : K) : Host A K :=
  [forAll 0 N fun i => do
    let s ← Prog.rd w.sol i
    let x1 ← Prog.rd w.k1 i
    Prog.wr w.stage i (s + dt * a21 * x1)]

/-- `stage[i] = sol0[i] + dt * (a31 * k1[i] + a32 * k2[i])`
(time_stepping/rk3ssp.cpp:44-46, time_stepping/ode23.cpp:64-66). -/
def stage3Loop (N : Int) (w : RKArr A) (dt a31 a32 : K) : Host A K :=
  [forAll 0 N fun i => do
    let s ← Prog.rd w.sol i
    let x1 ← Prog.rd w.k1 i
    let x2 ← Prog.rd w.k2 i
    Prog.wr w.stage i (s + dt * (a31 * x1 + a32 * x2))]

/-- `residual[i] = b1 * k1[i] + b2 * k2[i] + b3 * k3[i]`
(time_stepping/rk3ssp.cpp:61-63, time_stepping/ode23.cpp:83-85). -/
def residualLoop (N : Int) (w : RKArr A) (b1 b2 b3 : K) : Host A K :=
  [forAll 0 N fun i => do
    let x1 ← Prog.rd w.k1 i
    let x2 ← Prog.rd w.k2 i
    let x3 ← Prog.rd w.k3 i
    Prog.wr w.res i (b1 * x1 + b2 * x2 + b3 * x3)]

/-- `sol[i] += dt * res[i]` (time_stepping/rk3ssp.cpp:70-72, time_stepping/ode23.cpp:93-95). -/
def updateLoop (N : Int) (w : RKArr A) (dt : K) : Host A K :=
  [forAll 0 N fun i => do
    let s ← Prog.rd w.sol i
    let r ← Prog.rd w.res i
    Prog.wr w.sol i (s + dt * r)]

/-- `k1[i] = k4[i]` (time_stepping/ode23.cpp:32-34). -/
def fsalLoop (N : Int) (w : RKArr A) : Host A K :=
  [forAll 0 N fun i => do
    let x ← Prog.rd w.k4 i
    Prog.wr w.k1 i x]

/-- `RK3SSP::doTimeStep` (time_stepping/rk3ssp.cpp:15-74) with the tableau of time_stepping/rk3ssp.hpp:26-35.
`rhs s r t` is `evalRHSImpl(s, t, r)`; `N` is the padded array size. -/
def rk3Step (N : Int) (rhs : A → A → K → Host A K) (w : RKArr A) (time dt : K) : Host A K :=
  let c2 : K := 1
  let c3 : K := 1 / 2
  let a21 : K := 1
  let a31 : K := 1 / 4
  let a32 : K := 1 / 4
  let b1 : K := 1 / 6
  let b2 : K := 1 / 6
  let b3 : K := 2 / 3
  rhs w.sol w.k1 time ++
  stage2Loop N w dt a21 ++
  rhs w.stage w.k2 (time + c2 * dt) ++
  stage3Loop N w dt a31 a32 ++
  rhs w.stage w.k3 (time + c3 * dt) ++
  residualLoop N w b1 b2 b3 ++
  updateLoop N w dt

/-- Host fields of the ode23 integrator (time_stepping/ode23.hpp:44-45). -/
structure Ode23 (K : Type) where
  first : Bool
  err : K

/-- Constructor values (time_stepping/ode23.cpp:12-13). -/
def ode23Init : Ode23 K := ⟨true, 1⟩

/-- The memory part of `ODE23::doTimeStep`, up to the evaluation of the fourth stage
(time_stepping/ode23.cpp:22-100), with the tableau of time_stepping/ode23.hpp:47-60. -/
def ode23Host (N : Int) (rhs : A → A → K → Host A K) (w : RKArr A) (first : Bool) (time dt : K) : Host A K :=
  let c2 : K := 1 / 2
  let c3 : K := 3 / 4
  let c4 : K := 1
  let a21 : K := 1 / 2
  let a31 : K := 0
  let a32 : K := 3 / 4
  let a41 : K := 2 / 9
  let a42 : K := 1 / 3
  let a43 : K := 4 / 9
  (if first then rhs w.sol w.k1 time else fsalLoop N w) ++
  stage2Loop N w dt a21 ++
  rhs w.stage w.k2 (time + c2 * dt) ++
  stage3Loop N w dt a31 a32 ++
  rhs w.stage w.k3 (time + c3 * dt) ++
  residualLoop N w a41 a42 a43 ++
  updateLoop N w dt ++
  rhs w.sol w.k4 (time + c4 * dt)

end

section
variable {A K : Type} [Arith K] [LT K] [DecidableLT K] [Max K]

/-- Contributions of the error reduction: `fabs(res[i] - (d1*k1[i] + d2*k2[i] + d3*k3[i] + d4*k4[i]))` over the
whole array (time_stepping/ode23.cpp:117-121; weights time_stepping/ode23.hpp:67-70). -/
def ode23ErrBodies (N : Int) (w : RKArr A) : List (Prog A K K) :=
  (irange 0 N).map fun i => do
    let x1 ← Prog.rd w.k1 i
    let x2 ← Prog.rd w.k2 i
    let x3 ← Prog.rd w.k3 i
    let x4 ← Prog.rd w.k4 i
    let r ← Prog.rd w.res i
    pure (fabs (r - (7 / 24 * x1 + 1 / 4 * x2 + 1 / 3 * x3 + 1 / 8 * x4)))

/-- `ODE23::doTimeStep` (time_stepping/ode23.cpp:17-125): returns the new host fields. The reduction starts from
`error_estimate_ = 0` and the result is `max(0, dt * max_residual)` (time_stepping/ode23.cpp:102, 115, 123). -/
def ode23Step (N : Int) (rhs : A → A → K → Host A K) (w : RKArr A) (st : Ode23 K) (time dt : K) :
    Cmd A K (Ode23 K) := do
  Cmd.ofHost (ode23Host N rhs w st.first time dt)
  let r ← Cmd.reduceOf max 0 (ode23ErrBodies N w)
  pure ⟨false, stdMax 0 (dt * r)⟩

/-- Steps of sizes `dts` starting at `time`: the part of `TimeIntegrator::solve` that concerns the integrator
(time_stepping/time_integrator.cpp:27-33: `doTimeStep(time_, dt_); time_ += dt_`), for a given sequence of step
sizes. Returns the final host fields and the error estimates after each step. -/
def ode23Run (N : Int) (rhs : A → A → K → Host A K) (w : RKArr A) : Ode23 K → K → List K →
    Cmd A K (Ode23 K × List K)
  | st, _, [] => pure (st, [])
  | st, time, dt :: dts => do
    let st' ← ode23Step N rhs w st time dt
    let (st'', es) ← ode23Run N rhs w st' (time + dt) dts
    pure (st'', st'.err :: es)

/-- The same for rk3ssp (time_stepping/time_integrator.cpp:27-33, time_stepping/rk3ssp.cpp:15-74). -/
def rk3Run (N : Int) (rhs : A → A → K → Host A K) (w : RKArr A) : K → List K → Host A K
  | _, [] => []
  | time, dt :: dts => rk3Step N rhs w time dt ++ rk3Run N rhs w (time + dt) dts

end

end Madg
