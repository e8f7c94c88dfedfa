/-
The multigrid integrator behind the options `bdf1` and `steady`: time_stepping/bdf_multigrid.{hpp,cpp}, with its smoother
time_stepping/ode23_smoother.{hpp,cpp}. One solution vector per state (data_structures/scalar_solution_state.hpp:8-72).
-/
import Verif.Model.RK
import Verif.Model.Reduce

namespace Madg

/-- Arrays of one multigrid level: the smoother's slopes and stage (time_stepping/ode23_smoother.cpp:8-12), the level's
state, slope and bookkeeping (time_stepping/bdf_multigrid.cpp:243-252), and, on the finest level, the previous time level
and its right-hand side (time_stepping/bdf_multigrid.cpp:63, 200). The array `fine_grid_delta_` that the source keeps with
the coarse level is listed with the finer level, whose size it has. -/
inductive MGRole where
  | state | dstate | k1 | k2 | k3 | k4 | stage
  | pre | resPre | restr | delta | src | fineDelta
  | old | res0
  deriving DecidableEq

/-- The multigrid integrator (time_stepping/bdf_multigrid.hpp, constructor time_stepping/bdf_multigrid.cpp:8-25):
`nlev` levels, level 0 the finest; arrays and their sizes by level; `rhs ℓ` the spatial right-hand side cloned for level
`ℓ` (time_stepping/bdf_multigrid.cpp:241); `restrict ℓ` from level `ℓ` to `ℓ + 1` and `prolong ℓ` back
(time_stepping/bdf_multigrid.cpp:276-277, 328); `smoothDt ℓ` the smoother's `mg_cfl * cflScale`
(time_stepping/ode23_smoother.cpp:119); `interior` the finest interior indices; the two relaxation factors
(time_stepping/bdf_multigrid.cpp:104-105); `unsteady` is `time_integrator != "steady"` (time_stepping/bdf_multigrid.cpp:217). -/
structure MG (A K : Type) where
  nlev : Nat
  arr : Nat → MGRole → A
  size : Nat → Int
  rhs : Nat → A → A → K → Host A K
  restrict : Nat → A → A → Host A K
  prolong : Nat → A → A → Host A K
  smoothDt : Nat → K
  interior : List Int
  relaxFine : K
  relaxCoarse : K
  unsteady : Bool

/-- `getMGCycle` (time_stepping/bdf_multigrid.cpp:332-431): `0` smooth, `1` go to the coarser level, `-1` return.
A negative `nsmooth` makes the vector constructor of line 337 throw. -/
def getMGCycle (nlevels nsmooth : Int) : Except Err (List Int) :=
  if nsmooth < 0 then .error .thrown else
  let s : List Int := List.replicate nsmooth.toNat 0
  if nlevels = 1 then .ok (s ++ s)
  else if nlevels = 2 then .ok (s ++ [1] ++ s ++ s ++ [-1] ++ s)
  else if nlevels = 3 then .ok (s ++ [1] ++ s ++ [1] ++ s ++ s ++ [-1] ++ s ++ [-1] ++ s)
  else if nlevels = 4 then
    .ok (s ++ [1] ++ s ++ [1] ++ s ++ [1] ++ s ++ s ++ [-1] ++ s ++ [-1] ++ s ++ [-1] ++ s)
  else if nlevels = 5 then
    .ok (s ++ [1] ++ s ++ [1] ++ s ++ [1] ++ s ++ [1] ++ s ++ s ++ [-1] ++ s ++ [-1] ++ s ++ [-1] ++ s ++ [-1] ++ s)
  else if nlevels = 6 then
    .ok (s ++ [1] ++ s ++ [1] ++ s ++ [1] ++ s ++ [1] ++ s ++ [1] ++ s ++ s ++ [-1] ++ s ++ [-1] ++ s ++ [-1] ++ s ++
      [-1] ++ s ++ [-1] ++ s)
  else .error .abort

section
variable {A K : Type} [Arith K]

/-- `copySolution` and the like: `out[i] = in[i]` over the whole array
(time_stepping/bdf_multigrid.cpp:29-37, 280-284). -/
def copyLoop (N : Int) (src dst : A) : Host A K :=
  [forAll 0 N fun i => do
    let v ← Prog.rd src i
    Prog.wr dst i v]

/-- `res_n[i] = res_n[i] - (1.0 / dt) * (sol[i] - sol0[i])` (time_stepping/bdf_multigrid.cpp:225-227). -/
def unsteadyLoop (N : Int) (dt : K) (old s r : A) : Host A K :=
  [forAll 0 N fun i => do
    let x ← Prog.rd r i
    let u ← Prog.rd s i
    let u0 ← Prog.rd old i
    Prog.wr r i (x - 1 / dt * (u - u0))]

/-- `FineGridRHS::evalRHSImpl` (time_stepping/bdf_multigrid.cpp:213-231). `1.0 / dt` with `dt = 0` is an infinity in the
source and the difference of equal states times it a NaN; `MG.doTimeStep` makes that case an error before it gets here. -/
def fineRHS (N : Int) (rhs : A → A → K → Host A K) (unsteady : Bool) (dt : K) (old s r : A) (t : K) : Host A K :=
  rhs s r t ++ if unsteady then unsteadyLoop N dt old s r else []

/-- `parent_residual[i] += multigrid_source[i]` (time_stepping/bdf_multigrid.cpp:263). -/
def sourceLoop (N : Int) (src r : A) : Host A K :=
  [forAll 0 N fun i => do
    let x ← Prog.rd r i
    let q ← Prog.rd src i
    Prog.wr r i (x + q)]

/-- `CoarsenedLevelRHS::evalRHSImpl` (time_stepping/bdf_multigrid.cpp:254-266); `mg_source_` is always allocated. -/
def coarseRHS (N : Int) (rhs : A → A → K → Host A K) (src s r : A) (t : K) : Host A K :=
  rhs s r t ++ sourceLoop N src r

/-- The right-hand side that level `ℓ` smooths (time_stepping/bdf_multigrid.cpp:15-24: `mg_rhs_[ℓ]`). -/
def MG.levelRHS (M : MG A K) (dt : K) (ℓ : Nat) : A → A → K → Host A K :=
  match ℓ with
  | 0 => fineRHS (M.size 0) (M.rhs 0) M.unsteady dt (M.arr 0 .old)
  | ℓ + 1 => coarseRHS (M.size (ℓ + 1)) (M.rhs (ℓ + 1)) (M.arr (ℓ + 1) .src)

/-- Arrays handed to `doSmooth` on level `ℓ` (time_stepping/bdf_multigrid.cpp:112-122, ode23_smoother.cpp:8-12). -/
def MG.rk (M : MG A K) (ℓ : Nat) : RKArr A :=
  ⟨M.arr ℓ .state, M.arr ℓ .dstate, M.arr ℓ .k1, M.arr ℓ .k2, M.arr ℓ .k3, M.arr ℓ .k4, M.arr ℓ .stage⟩

/-- `ODE23Smoother::doSmooth` up to the fourth slope (time_stepping/ode23_smoother.cpp:18-91), tableau
time_stepping/ode23_smoother.hpp:28-50. -/
def smoothHost (N : Int) (rhs : A → A → K → Host A K) (w : RKArr A) (time dt : K) : Host A K :=
  rhs w.sol w.k1 time ++
  stage2Loop N w dt (1 / 2) ++
  rhs w.stage w.k2 (time + 1 / 2 * dt) ++
  stage3Loop N w dt 0 (3 / 4) ++
  rhs w.stage w.k3 (time + 3 / 4 * dt) ++
  residualLoop N w (2 / 9) (1 / 3) (4 / 9) ++
  updateLoop N w dt ++
  rhs w.sol w.k4 (time + 1 * dt)

/-- `doSmooth` (time_stepping/ode23_smoother.cpp:18-114): after the slopes an error reduction whose value is not used by
`computeNextDT` (time_stepping/ode23_smoother.cpp:117-121). -/
def doSmooth [LT K] [DecidableLT K] [Max K] (N : Int) (rhs : A → A → K → Host A K) (w : RKArr A) (time dt : K) : Cmd A K Unit :=
  (Cmd.ofHost (smoothHost N rhs w time dt)).bind fun _ =>
  (Cmd.reduceOf max 0 (ode23ErrBodies N w)).bind fun _ => .ret ()

/-- `coarse_src[i] = -coarse_res[i] + fine_res[i]` (time_stepping/bdf_multigrid.cpp:290-294). -/
def sourceSetLoop (N : Int) (res restr src : A) : Host A K :=
  [forAll 0 N fun i => do
    let c ← Prog.rd res i
    let f ← Prog.rd restr i
    Prog.wr src i (-c + f)]

/-- `CoarsenedLevelRHS::setCoarseStatesFromFine` on level `ℓ + 1` (time_stepping/bdf_multigrid.cpp:268-299), called with
the finer level's state and its smoother's last slope `k4` (time_stepping/bdf_multigrid.cpp:124-136,
time_stepping/ode23_smoother.hpp:15). -/
def MG.setCoarse (M : MG A K) (dt : K) (ℓ : Nat) (time : K) : Host A K :=
  let a := M.arr (ℓ + 1)
  let N := M.size (ℓ + 1)
  M.restrict ℓ (M.arr ℓ .state) (a .state) ++
  M.restrict ℓ (M.arr ℓ .k4) (a .restr) ++
  copyLoop N (a .state) (a .pre) ++
  M.rhs (ℓ + 1) (a .state) (a .dstate) time ++
  sourceSetLoop N (a .dstate) (a .restr) (a .src) ++
  M.levelRHS dt (ℓ + 1) (a .pre) (a .resPre) time

/-- `delta[i] = coarse[i] - coarse0[i]` (time_stepping/bdf_multigrid.cpp:320-325). -/
def deltaLoop (N : Int) (s s0 d : A) : Host A K :=
  [forAll 0 N fun i => do
    let x0 ← Prog.rd s0 i
    let x ← Prog.rd s i
    Prog.wr d i (x - x0)]

/-- `soln[i] += r * update[i]` (time_stepping/bdf_multigrid.cpp:312). -/
def relaxLoop (N : Int) (r : K) (upd s : A) : Host A K :=
  [forAll 0 N fun i => do
    let x ← Prog.rd s i
    let u ← Prog.rd upd i
    Prog.wr s i (x + r * u)]

/-- The stage `-1` from level `ℓ + 1` to level `ℓ`: `getUpdateDeltaOnFine` then `applyRelaxedDelta`
(time_stepping/bdf_multigrid.cpp:138-152, 302-329). -/
def MG.correct (M : MG A K) (ℓ : Nat) : Host A K :=
  let a := M.arr (ℓ + 1)
  deltaLoop (M.size (ℓ + 1)) (a .state) (a .pre) (a .delta) ++
  M.prolong ℓ (a .delta) (M.arr ℓ .fineDelta) ++
  relaxLoop (M.size ℓ) (if ℓ = 0 then M.relaxFine else M.relaxCoarse) (M.arr ℓ .fineDelta) (M.arr ℓ .state)

variable [LT K] [DecidableLT K] [LE K] [DecidableLE K] [DecidableEq K] [Max K] [Min K]

/-- Host state during a cycle: the level and each smoother's step size (time_stepping/bdf_multigrid.cpp:109,
time_stepping/ode23_smoother.hpp:18: initially `1e-6`). -/
structure MGPos (K : Type) where
  lvl : Nat
  dts : Nat → K

/-- One entry of the cycle (time_stepping/bdf_multigrid.cpp:111-153). Leaving the range of levels is a null or
out-of-range access in the source and a failure here; entries other than `0, 1, -1` do nothing. -/
def MG.stage (M : MG A K) (dt time : K) (p : MGPos K) (s : Int) : Cmd A K (MGPos K) :=
  if s = 0 then
    if p.lvl < M.nlev then
      (doSmooth (M.size p.lvl) (M.levelRHS dt p.lvl) (M.rk p.lvl) time (p.dts p.lvl)).bind fun _ =>
        .ret ⟨p.lvl, fun i => if i = p.lvl then M.smoothDt i else p.dts i⟩
    else .fail .outOfBounds
  else if s = 1 then
    if p.lvl + 1 < M.nlev then
      (Cmd.ofHost (M.setCoarse dt p.lvl time)).bind fun _ => .ret ⟨p.lvl + 1, p.dts⟩
    else .fail .outOfBounds
  else if s = -1 then
    if 0 < p.lvl ∧ p.lvl < M.nlev then
      (Cmd.ofHost (M.correct (p.lvl - 1))).bind fun _ => .ret ⟨p.lvl - 1, p.dts⟩
    else .fail .outOfBounds
  else .ret p

/-- The loop over the entries of the cycle (time_stepping/bdf_multigrid.cpp:111-154). -/
def MG.stages (M : MG A K) (dt time : K) : List Int → MGPos K → Cmd A K (MGPos K)
  | [], p => .ret p
  | s :: ss, p => (M.stage dt time p s).bind fun p' => M.stages dt time ss p'

/-- What a time step reports: `n_cycles_to_converge_` (0 when the tolerance was not reached), the last residual norm,
and the smoothers' step sizes kept for the next step (time_stepping/bdf_multigrid.cpp:166-195). The convergence rate and
the messages are not modelled. -/
structure MGReport (K : Type) where
  cycles : Nat
  resN : K
  dts : Nat → K

/-- `convergence <= rel_tol_` with `convergence = resN / res0` (time_stepping/bdf_multigrid.cpp:168-170); with
`res0 = 0` the quotient is a NaN or an infinity and the comparison with a finite tolerance is false. -/
def mgConverged (tol res0 resN : K) : Prop := res0 ≠ 0 ∧ resN / res0 ≤ tol

instance (tol res0 resN : K) : Decidable (mgConverged tol res0 resN) := by unfold mgConverged; infer_instance

/-- The loop over cycles (time_stepping/bdf_multigrid.cpp:107-195) from cycle number `ic`, with `n` cycles left. -/
def MG.cycles (M : MG A K) (cyc : List Int) (rt : K → K) (tol res0 dt time : K) :
    Nat → Nat → K → (Nat → K) → Cmd A K (MGReport K)
  | 0, _, resN, dts => .ret ⟨0, resN, dts⟩
  | n + 1, ic, _, dts =>
    (M.stages dt time cyc ⟨0, dts⟩).bind fun p =>
    (residNorm rt M.interior (M.arr 0 .dstate)).bind fun resN =>
    if mgConverged tol res0 resN then .ret ⟨ic + 1, resN, p.dts⟩
    else M.cycles cyc rt tol res0 dt time n (ic + 1) resN p.dts

/-- `doTimeStep` and `doTimeStepCycle` (time_stepping/bdf_multigrid.cpp:58-196) with the cycle `cyc` of the constructor:
copy the state to `sol_old_`, evaluate the right-hand side there (`setSolOld`, lines 206-210), evaluate the residual and
its norm, then run at most `maxCycles` cycles. A backward Euler step of size zero divides by zero (line 226). -/
def MG.doTimeStep (M : MG A K) (cyc : List Int) (rt : K → K) (tol : K) (maxCycles : Int) (time dt : K) (dts : Nat → K) :
    Cmd A K (MGReport K) :=
  if M.unsteady = true ∧ dt = 0 then .fail .divByZero
  else
  (Cmd.ofHost (copyLoop (M.size 0) (M.arr 0 .state) (M.arr 0 .old) ++
    M.rhs 0 (M.arr 0 .old) (M.arr 0 .res0) time ++
    M.levelRHS dt 0 (M.arr 0 .state) (M.arr 0 .dstate) time)).bind fun _ =>
  (residNorm rt M.interior (M.arr 0 .dstate)).bind fun res0 =>
  M.cycles cyc rt tol res0 dt time maxCycles.toNat 0 res0 dts

end

end Madg
