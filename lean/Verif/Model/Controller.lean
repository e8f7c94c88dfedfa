/-
Step size controller of ode23: time_stepping/ode23.{hpp,cpp}.
-/
import Verif.Model.Arith
import Mathlib.Analysis.SpecialFunctions.Pow.Real

namespace Madg

/-- `PIDController` members (time_stepping/ode23.hpp:81-95): tolerances and histories, oldest first. -/
structure PID (K : Type := ℝ) where
  errtol : K
  minstep : K
  maxstep : K
  steps : List K
  errs : List K

section
variable {K : Type}

/-- Constructor (time_stepping/ode23.hpp:74-77). -/
def PID.new (errtol minstep maxstep : K) : PID K := ⟨errtol, minstep, maxstep, [], []⟩

/-- The double precision machine epsilon `2^-52` (`std::numeric_limits<double>::epsilon()`,
time_stepping/ode23.cpp:138). -/
def dblEps [Arith K] : K := 1 / 2 ^ 52

/-- The unlimited step (time_stepping/ode23.cpp:150-156) for steps `s1, s2`, errors `e0, e1, e2` (oldest first) and
current step `cur`; gains time_stepping/ode23.hpp:92, order 2 and safety 1 time_stepping/ode23.hpp:85-86. -/
def pidRaw [Arith K] [Pow K K] (tol s1 s2 e0 e1 e2 cur : K) : K :=
  let kI : K := 0.25
  let kP : K := 0.14
  let kD : K := 0.10
  let wn := s2 / s1
  let alpha := (kI + kP + kD * (2 * wn) / (1 + wn)) / 2
  let beta := (kP + 2 * wn * kD) / 2
  let gamma := kD * (2 * wn * wn) / (1 + wn) / 2
  1 * cur * (tol / e2) ^ alpha * (e1 / tol) ^ beta * (tol / e0) ^ gamma

/-- `PIDController::adaptStep` (time_stepping/ode23.cpp:135-164).  The four-element case cannot arise: the
histories have equal length, at most 3; the fall-through case `_` below stands for the (unreachable, see
`pid_inv`) shapes in which the code would index past the end of a deque. -/
def PID.adapt [Arith K] [LT K] [DecidableLT K] [Pow K K] (c : PID K) (err cur : K) : Option (PID K × K) :=
  let en := stdMax err dblEps
  if c.errs.length ≠ 3 then
    some ({ c with steps := c.steps ++ [cur], errs := c.errs ++ [en] }, cur)
  else
    match c.errs, c.steps with
    | [_, e0, e1], [_, s0, s1] =>
      let raw := pidRaw c.errtol s1 cur e0 e1 en cur
      let lim := stdMax (stdMin raw (cur * 1.1)) (cur * 0.01)
      some ({ c with steps := [s0, s1, cur], errs := [e0, e1, en] }, stdMax (stdMin lim c.maxstep) c.minstep)
    | _, _ => none

/-- A sequence of calls `adaptStep(error, step)` (time_stepping/ode23.cpp:128-132 over a run). -/
def PID.run [Arith K] [LT K] [DecidableLT K] [Pow K K] (c : PID K) : List (K × K) → Option (PID K × List K)
  | [] => some (c, [])
  | (e, s) :: l => do
    let (c1, r) ← c.adapt e s
    let (c2, rs) ← c1.run l
    pure (c2, r :: rs)

end

end Madg
