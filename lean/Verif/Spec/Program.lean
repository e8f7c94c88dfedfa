/-
Specification vocabulary for whole runs of the program: times and step sizes, when a run ends, what it leaves behind.
-/
import Verif.Spec.Time
import Verif.Spec.RK
import Verif.Spec.Semi
import Verif.Spec.Text
import Verif.Spec.Measure
import Verif.Model.VTK
import Mathlib.Analysis.SpecialFunctions.Pow.Real

namespace Madg.Spec
variable {K : Type}

section
variable [Arith K] [LT K] [LE K] [DecidableLE K] [DecidableEq K] [Max K]

/-- Times and step sizes of a run, step `k` going from `t k` to `t (k + 1)` with size `d k`; `p (k + 1)` is the size proposed
after step `k`.  A proposal that would reach the final time `T` is replaced by what is left. -/
structure Marching (T t0 dt0 : K) (t d p : Nat → K) : Prop where
  t_zero : t 0 = t0
  d_zero : d 0 = dt0
  t_succ : ∀ k, t (k + 1) = t k + d k
  d_succ : ∀ k, d (k + 1) = if T ≤ t (k + 1) + p (k + 1) then T - t (k + 1) else p (k + 1)

/-- Step `k` is the one called for by the final time: its proposal would have reached it.  The first step is never. -/
def LastStep (T : K) (t p : Nat → K) (k : Nat) : Prop := 1 ≤ k ∧ T ≤ t k + p k

/-- The run may not go on after `N` steps. -/
def MustEnd (o : TimeOpts K) (f : Nat) (t p r : Nat → K) (N : Nat) : Prop :=
  LastStep o.tfinal t p (N - 1) ∨ StopAt o f r N

/-- The run consists of exactly `N` steps. -/
def EndsAfter (o : TimeOpts K) (f : Nat) (t p r : Nat → K) (N : Nat) : Prop :=
  1 ≤ N ∧ MustEnd o f t p r N ∧ ∀ k, 1 ≤ k → k < N → ¬ MustEnd o f t p r k

/-- The log row of step `k` (counted from 0) of a run with first iteration number `i0`; `r` are the residual norms and
`v` minimum, maximum and gradient integral. -/
def reportRow (i0 : Int) (f : Nat) (t d r : Nat → K) (v : Nat → K × K × K) (k : Nat) : List (String × K) :=
  let top := seenMax f r (k + 1)
  [("iter", ((i0 + k + 1 : Int) : K)), ("time", t (k + 1)), ("dt", d k), ("res_c", r k),
   ("abs_res", if top = 0 then 1 else r k), ("rel_res", if top = 0 then 1 else r k / top),
   ("min_c", (v k).1), ("max_c", (v k).2.1), ("grad_c_mag", (v k).2.2)]

/-- The log of `N` steps: every `f`-th step, beginning with the first. -/
def reportRows (i0 : Int) (f : Nat) (t d r : Nat → K) (v : Nat → K × K × K) (N : Nat) : List (List (String × K)) :=
  ((List.range N).filter fun k => decide (f ∣ k)).map (reportRow i0 f t d r v)

/-- The files saved during `N` steps: every `s`-th step, beginning with the first; none for `s = 0`.  `name i` and
`file k st` are name and contents. -/
def savedFiles {F : Type} (i0 : Int) (s : Nat) (t d : Nat → K) (name : Int → Text) (file : Nat → Status K → F) (N : Nat) :
    List (Text × F) :=
  ((List.range N).filter fun k => decide (s ≠ 0 ∧ s ∣ k)).map fun k : Nat =>
    (name (i0 + k + 1), file k ⟨i0 + k + 1, t (k + 1), d k⟩)

open Classical in
/-- The status reported in the file written at the end of `N` steps: after a step called for by the final time the size of
that step, otherwise the size the next step would have had. -/
noncomputable def finalStatus (i0 : Int) (T : K) (t d p : Nat → K) (N : Nat) : Status K :=
  ⟨i0 + N, t N, if LastStep T t p (N - 1) then d (N - 1) else d N⟩

end

/-! ### States, norms, files -/

section
variable [Field K] [LinearOrder K]

/-- States of a one-step method started at `u0`, step `k` taken from time `t k` with size `d k`. -/
def states {C : Type} (T : Tableau K) (F : K → (C → K) → C → K) (t d : Nat → K) (u0 : C → K) : Nat → C → K
  | 0 => u0
  | k + 1 => T.step F (t k) (d k) (states T F t d u0 k)

/-- Root mean square over the cells of a 3D grid. -/
def rms3 (rt : K → K) (ni nj nk : Int) (r : Int × Int × Int → K) : K :=
  rt (sum3 ni nj nk (fun i j k => r (i, j, k) ^ 2) / ((ni : K) * nj * nk))

/-- Root mean square over the cells of a 2D grid. -/
def rms2 (rt : K → K) (n : Int) (r : Int × Int → K) : K := rt (sum2 n n (fun i j => r (i, j) ^ 2) / ((n : K) * n))

/-- The monitored values of a 3D field: minimum (with the initial value `big` of the reduction), maximum (with `tiny`),
and on a cube the sum over the cells of the gradient magnitude times `dx²`. -/
def Monitors3 (rt : K → K) (big tiny dx : K) (ni nj nk : Int) (u : Int × Int × Int → K) (v : K × K × K) : Prop :=
  IsLeast (insert big {x | ∃ c, In3 ni nj nk c ∧ u c = x}) v.1 ∧
  IsGreatest (insert tiny {x | ∃ c, In3 ni nj nk c ∧ u c = x}) v.2.1 ∧
  (nj = ni → nk = ni → v.2.2 = sum3 ni nj nk fun i j k => gradMag3 rt dx ni nj nk (fun i j k => u (i, j, k)) i j k * dx ^ 2)

/-- The monitored values of a 2D field: minimum, maximum, integral of the gradient magnitude. -/
def Monitors2 (rt : K → K) (big tiny dx : K) (n : Int) (u : Int × Int → K) (v : K × K × K) : Prop :=
  IsLeast (insert big {x | ∃ c, In2 n c ∧ u c = x}) v.1 ∧
  IsGreatest (insert tiny {x | ∃ c, In2 n c ∧ u c = x}) v.2.1 ∧
  v.2.2 = gradInt2 rt dx n fun i j => u (i, j)

end

section
variable [Arith K]

/-- Index triples below the given bounds, first index fastest. -/
def triples (ni nj nk : Int) : List (Int × Int × Int) :=
  (irange 0 nk).flatMap fun k => (irange 0 nj).flatMap fun j => (irange 0 ni).map fun i => (i, j, k)

/-- Index pairs below the given bounds, first index fastest. -/
def pairs (ni nj : Int) : List (Int × Int) := (irange 0 nj).flatMap fun j => (irange 0 ni).map fun i => (i, j)

/-- Status report of a solution file: time and step size in short form, the step number in decimal. -/
def reportText (io : RealText K) (s : Status K) : List (Option String × Text) :=
  [(some "TimeValue", "\n".toList ++ io.short s.time ++ "\n     ".toList),
   (some "IterationValue", "\n".toList ++ showInt s.iter ++ "\n     ".toList),
   (some "TimeStepSize", "\n".toList ++ io.short s.dt ++ "\n     ".toList)]

/-- The solution file of a 3D field `u` on the grid with corner `(xb, yb, zb)` and spacing `dx`. -/
def vts3 (io : RealText K) (xb yb zb dx : K) (ni nj nk : Int) (u : Int × Int × Int → K) (s : Status K) : VtsFile where
  extent := " 0 ".toList ++ showInt ni ++ " 0 ".toList ++ showInt nj ++ " 0 ".toList ++ showInt nk
  cells := "\n".toList ++ ((triples ni nj nk).flatMap fun c => io.full (u c) ++ "\n".toList) ++ "\n    ".toList
  points := "\n".toList ++ ((triples (ni + 1) (nj + 1) (nk + 1)).flatMap fun c =>
    io.full (xb + dx * (c.1 : K)) ++ " ".toList ++ io.full (yb + dx * (c.2.1 : K)) ++ " ".toList ++
      io.full (zb + dx * (c.2.2 : K)) ++ "\n".toList) ++ "        ".toList
  fields := reportText io s

/-- The solution file of a 2D field `u`. -/
def vts2 (io : RealText K) (xb yb dx : K) (n : Int) (u : Int × Int → K) (s : Status K) : VtsFile where
  extent := " 0 ".toList ++ showInt n ++ " 0 ".toList ++ showInt n ++ " 0 ".toList ++ showInt 0
  cells := "\n".toList ++ ((pairs n n).flatMap fun c => io.full (u c) ++ "\n".toList) ++ "\n    ".toList
  points := "\n".toList ++ ((pairs (n + 1) (n + 1)).flatMap fun c =>
    io.full (xb + dx * (c.1 : K)) ++ " ".toList ++ io.full (yb + dx * (c.2 : K)) ++ " ".toList ++
      "0.0".toList ++ "\n".toList) ++ "        ".toList
  fields := reportText io s

/-- Name of a solution file: the step number with zeros in front up to the width `w`. -/
def stepName (base : Text) (w : Nat) (i : Int) : Text :=
  base ++ "_step_".toList ++ digitsN (max w (Nat.log 10 i.toNat + 1)) i.toNat ++ ".vts".toList

end

/-! ### Adaptive step sizes -/

/-- Step size suggested by the last two sizes `s1, s2` and the last three errors (oldest first). -/
noncomputable def pidStep (tol s1 s2 e0 e1 e2 : ℝ) : ℝ :=
  let ω := s2 / s1
  s2 * (tol / e2) ^ ((39 / 100 + 1 / 5 * ω / (1 + ω)) / 2) * (e1 / tol) ^ ((7 / 50 + 1 / 5 * ω) / 2) *
    (tol / e0) ^ (1 / 5 * ω ^ 2 / (1 + ω) / 2)

/-- Step size proposed after step `k` of a run with sizes `d` and error estimates `e`: unchanged for the first three steps,
then the suggestion, limited to at most 1.1 and at least 0.01 times the current size, then to at most `mx` and at least
`mn`.  Errors count at least `2⁻⁵²`. -/
noncomputable def proposal (tol mn mx : ℝ) (d e : Nat → ℝ) (k : Nat) : ℝ :=
  if k < 3 then d k
  else
    let f (i : Nat) := max (e i) (1 / 2 ^ 52)
    max (min (max (min (pidStep tol (d (k - 1)) (d k) (f (k - 2)) (f (k - 1)) (f k)) (11 / 10 * d k)) (1 / 100 * d k)) mx) mn

/-- `e` are the error estimates of an embedded pair along the states `u`: step size times the largest difference of the two
slopes, not below zero. -/
def Estimates [Field K] [LinearOrder K] {C : Type} (T : Tableau K) (F : K → (C → K) → C → K) (P : C → Prop) (t d : Nat → K) (u : Nat → C → K)
    (e : Nat → K) : Prop :=
  ∀ k, ∃ E, IsMaxAbs P (T.slope F (t k) (d k) (u k) - T.slopeHat F (t k) (d k) (u k)) E ∧ e k = max 0 (d k * E)

end Madg.Spec
