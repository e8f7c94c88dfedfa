/-
What every single execution of a run with an explicit method leaves behind, in any arithmetic.  Reductions may combine their
values in any order, so residuals, error estimates and with them the step sizes may differ between executions.
-/
import Verif.Spec.RunAny
import Verif.Model.Cmd

namespace Madg.Spec

/-- The larger of two values as a comparison decides it: the second one only if it is larger. -/
abbrev byLess {K : Type} [LT K] [DecidableLT K] : Max K := ⟨fun a b => if a < b then b else a⟩

/-- A one-step method: new state and slope from time, size and state, the error estimates that are possible, and the size proposed
after step `k` of a run with sizes `d` and error estimates `e`. -/
structure Method (K C : Type) where
  step : K → K → (C → K) → C → K
  slope : K → K → (C → K) → C → K
  err : K → K → (C → K) → K → Prop
  prop : (Nat → K) → (Nat → K) → Nat → K

section
variable {K C : Type} [Arith K]

/-- Root mean square of `x` over the cells, the squares being added in any order. -/
def Rms (rt : K → K) (cells : List C) (x : C → K) (r : K) : Prop :=
  ∃ s, Comb (· + ·) (0 :: cells.map fun c => x c ^ 2) s ∧ r = rt (s / (cells.length : K))

/-- Smallest and largest value of `u`, found by comparisons in any order beginning with `big` and `tiny`. -/
def Extremes [Max K] [Min K] (big tiny : K) (cells : List C) (u : C → K) (v : K × K × K) : Prop :=
  Comb min (big :: cells.map u) v.1 ∧ Comb max (tiny :: cells.map u) v.2.1

/-- Slope of a step of the third-order strong-stability-preserving Runge–Kutta method, operation by operation. -/
def ssprk3Slope (F : K → (C → K) → C → K) (t dt : K) (u : C → K) : C → K :=
  let k1 := F t u
  let k2 := F (t + 1 * dt) fun c => u c + dt * 1 * k1 c
  let k3 := F (t + 1 / 2 * dt) fun c => u c + dt * (1 / 4 * k1 c + 1 / 4 * k2 c)
  fun c => 1 / 6 * k1 c + 1 / 6 * k2 c + 2 / 3 * k3 c

/-- The third-order method with a fixed step size. -/
def ssprk3Method (F : K → (C → K) → C → K) : Method K C where
  step t dt u c := u c + dt * ssprk3Slope F t dt u c
  slope := ssprk3Slope F
  err _ _ _ _ := True
  prop d _ k := d k

/-- Slope of a step of the Bogacki–Shampine method for an autonomous field. -/
def bs23Slope (F : (C → K) → C → K) (dt : K) (u : C → K) : C → K :=
  let k1 := F u
  let k2 := F fun c => u c + dt * (1 / 2) * k1 c
  let k3 := F fun c => u c + dt * (0 * k1 c + 3 / 4 * k2 c)
  fun c => 2 / 9 * k1 c + 1 / 3 * k2 c + 4 / 9 * k3 c

/-- Slope of the embedded second-order method. -/
def bs23SlopeHat (F : (C → K) → C → K) (dt : K) (u : C → K) : C → K :=
  let k1 := F u
  let k2 := F fun c => u c + dt * (1 / 2) * k1 c
  let k3 := F fun c => u c + dt * (0 * k1 c + 3 / 4 * k2 c)
  let k4 := F fun c => u c + dt * bs23Slope F dt u c
  fun c => 7 / 24 * k1 c + 1 / 4 * k2 c + 1 / 3 * k3 c + 1 / 8 * k4 c

/-- The larger of `x` and `-x`. -/
def absBy [LT K] [DecidableLT K] (x : K) : K := if x < -x then -x else x

/-- `s` is the largest difference of the two slopes, found by comparisons in any order beginning with 0; `pad` further entries
outside the grid, where all slopes are 0, take part. -/
def LargestGap [LT K] [DecidableLT K] [Max K] (cells : List C) (pad : Nat) (x y : C → K) (s : K) : Prop :=
  Comb max (0 :: (cells.map (fun c => absBy (x c - y c)) ++
    List.replicate pad (absBy (2 / 9 * 0 + 1 / 3 * 0 + 4 / 9 * 0 - (7 / 24 * 0 + 1 / 4 * 0 + 1 / 3 * 0 + 1 / 8 * (0 : K)))))) s

/-- Step size suggested by the last two sizes and the last three errors (oldest first), operation by operation. -/
def pidStepAny [Pow K K] (tol s1 s2 e0 e1 e2 : K) : K :=
  let ω := s2 / s1
  1 * s2 * (tol / e2) ^ ((0.25 + 0.14 + 0.10 * (2 * ω) / (1 + ω)) / 2) * (e1 / tol) ^ ((0.14 + 2 * ω * 0.10) / 2) *
    (tol / e0) ^ (0.10 * (2 * ω * ω) / (1 + ω) / 2)

/-- Step size proposed after step `k`: unchanged for the first three steps, then the suggestion, limited by comparisons to at most
1.1 and at least 0.01 times the current size, then to at most `mx` and at least `mn`.  Errors count at least `2⁻⁵²`. -/
def proposalAny [LT K] [DecidableLT K] [Pow K K] (tol mn mx : K) (d e : Nat → K) (k : Nat) : K :=
  let hi (a b : K) := if a < b then b else a
  let lo (a b : K) := if b < a then b else a
  if k < 3 then d k
  else
    let f (i : Nat) := hi (e i) (1 / 2 ^ 52)
    hi (lo (hi (lo (pidStepAny tol (d (k - 1)) (d k) (f (k - 2)) (f (k - 1)) (f k)) (d k * 1.1)) (d k * 0.01)) mx) mn

/-- The Bogacki–Shampine method with the step size control of the program. -/
def bs23Method [LT K] [DecidableLT K] [Max K] [Pow K K] (F : (C → K) → C → K) (cells : List C) (pad : Nat) (tol mn mx : K) :
    Method K C where
  step _ dt u c := u c + dt * bs23Slope F dt u c
  slope _ := bs23Slope F
  err _ dt u e := ∃ s, LargestGap cells pad (bs23Slope F dt u) (bs23SlopeHat F dt u) s ∧ e = if 0 < dt * s then dt * s else 0
  prop := proposalAny tol mn mx

end

section
variable {A K C : Type} [DecidableEq A] [Arith K] [LT K] [DecidableLT K] [LE K] [DecidableLE K] [DecidableEq K]
attribute [local instance] byLess

/-- Every execution of the program started from the memory `m`, given `fuel` for all its steps, ends by itself and is explained by
a sequence of step sizes, residual norms, error estimates and monitored values: `N` steps of the method `M` from `u0`, stopping by
the documented rule, with the log rows and files of these values.  `R` relates a slope to its possible residual norms, `Q` a state
to its possible monitored values; `name`, `fname` are file names, `file u st` the contents of a file. -/
def RunsEach (sz : A → Int) (run : Nat → Cmd A K (RunResult K)) (m : Mem A K) (o : TimeOpts K) (lf se : Nat) (M : Method K C)
    (u0 : C → K) (R : (C → K) → K → Prop) (Q : (C → K) → K × K × K → Prop) (name fname : Int → Text)
    (file : (C → K) → Status K → VtsFile) : Prop :=
  ∀ fuel : Nat, 1 ≤ fuel → o.maxSteps ≤ o.initialStep + fuel → AllEnd sz (run fuel) m fun res _ =>
    ∃ (N : Nat) (t d p r e : Nat → K) (v : Nat → K × K × K) (u : Nat → C → K),
      Marching o.tfinal o.t0 o.dt0 t d p ∧ EndsAfter o lf t p r N ∧ u = iterates M.step t d u0 ∧
      (∀ k, k < N → M.err (t k) (d k) (u k) (e k) ∧ (¬ LastStep o.tfinal t p k → p (k + 1) = M.prop d e k)) ∧
      (∀ k, k < N → lf ∣ k → R (M.slope (t k) (d k) (u k)) (r k) ∧ Q (u (k + 1)) (v k)) ∧
      res = .done (savedFiles o.initialStep se t d name (fun k => file (u (k + 1))) N ++
        [(fname (o.initialStep + N), file (u N) (finalStatus o.initialStep o.tfinal t d p N))])
        (reportRows o.initialStep lf t d r v N)

end

end Madg.Spec
