/-
What a run leaves behind when the arithmetic rounds, so that sums depend on the order in which they are formed.
-/
import Verif.Spec.Run

namespace Madg.Spec
variable {A K : Type} [Arith K] [LT K] [DecidableLT K] [LE K] [DecidableLE K] [DecidableEq K] [Max K] [Min K]

/-- The log row of step `k` (counted from 0) of a run with first iteration number `i0`: number, time and size of the step, three
residual values, then the smallest and the largest cell value, of which `Q k` holds, and the gradient integral. -/
def RowOf (i0 : Int) (t d : Nat → K) (Q : Nat → K → K → Prop) (k : Nat) (row : List (String × K)) : Prop :=
  ∃ a b c lo hi g, Q k lo hi ∧ row =
    [("iter", ((i0 + k + 1 : Int) : K)), ("time", t (k + 1)), ("dt", d k), ("res_c", a), ("abs_res", b), ("rel_res", c),
     ("min_c", lo), ("max_c", hi), ("grad_c_mag", g)]

/-- The log of `N` steps: every `f`-th step, beginning with the first. -/
def LogOf (i0 : Int) (f : Nat) (t d : Nat → K) (Q : Nat → K → K → Prop) (N : Nat) (rows : List (List (String × K))) : Prop :=
  List.Forall₂ (RowOf i0 t d Q) ((List.range N).filter fun k => decide (f ∣ k)) rows

/-- There are executions, and in every one of them the routine ends normally with a result of which `P` holds. -/
def AllEnd {α : Type} [DecidableEq A] (sz : A → Int) (c : Cmd A K α) (m : Mem A K) (P : α → Mem A K → Prop) : Prop :=
  (∃ r, CmdOut sz c m r) ∧ ∀ r, CmdOut sz c m r → ∃ x m', r = .ok (x, m') ∧ P x m'

/-- Every execution of a program without convergence tolerances, started from the memory `m`, takes the same steps and leaves the
same files; the parameters are those of `RunsAs`. -/
def RunsAny [DecidableEq A] (sz : A → Int) (run : Nat → Cmd A K (RunResult K))
    (m : Mem A K) (o : TimeOpts K) (lf se : Nat) (t d p : Nat → K) (Q : Nat → K → K → Prop) (name fname : Int → Text)
    (file : Nat → Status K → VtsFile) : Prop :=
  ∃ N, EndsAfter o lf t p (fun _ => 0) N ∧
    (∀ fuel, N ≤ fuel → AllEnd sz (run fuel) m fun r _ => ∃ rows, LogOf o.initialStep lf t d Q N rows ∧ r = .done
      (savedFiles o.initialStep se t d name file N ++
        [(fname (o.initialStep + N), file (N - 1) (finalStatus o.initialStep o.tfinal t d p N))]) rows) ∧
    (∀ fuel, fuel < N → AllEnd sz (run fuel) m fun r _ => r = .outOfFuel)

/-- Smallest and largest value of a 3D field, taken together with the values `big` and `tiny` from which the search starts. -/
def Range3 (big tiny : K) (ni nj nk : Int) (u : Int × Int × Int → K) (lo hi : K) : Prop :=
  IsLeast (insert big {x | ∃ c, In3 ni nj nk c ∧ u c = x}) lo ∧ IsGreatest (insert tiny {x | ∃ c, In3 ni nj nk c ∧ u c = x}) hi

/-- One step of the third-order strong-stability-preserving Runge–Kutta method, operation by operation. -/
def ssprk3Step {C : Type} (F : K → (C → K) → C → K) (t dt : K) (u : C → K) : C → K :=
  let k1 := F t u
  let k2 := F (t + 1 * dt) fun c => u c + dt * 1 * k1 c
  let k3 := F (t + 1 / 2 * dt) fun c => u c + dt * (1 / 4 * k1 c + 1 / 4 * k2 c)
  fun c => u c + dt * (1 / 6 * k1 c + 1 / 6 * k2 c + 2 / 3 * k3 c)

/-- States of a one-step method with step map `Φ`, step `k` taken from time `t k` with size `d k`. -/
def iterates {C : Type} (Φ : K → K → (C → K) → C → K) (t d : Nat → K) (u0 : C → K) : Nat → C → K
  | 0 => u0
  | k + 1 => Φ (t k) (d k) (iterates Φ t d u0 k)

end Madg.Spec
