/-
Textbook explicit Runge–Kutta methods, and what a right-hand side routine has to satisfy to be integrated.
-/
import Verif.Model.Prog
import Mathlib.Algebra.Module.BigOperators
import Mathlib.Algebra.Field.Basic
import Mathlib.Algebra.Order.Field.Basic
import Mathlib.Data.Fintype.BigOperators

namespace Madg.Spec

/-- Butcher tableau of an explicit `s`-stage method with embedded weights `bh`. -/
structure Tableau (K : Type) where
  s : Nat
  a : Nat → Nat → K
  b : Nat → K
  bh : Nat → K
  c : Nat → K

namespace Tableau
variable {K V : Type} [Field K] [AddCommGroup V] [Module K V]

/-- Stage slopes `kᵢ = F(t + cᵢ dt, y + dt Σ_{j<i} aᵢⱼ kⱼ)`. -/
def stage (T : Tableau K) (F : K → V → V) (t dt : K) (y : V) (i : Nat) : V :=
  F (t + T.c i * dt) (y + dt • ∑ j : Fin i, T.a i j • stage T F t dt y j)
termination_by i
decreasing_by exact j.2

/-- The increment `Σ bᵢ kᵢ`. -/
def slope (T : Tableau K) (F : K → V → V) (t dt : K) (y : V) : V :=
  ∑ i : Fin T.s, T.b i • T.stage F t dt y i

/-- The embedded increment. -/
def slopeHat (T : Tableau K) (F : K → V → V) (t dt : K) (y : V) : V :=
  ∑ i : Fin T.s, T.bh i • T.stage F t dt y i

/-- One step. -/
def step (T : Tableau K) (F : K → V → V) (t dt : K) (y : V) : V := y + dt • T.slope F t dt y

/-- Steps of sizes `dts` from time `t`. -/
def run (T : Tableau K) (F : K → V → V) : K → List K → V → V
  | _, [], y => y
  | t, dt :: dts, y => run T F (t + dt) dts (T.step F t dt y)

end Tableau

variable {K : Type} [Field K]

/-- Gottlieb–Shu–Tadmor three-stage third-order strong-stability-preserving method. -/
def ssprk3 : Tableau K where
  s := 3
  a
    | 1, 0 => 1
    | 2, 0 => 1 / 4
    | 2, 1 => 1 / 4
    | _, _ => 0
  b
    | 0 => 1 / 6
    | 1 => 1 / 6
    | 2 => 2 / 3
    | _ => 0
  bh _ := 0
  c
    | 1 => 1
    | 2 => 1 / 2
    | _ => 0

/-- Bogacki–Shampine 3(2) pair. -/
def bs23 : Tableau K where
  s := 4
  a
    | 1, 0 => 1 / 2
    | 2, 1 => 3 / 4
    | 3, 0 => 2 / 9
    | 3, 1 => 1 / 3
    | 3, 2 => 4 / 9
    | _, _ => 0
  b
    | 0 => 2 / 9
    | 1 => 1 / 3
    | 2 => 4 / 9
    | _ => 0
  bh
    | 0 => 7 / 24
    | 1 => 1 / 4
    | 2 => 1 / 3
    | 3 => 1 / 8
    | _ => 0
  c
    | 1 => 1 / 2
    | 2 => 3 / 4
    | 3 => 1
    | _ => 0

section
variable {V : Type} [AddCommGroup V] [Module K V]

/-- Forward Euler step. -/
def euler (F : K → V → V) (t dt : K) (y : V) : V := y + dt • F t y

/-- Shu–Osher form: convex combinations of forward Euler steps. -/
def shuOsher3 (F : K → V → V) (t dt : K) (y : V) : V :=
  let u1 := euler F t dt y
  let u2 := (3 / 4 : K) • y + (1 / 4 : K) • euler F (t + dt) dt u1
  (1 / 3 : K) • y + (2 / 3 : K) • euler F (t + 1 / 2 * dt) dt u2

end

/-- A routine `rhs s r t` evaluating a right-hand side of the state array `s` at time `t` into array `r`, on
arrays of `N` elements whose interior cells `c` (those with `P c`) are stored at `loc c`:
it is safe and deterministic, its interior output is `F t` of the interior of the state, it keeps the interior of
the state, elsewhere it leaves `r` alone or zeroes it, and touches no array other than `s`, `r` and its scratch
arrays. -/
structure RhsContract {A C : Type} [DecidableEq A] (sz : A → Int) (N : Int) (scratch : A → Prop)
    (P : C → Prop) (loc : C → Int) (F : K → (C → K) → C → K) (rhs : A → A → K → Host A K) : Prop where
  range : ∀ c, P c → 0 ≤ loc c ∧ loc c < N
  interior : ∀ t u v, (∀ c, P c → u c = v c) → ∀ c, P c → F t u c = F t v c
  run : ∀ s r t m, s ≠ r → ¬ scratch s → ¬ scratch r → sz s = N → sz r = N →
    ∃ m', Det sz (rhs s r t) m m' ∧
      (∀ c, P c → m' r (loc c) = F t (fun c => m s (loc c)) c) ∧
      (∀ c, P c → m' s (loc c) = m s (loc c)) ∧
      (∀ n, (∀ c, P c → loc c ≠ n) → m' r n = m r n ∨ m' r n = 0) ∧
      (∀ b, b ≠ s → b ≠ r → ¬ scratch b → m' b = m b)

/-- The same for a routine that relies on a condition `I` on its scratch arrays, which it keeps. -/
structure RhsOn {A C K : Type} [Zero K] [DecidableEq A] (I : Mem A K → Prop) (sz : A → Int) (N : Int) (scratch : A → Prop)
    (P : C → Prop) (loc : C → Int) (F : K → (C → K) → C → K) (rhs : A → A → K → Host A K) : Prop where
  range : ∀ c, P c → 0 ≤ loc c ∧ loc c < N
  interior : ∀ t u v, (∀ c, P c → u c = v c) → ∀ c, P c → F t u c = F t v c
  stable : ∀ m m', (∀ b, scratch b → m' b = m b) → I m → I m'
  run : ∀ s r t m, I m → s ≠ r → ¬ scratch s → ¬ scratch r → sz s = N → sz r = N →
    ∃ m', Det sz (rhs s r t) m m' ∧
      (∀ c, P c → m' r (loc c) = F t (fun c => m s (loc c)) c) ∧
      (∀ c, P c → m' s (loc c) = m s (loc c)) ∧
      (∀ n, (∀ c, P c → loc c ≠ n) → m' r n = m r n ∨ m' r n = 0) ∧
      (∀ b, b ≠ s → b ≠ r → ¬ scratch b → m' b = m b) ∧ I m'

end Madg.Spec
