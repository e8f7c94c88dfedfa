/-
What multigrid needs from its right-hand sides and grid transfers, and what its schedule should be.
-/
import Verif.Spec.RK

namespace Madg.Spec

/-! ### Schedules -/

/-- The stages of a schedule with the level on which each is performed, starting on level `ℓ`; `1` moves one level
down (coarser), `-1` one level up. -/
def visits : Int → List Int → List (Int × Int)
  | _, [] => []
  | ℓ, s :: ss => (ℓ, s) :: visits (ℓ + s) ss

/-- A V-cycle over `d + 1` levels with `n` smoothing passes before and after each transfer. -/
def vCycle (n : Nat) : Nat → List Int
  | 0 => List.replicate n 0 ++ List.replicate n 0
  | d + 1 => List.replicate n 0 ++ [1] ++ vCycle n d ++ [-1] ++ List.replicate n 0

/-! ### Contracts -/

section
variable {A C K : Type} [DecidableEq A] [Field K]

/-- The arrays that `fx` gives a content have that content. -/
def Holds (fx : A → Option (Int → K)) (m : Mem A K) : Prop := ∀ a v, fx a = some v → m a = v

/-- A right-hand side routine for an autonomous problem `F` on a padded array of size `N`, when the data arrays hold `fx`: it
overwrites the interior of `r` by `F` of the interior of `s`, makes the whole of `s` the extension `H` of its interior, and
touches nothing else but its scratch arrays. -/
structure FillRhs (sz : A → Int) (N : Int) (scratch : A → Prop) (fx : A → Option (Int → K)) (P : C → Prop) (loc : C → Int)
    (F : (C → K) → C → K) (H : (C → K) → Int → K) (rhs : A → A → K → Host A K) : Prop where
  range : ∀ c, P c → 0 ≤ loc c ∧ loc c < N
  interior : ∀ u v, (∀ c, P c → u c = v c) → ∀ c, P c → F u c = F v c
  fill : ∀ u v, (∀ c, P c → u c = v c) → ∀ n, 0 ≤ n → n < N → H u n = H v n
  keep : ∀ u c, P c → H u (loc c) = u c
  run : ∀ s r t m, Holds fx m → s ≠ r → ¬ scratch s → ¬ scratch r → fx s = none → fx r = none → sz s = N → sz r = N →
    ∃ m', Det sz (rhs s r t) m m' ∧
      (∀ c, P c → m' r (loc c) = F (fun c => m s (loc c)) c) ∧
      (∀ n, 0 ≤ n → n < N → m' s n = H (fun c => m s (loc c)) n) ∧
      (∀ b, b ≠ s → b ≠ r → ¬ scratch b → m' b = m b)

/-- A transfer routine from arrays of size `N` to arrays of size `N'`: the cells `Q'` of the target become `T` of the
source cells `Q`; the other cells of the target and all other arrays are unchanged; zero goes to zero. -/
structure Transfer (sz : A → Int) (N N' : Int) (Q Q' : Int → Prop) (T : (Int → K) → Int → K)
    (op : A → A → Host A K) : Prop where
  reads : ∀ u v, (∀ n, Q n → u n = v n) → ∀ n, Q' n → T u n = T v n
  zero : ∀ u, (∀ n, Q n → u n = 0) → ∀ n, Q' n → T u n = 0
  run : ∀ s r m, s ≠ r → sz s = N → sz r = N' →
    ∃ m', Det sz (op s r) m m' ∧ (∀ n, Q' n → m' r n = T (m s) n) ∧ (∀ n, ¬ Q' n → m' r n = m r n) ∧
      (∀ b, b ≠ r → m' b = m b)

end

end Madg.Spec
