/-
Stopping the time loop at a step limit and going on later from a state that agrees in what matters.
-/
import Verif.Proofs.TimeLoop

set_option linter.unusedSectionVars false

namespace Madg
variable {W K S : Type} [Field K] [LinearOrder K]

/-- What is compared at the end of a run: the part of the world that matters, iteration, time and step. -/
def LoopSt.view (π : W → S) (l : LoopSt W K) : S × Int × K × K := (π l.w, l.iter, l.time, l.dt)

/-- The calls of the loop respect a projection of the world. -/
structure Respects (E : LoopEnv W K) (π : W → S) : Prop where
  doStep : ∀ w w' t dt, π w = π w' → (E.doStep w t dt).map π = (E.doStep w' t dt).map π
  notify : ∀ w w' i t dt, π w = π w' → (E.notify w i t dt).map π = (E.notify w' i t dt).map π
  nextDT : ∀ w w' dt, π w = π w' → π (E.nextDT w dt).1 = π (E.nextDT w' dt).1 ∧ (E.nextDT w dt).2 = (E.nextDT w' dt).2

theorem map_ok {α β ε : Type} {f : α → β} {x : Except ε α} {y : Except ε α} (h : x.map f = y.map f) {a : α} (hx : x = .ok a) :
    ∃ b, y = .ok b ∧ f a = f b := by
  subst hx
  cases y with
  | error e => cases h
  | ok b => exact ⟨b, rfl, by injection h⟩

theorem map_error {α β ε : Type} {f : α → β} {x : Except ε α} {y : Except ε α} (h : x.map f = y.map f) {e : ε} (hx : x = .error e) :
    y = .error e := by
  subst hx
  cases y with
  | error e' => injection h with h; rw [h]
  | ok b => cases h

theorem nextTimestep_simple (E : LoopEnv W K) (o : TimeOpts K) (hc : o.useCfl = false) (hr : o.relTol = 0) (ha : o.absTol = 0)
    (l : LoopSt W K) : nextTimestep E o l = .ok ((E.nextDT l.w l.dt).1,
      (if o.tfinal ≤ l.time + (E.nextDT l.w l.dt).2 then o.tfinal - l.time else (E.nextDT l.w l.dt).2), (E.nextDT l.w l.dt).2,
      decide (o.tfinal ≤ l.time + (E.nextDT l.w l.dt).2), decide (o.maxSteps ≠ 0) && decide (o.maxSteps ≤ l.iter)) := by
  unfold nextTimestep relStop
  simp [hc, hr, ha]

/-- Two runs from states with the same view have the same view. -/
theorem loop_respects (E : LoopEnv W K) (π : W → S) (hE : Respects E π) (o : TimeOpts K) (hc : o.useCfl = false)
    (hr : o.relTol = 0) (ha : o.absTol = 0) : ∀ (n : Nat) (last : Bool) (l l' : LoopSt W K), l.view π = l'.view π →
      (loop E o n last l).map (Except.map (LoopSt.view π)) = (loop E o n last l').map (Except.map (LoopSt.view π)) := by
  intro n
  induction n with
  | zero => intro last l l' _; rfl
  | succ n ih =>
    intro last l l' h
    obtain ⟨w, it, t, dt, pr, st⟩ := l
    obtain ⟨w', it', t', dt', pr', st'⟩ := l'
    simp only [LoopSt.view, Prod.mk.injEq] at h
    obtain ⟨hw, rfl, rfl, rfl⟩ := h
    rw [loop, loop]
    dsimp only
    cases h1 : E.doStep w t dt with
    | error e => rw [map_error (hE.doStep w w' t dt hw) h1]
    | ok w1 =>
      obtain ⟨w1', h1', e1⟩ := map_ok (hE.doStep w w' t dt hw) h1
      rw [h1']
      dsimp only
      cases h2 : E.notify w1 (it + 1) (t + dt) dt with
      | error e => rw [map_error (hE.notify w1 w1' (it + 1) (t + dt) dt e1) h2]
      | ok w2 =>
        obtain ⟨w2', h2', e2⟩ := map_ok (hE.notify w1 w1' (it + 1) (t + dt) dt e1) h2
        rw [h2']
        dsimp only
        cases last with
        | true => simp [Except.map, LoopSt.view, e2]
        | false =>
          obtain ⟨e3, e4⟩ := hE.nextDT w2 w2' dt e2
          simp only [Bool.false_eq_true, if_false, nextTimestep_simple E o hc hr ha, e4]
          split
          · simp [Except.map, LoopSt.view, e3]
          · exact ih _ _ _ (by simp [LoopSt.view, e3])

/-- A run stopped by a step limit, not at the final time, is an initial part of the run with a larger limit. -/
theorem loop_split (E : LoopEnv W K) (o : TimeOpts K) (hc : o.useCfl = false) (hr : o.relTol = 0) (ha : o.absTol = 0)
    (n N : Int) (hn : n < N) (hn0 : 0 < n) : ∀ (f : Nat) (l lB : LoopSt W K), l.iter < n →
      loop E { o with maxSteps := n } f false l = some (.ok lB) → lB.time < o.tfinal →
      lB.time + lB.dt < o.tfinal → ∃ p, lB.iter = n ∧ ∀ k, loop E { o with maxSteps := N } (p + k) false l = loop E { o with maxSteps := N } k false lB := by
  intro f
  induction f with
  | zero => intro l lB _ h; simp [loop] at h
  | succ f ih =>
    intro l lB hl h ht0 ht
    rw [loop] at h
    cases h1 : E.doStep l.w l.time l.dt with
    | error e => rw [h1] at h; simp at h
    | ok w1 =>
      rw [h1] at h
      dsimp only at h
      cases h2 : E.notify w1 (l.iter + 1) (l.time + l.dt) l.dt with
      | error e => rw [h2] at h; simp at h
      | ok w2 =>
        rw [h2] at h
        dsimp only at h
        simp only [Bool.false_eq_true, if_false] at h
        rw [nextTimestep_simple E { o with maxSteps := n } hc hr ha] at h
        dsimp only at h
        have key : ∀ k, loop E { o with maxSteps := N } (k + 1) false l =
            loop E { o with maxSteps := N } k (decide (o.tfinal ≤ l.time + l.dt + (E.nextDT w2 l.dt).2))
              ⟨(E.nextDT w2 l.dt).1, l.iter + 1, l.time + l.dt,
                if o.tfinal ≤ l.time + l.dt + (E.nextDT w2 l.dt).2 then o.tfinal - (l.time + l.dt) else (E.nextDT w2 l.dt).2,
                (E.nextDT w2 l.dt).2, l.steps ++ [⟨l.time, l.dt, l.prop⟩]⟩ := by
          intro k
          rw [loop, h1]
          dsimp only
          rw [h2]
          dsimp only
          simp only [Bool.false_eq_true, if_false]
          rw [nextTimestep_simple E { o with maxSteps := N } hc hr ha]
          dsimp only
          rw [if_neg]
          simp only [Bool.and_eq_true, decide_eq_true_eq, not_and]
          omega
        by_cases hs : n ≤ l.iter + 1
        · rw [if_pos (by simp only [Bool.and_eq_true, decide_eq_true_eq]; omega)] at h
          simp only [Option.some.injEq, Except.ok.injEq] at h
          subst h
          dsimp only at ht0 ht ⊢
          have hlt : ¬ o.tfinal ≤ l.time + l.dt + (E.nextDT w2 l.dt).2 := by
            intro hle
            rw [if_pos hle, add_sub_cancel] at ht
            exact lt_irrefl _ ht
          refine ⟨1, by omega, fun k => ?_⟩
          rw [Nat.add_comm 1 k, key k, decide_eq_false hlt]
        · rw [if_neg (by simp only [Bool.and_eq_true, decide_eq_true_eq]; omega)] at h
          by_cases hl' : o.tfinal ≤ l.time + l.dt + (E.nextDT w2 l.dt).2
          · rw [decide_eq_true hl'] at h
            -- the last step: the limit is hit only after the final time
            cases f with
            | zero => simp [loop] at h
            | succ f =>
              exfalso
              rw [loop] at h
              dsimp only at h
              split at h
              · simp at h
              · split at h
                · simp at h
                · simp only [if_true, Option.some.injEq, Except.ok.injEq] at h
                  subst h
                  dsimp only at ht0
                  rw [if_pos hl', add_sub_cancel] at ht0
                  exact lt_irrefl _ ht0
          · rw [decide_eq_false hl'] at h
            obtain ⟨p, e1, e2⟩ := ih _ lB (by dsimp only; omega) h ht0 ht
            refine ⟨p + 1, e1, fun k => ?_⟩
            rw [show p + 1 + k = (p + k) + 1 by omega, key, decide_eq_false hl', e2]

/-- Start values are not used inside the loop. -/
theorem loop_opts (E : LoopEnv W K) (o : TimeOpts K) (t0 dt0 : K) (i : Int) : ∀ (n : Nat) (last : Bool) (l : LoopSt W K),
    loop E { o with t0 := t0, dt0 := dt0, initialStep := i } n last l = loop E o n last l := by
  intro n
  induction n with
  | zero => intro last l; rfl
  | succ n ih =>
    intro last l
    rw [loop, loop]
    have : ∀ l : LoopSt W K, nextTimestep E { o with t0 := t0, dt0 := dt0, initialStep := i } l = nextTimestep E o l := fun _ => rfl
    simp only [this, ih]

theorem except_bind_ok {ε α β : Type} {x : Except ε α} {f : α → Except ε β} {b : β} (h : x.bind f = .ok b) :
    ∃ a, x = .ok a ∧ f a = .ok b := by
  cases x with
  | error e => cases h
  | ok a => exact ⟨a, rfl, h⟩

end Madg
