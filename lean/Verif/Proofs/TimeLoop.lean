/-
Invariant rules for the time loop.
-/
import Verif.Model.Monitor

namespace Madg
variable {W K : Type} [Arith K] [LinearOrder K]

/-- State after the step and the notifications. -/
def LoopSt.after (l : LoopSt W K) (w : W) : LoopSt W K :=
  { w := w, iter := l.iter + 1, time := l.time + l.dt, dt := l.dt, prop := l.prop,
    steps := l.steps ++ [⟨l.time, l.dt, l.prop⟩] }

/-- State after the next step size has been chosen. -/
def LoopSt.chosen (l : LoopSt W K) (r : W × K × K × Bool × Bool) : LoopSt W K :=
  { l with w := r.1, dt := r.2.1, prop := r.2.2.1 }

/-- Partial correctness rule. -/
theorem loop_inv (E : LoopEnv W K) (o : TimeOpts K) (I : Bool → LoopSt W K → Prop) (Q : LoopSt W K → Prop)
    (hlast : ∀ l w1 w2, I true l → E.doStep l.w l.time l.dt = .ok w1 →
      E.notify w1 (l.iter + 1) (l.time + l.dt) l.dt = .ok w2 → Q (l.after w2))
    (hnext : ∀ l w1 w2 r, I false l → E.doStep l.w l.time l.dt = .ok w1 →
      E.notify w1 (l.iter + 1) (l.time + l.dt) l.dt = .ok w2 → nextTimestep E o (l.after w2) = .ok r →
      if r.2.2.2.2 then Q ((l.after w2).chosen r) else I r.2.2.2.1 ((l.after w2).chosen r)) :
    ∀ n last l l', I last l → loop E o n last l = some (.ok l') → Q l' := by
  intro n
  induction n with
  | zero => intro last l l' _ h; simp [loop] at h
  | succ n ih =>
    intro last l l' hI h
    rw [loop] at h
    cases h1 : E.doStep l.w l.time l.dt with
    | error e => rw [h1] at h; simp at h
    | ok w1 =>
      rw [h1] at h
      dsimp only at h
      cases h2 : E.notify w1 (l.iter + 1) (l.time + l.dt) l.dt with
      | error e => rw [h2] at h; simp at h
      | ok w2 =>
        rw [h2] at h
        dsimp only at h
        cases last with
        | true =>
          simp only [if_true, Option.some.injEq, Except.ok.injEq] at h
          rw [← h]
          exact hlast l w1 w2 hI h1 h2
        | false =>
          simp only [Bool.false_eq_true, if_false] at h
          cases h3 : nextTimestep E o (l.after w2) with
          | error e =>
            unfold LoopSt.after at h3
            rw [h3] at h; simp at h
          | ok r =>
            have := hnext l w1 w2 r hI h1 h2 h3
            unfold LoopSt.after at h3
            rw [h3] at h
            obtain ⟨w3, dt, prop, last', stop⟩ := r
            dsimp only at h
            cases stop with
            | true =>
              simp only [if_true, Option.some.injEq, Except.ok.injEq] at h
              simp only [if_true] at this
              rw [← h]; exact this
            | false =>
              simp only [Bool.false_eq_true, if_false] at h this
              exact ih last' _ l' this h

/-- Rule for "no error". -/
theorem loop_no_error (E : LoopEnv W K) (o : TimeOpts K) (I : Bool → LoopSt W K → Prop)
    (hstep : ∀ last l, I last l → ∃ w1 w2, E.doStep l.w l.time l.dt = .ok w1 ∧
      E.notify w1 (l.iter + 1) (l.time + l.dt) l.dt = .ok w2 ∧
      (last = false → ∃ r, nextTimestep E o (l.after w2) = .ok r ∧ (r.2.2.2.2 = false →
        I r.2.2.2.1 ((l.after w2).chosen r)))) :
    ∀ n last l e, I last l → loop E o n last l ≠ some (.error e) := by
  intro n
  induction n with
  | zero => intro last l e _ h; simp [loop] at h
  | succ n ih =>
    intro last l e hI h
    obtain ⟨w1, w2, h1, h2, h3⟩ := hstep last l hI
    rw [loop, h1] at h
    dsimp only at h
    rw [h2] at h
    dsimp only at h
    cases last with
    | true => simp at h
    | false =>
      obtain ⟨r, h3, h4⟩ := h3 rfl
      unfold LoopSt.after at h3
      simp only [Bool.false_eq_true, if_false] at h
      rw [h3] at h
      obtain ⟨w3, dt, prop, last', stop⟩ := r
      cases stop with
      | true => simp at h
      | false =>
        simp only [Bool.false_eq_true, if_false] at h
        exact ih last' _ e (h4 rfl) h

/-- Rule for termination: a measure bounded by the fuel. -/
theorem loop_terminates (E : LoopEnv W K) (o : TimeOpts K) (I : Nat → Bool → LoopSt W K → Prop)
    (hzero : ∀ last l, ¬ I 0 last l)
    (hstep : ∀ n l w1 w2 r, I (n + 1) false l → E.doStep l.w l.time l.dt = .ok w1 →
      E.notify w1 (l.iter + 1) (l.time + l.dt) l.dt = .ok w2 → nextTimestep E o (l.after w2) = .ok r →
      r.2.2.2.2 = false → I n r.2.2.2.1 ((l.after w2).chosen r)) :
    ∀ n last l, I n last l → loop E o n last l ≠ none := by
  intro n
  induction n with
  | zero => intro last l hI; exact absurd hI (hzero last l)
  | succ n ih =>
    intro last l hI h
    rw [loop] at h
    cases h1 : E.doStep l.w l.time l.dt with
    | error e => rw [h1] at h; simp at h
    | ok w1 =>
      rw [h1] at h
      dsimp only at h
      cases h2 : E.notify w1 (l.iter + 1) (l.time + l.dt) l.dt with
      | error e => rw [h2] at h; simp at h
      | ok w2 =>
        rw [h2] at h
        dsimp only at h
        cases last with
        | true => simp at h
        | false =>
          simp only [Bool.false_eq_true, if_false] at h
          cases h3 : nextTimestep E o (l.after w2) with
          | error e =>
            unfold LoopSt.after at h3
            rw [h3] at h; simp at h
          | ok r =>
            have := hstep n l w1 w2 r hI h1 h2 h3
            unfold LoopSt.after at h3
            rw [h3] at h
            obtain ⟨w3, dt, prop, last', stop⟩ := r
            dsimp only at h
            cases stop with
            | true => simp at h
            | false =>
              simp only [Bool.false_eq_true, if_false] at h
              exact ih last' _ (this rfl) h

omit [Arith K] [LinearOrder K] in
theorem findMon_eq (l : List (String × K)) (name : String) : findMon l name = l.lookup name := by
  induction l with
  | nil => rfl
  | cons kv l ih =>
    obtain ⟨k, v⟩ := kv
    unfold findMon at *
    rw [List.find?_cons, List.lookup_cons]
    by_cases h : k = name
    · subst h; simp
    · have h' : (name == k) = false := by simpa using fun e => h e.symm
      simp only [h, decide_false, h']
      exact ih

/-- What `computeNextTimestep` returns. -/
theorem nextTimestep_ok {E : LoopEnv W K} {o : TimeOpts K} {l : LoopSt W K} {r : W × K × K × Bool × Bool}
    (h : nextTimestep E o l = .ok r) :
    r.1 = (E.nextDT l.w l.dt).1 ∧ r.2.2.1 = (E.nextDT l.w l.dt).2 ∧
    ((r.2.2.2.1 = true ∧ o.tfinal ≤ l.time + r.2.2.1 ∧ r.2.1 = o.tfinal - l.time) ∨
     (r.2.2.2.1 = false ∧ l.time + r.2.2.1 < o.tfinal ∧ r.2.1 = r.2.2.1)) ∧
    (r.2.2.2.2 = true ↔ (o.maxSteps ≠ 0 ∧ o.maxSteps ≤ l.iter) ∨
      (o.relTol ≠ 0 ∧ ∃ v, findMon (E.resmon r.1) "rel_res" = some v ∧ v < o.relTol) ∨
      (o.absTol ≠ 0 ∧ ∃ kv rest, E.resmon r.1 = kv :: rest ∧ kv.2 < o.absTol)) := by
  unfold nextTimestep at h
  simp only at h
  have hrel : ∀ w, (relStop o.relTol (E.resmon w) = true) ↔
      (o.relTol ≠ 0 ∧ ∃ v, findMon (E.resmon w) "rel_res" = some v ∧ v < o.relTol) := by
    intro w
    unfold relStop
    by_cases hr : o.relTol ≠ 0
    · rw [if_pos hr]
      cases findMon (E.resmon w) "rel_res" <;> simp [hr]
    · rw [if_neg hr]; simp [hr]
  have hlast : ∀ prop : K, (decide (o.tfinal ≤ l.time + prop) = true ∧ o.tfinal ≤ l.time + prop ∧
      (if decide (o.tfinal ≤ l.time + prop) = true then o.tfinal - l.time else prop) = o.tfinal - l.time) ∨
     (decide (o.tfinal ≤ l.time + prop) = false ∧ l.time + prop < o.tfinal ∧
      (if decide (o.tfinal ≤ l.time + prop) = true then o.tfinal - l.time else prop) = prop) := by
    intro prop
    by_cases hp : o.tfinal ≤ l.time + prop
    · left; simp [hp]
    · right; simp [hp]; exact lt_of_not_ge hp
  split at h
  · simp at h
  · by_cases ha : o.absTol ≠ 0
    · rw [if_pos ha] at h
      cases hm : E.resmon (E.nextDT l.w l.dt).1 with
      | nil => rw [hm] at h; simp at h
      | cons kv rest =>
        rw [hm] at h
        simp only [Except.ok.injEq] at h
        rw [← hm] at h
        rw [← h]
        refine ⟨rfl, rfl, hlast _, ?_⟩
        dsimp only
        rw [Bool.or_eq_true, Bool.or_eq_true, hrel, Bool.and_eq_true, decide_eq_true_iff, decide_eq_true_iff,
          decide_eq_true_iff, or_assoc]
        constructor
        · rintro (h | h | h)
          · exact Or.inl h
          · exact Or.inr (Or.inl h)
          · exact Or.inr (Or.inr ⟨ha, kv, rest, hm, h⟩)
        · rintro (h | h | ⟨-, kv', rest', h, h'⟩)
          · exact Or.inl h
          · exact Or.inr (Or.inl h)
          · rw [hm, List.cons.injEq] at h
            rw [← h.1] at h'
            exact Or.inr (Or.inr h')
    · rw [if_neg ha] at h
      simp only [Except.ok.injEq] at h
      rw [← h]
      refine ⟨rfl, rfl, hlast _, ?_⟩
      dsimp only
      rw [Bool.or_eq_true, hrel, Bool.and_eq_true, decide_eq_true_iff, decide_eq_true_iff]
      constructor
      · rintro (h | h)
        · exact Or.inl h
        · exact Or.inr (Or.inl h)
      · rintro (h | h | h)
        · exact Or.inl h
        · exact Or.inr h
        · exact absurd h.1 ha

end Madg
