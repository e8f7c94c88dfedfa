/-
Lemmas on the profiler.
-/
import Verif.Spec.Profiler
import Mathlib.Tactic.Ring
import Mathlib.Tactic.Linarith
import Mathlib.Tactic.LinearCombination
import Mathlib.Algebra.Order.BigOperators.Group.List

set_option linter.unusedSectionVars false

namespace Madg
open Spec
variable {K : Type} [Field K]

/-- Time recorded for a name. -/
def timeOf (ps : Profiles K) (name : String) : K := ((entry ps name).map (·.total)).getD 0
/-- Calls recorded for a name. -/
def callsOf (ps : Profiles K) (name : String) : Int := ((entry ps name).map (·.ncalls)).getD 0

theorem entry_upd (ps : Profiles K) (n name : String) (f : FunctionProfile K → FunctionProfile K) :
    entry (ps.upd n f) name = if n = name then some (f ((entry ps name).getD ⟨0, 0⟩)) else entry ps name := by
  induction ps with
  | nil =>
    by_cases h : n = name <;> simp [Profiles.upd, entry, h]
  | cons p ps ih =>
    obtain ⟨k, v⟩ := p
    unfold Profiles.upd
    by_cases hk : k = n
    · subst hk
      rw [if_pos rfl]
      by_cases h : k = name
      · simp [entry, h]
      · simp [entry, h]
    · rw [if_neg hk]
      by_cases h : k = name
      · subst h
        have : ¬ n = k := fun e => hk e.symm
        simp [entry, this]
      · have e1 : entry ((k, v) :: Profiles.upd n f ps) name = entry (Profiles.upd n f ps) name := by simp [entry, h]
        have e2 : entry ((k, v) :: ps) name = entry ps name := by simp [entry, h]
        rw [e1, e2, ih]

theorem keys_upd (ps : Profiles K) (n : String) (f : FunctionProfile K → FunctionProfile K) :
    ((ps.upd n f).map (·.1)) = if n ∈ ps.map (·.1) then ps.map (·.1) else ps.map (·.1) ++ [n] := by
  induction ps with
  | nil => simp [Profiles.upd]
  | cons p ps ih =>
    obtain ⟨k, v⟩ := p
    unfold Profiles.upd
    by_cases hk : k = n
    · subst hk; simp
    · have : ¬ n = k := fun e => hk e.symm
      rw [if_neg hk, List.map_cons, ih]
      simp only [List.map_cons, List.mem_cons, this, false_or]
      split <;> simp

theorem nodup_upd {ps : Profiles K} (n : String) (f : FunctionProfile K → FunctionProfile K) (h : (ps.map (·.1)).Nodup) :
    ((ps.upd n f).map (·.1)).Nodup := by
  rw [keys_upd]
  split
  · exact h
  · rename_i hn
    rw [List.nodup_append]
    exact ⟨h, by simp, by intro a ha b hb e; simp at hb; subst hb; exact hn (e ▸ ha)⟩

theorem mem_entry {ps : Profiles K} (h : (ps.map (·.1)).Nodup) {n : String} {v : FunctionProfile K} : (n, v) ∈ ps ↔ entry ps n = some v := by
  induction ps with
  | nil => simp [entry]
  | cons p ps ih =>
    obtain ⟨k, w⟩ := p
    simp only [List.map_cons, List.nodup_cons] at h
    by_cases hk : k = n
    · subst hk
      have e : entry ((k, w) :: ps) k = some w := by simp [entry]
      rw [e]
      constructor
      · intro hm
        rcases List.mem_cons.1 hm with e | hm
        · cases e; rfl
        · exact absurd (List.mem_map_of_mem (f := (·.1)) hm) h.1
      · intro e; cases e; exact List.mem_cons_self ..
    · have e : entry ((k, w) :: ps) n = entry ps n := by simp [entry, hk]
      rw [e, ← ih h.2]
      have : ¬ ((n, v) = (k, w)) := by intro e; cases e; exact hk rfl
      simp only [List.mem_cons, this, false_or]

theorem timeOf_tic (ps : Profiles K) (n name : String) : timeOf (ps.tic n) name = timeOf ps name := by
  unfold timeOf Profiles.tic
  rw [entry_upd]
  split
  · rename_i h
    cases e : entry ps name <;> simp
  · rfl

theorem timeOf_toc (ps : Profiles K) (n name : String) (x : K) :
    timeOf (ps.toc n x) name = timeOf ps name + if n = name then x else 0 := by
  unfold timeOf Profiles.toc
  rw [entry_upd]
  split
  · cases e : entry ps name <;> simp
  · simp

theorem callsOf_tic (ps : Profiles K) (n name : String) : callsOf (ps.tic n) name = callsOf ps name + if n = name then 1 else 0 := by
  unfold callsOf Profiles.tic
  rw [entry_upd]
  split
  · cases e : entry ps name <;> simp
  · simp

theorem callsOf_toc (ps : Profiles K) (n name : String) (x : K) : callsOf (ps.toc n x) name = callsOf ps name := by
  unfold callsOf Profiles.toc
  rw [entry_upd]
  split
  · cases e : entry ps name <;> simp
  · simp

/-- Time for which the timers now alive have been running. -/
def openTime (name : String) (now : K) (st : List (String × K)) : K := (st.map fun p => if p.1 = name then now - p.2 else 0).sum

theorem openTime_later (name : String) (a b : K) (st : List (String × K)) :
    openTime name b st = openTime name a st + (b - a) * ((st.map (·.1)).count name : K) := by
  induction st with
  | nil => simp [openTime]
  | cons p st ih =>
    unfold openTime at *
    simp only [List.map_cons, List.sum_cons, ih, List.count_cons]
    by_cases h : p.1 = name <;> simp [h] <;> ring

/-- Facts about a sequence of events. -/
theorem run_facts (name : String) (es : List (TimerEv K)) : ∀ (s s' : Timers K) (t : K), s.run es = .ok s' →
    timeOf s'.profiles name + openTime name (lastTime t es) s'.stack =
      timeOf s.profiles name + openTime name t s.stack + spent name (s.stack.map (·.1)) t es ∧
    callsOf s'.profiles name = callsOf s.profiles name + entered name es ∧
    s'.stack.map (·.1) = active (s.stack.map (·.1)) es ∧
    ((s.profiles.map (·.1)).Nodup → (s'.profiles.map (·.1)).Nodup) := by
  induction es with
  | nil =>
    intro s s' t h
    cases h
    simp [spent, lastTime, entered, active]
  | cons e es ih =>
    intro s s' t h
    cases e with
    | enter n now =>
      obtain ⟨a, b, c, d⟩ := ih _ s' now h
      simp only [spent, lastTime, entered, active]
      refine ⟨?_, ?_, c, fun hn => d (nodup_upd _ _ hn)⟩
      · rw [a, timeOf_tic, List.map_cons]
        have : openTime name now ((n, now) :: s.stack) = openTime name now s.stack := by
          unfold openTime; by_cases h : n = name <;> simp [h]
        rw [this, openTime_later name t now]; ring
      · rw [b, callsOf_tic]; push_cast; ring
    | leave now =>
      rcases s with ⟨ps, _ | ⟨⟨n, start⟩, st⟩⟩
      · cases h
      · obtain ⟨a, b, c, d⟩ := ih _ s' now h
        simp only [spent, lastTime, entered, active, List.map_cons, List.tail_cons]
        refine ⟨?_, ?_, c, fun hn => d (nodup_upd _ _ hn)⟩
        · rw [a, timeOf_toc]
          have e := openTime_later name t now ((n, start) :: st)
          have o : openTime name now ((n, start) :: st) = (if n = name then now - start else 0) + openTime name now st := by
            unfold openTime; simp
          rw [o] at e
          simp only [List.map_cons] at e
          linear_combination e
        · rw [b, callsOf_toc]

variable [LinearOrder K] [IsStrictOrderedRing K]

theorem spent_le (name : String) (es : List (TimerEv K)) : ∀ (st : List String) (t : K), ClockOk t es → NotRecursive name st es →
    st.count name ≤ 1 → spent name st t es ≤ lastTime t es - t ∧ 0 ≤ spent name st t es := by
  induction es with
  | nil => intro st t _ _ _; simp [spent, lastTime]
  | cons e es ih =>
    intro st t hc hn h1
    have c0 : (0 : K) ≤ (st.count name : K) := Nat.cast_nonneg _
    have c1 : (st.count name : K) ≤ 1 := by exact_mod_cast h1
    cases e with
    | enter n now =>
      have h' : (n :: st).count name ≤ 1 := by
        rw [List.count_cons]
        by_cases h : n = name
        · have := List.count_eq_zero.2 (hn.1 h)
          simp [h, this]
        · simp [h]; exact h1
      obtain ⟨a, b⟩ := ih (n :: st) now hc.2 hn.2 h'
      have := hc.1
      simp only [spent, lastTime]
      constructor <;> nlinarith
    | leave now =>
      have h' : st.tail.count name ≤ 1 := (List.Sublist.count_le _ (List.tail_sublist _)).trans h1
      obtain ⟨a, b⟩ := ih st.tail now hc.2 hn h'
      have := hc.1
      simp only [spent, lastTime]
      constructor <;> nlinarith

theorem openTime_nonneg {name : String} {now : K} {st : List (String × K)} (h : ∀ p ∈ st, p.2 ≤ now) : 0 ≤ openTime name now st := by
  unfold openTime
  refine List.sum_nonneg ?_
  intro x hx
  obtain ⟨p, hp, rfl⟩ := List.mem_map.1 hx
  split
  · linarith [h p hp]
  · exact le_rfl

theorem stack_past (es : List (TimerEv K)) : ∀ (s s' : Timers K) (t : K), s.run es = .ok s' → ClockOk t es →
    (∀ p ∈ s.stack, p.2 ≤ t) → ∀ p ∈ s'.stack, p.2 ≤ lastTime t es := by
  induction es with
  | nil => intro s s' t h _ hs; cases h; exact hs
  | cons e es ih =>
    intro s s' t h hc hs
    cases e with
    | enter n now =>
      refine ih _ s' now h hc.2 ?_
      intro p hp
      rcases List.mem_cons.1 hp with rfl | hp
      · exact le_rfl
      · exact (hs p hp).trans hc.1
    | leave now =>
      rcases s with ⟨ps, _ | ⟨⟨n, start⟩, st⟩⟩
      · cases h
      · exact ih _ s' now h hc.2 fun p hp => (hs p (List.mem_cons_of_mem _ hp)).trans hc.1

theorem timeOf_nonneg (name : String) (es : List (TimerEv K)) : ∀ (s s' : Timers K) (t : K), s.run es = .ok s' → ClockOk t es →
    (∀ p ∈ s.stack, p.2 ≤ t) → 0 ≤ timeOf s.profiles name → 0 ≤ timeOf s'.profiles name := by
  induction es with
  | nil => intro s s' t h _ _ h0; cases h; exact h0
  | cons e es ih =>
    intro s s' t h hc hs h0
    cases e with
    | enter n now =>
      refine ih _ s' now h hc.2 ?_ (by rw [timeOf_tic]; exact h0)
      intro p hp
      rcases List.mem_cons.1 hp with rfl | hp
      · exact le_rfl
      · exact (hs p hp).trans hc.1
    | leave now =>
      rcases s with ⟨ps, _ | ⟨⟨n, start⟩, st⟩⟩
      · cases h
      · refine ih _ s' now h hc.2 (fun p hp => (hs p (List.mem_cons_of_mem _ hp)).trans hc.1) ?_
        rw [timeOf_toc]
        have := hs _ (List.mem_cons_self ..)
        have := hc.1
        dsimp only at *
        split <;> linarith

/-- While the outermost function runs, nothing is recorded for it. -/
theorem outer_zero (name : String) (t0 : K) (es : List (TimerEv K)) : ∀ (s s' : Timers K), s.run es = .ok s' → entered name es = 0 →
    ((∃ st, s.stack = st ++ [(name, t0)] ∧ name ∉ st.map (·.1)) ∧ timeOf s.profiles name = 0 ∨ name ∉ s.stack.map (·.1)) →
    ((∃ st, s'.stack = st ++ [(name, t0)] ∧ name ∉ st.map (·.1)) ∧ timeOf s'.profiles name = 0 ∨ name ∉ s'.stack.map (·.1)) := by
  induction es with
  | nil => intro s s' h _ hs; cases h; exact hs
  | cons e es ih =>
    intro s s' h h0 hs
    cases e with
    | enter n now =>
      simp only [entered, Nat.add_eq_zero_iff] at h0
      have hn : n ≠ name := by rintro rfl; simp at h0
      refine ih _ s' h h0.2 ?_
      rcases hs with ⟨⟨st, e, ht⟩, hz⟩ | hs
      · exact Or.inl ⟨⟨(n, now) :: st, by simp [e], by simp [ht, hn.symm]⟩, by rw [timeOf_tic]; exact hz⟩
      · exact Or.inr (by
          simp only [List.map_cons, List.mem_cons, not_or]
          exact ⟨hn.symm, hs⟩)
    | leave now =>
      rcases s with ⟨ps, _ | ⟨⟨n, start⟩, st⟩⟩
      · cases h
      · refine ih _ s' h h0 ?_
        rcases hs with ⟨⟨st', e, ht⟩, hz⟩ | hs
        · cases st' with
          | nil =>
            simp only [List.nil_append, List.cons.injEq, Prod.mk.injEq] at e
            exact Or.inr (by simp [e.2])
          | cons q st' =>
            simp only [List.cons_append, List.cons.injEq] at e
            have hq : n ≠ name := by
              intro h; apply ht; rw [← e.1]; simp [h]
            refine Or.inl ⟨⟨st', e.2, fun h => ht (by simp [h])⟩, ?_⟩
            rw [timeOf_toc, if_neg hq, add_zero]; exact hz
        · exact Or.inr (by
            simp only [List.map_cons, List.mem_cons, not_or] at hs
            exact hs.2)

theorem maxTime_spec (ps : Profiles K) : (∀ p ∈ ps, p.2.total ≤ ps.maxTime) ∧ 0 ≤ ps.maxTime ∧
    (ps.maxTime = 0 ∨ ∃ p ∈ ps, p.2.total = ps.maxTime) := by
  have key : ∀ (ps : Profiles K) (m : K), m ≤ ps.foldl (fun m p => max m p.2.total) m ∧
      (∀ p ∈ ps, p.2.total ≤ ps.foldl (fun m p => max m p.2.total) m) ∧
      (ps.foldl (fun m p => max m p.2.total) m = m ∨ ∃ p ∈ ps, p.2.total = ps.foldl (fun m p => max m p.2.total) m) := by
    intro ps
    induction ps with
    | nil => intro m; simp
    | cons p ps ih =>
      intro m
      obtain ⟨a, b, c⟩ := ih (max m p.2.total)
      simp only [List.foldl_cons]
      refine ⟨(le_max_left _ _).trans a, ?_, ?_⟩
      · intro q hq
        rcases List.mem_cons.1 hq with rfl | hq
        · exact (le_max_right _ _).trans a
        · exact b q hq
      · rcases c with c | ⟨q, hq, c⟩
        · rcases max_choice m p.2.total with h | h
          · left; rw [c, h]
          · right; exact ⟨p, List.mem_cons_self .., by rw [c, h]⟩
        · exact Or.inr ⟨q, List.mem_cons_of_mem _ hq, c⟩
  obtain ⟨a, b, c⟩ := key ps 0
  exact ⟨b, a, c⟩

end Madg
