/-
C75: the profile printed at the end of a run.
-/
import Verif.Proofs.Profiler

set_option linter.unusedSectionVars false

namespace Madg
open Spec
variable {K : Type} [Field K] [LinearOrder K] [IsStrictOrderedRing K]

/-- C75. The functions that appear in the profile are those that were entered, each once, and the number of calls is how often
they were entered, finished or not. -/
theorem C75_calls (es : List (TimerEv K)) (s : Timers K) (h : (⟨[], []⟩ : Timers K).run es = .ok s) :
    (s.profiles.map (·.1)).Nodup ∧
    ∀ name, (∀ v, entry s.profiles name = some v → v.ncalls = entered name es) ∧
      (entry s.profiles name = none → entered name es = 0) := by
  refine ⟨(run_facts "" es _ s 0 h).2.2.2 List.nodup_nil, fun name => ?_⟩
  have c := (run_facts name es _ s 0 h).2.1
  have z : callsOf ([] : Profiles K) name = 0 := rfl
  rw [z, zero_add] at c
  unfold callsOf at c
  constructor
  · intro v hv; rw [hv] at c; simpa using c
  · intro hv; rw [hv] at c; simpa using c.symm

/-- C75. The time recorded for a function, together with the time for which its unfinished calls have been running, is the integral
over time of the number of its activations: time in which the function is being executed by itself or by functions it calls, counted
once for each activation. -/
theorem C75_time (es : List (TimerEv K)) (s : Timers K) (h : (⟨[], []⟩ : Timers K).run es = .ok s) (t : K) (name : String) :
    ((entry s.profiles name).map (·.total)).getD 0 +
        (s.stack.map fun p => if p.1 = name then lastTime t es - p.2 else 0).sum = spent name [] t es := by
  have := (run_facts name es _ s t h).1
  have z : timeOf ([] : Profiles K) name = 0 := rfl
  rw [z, zero_add] at this
  have o : openTime name t ([] : List (String × K)) = 0 := rfl
  rw [o, zero_add] at this
  exact this

/-- C75. If the clock does not go back, recorded times are not negative, and a function that does not call itself, even indirectly,
is charged at most the time that has passed. -/
theorem C75_bounded (es : List (TimerEv K)) (s : Timers K) (h : (⟨[], []⟩ : Timers K).run es = .ok s) (t : K) (hc : ClockOk t es)
    (name : String) (v : FunctionProfile K) (hv : entry s.profiles name = some v) :
    0 ≤ v.total ∧ (NotRecursive name [] es → v.total ≤ lastTime t es - t) := by
  have e : timeOf s.profiles name = v.total := by unfold timeOf; rw [hv]; rfl
  refine ⟨?_, fun hn => ?_⟩
  · rw [← e]
    exact timeOf_nonneg name es _ s t h hc (by simp) le_rfl
  · have a := (run_facts name es _ s t h).1
    have z : timeOf ([] : Profiles K) name = 0 := rfl
    have o : openTime name t ([] : List (String × K)) = 0 := rfl
    rw [z, o, zero_add, zero_add, e] at a
    have b := (spent_le name es [] t hc hn (by simp)).1
    have c := openTime_nonneg (name := name) (stack_past es _ s t h hc (by simp))
    have : spent name (List.map (·.1) ([] : List (String × K))) t es = spent name [] t es := rfl
    rw [this] at a
    linarith

/-- C75. A function that calls itself can be charged more than the time that has passed. -/
theorem C75_recursive_counts_twice : ∃ (es : List (TimerEv ℚ)) (s : Timers ℚ) (v : FunctionProfile ℚ),
    (⟨[], []⟩ : Timers ℚ).run es = .ok s ∧ ClockOk 0 es ∧ s.stack = [] ∧ entry s.profiles "f" = some v ∧
      lastTime 0 es - 0 < v.total := by
  refine ⟨[.enter "f" 0, .enter "f" 1, .leave 9, .leave 10], _, _, rfl, ?_, rfl, rfl, ?_⟩
  · unfold ClockOk; norm_num [ClockOk]
  · norm_num [lastTime]

/-- C75. The table has one row for each entry of the profile, in descending order. If some time was recorded, the percentages are
those of the largest time: between 0 and 100, with a first row of 100. If no time was recorded, no percentage is a number. -/
theorem C75_table (ps : Profiles K) (h0 : ∀ p ∈ ps, 0 ≤ p.2.total) (rows : List (ProfReport K)) (h : Finalizes ps rows) :
    (rows.map fun r => (r.name, r.ncalls, r.time)).Perm (ps.map fun p => (p.1, p.2.ncalls, p.2.total)) ∧
    ((∃ p ∈ ps, 0 < p.2.total) → ∃ mx, (∃ p ∈ ps, p.2.total = mx) ∧ (∀ p ∈ ps, p.2.total ≤ mx) ∧ 0 < mx ∧
      (∀ r ∈ rows, r.percentage = some (r.time / mx * 100) ∧ 0 ≤ r.time / mx * 100 ∧ r.time / mx * 100 ≤ 100) ∧
      rows.Pairwise (fun a b => b.time ≤ a.time) ∧ (rows.head?.bind (·.percentage)) = some 100) ∧
    ((∀ p ∈ ps, p.2.total = 0) → ∀ r ∈ rows, r.percentage = none) := by
  obtain ⟨hp, hs⟩ := h
  obtain ⟨m1, m2, m3⟩ := maxTime_spec ps
  refine ⟨?_, ?_, ?_⟩
  · have := hp.map fun r => (r.name, r.ncalls, r.time)
    refine this.trans (List.Perm.of_eq ?_)
    unfold Profiles.reports
    rw [List.map_map]; rfl
  · rintro ⟨p, hpm, hp0⟩
    have mpos : 0 < ps.maxTime := lt_of_lt_of_le hp0 (m1 p hpm)
    have mx : ∃ p ∈ ps, p.2.total = ps.maxTime := m3.resolve_left mpos.ne'
    have rows_mem : ∀ r ∈ rows, ∃ p ∈ ps, r = ⟨p.1, p.2.ncalls, p.2.total, some (p.2.total / ps.maxTime * 100)⟩ := by
      intro r hr
      have := hp.mem_iff.1 hr
      unfold Profiles.reports at this
      obtain ⟨p, hp, rfl⟩ := List.mem_map.1 this
      exact ⟨p, hp, by rw [if_neg mpos.ne']⟩
    have pct : ∀ r ∈ rows, r.percentage = some (r.time / ps.maxTime * 100) ∧ 0 ≤ r.time / ps.maxTime * 100 ∧
        r.time / ps.maxTime * 100 ≤ 100 := by
      intro r hr
      obtain ⟨p, hp, rfl⟩ := rows_mem r hr
      have a := h0 p hp
      refine ⟨rfl, by dsimp only; positivity, ?_⟩
      have : p.2.total / ps.maxTime ≤ 1 := (div_le_one mpos).2 (m1 p hp)
      dsimp only; linarith
    have sorted : rows.Pairwise (fun a b => b.time ≤ a.time) := by
      refine List.Pairwise.imp_of_mem ?_ hs
      intro a b ha hb hab
      unfold ProfReport.before at hab
      rw [(pct a ha).1, (pct b hb).1] at hab
      simp only [decide_eq_false_iff_not, not_lt] at hab
      have : b.time / ps.maxTime ≤ a.time / ps.maxTime := by linarith
      exact (div_le_div_iff_of_pos_right mpos).1 this
    refine ⟨ps.maxTime, mx, m1, mpos, pct, sorted, ?_⟩
    obtain ⟨q, hq, hqm⟩ := mx
    have hqr : (⟨q.1, q.2.ncalls, q.2.total, some (q.2.total / ps.maxTime * 100)⟩ : ProfReport K) ∈ rows := by
      refine hp.mem_iff.2 ?_
      unfold Profiles.reports
      exact List.mem_map.2 ⟨q, hq, by rw [if_neg mpos.ne']⟩
    cases rows with
    | nil => cases hqr
    | cons r rows =>
      have hr := pct r (List.mem_cons_self ..)
      show r.percentage = some 100
      have le : ps.maxTime ≤ r.time := by
        rcases List.mem_cons.1 hqr with e | hm
        · rw [← e]; exact hqm.ge
        · have := (List.pairwise_cons.1 sorted).1 _ hm
          dsimp only at this; rw [hqm] at this; exact this
      obtain ⟨p, hp', e⟩ := rows_mem r (List.mem_cons_self ..)
      have ge : r.time ≤ ps.maxTime := by rw [e]; exact m1 p hp'
      rw [hr.1, le_antisymm ge le, div_self mpos.ne', one_mul]
  · intro hz r hr
    have : ps.maxTime = 0 := by
      rcases m3 with h | ⟨p, hp, h⟩
      · exact h
      · rw [← h, hz p hp]
    have hm := hp.mem_iff.1 hr
    unfold Profiles.reports at hm
    obtain ⟨p, -, rfl⟩ := List.mem_map.1 hm
    rw [if_pos this]

/-- C75. The program prints its profile from within the outermost profiled function, so that function is shown with one call and
no time at all, whatever happened during the run. -/
theorem C75_outermost_shows_zero (name : String) (t0 : K) (es : List (TimerEv K)) (hn : entered name es = 0) (s : Timers K)
    (h : (⟨[], []⟩ : Timers K).run (.enter name t0 :: es) = .ok s) (hs : s.stack = [(name, t0)]) :
    ∃ v, entry s.profiles name = some v ∧ v.ncalls = 1 ∧ v.total = 0 := by
  have c := (run_facts name _ _ s 0 h).2.1
  have z : callsOf ([] : Profiles K) name = 0 := rfl
  simp only [entered, hn] at c
  rw [z] at c
  have o := outer_zero name t0 es ⟨Profiles.tic [] name, [(name, t0)]⟩ s h hn
    (Or.inl ⟨⟨[], rfl, by simp⟩, by rw [timeOf_tic]; rfl⟩)
  rcases o with ⟨-, o⟩ | o
  · unfold callsOf at c
    unfold timeOf at o
    cases e : entry s.profiles name with
    | none => rw [e] at c; simp at c
    | some v => rw [e] at c o; exact ⟨v, rfl, by simpa using c, by simpa using o⟩
  · rw [hs] at o; simp at o

/-! ### A case: `run` calls `solve`, which calls `step` twice -/

/-- Events of a small run, up to the moment its profile is printed. -/
def profDemo : List (TimerEv ℚ) :=
  [.enter "run" 0, .enter "solve" 1, .enter "step" 1, .leave 3, .enter "step" 4, .leave 5, .leave 9]

example : ∃ s, (⟨[], []⟩ : Timers ℚ).run profDemo = .ok s ∧ s.stack = [("run", 0)] ∧
    s.profiles = [("run", ⟨1, 0⟩), ("solve", ⟨1, 8⟩), ("step", ⟨2, 3⟩)] ∧
    ClockOk 0 profDemo ∧ NotRecursive "step" [] profDemo ∧ spent "step" [] 0 profDemo = 3 ∧
    Finalizes s.profiles [⟨"solve", 1, 8, some 100⟩, ⟨"step", 2, 3, some (75 / 2)⟩, ⟨"run", 1, 0, some 0⟩] := by
  have e : (⟨[], []⟩ : Timers ℚ).run profDemo =
      .ok ⟨[("run", ⟨1, 0⟩), ("solve", ⟨1, 8⟩), ("step", ⟨2, 3⟩)], [("run", 0)]⟩ := by
    simp [Timers.run, Timers.step, profDemo, Profiles.tic, Profiles.toc, Profiles.upd, Except.bind]
    norm_num
  refine ⟨_, e, rfl, rfl, ?_, ?_, ?_, ?_, ?_⟩
  · norm_num [ClockOk, profDemo]
  · simp [NotRecursive, profDemo]
  · have a : ¬ "run" = "step" := by decide
    have b : ¬ "solve" = "step" := by decide
    norm_num [spent, profDemo, List.count_cons, List.count_nil, a, b]
  · have : Profiles.reports [("run", (⟨1, 0⟩ : FunctionProfile ℚ)), ("solve", ⟨1, 8⟩), ("step", ⟨2, 3⟩)] =
        [⟨"run", 1, 0, some 0⟩, ⟨"solve", 1, 8, some 100⟩, ⟨"step", 2, 3, some (75 / 2)⟩] := by
      norm_num [Profiles.reports, Profiles.maxTime]
    rw [this]
    exact (List.perm_middle (l₁ := [_, _]) (l₂ := [])).trans (by simp)
  · norm_num [ProfReport.before]

end Madg
