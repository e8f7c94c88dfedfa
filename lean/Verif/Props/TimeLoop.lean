/-
Time loop (C41–C43).
-/
import Verif.Proofs.TimeLoop
import Verif.Spec.Time
import Mathlib.Algebra.Order.Archimedean.Basic
import Mathlib.Algebra.Order.Ring.Rat
import Mathlib.Tactic.NormNum
import Mathlib.Tactic.Linarith

set_option linter.unusedSectionVars false

namespace Madg
open Spec
variable {W K : Type} [Field K] [LinearOrder K] [IsStrictOrderedRing K]

theorem consecutive_append_any {K : Type} [Add K] {t t' : K} {l : List (StepRec K)} (h : Consecutive t l t') (s : StepRec K)
    (hs : s.t = t') : Consecutive t (l ++ [s]) (t' + s.dt) := by
  induction l generalizing t with
  | nil => simp only [Consecutive] at h; subst h; exact ⟨hs, rfl⟩
  | cons x l ih => exact ⟨h.1, ih h.2⟩

theorem consecutive_append {t t' : K} {l : List (StepRec K)} (h : Consecutive t l t') (s : StepRec K)
    (hs : s.t = t') : Consecutive t (l ++ [s]) (t' + s.dt) := by
  induction l generalizing t with
  | nil => simp only [Consecutive] at h; subst h; exact ⟨hs, rfl⟩
  | cons x l ih => exact ⟨h.1, ih h.2⟩

theorem consecutive_sorted {t t' : K} {l : List (StepRec K)} (h : Consecutive t l t') (hp : ∀ s ∈ l, 0 < s.dt) :
    l.Pairwise (fun a b => a.t < b.t) ∧ (∀ s ∈ l, t ≤ s.t) := by
  induction l generalizing t with
  | nil => simp
  | cons x l ih =>
    obtain ⟨h1, h2⟩ := ih h.2 fun s hs => hp s (List.mem_cons_of_mem _ hs)
    have hx := hp x List.mem_cons_self
    have hxt := h.1
    refine ⟨List.pairwise_cons.2 ⟨fun s hs => ?_, h1⟩, fun s hs => ?_⟩
    · have := h2 s hs; linarith
    · rcases List.mem_cons.1 hs with rfl | hs
      · exact hxt.ge
      · have := h2 s hs; linarith

section
variable (E : LoopEnv W K) (o : TimeOpts K) (hdt : 0 < o.dt0)
  (hpos : ∀ w dt, 0 < dt → 0 < (E.nextDT w dt).2)
include hdt hpos

/-! ### C41 -/

/-- For every integrator with positive proposals and whatever stops the run: if the first step does not overshoot,
time never exceeds the final time, the executed steps are positive and follow one another from the initial time,
every step is at most what was proposed and only the last one can be smaller. -/
theorem C41_never_beyond (h0 : o.t0 + o.dt0 < o.tfinal) (fuel : Nat) (w : W) (l : LoopSt W K)
    (h : solve E o fuel w = some (.ok l)) :
    l.time ≤ o.tfinal ∧ Consecutive o.t0 l.steps l.time ∧ l.steps.Pairwise (fun a b => a.t < b.t) ∧
    (∀ s ∈ l.steps, 0 < s.dt ∧ s.dt ≤ s.prop) ∧ (∀ s ∈ l.steps.dropLast, s.dt = s.prop) ∧
    l.iter = o.initialStep + l.steps.length ∧
    (o.maxSteps = 0 → o.relTol = 0 → o.absTol = 0 → l.time = o.tfinal) := by
  unfold solve at h
  split at h
  · simp at h
  · have key := loop_inv E o
      (fun last l => 0 < l.dt ∧ l.dt ≤ l.prop ∧ (last = true → l.time + l.dt = o.tfinal) ∧
        (last = false → l.time + l.dt < o.tfinal ∧ l.dt = l.prop) ∧ Consecutive o.t0 l.steps l.time ∧
        (∀ s ∈ l.steps, 0 < s.dt ∧ s.dt = s.prop) ∧ l.iter = o.initialStep + l.steps.length)
      (fun l => l.time ≤ o.tfinal ∧ Consecutive o.t0 l.steps l.time ∧
        (∀ s ∈ l.steps, 0 < s.dt ∧ s.dt ≤ s.prop) ∧ (∀ s ∈ l.steps.dropLast, s.dt = s.prop) ∧
        l.iter = o.initialStep + l.steps.length ∧
        (o.maxSteps = 0 → o.relTol = 0 → o.absTol = 0 → l.time = o.tfinal)) ?_ ?_ fuel false _ l ?_ h
    · obtain ⟨k1, k2, k3, k4, k5, k6⟩ := key
      exact ⟨k1, k2, (consecutive_sorted k2 fun s hs => (k3 s hs).1).1, k3, k4, k5, k6⟩
    · rintro l w1 w2 ⟨i1, i2, i3, -, i5, i6, i7⟩ - -
      refine ⟨(i3 rfl).le, consecutive_append i5 _ rfl, ?_, ?_, ?_, fun _ _ _ => i3 rfl⟩
      · intro s hs
        simp only [LoopSt.after, List.mem_append, List.mem_singleton] at hs
        rcases hs with hs | rfl
        · exact ⟨(i6 s hs).1, (i6 s hs).2.le⟩
        · exact ⟨i1, i2⟩
      · intro s hs
        simp only [LoopSt.after, List.dropLast_concat] at hs
        exact (i6 s hs).2
      · simp only [LoopSt.after, List.length_append, List.length_singleton, i7]; push_cast; ring
    · rintro l w1 w2 r ⟨i1, i2, -, i4, i5, i6, i7⟩ - - h3
      obtain ⟨r1, r2, r3, r4⟩ := nextTimestep_ok h3
      obtain ⟨i4, i4'⟩ := i4 rfl
      have hprop : 0 < r.2.2.1 := by rw [r2]; exact hpos _ _ i1
      have hst : ∀ s ∈ (l.after w2).steps, 0 < s.dt ∧ s.dt = s.prop := by
        intro s hs
        simp only [LoopSt.after, List.mem_append, List.mem_singleton] at hs
        rcases hs with hs | rfl
        · exact i6 s hs
        · exact ⟨i1, i4'⟩
      have hco : Consecutive o.t0 (l.after w2).steps (l.after w2).time := consecutive_append i5 _ rfl
      have hit : (l.after w2).iter = o.initialStep + (l.after w2).steps.length := by
        simp only [LoopSt.after, List.length_append, List.length_singleton, i7]; push_cast; ring
      have htime : (l.after w2).time < o.tfinal := i4
      split
      · rename_i hstop
        refine ⟨htime.le, hco, fun s hs => ⟨(hst s hs).1, (hst s hs).2.le⟩,
          fun s hs => (hst s (List.dropLast_subset _ hs)).2, hit, fun a b c => ?_⟩
        rcases r4.1 hstop with h | h | h
        · exact absurd a h.1
        · exact absurd b h.1
        · exact absurd c h.1
      · refine ⟨?_, ?_, ?_, ?_, hco, hst, hit⟩
        · rcases r3 with ⟨-, a, b⟩ | ⟨-, a, b⟩
          · simp only [LoopSt.chosen, b]; linarith
          · simp only [LoopSt.chosen, b]; exact hprop
        · rcases r3 with ⟨-, a, b⟩ | ⟨-, a, b⟩
          · simp only [LoopSt.chosen, b]; linarith
          · simp only [LoopSt.chosen, b]; exact le_rfl
        · rcases r3 with ⟨a, -, b⟩ | ⟨a, -, -⟩
          · intro _; simp only [LoopSt.chosen, b]; ring
          · intro h; rw [a] at h; exact absurd h (by decide)
        · rcases r3 with ⟨a, -, -⟩ | ⟨-, a, b⟩
          · intro h; rw [a] at h; exact absurd h (by decide)
          · intro _; simp only [LoopSt.chosen, b]; exact ⟨a, trivial⟩
    · exact ⟨hdt, le_rfl, by simp, fun _ => ⟨h0, rfl⟩, rfl, by simp, by simp⟩

/-- With no step limit and no tolerances, a run that ends, ends exactly at the final time. -/
theorem C41_lands_on_final_time (h0 : o.t0 + o.dt0 < o.tfinal) (hm : o.maxSteps = 0) (hr : o.relTol = 0)
    (ha : o.absTol = 0) (fuel : Nat) (w : W) (l : LoopSt W K) (h : solve E o fuel w = some (.ok l)) :
    l.time = o.tfinal :=
  (C41_never_beyond E o hdt hpos h0 fuel w l h).2.2.2.2.2.2 hm hr ha

/-! ### C42 -/

/-- If the first step overshoots the final time and no limit or tolerance stops the run, exactly one more step is
taken, backwards, onto the final time. -/
theorem C42_overshoot_steps_back (h0 : o.tfinal < o.t0 + o.dt0) (hm : o.maxSteps = 0) (hr : o.relTol = 0)
    (ha : o.absTol = 0) (fuel : Nat) (w : W) (l : LoopSt W K) (h : solve E o fuel w = some (.ok l)) :
    l.steps.map (fun s => (s.t, s.dt)) =
      [(o.t0, o.dt0), (o.t0 + o.dt0, o.tfinal - (o.t0 + o.dt0))] ∧ o.tfinal - (o.t0 + o.dt0) < 0 ∧
    l.time = o.tfinal := by
  unfold solve at h
  split at h
  · simp at h
  · refine loop_inv E o
      (fun last l => (last = false → l.steps = [] ∧ l.time = o.t0 ∧ l.dt = o.dt0) ∧
        (last = true → l.steps.map (fun s => (s.t, s.dt)) = [(o.t0, o.dt0)] ∧ l.time = o.t0 + o.dt0 ∧
          l.dt = o.tfinal - (o.t0 + o.dt0)))
      (fun l => l.steps.map (fun s => (s.t, s.dt)) =
        [(o.t0, o.dt0), (o.t0 + o.dt0, o.tfinal - (o.t0 + o.dt0))] ∧ o.tfinal - (o.t0 + o.dt0) < 0 ∧
        l.time = o.tfinal) ?_ ?_ fuel false _ l ?_ h
    · rintro l w1 w2 ⟨-, i⟩ - -
      obtain ⟨i1, i2, i3⟩ := i rfl
      refine ⟨?_, by linarith, ?_⟩
      · simp [LoopSt.after, i1, i2, i3]
      · simp [LoopSt.after, i2, i3]
    · rintro l w1 w2 r ⟨i, -⟩ - - h3
      obtain ⟨i1, i2, i3⟩ := i rfl
      obtain ⟨r1, r2, r3, r4⟩ := nextTimestep_ok h3
      have hprop : 0 < r.2.2.1 := by rw [r2]; exact hpos _ _ (by simp only [LoopSt.after, i3]; exact hdt)
      split
      · rename_i hstop
        rcases r4.1 hstop with h | h | h
        · exact absurd hm h.1
        · exact absurd hr h.1
        · exact absurd ha h.1
      · rcases r3 with ⟨a, b, c⟩ | ⟨-, b, c⟩
        · refine ⟨fun h => ?_, fun _ => ⟨?_, ?_, ?_⟩⟩
          · rw [a] at h; exact absurd h (by decide)
          · simp [LoopSt.chosen, LoopSt.after, i1, i2, i3]
          · simp [LoopSt.chosen, LoopSt.after, i2, i3]
          · simp [LoopSt.chosen, c, LoopSt.after, i2, i3]
        · simp only [LoopSt.after, i2, i3] at b
          linarith
    · exact ⟨fun _ => ⟨rfl, rfl, rfl⟩, by simp⟩

end

/-- For all options and integrators: a run that ends has executed at least one step, the first one from the initial
time with the unclipped initial step size; and the iteration counter has advanced by the number of steps. -/
theorem C42_first_step_unclipped (E : LoopEnv W K) (o : TimeOpts K) (fuel : Nat) (w : W) (l : LoopSt W K)
    (h : solve E o fuel w = some (.ok l)) :
    (∃ rest, l.steps = ⟨o.t0, o.dt0, o.dt0⟩ :: rest) ∧ l.iter = o.initialStep + l.steps.length := by
  unfold solve at h
  split at h
  · simp at h
  · refine loop_inv E o
      (fun last l => ((∃ rest, l.steps = ⟨o.t0, o.dt0, o.dt0⟩ :: rest) ∨
        (l.steps = [] ∧ l.time = o.t0 ∧ l.dt = o.dt0 ∧ l.prop = o.dt0)) ∧
        l.iter = o.initialStep + l.steps.length)
      (fun l => (∃ rest, l.steps = ⟨o.t0, o.dt0, o.dt0⟩ :: rest) ∧ l.iter = o.initialStep + l.steps.length)
      ?_ ?_ fuel false _ l ⟨Or.inr ⟨rfl, rfl, rfl, rfl⟩, by simp⟩ h
    · rintro l w1 w2 ⟨i, it⟩ - -
      refine ⟨?_, ?_⟩
      · rcases i with ⟨rest, i⟩ | ⟨i1, i2, i3, i4⟩
        · exact ⟨rest ++ [⟨l.time, l.dt, l.prop⟩], by simp [LoopSt.after, i]⟩
        · exact ⟨[], by simp [LoopSt.after, i1, i2, i3, i4]⟩
      · simp only [LoopSt.after, List.length_append, List.length_singleton, it]; push_cast; ring
    · rintro l w1 w2 r ⟨i, it⟩ - - -
      have h1 : ∃ rest, ((l.after w2).chosen r).steps = ⟨o.t0, o.dt0, o.dt0⟩ :: rest := by
        rcases i with ⟨rest, i⟩ | ⟨i1, i2, i3, i4⟩
        · exact ⟨rest ++ [⟨l.time, l.dt, l.prop⟩], by simp [LoopSt.chosen, LoopSt.after, i]⟩
        · exact ⟨[], by simp [LoopSt.chosen, LoopSt.after, i1, i2, i3, i4]⟩
      have h2 : ((l.after w2).chosen r).iter = o.initialStep + ((l.after w2).chosen r).steps.length := by
        simp only [LoopSt.chosen, LoopSt.after, List.length_append, List.length_singleton, it]; push_cast; ring
      split
      · exact ⟨h1, h2⟩
      · exact ⟨Or.inl h1, h2⟩

/-- A run whose step limit is already reached or one below the start takes exactly one step. -/
theorem C42_limit_reached_still_steps (E : LoopEnv W K) (o : TimeOpts K) (hm : o.maxSteps ≠ 0)
    (hi : o.maxSteps ≤ o.initialStep + 1) (fuel : Nat) (w : W) (l : LoopSt W K)
    (h : solve E o fuel w = some (.ok l)) : l.steps.length = 1 ∧ l.iter = o.initialStep + 1 := by
  have hx := (C42_first_step_unclipped E o fuel w l h).2
  suffices hs : l.steps.length = 1 from ⟨hs, by rw [hx, hs]; rfl⟩
  unfold solve at h
  split at h
  · simp at h
  · refine loop_inv E o
      (fun last l => last = false ∧ l.steps = [] ∧ l.iter = o.initialStep)
      (fun l => l.steps.length = 1)
      ?_ ?_ fuel false _ l ⟨rfl, rfl, rfl⟩ h
    · rintro l w1 w2 ⟨i, -⟩; simp at i
    · rintro l w1 w2 r ⟨-, i, it⟩ - - h3
      obtain ⟨r1, r2, r3, r4⟩ := nextTimestep_ok h3
      rw [if_pos (r4.2 (Or.inl ⟨hm, by simp only [LoopSt.after, it]; exact hi⟩))]
      simp [LoopSt.chosen, LoopSt.after, i]

/-- Step limits from `2^31` on (legal values of the unsigned option) become negative and stop a run from step 0
after one step. -/
theorem C42_huge_limit_stops (E : LoopEnv W K) (o : TimeOpts K) (n : Nat) (hn : 2 ^ 31 ≤ n) (hn' : n < 2 ^ 32)
    (hm : o.maxSteps = maxStepsOfOption n) (hi : 0 ≤ o.initialStep) (fuel : Nat) (w : W) (l : LoopSt W K)
    (h : solve E o fuel w = some (.ok l)) : l.steps.length = 1 := by
  have : maxStepsOfOption n < 0 := by
    unfold maxStepsOfOption
    rw [BitVec.toInt_eq_toNat_cond, BitVec.toNat_ofNat, Nat.mod_eq_of_lt hn']
    split <;> omega
  exact (C42_limit_reached_still_steps E o (by omega) (by omega) fuel w l h).1

/-! ### C43 -/

/-- A non-zero step limit bounds the run, for every right-hand side and every sequence of proposals: it terminates
within `max 1 (maxSteps - initialStep)` steps. -/
theorem C43_step_limit_terminates (E : LoopEnv W K) (o : TimeOpts K) (hm : o.maxSteps ≠ 0) (w : W) :
    solve E o (max 1 (o.maxSteps - o.initialStep)).toNat w ≠ none := by
  unfold solve
  split
  · simp
  · refine loop_terminates E o (fun n last l => 1 ≤ n ∧ (last = false → o.maxSteps - l.iter ≤ n)) ?_ ?_ _ false _ ?_
    · rintro last l ⟨h, -⟩; omega
    · rintro n l w1 w2 r ⟨-, hb⟩ - - h3 hs
      obtain ⟨-, -, -, r4⟩ := nextTimestep_ok h3
      have hno : ¬ (o.maxSteps ≠ 0 ∧ o.maxSteps ≤ (l.after w2).iter) := fun h => by
        rw [r4.2 (Or.inl h)] at hs; exact absurd hs (by decide)
      have hlt : (l.after w2).iter < o.maxSteps := by
        by_contra hc; exact hno ⟨hm, by omega⟩
      have := hb rfl
      have hit : (l.after w2).iter = l.iter + 1 := rfl
      have hit' : ((l.after w2).chosen r).iter = l.iter + 1 := rfl
      refine ⟨by push_cast at this; omega, fun _ => ?_⟩
      rw [hit']; push_cast at this; omega
    · refine ⟨by omega, fun _ => ?_⟩
      simp only; omega

/-- The number of executed steps is at most the fuel; with `C43_step_limit_terminates` this is the bound
`max 1 (maxSteps - initialStep)`. -/
theorem C43_step_count (E : LoopEnv W K) (o : TimeOpts K) (hm : o.maxSteps ≠ 0) (fuel : Nat) (w : W)
    (l : LoopSt W K) (h : solve E o fuel w = some (.ok l)) :
    (l.steps.length : Int) ≤ max 1 (o.maxSteps - o.initialStep) := by
  unfold solve at h
  split at h
  · simp at h
  · refine loop_inv E o
      (fun last l => l.iter = o.initialStep + l.steps.length ∧
        (l.steps = [] ∨ l.iter < o.maxSteps))
      (fun l => (l.steps.length : Int) ≤ max 1 (o.maxSteps - o.initialStep))
      ?_ ?_ fuel false _ l ⟨by simp, Or.inl rfl⟩ h
    · rintro l w1 w2 ⟨i, hl⟩ - -
      simp only [LoopSt.after, List.length_append, List.length_singleton]
      rcases hl with hl | hl
      · rw [hl]; simp
      · push_cast; omega
    · rintro l w1 w2 r ⟨i, hl⟩ - - h3
      obtain ⟨-, -, -, r4⟩ := nextTimestep_ok h3
      have hlen : (((l.after w2).chosen r).steps.length : Int) = l.steps.length + 1 := by
        simp [LoopSt.chosen, LoopSt.after]
      have hit : ((l.after w2).chosen r).iter = l.iter + 1 := rfl
      split
      · rw [hlen]
        rcases hl with hl | hl
        · rw [hl]; simp
        · omega
      · rename_i hs
        have hno : ¬ (o.maxSteps ≠ 0 ∧ o.maxSteps ≤ (l.after w2).iter) := fun h => hs (r4.2 (Or.inl h))
        refine ⟨by rw [hlen, hit, i]; ring, Or.inr ?_⟩
        by_contra hc
        rw [hit] at hc
        exact hno ⟨hm, by simp only [LoopSt.after]; omega⟩

/-- Proposals that stay at or above a positive `dtmin` bound the run: with `n * dtmin` covering the time left after
the first step, it ends within `n + 2` steps. -/
theorem C43_min_step_terminates (E : LoopEnv W K) (o : TimeOpts K) (dtmin : K) (hd : 0 < dtmin)
    (h0 : dtmin ≤ o.dt0) (hmin : ∀ w dt, dtmin ≤ dt → dtmin ≤ (E.nextDT w dt).2) (n : Nat)
    (hn : o.tfinal - (o.t0 + o.dt0) ≤ n * dtmin) (w : W) : solve E o (n + 2) w ≠ none := by
  unfold solve
  split
  · simp
  · refine loop_terminates E o (fun n last l => 1 ≤ n ∧ (last = false →
      2 ≤ n ∧ dtmin ≤ l.dt ∧ o.tfinal - (l.time + l.dt) ≤ ((n - 2 : Nat) : K) * dtmin)) ?_ ?_ _ false _ ?_
    · rintro last l ⟨h, -⟩; omega
    · rintro n l w1 w2 r ⟨-, hb⟩ - - h3 hs
      obtain ⟨b1, b2, b3⟩ := hb rfl
      obtain ⟨-, r2, r3, -⟩ := nextTimestep_ok h3
      refine ⟨by omega, fun hl => ?_⟩
      rcases r3 with ⟨a, -, -⟩ | ⟨-, a, b⟩
      · rw [a] at hl; exact absurd hl (by decide)
      · have hp : dtmin ≤ r.2.2.1 := by rw [r2]; exact hmin _ _ b2
        have ht : (l.after w2).time = l.time + l.dt := rfl
        rw [ht] at a
        have hn2 : n ≠ 1 := by
          rintro rfl
          norm_num at b3
          linarith
        refine ⟨by omega, ?_, ?_⟩
        · simp only [LoopSt.chosen, b]; exact hp
        · obtain ⟨k, rfl⟩ : ∃ k, n = k + 2 := ⟨n - 2, by omega⟩
          have e1 : k + 2 + 1 - 2 = k + 1 := by omega
          have e2 : k + 2 - 2 = k := by omega
          rw [e1] at b3; rw [e2]
          simp only [LoopSt.chosen, b, ht]
          push_cast at b3
          linarith
    · refine ⟨by omega, fun _ => ⟨by omega, h0, ?_⟩⟩
      simpa using hn

/-- In an Archimedean field some bound always exists. -/
theorem C43_min_step_terminates' [Archimedean K] (E : LoopEnv W K) (o : TimeOpts K) (dtmin : K) (hd : 0 < dtmin)
    (h0 : dtmin ≤ o.dt0) (hmin : ∀ w dt, dtmin ≤ dt → dtmin ≤ (E.nextDT w dt).2) (w : W) :
    ∃ fuel, solve E o fuel w ≠ none := by
  obtain ⟨n, hn⟩ := Archimedean.arch (o.tfinal - (o.t0 + o.dt0)) hd
  exact ⟨n + 2, C43_min_step_terminates E o dtmin hd h0 hmin n (by simpa using hn) w⟩

/-- The step-count bound for runs with bounded-below proposals. -/
theorem C43_min_step_count (E : LoopEnv W K) (o : TimeOpts K) (dtmin : K) (hd : 0 < dtmin)
    (h0 : dtmin ≤ o.dt0) (hmin : ∀ w dt, dtmin ≤ dt → dtmin ≤ (E.nextDT w dt).2) (n : Nat)
    (hn : o.tfinal - (o.t0 + o.dt0) ≤ n * dtmin) (fuel : Nat) (w : W) (l : LoopSt W K)
    (h : solve E o fuel w = some (.ok l)) : l.steps.length ≤ n + 2 := by
  unfold solve at h
  split at h
  · simp at h
  · refine loop_inv E o
      (fun last l => l.steps.length ≤ n + 1 ∧ (last = false → dtmin ≤ l.dt ∧
        o.t0 + o.dt0 + (l.steps.length : K) * dtmin ≤ l.time + l.dt) ∧
        (last = false → l.steps = [] ∨ l.time + l.dt < o.tfinal))
      (fun l => l.steps.length ≤ n + 2) ?_ ?_ fuel false _ l ?_ h
    · rintro l w1 w2 ⟨i, -⟩ - -
      simp only [LoopSt.after, List.length_append, List.length_singleton]; omega
    · rintro l w1 w2 r ⟨i, hb, hc⟩ - - h3
      obtain ⟨b1, b2⟩ := hb rfl
      obtain ⟨-, r2, r3, -⟩ := nextTimestep_ok h3
      have hlen : ((l.after w2).chosen r).steps.length = l.steps.length + 1 := by
        simp [LoopSt.chosen, LoopSt.after]
      have hle : l.steps.length ≤ n := by
        rcases hc rfl with h | h
        · rw [h]; simp
        · by_contra hc
          have : ((n : K) + 1) * dtmin ≤ (l.steps.length : K) * dtmin := by
            refine mul_le_mul_of_nonneg_right ?_ hd.le
            exact_mod_cast (by omega : n + 1 ≤ l.steps.length)
          linarith
      split
      · rw [hlen]; omega
      · refine ⟨by rw [hlen]; omega, fun hl => ?_, fun hl => ?_⟩
        · rcases r3 with ⟨a, -, -⟩ | ⟨-, a, b⟩
          · rw [a] at hl; exact absurd hl (by decide)
          · have hp : dtmin ≤ r.2.2.1 := by rw [r2]; exact hmin _ _ b1
            rw [hlen]
            simp only [LoopSt.chosen, b, LoopSt.after]
            refine ⟨hp, ?_⟩
            push_cast
            linarith
        · rcases r3 with ⟨a, -, -⟩ | ⟨-, a, b⟩
          · rw [a] at hl; exact absurd hl (by decide)
          · right; simp only [LoopSt.chosen, b]; exact a
    · exact ⟨by simp, fun _ => ⟨h0, by simp⟩, fun _ => Or.inl rfl⟩

/-- An integrator that does nothing (test environment; not code from the repository): constant proposals. -/
def idleEnv : LoopEnv Unit ℚ := ⟨fun _ _ _ => .ok (), fun _ dt => ((), dt), fun _ _ _ _ => .ok (), fun _ => []⟩

/-- Test environment whose proposals halve the step (not code from the repository). -/
def halvingEnv : LoopEnv Unit ℚ :=
  ⟨fun _ _ _ => .ok (), fun _ dt => ((), dt / 2), fun _ _ _ _ => .ok (), fun _ => []⟩

/-- Without a step limit and without a positive lower bound on proposals the loop need not terminate. -/
theorem C43_may_diverge : ∃ (E : LoopEnv Unit ℚ) (o : TimeOpts ℚ), (∀ w dt, 0 < dt → 0 < (E.nextDT w dt).2) ∧
    0 < o.dt0 ∧ o.t0 + o.dt0 < o.tfinal ∧ ∀ fuel w, solve E o fuel w = none := by
  refine ⟨halvingEnv, ⟨0, 2, 1, false, 0, 0, 0, 0⟩, fun w dt h => by simp only [halvingEnv]; linarith, by norm_num,
    by norm_num, fun fuel w => ?_⟩
  unfold solve
  rw [if_neg (by simp)]
  suffices H : ∀ (fuel : Nat) (l : LoopSt Unit ℚ), 0 < l.dt → l.time + 2 * l.dt = 2 →
      loop halvingEnv ⟨0, 2, 1, false, 0, 0, 0, 0⟩ fuel false l = none from H fuel _ (by norm_num) (by norm_num)
  intro fuel
  induction fuel with
  | zero => intro l _ _; rfl
  | succ n ih =>
    intro l h1 h2
    have hlt : ¬ (2 : ℚ) ≤ l.time + l.dt + l.dt / 2 := by linarith
    simp only [loop, halvingEnv, nextTimestep, relStop, hlt, decide_false, Bool.false_eq_true, if_false, ne_eq,
      not_true_eq_false, Bool.false_and, Bool.or_self]
    exact ih _ (by simp only; linarith) (by simp only; linarith)

/-- Witness for C42: from 0 to 1 with initial step 3, the simulation passes the final time, then steps back. -/
theorem C42_witness_overshoot : ∃ l, solve idleEnv ⟨0, 1, 3, false, 0, 0, 0, 0⟩ 2 () = some (.ok l) ∧
    l.steps.map (fun s => (s.t, s.dt)) = [(0, 3), (3, -2)] ∧ l.time = 1 := by
  refine ⟨⟨(), 2, 1, -2, 3, [⟨0, 3, 3⟩, ⟨3, -2, 3⟩]⟩, ?_, by simp, rfl⟩
  norm_num [solve, loop, idleEnv, nextTimestep, relStop]

/-- Witness for C42: a restart at step 10 with a limit of 10 steps executes step 11. -/
theorem C42_witness_limit : ∃ l, solve idleEnv ⟨0, 1, 1 / 10, false, 10, 10, 0, 0⟩ 1 () = some (.ok l) ∧
    l.iter = 11 ∧ l.steps.length = 1 :=
  ⟨_, rfl, rfl, rfl⟩

/-- Non-vacuity of C41/C43: a run with four steps of 3/10 to 1; the last one is clipped to 1/10. -/
example : ∃ l, solve idleEnv ⟨0, 1, 3 / 10, false, 0, 0, 0, 0⟩ 4 () = some (.ok l) ∧ l.steps.length = 4 := by
  refine ⟨⟨(), 4, 1, 1 / 10, 3 / 10,
    [⟨0, 3 / 10, 3 / 10⟩, ⟨3 / 10, 3 / 10, 3 / 10⟩, ⟨6 / 10, 3 / 10, 3 / 10⟩, ⟨9 / 10, 1 / 10, 3 / 10⟩]⟩, ?_, rfl⟩
  norm_num [solve, loop, idleEnv, nextTimestep, relStop]

end Madg
