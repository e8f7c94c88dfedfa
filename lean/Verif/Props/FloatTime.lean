/-
The time loop in floating-point arithmetic (C97).
-/
import Verif.Props.TimeLoop
import Verif.Proofs.FloatGrid
import Verif.Proofs.Round
import Verif.Props.ReadFile

set_option linter.unusedSectionVars false

namespace Madg
open Spec

theorem fl_le {K : Type} [LinearOrder K] {rnd : K → K} {x y : Fl rnd} : x ≤ y ↔ x.val ≤ y.val := Iff.rfl
theorem fl_lt {K : Type} [LinearOrder K] {rnd : K → K} {x y : Fl rnd} : x < y ↔ x.val < y.val := by
  rw [lt_iff_not_ge, fl_le, not_le]

section
variable {W K : Type} [Field K] [LinearOrder K] [IsStrictOrderedRing K] {rnd : K → K} {u τ : K}

theorem no_stop {E : LoopEnv W (Fl rnd)} {o : TimeOpts (Fl rnd)} (hq : Unlimited o) {l : LoopSt W (Fl rnd)}
    {r : W × Fl rnd × Fl rnd × Bool × Bool} (h : nextTimestep E o l = .ok r) : r.2.2.2.2 = false := by
  obtain ⟨-, -, -, r4⟩ := nextTimestep_ok h
  rw [← Bool.not_eq_true, r4]
  rintro (h | h | h)
  · exact h.1 hq.1
  · exact h.1 hq.2.1
  · exact h.1 hq.2.2

/-- A computed sum below `B ≥ τ` has an exact value of at most `2 B`. -/
theorem sum_le_of_round_lt (hr : Rounds rnd u τ) {x B : K} (hB : τ ≤ B) (h : rnd x < B) : x ≤ 2 * B := by
  by_contra hc
  have hc := not_le.1 hc
  have t0 := hr.tiny.1
  have hx : max |x| τ = x := by
    rw [abs_of_pos (by linarith)]
    exact max_eq_left (by linarith)
  have := (abs_le.1 (hr.err x)).1
  rw [hx] at this
  nlinarith [hr.unit.2]

variable (E : LoopEnv W (Fl rnd)) (o : TimeOpts (Fl rnd))

/-! ### Any rounding that keeps the order -/

section
variable (hr : Rounds rnd u τ) (hm : Monotone rnd) (hz : rnd 0 = 0) (ht0 : 0 ≤ o.t0.val) (hf : rnd o.t0.val = o.t0.val)
  (h0 : o.t0 + o.dt0 < o.tfinal) (hdt : 0 ≤ o.dt0.val) (hpos : ∀ w dt, 0 ≤ dt.val → 0 ≤ (E.nextDT w dt).2.val)
  (hq : Unlimited o)
include hr hm hz ht0 hf h0 hdt hpos hq

/-- For every integrator: no executed step starts at or after the final time or has a size other than the proposed one, except
that the last one has the computed distance to the final time, and the run ends within two roundings of the final time. -/
theorem C97_end_time (fuel : Nat) (w : W) (l : LoopSt W (Fl rnd)) (h : solve E o fuel w = some (.ok l)) :
    Consecutive o.t0 l.steps l.time ∧ (∀ s ∈ l.steps, 0 ≤ s.t.val ∧ s.t < o.tfinal) ∧
    (∀ s ∈ l.steps.dropLast, s.dt = s.prop) ∧ (∃ s, l.steps.getLast? = some s ∧ s.dt = o.tfinal - s.t) ∧
    |l.time.val - o.tfinal.val| ≤ u * (2 + u) * max o.tfinal.val τ := by
  unfold solve at h
  split at h
  · simp at h
  · have key := loop_inv E o
      (fun last l => 0 ≤ l.time.val ∧ l.time < o.tfinal ∧ 0 ≤ l.prop.val ∧ Consecutive o.t0 l.steps l.time ∧
        (∀ s ∈ l.steps, 0 ≤ s.t.val ∧ s.t < o.tfinal ∧ s.dt = s.prop) ∧
        (last = true → l.dt = o.tfinal - l.time) ∧ (last = false → l.time + l.dt < o.tfinal ∧ l.dt = l.prop))
      (fun l => Consecutive o.t0 l.steps l.time ∧ (∀ s ∈ l.steps, 0 ≤ s.t.val ∧ s.t < o.tfinal) ∧
        (∀ s ∈ l.steps.dropLast, s.dt = s.prop) ∧ (∃ s, l.steps.getLast? = some s ∧ s.dt = o.tfinal - s.t) ∧
        |l.time.val - o.tfinal.val| ≤ u * (2 + u) * max o.tfinal.val τ) ?_ ?_ fuel false _ l ?_ h
    · exact key
    · rintro l w1 w2 ⟨a, b, -, c, d, e, -⟩ - -
      have e := e rfl
      refine ⟨?_, ?_, ?_, ⟨⟨l.time, l.dt, l.prop⟩, ?_, e⟩, ?_⟩
      · exact consecutive_append_any c ⟨l.time, l.dt, l.prop⟩ rfl
      · intro s hs
        simp only [LoopSt.after, List.mem_append, List.mem_singleton] at hs
        rcases hs with hs | rfl
        · exact ⟨(d s hs).1, (d s hs).2.1⟩
        · exact ⟨a, b⟩
      · intro s hs
        simp only [LoopSt.after, List.dropLast_concat] at hs
        exact (d s hs).2.2
      · simp [LoopSt.after]
      · show |rnd (l.time.val + l.dt.val) - o.tfinal.val| ≤ _
        have b' := fl_lt.1 b
        have e' : l.dt.val = rnd (o.tfinal.val - l.time.val) := by rw [e]; rfl
        have e1 := hr.err (o.tfinal.val - l.time.val)
        rw [← e'] at e1
        have e2 := hr.err (l.time.val + l.dt.val)
        have hu := hr.unit.1
        have M1 : max |o.tfinal.val - l.time.val| τ ≤ max o.tfinal.val τ := by
          refine max_le_max ?_ le_rfl
          rw [abs_of_nonneg (by linarith)]; linarith
        have hM : 0 ≤ max o.tfinal.val τ := hr.tiny.1.trans (le_max_right _ _)
        have e3 : |l.time.val + l.dt.val - o.tfinal.val| ≤ u * max o.tfinal.val τ := by
          have e4 : l.time.val + l.dt.val - o.tfinal.val = l.dt.val - (o.tfinal.val - l.time.val) := by ring
          rw [e4]
          exact e1.trans (mul_le_mul_of_nonneg_left M1 hu)
        have e5 : max |l.time.val + l.dt.val| τ ≤ (1 + u) * max o.tfinal.val τ := by
          refine max_le ?_ ?_
          · have : |l.time.val + l.dt.val| ≤ |l.time.val + l.dt.val - o.tfinal.val| + |o.tfinal.val| := by
              have := abs_add_le (l.time.val + l.dt.val - o.tfinal.val) o.tfinal.val
              rwa [sub_add_cancel] at this
            rw [abs_of_nonneg (by linarith : 0 ≤ o.tfinal.val)] at this
            have := le_max_left o.tfinal.val τ
            linarith
          · have := le_max_right o.tfinal.val τ
            nlinarith
        have e6 := abs_add_le (rnd (l.time.val + l.dt.val) - (l.time.val + l.dt.val)) (l.time.val + l.dt.val - o.tfinal.val)
        rw [sub_add_sub_cancel] at e6
        have e7 := mul_le_mul_of_nonneg_left e5 hu
        nlinarith
    · rintro l w1 w2 r ⟨a, b, c, d, e, -, f⟩ - - h3
      obtain ⟨f1, f2⟩ := f rfl
      rw [no_stop hq h3]
      simp only [Bool.false_eq_true, if_false]
      obtain ⟨-, r2, r3, -⟩ := nextTimestep_ok h3
      have hd : 0 ≤ (l.after w2).dt.val := by show 0 ≤ l.dt.val; rw [f2]; exact c
      refine ⟨?_, f1, ?_, ?_, ?_, ?_, ?_⟩
      · show 0 ≤ rnd (l.time.val + l.dt.val)
        rw [← hz]
        refine hm ?_
        have : 0 ≤ l.dt.val := hd
        linarith
      · show 0 ≤ r.2.2.1.val
        rw [r2]; exact hpos _ _ hd
      · exact consecutive_append_any d ⟨l.time, l.dt, l.prop⟩ rfl
      · intro s hs
        simp only [LoopSt.chosen, LoopSt.after, List.mem_append, List.mem_singleton] at hs
        rcases hs with hs | rfl
        · exact e s hs
        · exact ⟨a, b, f2⟩
      · intro hl
        rcases r3 with ⟨-, -, g⟩ | ⟨g, -, -⟩
        · exact g
        · rw [g] at hl; exact absurd hl (by decide)
      · intro hl
        rcases r3 with ⟨g, -, -⟩ | ⟨-, g1, g2⟩
        · rw [g] at hl; exact absurd hl (by decide)
        · refine ⟨?_, g2⟩
          show (l.after w2).time + r.2.1 < _
          rw [g2]; exact g1
    · have hlt : o.t0 < o.tfinal := by
        refine lt_of_le_of_lt ?_ h0
        show o.t0.val ≤ rnd (o.t0.val + o.dt0.val)
        calc o.t0.val = rnd o.t0.val := hf.symm
          _ ≤ _ := hm (by linarith)
      exact ⟨ht0, hlt, hdt, rfl, by simp, by simp, fun _ => ⟨h0, rfl⟩⟩

end

/-! ### Number of steps -/

section
variable (hr : Rounds rnd u τ) (hm : Monotone rnd) (hz : rnd 0 = 0) (ht0 : 0 ≤ o.t0.val)
include hr hm hz ht0

/-- Proposals that stay at or above `dtmin` end the run, whatever the integrator does, provided `dtmin` exceeds the rounding
error of the largest time: `4 u max(tfinal, τ) ≤ dtmin`. -/
theorem C97_terminates (dtmin : K) (hd : 0 < dtmin) (hbig : 4 * u * max o.tfinal.val τ ≤ dtmin)
    (h0 : dtmin ≤ o.dt0.val) (hmin : ∀ w dt, dtmin ≤ dt.val → dtmin ≤ (E.nextDT w dt).2.val) (n : Nat)
    (hn : o.tfinal.val - (o.t0.val + o.dt0.val) ≤ n * (dtmin / 2)) (w : W) : solve E o (n + 2) w ≠ none := by
  have hu := hr.unit.1
  have τM := le_max_right o.tfinal.val τ
  have tM := le_max_left o.tfinal.val τ
  have τ0 := hr.tiny.1
  unfold solve
  split
  · simp
  · refine loop_terminates E o (fun n last l => 1 ≤ n ∧ (last = false →
      2 ≤ n ∧ dtmin ≤ l.dt.val ∧ 0 ≤ l.time.val ∧
        o.tfinal.val - (l.time.val + l.dt.val) ≤ ((n - 2 : Nat) : K) * (dtmin / 2))) ?_ ?_ _ false _ ?_
    · rintro last l ⟨h, -⟩; omega
    · rintro n l w1 w2 r ⟨-, hb⟩ - - h3 hs
      obtain ⟨b1, b2, b3, b4⟩ := hb rfl
      obtain ⟨-, r2, r3, -⟩ := nextTimestep_ok h3
      refine ⟨by omega, fun hl => ?_⟩
      rcases r3 with ⟨a, -, -⟩ | ⟨-, a, b⟩
      · rw [a] at hl; exact absurd hl (by decide)
      · have hp : dtmin ≤ r.2.2.1.val := by rw [r2]; exact hmin _ _ b2
        have a' : rnd ((l.after w2).time.val + r.2.2.1.val) < o.tfinal.val := fl_lt.1 a
        have htv : (l.after w2).time.val = rnd (l.time.val + l.dt.val) := rfl
        obtain ⟨p, hpe⟩ : ∃ p, p = r.2.2.1.val := ⟨_, rfl⟩
        obtain ⟨x, hx⟩ : ∃ x, x = l.time.val + l.dt.val := ⟨_, rfl⟩
        rw [← hpe] at hp a'
        rw [htv, ← hx] at a'
        rw [← hx] at b4
        have x0 : 0 ≤ x := by linarith
        have y0 : 0 ≤ rnd x := by rw [← hz]; exact hm x0
        have hz2 := sum_le_of_round_lt hr τM (a'.trans_le tM)
        have e2 := (abs_le.1 (hr.err (rnd x + p))).1
        have m2 : max |rnd x + p| τ ≤ 2 * max o.tfinal.val τ := by
          rw [abs_of_nonneg (by linarith)]
          exact max_le hz2 (by linarith)
        have e3 := mul_le_mul_of_nonneg_left m2 hu
        have e4 : o.tfinal.val - (rnd x + p) > -(dtmin / 2) := by linarith
        have e1 := (abs_le.1 (hr.err x)).1
        have e5 : x ≤ 2 * max o.tfinal.val τ := by
          by_contra hc
          have hc := not_le.1 hc
          have hxx : max |x| τ = x := by
            rw [abs_of_nonneg x0]; exact max_eq_left (by linarith)
          rw [hxx] at e1
          nlinarith [hr.unit.2]
        have m1 : max |x| τ ≤ 2 * max o.tfinal.val τ := by
          rw [abs_of_nonneg x0]
          exact max_le e5 (by linarith)
        have e6 := mul_le_mul_of_nonneg_left m1 hu
        have key : o.tfinal.val - (rnd x + p) ≤ o.tfinal.val - x - dtmin / 2 := by linarith
        have hn2 : n ≠ 1 := by
          rintro rfl
          norm_num at b4
          linarith
        refine ⟨by omega, ?_, ?_, ?_⟩
        · show dtmin ≤ r.2.1.val
          rw [b, ← hpe]; exact hp
        · show 0 ≤ rnd (l.time.val + l.dt.val)
          rw [← hx]; exact y0
        · show o.tfinal.val - (rnd (l.time.val + l.dt.val) + r.2.1.val) ≤ _
          rw [b, ← hpe, ← hx]
          obtain ⟨k, rfl⟩ : ∃ k, n = k + 2 := ⟨n - 2, by omega⟩
          have e1 : k + 2 + 1 - 2 = k + 1 := by omega
          have e2 : k + 2 - 2 = k := by omega
          rw [e1] at b4; rw [e2]
          push_cast at b4
          linarith
    · refine ⟨by omega, fun _ => ⟨by omega, h0, ht0, ?_⟩⟩
      simpa using hn

/-- A run with a fixed step size takes as many steps as in exact arithmetic, up to one rounding of the time per step:
`(N - 1) (dt - η) < tfinal - t0 ≤ N (dt + η)` with `η = 2 u max(tfinal, τ)`. -/
theorem C97_step_count (hfix : FixedStep E) (hq : Unlimited o) (hdt : 0 < o.dt0.val) (h0 : o.t0 + o.dt0 < o.tfinal)
    (fuel : Nat) (w : W) (l : LoopSt W (Fl rnd)) (h : solve E o fuel w = some (.ok l)) :
    2 ≤ l.steps.length ∧
    ((l.steps.length : K) - 1) * (o.dt0.val - 2 * u * max o.tfinal.val τ) < o.tfinal.val - o.t0.val ∧
    o.tfinal.val - o.t0.val ≤ l.steps.length * (o.dt0.val + 2 * u * max o.tfinal.val τ) := by
  obtain ⟨η, hη⟩ : ∃ η, η = 2 * u * max o.tfinal.val τ := ⟨_, rfl⟩
  rw [← hη]
  have hu := hr.unit.1
  have hM : 0 ≤ max o.tfinal.val τ := hr.tiny.1.trans (le_max_right _ _)
  have η0 : 0 ≤ η := by rw [hη]; positivity
  -- error of one computed sum
  have sum_err : ∀ x, 0 ≤ x → x ≤ 2 * max o.tfinal.val τ → |rnd x - x| ≤ η := by
    intro x hx hx2
    refine (hr.err x).trans ?_
    rw [hη, abs_of_nonneg hx, mul_comm 2 u, mul_assoc]
    refine mul_le_mul_of_nonneg_left (max_le hx2 ?_) hu
    have := le_max_right o.tfinal.val τ
    linarith
  unfold solve at h
  split at h
  · simp at h
  · refine loop_inv E o
      (fun last l => 0 ≤ l.time.val ∧ |l.time.val - (o.t0.val + l.steps.length * o.dt0.val)| ≤ l.steps.length * η ∧
        (last = false → l.dt = o.dt0 ∧ rnd (l.time.val + o.dt0.val) < o.tfinal.val) ∧
        (last = true → 1 ≤ l.steps.length ∧ l.time.val < o.tfinal.val ∧ o.tfinal.val ≤ rnd (l.time.val + o.dt0.val)))
      (fun l => 2 ≤ l.steps.length ∧
        ((l.steps.length : K) - 1) * (o.dt0.val - η) < o.tfinal.val - o.t0.val ∧
        o.tfinal.val - o.t0.val ≤ l.steps.length * (o.dt0.val + η)) ?_ ?_ fuel false _ l ?_ h
    · rintro l w1 w2 ⟨a, b, -, c⟩ - -
      obtain ⟨c1, c2, c3⟩ := c rfl
      have hlen : (l.after w2).steps.length = l.steps.length + 1 := by simp [LoopSt.after]
      rw [hlen]
      push_cast
      rw [abs_le] at b
      refine ⟨by omega, by nlinarith, ?_⟩
      by_cases hx : l.time.val + o.dt0.val ≤ 2 * max o.tfinal.val τ
      · have := (abs_le.1 (sum_err _ (by linarith) hx)).2
        nlinarith
      · have := le_max_left o.tfinal.val τ
        nlinarith
    · rintro l w1 w2 r ⟨a, b, c, -⟩ - - h3
      obtain ⟨c1, c2⟩ := c rfl
      rw [no_stop hq h3]
      simp only [Bool.false_eq_true, if_false]
      obtain ⟨-, r2, r3, -⟩ := nextTimestep_ok h3
      have hprop : r.2.2.1 = o.dt0 := by rw [r2, hfix]; exact c1
      have hlen : ((l.after w2).chosen r).steps.length = l.steps.length + 1 := by simp [LoopSt.chosen, LoopSt.after]
      have htv : ((l.after w2).chosen r).time.val = rnd (l.time.val + o.dt0.val) := by
        rw [← c1]; rfl
      rw [hlen, htv]
      push_cast
      have hx2 := sum_le_of_round_lt hr (le_max_right o.tfinal.val τ) (c2.trans_le (le_max_left _ _))
      have hx0 : 0 ≤ l.time.val + o.dt0.val := by linarith
      have e := sum_err _ hx0 hx2
      refine ⟨?_, ?_, fun hl => ?_, fun hl => ?_⟩
      · rw [← hz]; exact hm hx0
      · rw [abs_le] at e b ⊢
        constructor <;> nlinarith
      · rcases r3 with ⟨g, -, -⟩ | ⟨-, g1, g2⟩
        · rw [g] at hl; exact absurd hl (by decide)
        · refine ⟨g2.trans hprop, ?_⟩
          have := fl_lt.1 g1
          rw [hprop] at this
          rw [← htv]
          exact this
      · rcases r3 with ⟨-, g, -⟩ | ⟨g, -, -⟩
        · refine ⟨trivial, c2, ?_⟩
          have := fl_le.1 g
          rw [hprop] at this
          rw [← htv]
          exact this
        · rw [g] at hl; exact absurd hl (by decide)
    · exact ⟨ht0, by simp, fun _ => ⟨rfl, fl_lt.1 h0⟩, by simp⟩

/-- If the interval is `n` steps up to `δ`, and `δ` and the rounding errors of `n + 1` additions together are less than a step,
the run takes `n` or `n + 1` steps. -/
theorem C97_one_more_step (hfix : FixedStep E) (hq : Unlimited o) (hdt : 0 < o.dt0.val) (h0 : o.t0 + o.dt0 < o.tfinal)
    (n : Nat) (δ : K) (hn : |o.tfinal.val - o.t0.val - n * o.dt0.val| ≤ δ)
    (hδ : δ + (n + 1) * (2 * u * max o.tfinal.val τ) < o.dt0.val)
    (fuel : Nat) (w : W) (l : LoopSt W (Fl rnd)) (h : solve E o fuel w = some (.ok l)) :
    l.steps.length = n ∨ l.steps.length = n + 1 := by
  obtain ⟨h1, h2, h3⟩ := C97_step_count E o hr hm hz ht0 hfix hq hdt h0 fuel w l h
  have hu := hr.unit.1
  have hM : 0 ≤ max o.tfinal.val τ := hr.tiny.1.trans (le_max_right _ _)
  have η0 : 0 ≤ 2 * u * max o.tfinal.val τ := by positivity
  generalize 2 * u * max o.tfinal.val τ = η at *
  generalize l.steps.length = N at *
  have δ0 : 0 ≤ δ := (abs_nonneg _).trans hn
  rw [abs_le] at hn
  have hn0 : (0 : K) ≤ n := Nat.cast_nonneg n
  have hlt : η < o.dt0.val := by nlinarith
  by_contra hc
  rcases lt_or_ge N n with hlt' | hge
  · have : (N : K) + 1 ≤ n := by exact_mod_cast hlt'
    nlinarith
  · have : (n : K) + 2 ≤ N := by
      have : n + 2 ≤ N := by omega
      exact_mod_cast this
    nlinarith

end

end

/-! ### Binary formats -/

section
variable {W : Type} {F : FloatFmt} (hF : 1 ≤ F.prec) (E : LoopEnv W (Fl F.round)) (o : TimeOpts (Fl F.round))
  (ft0 : IsFloat F o.t0.val) (fdt : IsFloat F o.dt0.val) (ftf : IsFloat F o.tfinal.val) (ht0 : 0 ≤ o.t0.val) (hdt : 0 ≤ o.dt0.val)
  (h0 : o.t0 + o.dt0 < o.tfinal)
  (hpos : ∀ w dt, IsFloat F dt.val → 0 ≤ dt.val → IsFloat F (E.nextDT w dt).2.val ∧ 0 ≤ (E.nextDT w dt).2.val)
  (hq : Unlimited o)
include hF ft0 fdt ftf ht0 hdt h0 hpos hq

/-- With a fixed step size, or with proposals below half of the final time, a run in floating-point arithmetic ends exactly at
the final time, and time never decreases. -/
theorem C97_end_exact (hsmall : FixedStep E ∨ ∀ w dt, 2 * (E.nextDT w dt).2.val < o.tfinal.val)
    (fuel : Nat) (w : W) (l : LoopSt W (Fl F.round)) (h : solve E o fuel w = some (.ok l)) :
    l.time = o.tfinal ∧ Consecutive o.t0 l.steps l.time ∧ l.steps.Pairwise (fun a b => a.t ≤ b.t) := by
  have hm := F.round_mono hF
  unfold solve at h
  split at h
  · simp at h
  · refine loop_inv E o
      (fun last l => IsFloat F l.time.val ∧ 0 ≤ l.time.val ∧ l.time < o.tfinal ∧ Consecutive o.t0 l.steps l.time ∧
        (l.steps.Pairwise (fun a b => a.t ≤ b.t) ∧ ∀ s ∈ l.steps, s.t ≤ l.time) ∧
        (last = true → l.dt = o.tfinal - l.time ∧ o.tfinal.val ≤ 2 * l.time.val) ∧
        (last = false → l.time + l.dt < o.tfinal ∧ IsFloat F l.dt.val ∧ 0 ≤ l.dt.val ∧ (FixedStep E → l.dt = o.dt0)))
      (fun l => l.time = o.tfinal ∧ Consecutive o.t0 l.steps l.time ∧ l.steps.Pairwise (fun a b => a.t ≤ b.t))
      ?_ ?_ fuel false _ l ?_ h
    · rintro l w1 w2 ⟨a, -, b, c, ⟨d1, d2⟩, e, -⟩ - -
      obtain ⟨e1, e2⟩ := e rfl
      have b' := fl_lt.1 b
      have hd : l.dt.val = o.tfinal.val - l.time.val := by
        rw [e1]
        exact F.round_float (IsFloat.sub_of_close ftf a b'.le (by linarith))
      refine ⟨?_, ?_, ?_⟩
      · have : (l.after w2).time.val = o.tfinal.val := by
          show F.round (l.time.val + l.dt.val) = _
          rw [hd, add_sub_cancel, F.round_float ftf]
        exact le_antisymm (fl_le.2 this.le) (fl_le.2 this.ge)
      · exact consecutive_append_any c ⟨l.time, l.dt, l.prop⟩ rfl
      · simp only [LoopSt.after]
        rw [List.pairwise_append]
        refine ⟨d1, List.pairwise_singleton _ _, fun x hx y hy => ?_⟩
        rw [List.mem_singleton] at hy
        rw [hy]; exact d2 x hx
    · rintro l w1 w2 r ⟨a, a', b, c, ⟨d1, d2⟩, -, e⟩ - - h3
      obtain ⟨e1, e2, e3, e4⟩ := e rfl
      rw [no_stop hq h3]
      simp only [Bool.false_eq_true, if_false]
      obtain ⟨-, r2, r3, -⟩ := nextTimestep_ok h3
      have htv : ((l.after w2).chosen r).time.val = F.round (l.time.val + l.dt.val) := rfl
      have hfl : IsFloat F ((l.after w2).chosen r).time.val := by rw [htv]; exact F.round_isFloat hF _
      have hge : l.time.val ≤ ((l.after w2).chosen r).time.val := by
        rw [htv]
        calc l.time.val = F.round l.time.val := (F.round_float a).symm
          _ ≤ _ := hm (by linarith)
      have hge2 : l.dt.val ≤ ((l.after w2).chosen r).time.val := by
        rw [htv]
        calc l.dt.val = F.round l.dt.val := (F.round_float e2).symm
          _ ≤ _ := hm (by linarith)
      obtain ⟨q1, q2⟩ := hpos (l.after w2).w (l.after w2).dt e2 e3
      rw [← r2] at q1 q2
      refine ⟨hfl, a'.trans hge, e1, ?_, ⟨?_, ?_⟩, fun hl => ?_, fun hl => ?_⟩
      · exact consecutive_append_any c ⟨l.time, l.dt, l.prop⟩ rfl
      · show (l.steps ++ _).Pairwise _
        rw [List.pairwise_append]
        refine ⟨d1, List.pairwise_singleton _ _, fun x hx y hy => ?_⟩
        rw [List.mem_singleton] at hy
        rw [hy]; exact d2 x hx
      · intro s hs
        simp only [LoopSt.chosen, LoopSt.after, List.mem_append, List.mem_singleton] at hs
        rcases hs with hs | rfl
        · exact fl_le.2 ((fl_le.1 (d2 s hs)).trans hge)
        · exact fl_le.2 hge
      · rcases r3 with ⟨-, g1, g2⟩ | ⟨g, -, -⟩
        · refine ⟨g2, ?_⟩
          by_contra hc
          have hc := not_le.1 hc
          have g1 : o.tfinal.val ≤ F.round (((l.after w2).chosen r).time.val + r.2.2.1.val) := fl_le.1 g1
          by_cases hpt : r.2.2.1.val ≤ ((l.after w2).chosen r).time.val
          · have := hm (by linarith : ((l.after w2).chosen r).time.val + r.2.2.1.val ≤ 2 * ((l.after w2).chosen r).time.val)
            rw [F.round_float (IsFloat.double hfl)] at this
            linarith
          · have hpt := not_le.1 hpt
            rcases hsmall with hfix | hs
            · have : r.2.2.1 = l.dt := by rw [r2, hfix]; rfl
              rw [this] at hpt
              linarith
            · have hs := hs (l.after w2).w (l.after w2).dt
              rw [← r2] at hs
              have := hm (by linarith : ((l.after w2).chosen r).time.val + r.2.2.1.val ≤ 2 * r.2.2.1.val)
              rw [F.round_float (IsFloat.double q1)] at this
              linarith
        · rw [g] at hl; exact absurd hl (by decide)
      · rcases r3 with ⟨g, -, -⟩ | ⟨-, g1, g2⟩
        · rw [g] at hl; exact absurd hl (by decide)
        · have e : ((l.after w2).chosen r).dt = r.2.2.1 := g2
          rw [e]
          exact ⟨g1, q1, q2, fun hfix => by rw [r2, hfix]; exact e4 hfix⟩
    · have hlt : o.t0 < o.tfinal := by
        refine lt_of_le_of_lt (fl_le.2 ?_) h0
        show o.t0.val ≤ F.round (o.t0.val + o.dt0.val)
        calc o.t0.val = F.round o.t0.val := (F.round_float ft0).symm
          _ ≤ _ := hm (by linarith)
      exact ⟨ft0, ht0, hlt, rfl, by simp, by simp, fun _ => ⟨h0, fdt, hdt, fun _ => rfl⟩⟩

end

/-! ### Double precision: concrete runs -/

/-- Numbers of type `double` (test data). -/
def dbl (x : ℚ) : Fl binary64.round := ⟨binary64.round x⟩

/-- From 0 to 1 with steps of 0.1 (test data). -/
def tenths : TimeOpts (Fl binary64.round) := ⟨dbl 0, dbl 1, dbl (1 / 10), false, 0, 0, 0, 0⟩

/-- Time after `k` steps of 0.1 (test data). -/
def tenthsTime (k : Nat) : Fl binary64.round := (fun t => t + dbl (1 / 10))^[k] (dbl 0)

theorem tenths_facts : (∀ k : Fin 10, tenthsTime k + dbl (1 / 10) < dbl 1) ∧ dbl 1 ≤ tenthsTime 10 + dbl (1 / 10) ∧
    (dbl 1 - tenthsTime 10).val = 1 / 2 ^ 53 := by decide +kernel

/-- From 0 to 1 in steps of 0.1 takes eleven steps in double precision, whatever the integrator; the last one has size `2^-53`. -/
theorem C97_extra_step {W : Type} (E : LoopEnv W (Fl binary64.round)) (hfix : FixedStep E) (fuel : Nat) (w : W)
    (l : LoopSt W (Fl binary64.round)) (h : solve E tenths fuel w = some (.ok l)) :
    l.steps.length = 11 ∧ ∃ s, l.steps.getLast? = some s ∧ s.dt.val = 1 / 2 ^ 53 := by
  obtain ⟨t1, t2, t3⟩ := tenths_facts
  have hq : Unlimited tenths := ⟨rfl, rfl, rfl⟩
  have hsucc : ∀ k, tenthsTime (k + 1) = tenthsTime k + dbl (1 / 10) := fun k => Function.iterate_succ_apply' _ _ _
  unfold solve at h
  rw [if_neg (by decide)] at h
  refine loop_inv E tenths
    (fun last l => l.time = tenthsTime l.steps.length ∧ (last = false → l.dt = dbl (1 / 10) ∧ l.steps.length < 10) ∧
      (last = true → l.steps.length = 10 ∧ l.dt = dbl 1 - tenthsTime 10))
    (fun l => l.steps.length = 11 ∧ ∃ s, l.steps.getLast? = some s ∧ s.dt.val = 1 / 2 ^ 53) ?_ ?_ fuel false _ l ?_ h
  · rintro l w1 w2 ⟨-, -, c⟩ - -
    obtain ⟨c1, c2⟩ := c rfl
    refine ⟨by simp [LoopSt.after, c1], ⟨l.time, l.dt, l.prop⟩, by simp [LoopSt.after], ?_⟩
    show l.dt.val = _
    rw [c2]; exact t3
  · rintro l w1 w2 r ⟨a, b, -⟩ - - h3
    obtain ⟨b1, b2⟩ := b rfl
    rw [no_stop hq h3]
    simp only [Bool.false_eq_true, if_false]
    obtain ⟨-, r2, r3, -⟩ := nextTimestep_ok h3
    have hprop : r.2.2.1 = dbl (1 / 10) := by rw [r2, hfix]; exact b1
    have hlen : ((l.after w2).chosen r).steps.length = l.steps.length + 1 := by simp [LoopSt.chosen, LoopSt.after]
    have ht : (l.after w2).time = tenthsTime (l.steps.length + 1) := by
      rw [hsucc, ← a, ← b1]; rfl
    rw [hlen]
    refine ⟨ht, fun hl => ?_, fun hl => ?_⟩
    · rcases r3 with ⟨g, -, -⟩ | ⟨-, g1, g2⟩
      · rw [g] at hl; exact absurd hl (by decide)
      · refine ⟨g2.trans hprop, ?_⟩
        by_contra hc
        have e : l.steps.length = 9 := by omega
        rw [ht, hprop, e] at g1
        exact absurd t2 (not_le.2 g1)
    · rcases r3 with ⟨-, g1, g2⟩ | ⟨g, -, -⟩
      · have e : l.steps.length = 9 := by
          by_contra hc
          have := t1 ⟨l.steps.length + 1, by omega⟩
          rw [ht, hprop] at g1
          exact absurd g1 (not_le.2 this)
        rw [ht, e] at g2
        exact ⟨by omega, g2⟩
      · rw [g] at hl; exact absurd hl (by decide)
  · exact ⟨rfl, fun _ => ⟨rfl, by simp⟩, by simp⟩

/-- The same run in exact arithmetic takes ten steps. -/
theorem C97_extra_step_exact : (solve idleEnv ⟨0, 1, 1 / 10, false, 0, 0, 0, 0⟩ 10 ()).map
    (fun r => r.toOption.map fun l => l.steps.length) = some (some 10) := by decide +kernel

/-- When the step is too small for the time the clock stands still: from `2^53` to `2^53 + 2` with steps of 1 no run with a
fixed step size ever completes (two steps would do). -/
theorem C97_clock_stops : ∃ o : TimeOpts (Fl binary64.round), 0 < o.dt0 ∧ o.tfinal.val = o.t0.val + 2 * o.dt0.val ∧ Unlimited o ∧
    ∀ (W : Type) (E : LoopEnv W (Fl binary64.round)), FixedStep E → ∀ fuel w l, solve E o fuel w ≠ some (.ok l) := by
  refine ⟨⟨dbl (2 ^ 53), dbl (2 ^ 53 + 2), dbl 1, false, 0, 0, 0, 0⟩, by decide +kernel, by decide +kernel,
    ⟨rfl, rfl, rfl⟩, fun W E hfix fuel w l h => ?_⟩
  have hst : dbl (2 ^ 53) + dbl 1 = dbl (2 ^ 53) := by
    have : (dbl (2 ^ 53) + dbl 1).val = (dbl (2 ^ 53)).val := by decide +kernel
    exact le_antisymm (fl_le.2 this.le) (fl_le.2 this.ge)
  have hlt : dbl (2 ^ 53) < dbl (2 ^ 53 + 2) := by decide +kernel
  unfold solve at h
  rw [if_neg (by decide)] at h
  refine loop_inv E _ (fun last l => last = false ∧ l.time = dbl (2 ^ 53) ∧ l.dt = dbl 1) (fun _ => False) ?_ ?_ fuel false _ l
    ⟨rfl, rfl, rfl⟩ h
  · rintro l w1 w2 ⟨a, -⟩ - -; exact absurd a (by decide)
  · rintro l w1 w2 r ⟨-, b, c⟩ - - h3
    rw [no_stop ⟨rfl, rfl, rfl⟩ h3]
    simp only [Bool.false_eq_true, if_false]
    obtain ⟨-, r2, r3, -⟩ := nextTimestep_ok h3
    have hprop : r.2.2.1 = dbl 1 := by rw [r2, hfix]; exact c
    have ht : (l.after w2).time = dbl (2 ^ 53) := by
      show l.time + l.dt = _
      rw [b, c, hst]
    rw [ht, hprop, hst] at r3
    rcases r3 with ⟨-, g, -⟩ | ⟨g1, -, g2⟩
    · exact absurd hlt (not_lt.2 g)
    · exact ⟨g1, ht, g2⟩

/-- Test environment that proposes steps of size 2 (not code from the repository). -/
def twoEnv : LoopEnv Unit (Fl binary64.round) :=
  ⟨fun _ _ _ => .ok (), fun _ _ => ((), dbl 2), fun _ _ _ _ => .ok (), fun _ => []⟩

/-- Without the restriction on the proposals the run can miss the final time: from 0 to `1 + 2^-52` with a first step of `2^-53`
and a large second proposal it ends at 1. -/
theorem C97_end_inexact : ∃ o : TimeOpts (Fl binary64.round), IsFloat binary64 o.tfinal.val ∧ 0 < o.dt0 ∧ o.t0 + o.dt0 < o.tfinal ∧
    Unlimited o ∧ ∃ l, solve twoEnv o 2 () = some (.ok l) ∧ l.time < o.tfinal := by
  refine ⟨⟨dbl 0, dbl (1 + 1 / 2 ^ 52), dbl (1 / 2 ^ 53), false, 0, 0, 0, 0⟩, binary64.round_isFloat (by decide) _,
    by decide +kernel, by decide +kernel, ⟨rfl, rfl, rfl⟩, ?_⟩
  have h : ((solve twoEnv ⟨dbl 0, dbl (1 + 1 / 2 ^ 52), dbl (1 / 2 ^ 53), false, 0, 0, 0, 0⟩ 2 ()).bind
    fun r => r.toOption.map fun l => decide (l.time < dbl (1 + 1 / 2 ^ 52))) = some true := by decide +kernel
  cases hs : solve twoEnv ⟨dbl 0, dbl (1 + 1 / 2 ^ 52), dbl (1 / 2 ^ 53), false, 0, 0, 0, 0⟩ 2 () with
  | none => rw [hs] at h; simp at h
  | some r =>
    cases r with
    | error e => rw [hs] at h; simp [Except.toOption] at h
    | ok l =>
      rw [hs] at h
      simp only [Except.toOption, Option.bind_some, Option.map_some, Option.some.injEq, decide_eq_true_iff] at h
      exact ⟨l, rfl, h⟩

/-- Test environment that does nothing, in double precision (not code from the repository). -/
def idle64 : LoopEnv Unit (Fl binary64.round) :=
  ⟨fun _ _ _ => .ok (), fun _ dt => ((), dt), fun _ _ _ _ => .ok (), fun _ => []⟩

theorem tenths_run : ∃ l, solve idle64 tenths 11 () = some (.ok l) := by
  have h : ((solve idle64 tenths 11 ()).bind fun r => r.toOption.map fun _ => ()) = some () := by decide +kernel
  cases hs : solve idle64 tenths 11 () with
  | none => rw [hs] at h; simp at h
  | some r =>
    cases r with
    | error e => rw [hs] at h; simp [Except.toOption] at h
    | ok l => exact ⟨l, rfl⟩

theorem tenths_max : max tenths.tfinal.val (1 / 2 ^ 1022) = 1 := by
  have : tenths.tfinal.val = 1 := by decide +kernel
  rw [this]
  exact max_eq_left (by rw [div_le_one (by positivity)]; exact one_le_pow₀ (by norm_num))

/-- The hypotheses are met by the run with steps of 0.1: it ends, exactly at 1, in ten or eleven steps. -/
example : ∃ l, solve idle64 tenths 11 () = some (.ok l) ∧ l.time = tenths.tfinal ∧
    |l.time.val - 1| ≤ 1 / 2 ^ 53 * (2 + 1 / 2 ^ 53) ∧ (l.steps.length = 10 ∨ l.steps.length = 11) ∧
    solve idle64 tenths (18 + 2) () ≠ none := by
  obtain ⟨l, hl⟩ := tenths_run
  have hm := binary64.round_mono (by decide)
  have hfl : ∀ x, IsFloat binary64 (binary64.round x) := binary64.round_isFloat (by decide)
  have e1 : tenths.tfinal.val = 1 := by decide +kernel
  have d0 : 0 < tenths.dt0.val := by decide +kernel
  have h0 : tenths.t0 + tenths.dt0 < tenths.tfinal := by decide +kernel
  have t0 : tenths.t0.val = 0 := by decide +kernel
  have hq : Unlimited tenths := ⟨rfl, rfl, rfl⟩
  have hpos : ∀ w dt, 0 ≤ dt.val → 0 ≤ (idle64.nextDT w dt).2.val := fun _ _ h => h
  refine ⟨l, hl, ?_, ?_, ?_, ?_⟩
  · exact (C97_end_exact (by decide) idle64 tenths (hfl 0) (hfl (1 / 10)) (hfl 1) t0.ge d0.le h0 (fun _ _ h h' => ⟨h, h'⟩) hq
      (Or.inl fun _ _ => rfl) 11 () l hl).1
  · have := (C97_end_time idle64 tenths binary64_rounds hm binary64.round_zero t0.ge (by rw [t0]; exact binary64.round_zero) h0 d0.le
      hpos hq 11 () l hl).2.2.2.2
    rwa [tenths_max, e1, mul_one] at this
  · refine C97_one_more_step idle64 tenths binary64_rounds hm binary64.round_zero t0.ge (fun _ _ => rfl) hq d0 h0 10 (1 / 100)
      (by decide +kernel) ?_ 11 () l hl
    rw [tenths_max]
    decide +kernel
  · refine C97_terminates idle64 tenths binary64_rounds hm binary64.round_zero t0.ge tenths.dt0.val d0 ?_ le_rfl
      (fun _ _ h => h) 18 (by decide +kernel) ()
    rw [tenths_max]
    decide +kernel

end Madg
