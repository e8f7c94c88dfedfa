/-
Step size controller (C40).
-/
import Verif.Model.Controller
import Mathlib.Tactic.Linarith
import Mathlib.Tactic.NormNum
import Mathlib.Tactic.Positivity

namespace Madg

/-- The limits promised for a new step: at most 10% growth, at least 1%, and the global bounds (which win). -/
noncomputable def Spec.limitStep (minstep maxstep cur raw : ℝ) : ℝ :=
  max (min (max (min raw (cur * 1.1)) (cur * 0.01)) maxstep) minstep

/-- Controller state after the calls in `p`. -/
def PidInv (c0 c : PID) (p : List (ℝ × ℝ)) : Prop :=
  c.errtol = c0.errtol ∧ c.minstep = c0.minstep ∧ c.maxstep = c0.maxstep ∧
  c.steps = (p.map Prod.snd).drop (p.length - 3) ∧
  c.errs = (p.map fun x => max x.1 dblEps).drop (p.length - 3)

/-- What a call returns after the calls in `p`. -/
noncomputable def pidOut (c0 : PID) (p : List (ℝ × ℝ)) (e s : ℝ) : ℝ :=
  if p.length < 3 then s
  else
    let a := p.getD (p.length - 2) (0, 0)
    let b := p.getD (p.length - 1) (0, 0)
    Spec.limitStep c0.minstep c0.maxstep s
      (pidRaw c0.errtol b.2 s (max a.1 dblEps) (max b.1 dblEps) (max e dblEps) s)

theorem pid_step (c0 c : PID) (p : List (ℝ × ℝ)) (h : PidInv c0 c p) (e s : ℝ) :
    ∃ c', c.adapt e s = some (c', pidOut c0 p e s) ∧ PidInv c0 c' (p ++ [(e, s)]) := by
  obtain ⟨h1, h2, h3, h4, h5⟩ := h
  by_cases hp : p.length < 3
  · have hz : p.length - 3 = 0 := by omega
    rw [hz, List.drop_zero] at h4 h5
    refine ⟨{ c with steps := c.steps ++ [s], errs := c.errs ++ [max e dblEps] }, ?_, ?_⟩
    · unfold PID.adapt pidOut
      rw [if_pos (by rw [h5, List.length_map]; omega), if_pos hp, stdMax_eq]
    · have hz' : (p ++ [(e, s)]).length - 3 = 0 := by simp; omega
      refine ⟨h1, h2, h3, ?_, ?_⟩
      · rw [hz']; simp [h4]
      · rw [hz']; simp [h5]
  · -- the last three calls
    obtain ⟨q, t, rfl, ht⟩ : ∃ q t, p = q ++ t ∧ t.length = 3 :=
      ⟨p.take (p.length - 3), p.drop (p.length - 3), (List.take_append_drop _ _).symm, by simp; omega⟩
    match t, ht with
    | [x, y, z], _ =>
      have hl : (q ++ [x, y, z]).length - 3 = q.length := by simp
      rw [hl, List.map_append, List.drop_append_of_le_length (by simp)] at h4 h5
      simp only [List.drop_eq_nil_of_le (by simp : (q.map Prod.snd).length ≤ q.length),
        List.drop_eq_nil_of_le (by simp : (q.map fun x : ℝ × ℝ => max x.1 dblEps).length ≤ q.length),
        List.nil_append, List.map_cons, List.map_nil] at h4 h5
      refine ⟨{ c with steps := [y.2, z.2, s], errs := [max y.1 dblEps, max z.1 dblEps, max e dblEps] }, ?_, ?_⟩
      · unfold PID.adapt pidOut Spec.limitStep
        rw [if_neg (by simp [h5]), if_neg hp, h4, h5]
        simp [h1, h2, h3, stdMax_eq, stdMin_eq]
      · refine ⟨h1, h2, h3, ?_, ?_⟩
        · have : (q ++ [x, y, z] ++ [(e, s)]).length - 3 = (q ++ [x]).length := by simp
          rw [this, show q ++ [x, y, z] ++ [(e, s)] = (q ++ [x]) ++ [y, z, (e, s)] by simp, List.map_append,
            List.drop_append_of_le_length (by simp), List.drop_eq_nil_of_le (by simp)]
          simp
        · have : (q ++ [x, y, z] ++ [(e, s)]).length - 3 = (q ++ [x]).length := by simp
          rw [this, show q ++ [x, y, z] ++ [(e, s)] = (q ++ [x]) ++ [y, z, (e, s)] by simp, List.map_append,
            List.drop_append_of_le_length (by simp), List.drop_eq_nil_of_le (by simp)]
          simp

theorem pid_run (c0 c : PID) (p : List (ℝ × ℝ)) (h : PidInv c0 c p) (calls : List (ℝ × ℝ)) :
    ∃ c' rs, c.run calls = some (c', rs) ∧ PidInv c0 c' (p ++ calls) ∧ rs.length = calls.length ∧
      ∀ i, ∀ x, calls[i]? = some x → rs[i]? = some (pidOut c0 (p ++ calls.take i) x.1 x.2) := by
  induction calls generalizing c p with
  | nil => exact ⟨c, [], rfl, by simpa using h, rfl, by simp⟩
  | cons x l ih =>
    obtain ⟨c1, e1, h1⟩ := pid_step c0 c p h x.1 x.2
    obtain ⟨c2, rs, e2, h2, h3, h4⟩ := ih c1 _ h1
    refine ⟨c2, pidOut c0 p x.1 x.2 :: rs, ?_, ?_, by simp [h3], ?_⟩
    · obtain ⟨xe, xs⟩ := x
      simp only [PID.run, e1, Option.bind_eq_bind, Option.bind_some, e2, Option.pure_def]
    · simpa using h2
    · rintro (_ | i) y hy
      · simp only [List.getElem?_cons_zero, Option.some.injEq] at hy; subst hy; simp
      · simp only [List.getElem?_cons_succ] at hy
        have := h4 i y hy
        simpa using this

theorem pid_new (tol mn mx : ℝ) : PidInv (PID.new tol mn mx) (PID.new tol mn mx) [] := ⟨rfl, rfl, rfl, rfl, rfl⟩

/-! ### C40 -/

/-- For every sequence of calls the controller never reads outside its histories. -/
theorem C40_always_defined (tol mn mx : ℝ) (calls : List (ℝ × ℝ)) :
    ∃ c rs, (PID.new tol mn mx).run calls = some (c, rs) ∧ rs.length = calls.length ∧
      c.steps.length = min calls.length 3 ∧ c.errs.length = min calls.length 3 := by
  obtain ⟨c, rs, h1, h2, h3, -⟩ := pid_run _ _ [] (pid_new tol mn mx) calls
  obtain ⟨-, -, -, h4, h5⟩ := h2
  refine ⟨c, rs, h1, h3, ?_, ?_⟩
  · rw [h4]; simp; omega
  · rw [h5]; simp; omega

section
variable (tol mn mx : ℝ) (calls : List (ℝ × ℝ)) (c : PID) (rs : List ℝ)
  (h : (PID.new tol mn mx).run calls = some (c, rs))
include h

/-- The first three calls return the current step unchanged, without any limit. -/
theorem C40_first_three (i : Nat) (hi : i < 3) (hl : i < calls.length) : rs[i]? = some calls[i].2 := by
  obtain ⟨c', rs', h1, -, -, h4⟩ := pid_run _ _ [] (pid_new tol mn mx) calls
  rw [h] at h1
  obtain ⟨rfl, rfl⟩ := Prod.mk.inj (Option.some.inj h1)
  rw [h4 i _ (List.getElem?_eq_getElem hl), pidOut, if_pos (by simp; omega)]

/-- From the fourth call on the result is the PID formula on the last three errors (floored at machine epsilon) and
the last two steps, limited. -/
theorem C40_formula (pre post : List (ℝ × ℝ)) (x y z : ℝ × ℝ) (hp : pre ≠ [])
    (hc : calls = pre ++ x :: y :: z :: post) :
    rs[pre.length + 2]? = some (Spec.limitStep mn mx z.2
      (pidRaw tol y.2 z.2 (max x.1 dblEps) (max y.1 dblEps) (max z.1 dblEps) z.2)) := by
  obtain ⟨c', rs', h1, -, -, h4⟩ := pid_run _ _ [] (pid_new tol mn mx) calls
  rw [h] at h1
  obtain ⟨rfl, rfl⟩ := Prod.mk.inj (Option.some.inj h1)
  have hz : calls[pre.length + 2]? = some z := by rw [hc]; simp
  have ht : calls.take (pre.length + 2) = pre ++ [x, y] := by
    rw [hc, List.take_append]; simp
  have hlen : 0 < pre.length := List.length_pos_of_ne_nil hp
  rw [h4 _ _ hz, ht, pidOut, List.nil_append, if_neg (by simp; omega)]
  simp [PID.new]

/-- Every later step lies within the configured bounds, and within 1%..110% of the current step unless a bound
forces it further. -/
theorem C40_bounds (i : Nat) (hi : 3 ≤ i) (x : ℝ × ℝ) (hx : calls[i]? = some x) (hpos : 0 < x.2) :
    ∃ r, rs[i]? = some r ∧ mn ≤ r ∧ (mn ≤ mx → r ≤ mx) ∧
      (mn ≤ 1.1 * x.2 → r ≤ 1.1 * x.2) ∧ (0.01 * x.2 ≤ mx → 0.01 * x.2 ≤ r) ∧ (0 < mn → 0 < r) := by
  obtain ⟨c', rs', h1, -, -, h4⟩ := pid_run _ _ [] (pid_new tol mn mx) calls
  rw [h] at h1
  obtain ⟨rfl, rfl⟩ := Prod.mk.inj (Option.some.inj h1)
  have hl : i < calls.length := (List.getElem?_eq_some_iff.1 hx).1
  refine ⟨_, h4 i x hx, ?_⟩
  rw [pidOut, if_neg (by simp; omega)]
  unfold Spec.limitStep
  dsimp only [PID.new]
  generalize pidRaw (K := ℝ) _ _ _ _ _ _ _ = raw
  refine ⟨le_max_right _ _, fun hm => max_le (min_le_right _ _) hm, fun hm => max_le ?_ hm, fun hm => ?_,
    fun hm => lt_of_lt_of_le hm (le_max_right _ _)⟩
  · refine (min_le_left _ _).trans (max_le ?_ ?_)
    · exact (min_le_right _ _).trans (by rw [mul_comm])
    · nlinarith
  · refine le_trans ?_ (le_max_left _ _)
    exact le_min (le_trans (by rw [mul_comm]) (le_max_right _ _)) hm

end

/-- When the last three errors equal the tolerance, the unlimited formula keeps the step. -/
theorem C40_steady (tol s1 cur : ℝ) (ht : 0 < tol) : pidRaw tol s1 cur tol tol tol cur = cur := by
  unfold pidRaw
  simp [div_self ht.ne']

/-- A larger current error never gives a larger step (other data equal). -/
theorem C40_antitone (tol s1 cur e0 e1 e e' : ℝ) (ht : 0 < tol) (hs : 0 < s1) (hc : 0 < cur) (h0 : 0 < e0)
    (h1 : 0 < e1) (he : 0 < e) (hee : e ≤ e') : pidRaw tol s1 cur e0 e1 e' cur ≤ pidRaw tol s1 cur e0 e1 e cur := by
  unfold pidRaw
  have he' : 0 < e' := lt_of_lt_of_le he hee
  have hw : 0 < cur / s1 := div_pos hc hs
  have ha : (0 : ℝ) ≤ (0.25 + 0.14 + 0.10 * (2 * (cur / s1)) / (1 + cur / s1)) / 2 := by positivity
  refine mul_le_mul_of_nonneg_right (mul_le_mul_of_nonneg_right (mul_le_mul_of_nonneg_left ?_ (by positivity)) ?_) ?_
  · exact Real.rpow_le_rpow (by positivity) (div_le_div_of_nonneg_left ht.le he hee) ha
  · positivity
  · positivity

/-- The lower bound wins over the 10% growth limit: a step may grow by more than 10%. -/
theorem C40_minimum_overrides : Spec.limitStep 5 10 1 1 = 5 ∧ ¬ Spec.limitStep 5 10 1 1 ≤ 1.1 * 1 := by
  have : Spec.limitStep 5 10 1 1 = 5 := by
    unfold Spec.limitStep
    norm_num [max_def, min_def]
  exact ⟨this, by rw [this]; norm_num⟩

/-- Proposals of the adaptive integrator never fall below a bound `d` that is below the configured minimum and the
current step, whatever the history: this is the hypothesis of the termination theorems `C43_min_step_…`, and (with
`d > 0`) the positivity hypothesis of `C41_…`. -/
theorem C43_adaptive_proposals (tol mn mx : ℝ) (calls : List (ℝ × ℝ)) (c : PID) (rs : List ℝ)
    (h : (PID.new tol mn mx).run calls = some (c, rs)) (d e s : ℝ) (hd : d ≤ mn) (hs : d ≤ s) :
    ∃ c' r, c.adapt e s = some (c', r) ∧ d ≤ r := by
  obtain ⟨c1, rs1, h1, h2, -, -⟩ := pid_run _ _ [] (pid_new tol mn mx) calls
  rw [h] at h1
  obtain ⟨rfl, rfl⟩ := Prod.mk.inj (Option.some.inj h1)
  obtain ⟨c', h3, -⟩ := pid_step _ _ _ h2 e s
  refine ⟨c', _, h3, ?_⟩
  unfold pidOut
  split
  · exact hs
  · exact hd.trans (le_max_right _ _)

/-- Non-vacuity: a fourth call exists and its current step is positive. -/
example : ∃ c rs, (PID.new (1 : ℝ) (1 / 10) 10).run [(1, 1), (1, 1), (1, 1), (1, 1)] = some (c, rs) ∧ rs.length = 4 := by
  obtain ⟨c, rs, h, h', -⟩ := C40_always_defined 1 (1 / 10) 10 [(1, 1), (1, 1), (1, 1), (1, 1)]
  exact ⟨c, rs, h, h'⟩

end Madg
