/-
Observers (C45), residual monitor (C46), stopping decisions of the driver (C44).
-/
import Verif.Proofs.TimeLoop
import Verif.Spec.Time
import Verif.Props.TimeLoop
import Mathlib.Algebra.Order.Ring.Rat
import Mathlib.Tactic.NormNum
import Mathlib.Tactic.Linarith
import Mathlib.Tactic.Ring

set_option linter.unusedSectionVars false

namespace Madg
open Spec

section Obs
variable {W : Type}

theorem callAll_eq (fs : List (W → Except Err W)) (w : W) :
    Observable.callAll fs w = fs.foldlM (fun w g => g w) w := by
  induction fs generalizing w with
  | nil => rfl
  | cons f fs ih =>
    simp only [Observable.callAll, List.foldlM_cons]
    congr 1
    funext w'
    exact ih w'

/-! ### C45 -/

/-- For every history of notifications of both events, whatever the observers do: the observers of an event run, in
registration order, exactly at those notifications of that event whose ordinal is a multiple of the frequency. -/
theorem C45_fires (o : Observable W) (hf : ∀ e, o.obs e ≠ none → o.freq e ≠ 0) (evs : List Event) (w : W) :
    (o.notifyAll evs w).map Prod.snd =
      fireRun (fun e => (o.obs e).getD []) o.freq o.count evs w := by
  suffices H : ∀ (evs : List Event) (o' : Observable W) (c : Event → Int) (w : W), o'.obs = o.obs →
      o'.freq = o.freq → (∀ e, o.obs e ≠ none → o'.count e = c e) →
      (o'.notifyAll evs w).map Prod.snd = fireRun (fun e => (o.obs e).getD []) o.freq c evs w from
    H evs o o.count w rfl rfl fun _ _ => rfl
  intro evs
  induction evs with
  | nil => intros; rfl
  | cons e es ih =>
    intro o' c w h1 h2 h3
    rw [Observable.notifyAll, fireRun, Observable.notify, h1, h2]
    cases ho : o.obs e with
    | none =>
      have hn : (if o.freq e ∣ c e then List.foldlM (fun w g => g w) w ((none : Option (List (W → Except Err W))).getD [])
          else Except.ok w) = Except.ok w := by
        split <;> rfl
      rw [hn]
      change (Observable.notifyAll o' es w).map Prod.snd = fireRun _ _ _ es w
      refine ih o' _ w h1 h2 fun e' he' => ?_
      have : e' ≠ e := fun h => he' (h ▸ ho)
      rw [if_neg this, h3 e' he']; simp
    | some fs =>
      have hf0 : o.freq e ≠ 0 := hf e (by simp [ho])
      have hce := h3 e (by simp [ho])
      dsimp only
      rw [if_neg hf0, hce, Option.getD_some]
      simp only [callAll_eq, ← Int.dvd_iff_tmod_eq_zero]
      cases hx : (if o.freq e ∣ c e then List.foldlM (fun w g => g w) w fs else Except.ok w) with
      | error er => rfl
      | ok w' =>
        change (Observable.notifyAll _ es w').map Prod.snd = fireRun _ _ _ es w'
        refine ih _ _ w' rfl rfl fun e' he' => ?_
        dsimp only
        by_cases hee : e' = e
        · subst hee; simp
        · simp only [if_neg hee]; rw [h3 e' he']; simp

/-- Observers are called in the order they were registered, and registering for one event leaves the other alone. -/
theorem C45_registration_order (e : Event) (f : W → Except Err W) (fs : List (W → Except Err W)) :
    ((f :: fs).foldl (fun o g => o.register e g) Observable.new).obs e = some (f :: fs) ∧
    ∀ e', e' ≠ e → ((f :: fs).foldl (fun o g => o.register e g) Observable.new).obs e' = none := by
  have H : ∀ (gs : List (W → Except Err W)) (o : Observable W) (l : List (W → Except Err W)), o.obs e = some l →
      (gs.foldl (fun o g => o.register e g) o).obs e = some (l ++ gs) := by
    intro gs
    induction gs with
    | nil => intro o l h; simpa using h
    | cons g gs ih =>
      intro o l h
      rw [List.foldl_cons, ih _ (l ++ [g]) (by simp [Observable.register, h])]
      simp
  have H' : ∀ e', e' ≠ e → ∀ (gs : List (W → Except Err W)) (o : Observable W), o.obs e' = none →
      (gs.foldl (fun o g => o.register e g) o).obs e' = none := by
    intro e' he' gs
    induction gs with
    | nil => intro o h; exact h
    | cons g gs ih => intro o h; exact ih _ (by simp [Observable.register, he', h])
  refine ⟨?_, fun e' he' => H' e' he' _ _ rfl⟩
  rw [List.foldl_cons, H fs _ [f] (by simp [Observable.register, Observable.new])]
  simp

/-- Counting: an observer that increments a counter, registered for `e` with frequency `f ≥ 1`, has run
`⌈n / f⌉` times after any history containing `n` notifications of `e`. -/
theorem C45_count (e : Event) (f : Nat) (hf : 1 ≤ f) (evs : List Event) (c : Nat) :
    ((((Observable.new.register e (fun n : Nat => .ok (n + 1))).setFreq e f).notifyAll evs c).map Prod.snd) =
      .ok (c + (evs.count e + f - 1) / f) := by
  rw [C45_fires]
  · suffices H : ∀ (evs : List Event) (k : Event → Int) (n c : Nat), k e = n →
        fireRun (fun e' => (((Observable.new.register e (fun n : Nat => .ok (n + 1))).setFreq e f).obs e').getD [])
          ((Observable.new.register e (fun n : Nat => .ok (n + 1))).setFreq e f).freq k evs
          (c + (n + f - 1) / f) = .ok (c + (n + evs.count e + f - 1) / f) by
      have := H evs (fun _ => 0) 0 c rfl
      simpa [show (f - 1) / f = 0 from Nat.div_eq_of_lt (by omega), Observable.setFreq, Observable.register,
        Observable.new] using this
    intro evs
    induction evs with
    | nil => intros; rfl
    | cons e' es ih =>
      intro k n c hk
      rw [fireRun]
      by_cases he : e' = e
      · subst he
        have h1 : (if ((Observable.new.register e' (fun n : Nat => .ok (n + 1))).setFreq e' f).freq e' ∣ k e' then
            List.foldlM (fun w g => g w) (c + (n + f - 1) / f)
              ((((Observable.new.register e' (fun n : Nat => .ok (n + 1))).setFreq e' f).obs e').getD [])
            else Except.ok (c + (n + f - 1) / f)) = Except.ok (ε := Err) (c + (n + 1 + f - 1) / f) := by
          have hs : (n + 1 + f - 1) / f = (n + f - 1) / f + if f ∣ n then 1 else 0 := by
            obtain ⟨g, rfl⟩ : ∃ g, f = g + 1 := ⟨f - 1, by omega⟩
            have e1 : n + 1 + (g + 1) - 1 = n + g + 1 := by omega
            have e2 : n + (g + 1) - 1 = n + g := by omega
            rw [e1, e2, Nat.succ_div]
            congr 1
            have : (g + 1 ∣ n + g + 1) ↔ (g + 1 ∣ n) := by
              rw [add_assoc]; exact Nat.dvd_add_left dvd_rfl
            simp [this]
          rw [hs, hk]
          simp only [Observable.setFreq, Observable.register, Observable.new, if_true, Option.getD_none,
            List.nil_append, Option.getD_some, Int.natCast_dvd_natCast]
          split
          · simp [List.foldlM, pure, Except.pure, bind, Except.bind, add_assoc]
          · simp
        rw [h1]
        change fireRun _ _ _ es _ = _
        rw [ih _ (n + 1) c (by simp [hk]), List.count_cons_self]
        congr 3
        omega
      · have h1 : (if ((Observable.new.register e (fun n : Nat => .ok (n + 1))).setFreq e f).freq e' ∣ k e' then
            List.foldlM (fun w g => g w) (c + (n + f - 1) / f)
              ((((Observable.new.register e (fun n : Nat => .ok (n + 1))).setFreq e f).obs e').getD [])
            else Except.ok (c + (n + f - 1) / f)) = Except.ok (ε := Err) (c + (n + f - 1) / f) := by
          simp only [Observable.setFreq, Observable.register, Observable.new, if_neg he, Option.getD_none,
            List.foldlM_nil]
          split <;> rfl
        rw [h1]
        change fireRun _ _ _ es _ = _
        rw [ih _ n c (by rw [if_neg (Ne.symm he)]; simp [hk]), List.count_cons_of_ne he]
  · intro e' he'
    simp only [Observable.setFreq, Observable.register, Observable.new] at he' ⊢
    by_cases h : e' = e
    · rw [if_pos h]; exact_mod_cast (by omega : f ≠ 0)
    · rw [if_neg h] at he'; exact absurd rfl he'

/-- A zero frequency for an event with observers is a division by zero at the first notification; without observers
nothing happens. -/
theorem C45_zero_frequency (o : Observable W) (e : Event) (hf : o.freq e = 0) (w : W) :
    (o.obs e ≠ none → o.notify e w = .error .divByZero) ∧ (o.obs e = none → o.notify e w = .ok (o, w)) := by
  unfold Observable.notify
  cases o.obs e <;> simp [hf]

/-- Non-vacuity: ten notifications with frequency 4 (and interleaved others) fire three times. -/
example : ((((Observable.new.register .timeStepComplete (fun n : Nat => .ok (n + 1))).setFreq .timeStepComplete 4).notifyAll
    ((List.range 10).flatMap fun _ => [.timeStepComplete, .solutionUpdate]) 0).map Prod.snd) = .ok 3 := by
  have h := C45_count .timeStepComplete 4 (by norm_num)
    ((List.range 10).flatMap fun _ => [.timeStepComplete, .solutionUpdate]) 0
  exact h
end Obs

/-! ### C46 -/
section Mon
variable {K : Type} [Field K] [LinearOrder K] [IsStrictOrderedRing K]

/-- For every sequence of residual norms in one process: the `i`-th monitor consists of the residual, the absolute
residual and the residual relative to the largest one seen so far (itself included); a zero maximum reports 1. -/
theorem C46_records (mx : K) (rs : List K) (i : Nat) (hi : i < rs.length) :
    (residRun mx rs)[i]? = some
      (if maxOf mx (rs.take (i + 1)) ≠ 0 then
        [("res_c", rs[i]), ("abs_res", rs[i]), ("rel_res", rs[i] / maxOf mx (rs.take (i + 1)))]
      else [("res_c", rs[i]), ("abs_res", 1), ("rel_res", 1)]) := by
  induction rs generalizing mx i with
  | nil => simp at hi
  | cons r rs ih =>
    cases i with
    | zero =>
      simp only [residRun, residRecord, stdMax_eq, List.getElem?_cons_zero, maxOf, zero_add, List.take_succ_cons, List.take_zero,
        List.foldl_cons, List.foldl_nil, List.getElem_cons_zero]
      split <;> rfl
    | succ i =>
      have h2 : (residRecord mx r).2 = max mx r := by unfold residRecord; dsimp only; rw [stdMax_eq]; split <;> rfl
      rw [residRun, List.getElem?_cons_succ, h2, ih _ i (by simpa using hi)]
      rfl

/-- Residual norms are non-negative, so the relative residual lies in [0,1] and is 1 exactly at a running maximum. -/
theorem C46_relative_range (rs : List K) (h0 : ∀ r ∈ rs, 0 ≤ r) (i : Nat) (hi : i < rs.length)
    (mon : List (String × K)) (hm : (residRun 0 rs)[i]? = some mon) :
    ∃ q, mon.lookup "rel_res" = some q ∧ 0 ≤ q ∧ q ≤ 1 ∧ (q = 1 ↔ ∀ j, (hj : j ≤ i) → rs[j] ≤ rs[i]) := by
  have hle : ∀ (l : List K) (m x : K), x ∈ l ∨ x = m → x ≤ maxOf m l := by
    intro l
    induction l with
    | nil => rintro m x (h | rfl); · simp at h
             exact le_rfl
    | cons a l ih =>
      rintro m x (h | rfl)
      · rcases List.mem_cons.1 h with rfl | h
        · exact (le_max_right m x).trans (ih _ _ (Or.inr rfl))
        · exact ih _ _ (Or.inl h)
      · exact (le_max_left x a).trans (ih _ _ (Or.inr rfl))
  have hge : ∀ (l : List K) (m b : K), m ≤ b → (∀ x ∈ l, x ≤ b) → maxOf m l ≤ b := by
    intro l
    induction l with
    | nil => intro m b h _; exact h
    | cons a l ih =>
      intro m b h h'
      exact ih _ _ (max_le h (h' a List.mem_cons_self)) fun x hx => h' x (List.mem_cons_of_mem _ hx)
  have hmem : rs[i] ∈ rs.take (i + 1) := by
    rw [List.mem_take_iff_getElem]; exact ⟨i, by omega, rfl⟩
  have hr0 : 0 ≤ rs[i] := h0 _ (List.getElem_mem _)
  have hM : rs[i] ≤ maxOf 0 (rs.take (i + 1)) := hle _ _ _ (Or.inl hmem)
  have hiff : (∀ j, (hj : j ≤ i) → rs[j] ≤ rs[i]) ↔ maxOf 0 (rs.take (i + 1)) = rs[i] := by
    constructor
    · intro h
      refine le_antisymm (hge _ _ _ hr0 fun x hx => ?_) hM
      obtain ⟨j, hj, rfl⟩ := List.mem_take_iff_getElem.1 hx
      exact h j (by omega)
    · intro h j hj
      rw [← h]
      refine hle _ _ _ (Or.inl (List.mem_take_iff_getElem.2 ⟨j, by omega, rfl⟩))
  rw [C46_records 0 rs i hi, Option.some.injEq] at hm
  rw [hiff, ← hm]
  by_cases hz : maxOf 0 (rs.take (i + 1)) ≠ 0
  · rw [if_pos hz]
    have hpos : 0 < maxOf 0 (rs.take (i + 1)) := lt_of_le_of_ne (hr0.trans hM) (Ne.symm hz)
    refine ⟨rs[i] / maxOf 0 (rs.take (i + 1)), by simp [List.lookup], div_nonneg hr0 hpos.le,
      (div_le_one hpos).2 hM, ?_⟩
    rw [div_eq_one_iff_eq hz, eq_comm]
  · rw [if_neg hz]
    rw [not_not] at hz
    refine ⟨1, by simp [List.lookup], zero_le_one, le_rfl, ?_⟩
    rw [hz]
    refine ⟨fun _ => (le_antisymm (hz ▸ hM) hr0).symm, fun _ => rfl⟩

/-- A process that has only seen zero residuals reports the relative and absolute residual 1, not 0. -/
theorem C46_zero_reports_one (n i : Nat) (hi : i < n) :
    (residRun (0 : K) (List.replicate n 0))[i]? = some [("res_c", 0), ("abs_res", 1), ("rel_res", 1)] := by
  have hz : ∀ k, maxOf (0 : K) (List.replicate k 0) = 0 := by
    intro k
    induction k with
    | zero => rfl
    | succ k ih => rw [List.replicate_succ, maxOf, List.foldl_cons, max_self]; exact ih
  rw [C46_records 0 _ i (by simpa using hi)]
  have : (List.replicate n (0 : K)).take (i + 1) = List.replicate (i + 1) 0 := by
    rw [List.take_replicate]; congr 1; omega
  rw [this, hz]
  simp

/-- Non-vacuity. -/
example : (residRun (0 : ℚ) [4, 2, 8])[1]? = some [("res_c", 2), ("abs_res", 2), ("rel_res", 1 / 2)] := by
  rw [C46_records 0 _ 1 (by simp)]
  norm_num [maxOf]

/-! ### C44 -/

variable {S : Type}

theorem notify_some {W : Type} {o : Observable W} {e : Event} {fs : List (W → Except Err W)} (h : o.obs e = some fs)
    (hf : o.freq e ≠ 0) (w w1 : W) (hc : Observable.callAll fs w = .ok w1) :
    o.notify e w = .ok ({ o with count := fun e' => if e' = e then o.count e + 1 else o.count e' },
      if (o.count e).tmod (o.freq e) = 0 then w1 else w) := by
  unfold Observable.notify
  rw [h]
  dsimp only
  rw [if_neg hf, hc]
  split <;> rfl

theorem puppet_tsc (resNorm : S → K) (f se : Int) : (puppetObs resNorm f se).obs .timeStepComplete =
    some [residObserver resNorm, .ok, .ok, .ok] ∧ (puppetObs (S := S) resNorm f se).freq .timeStepComplete = f := by
  by_cases hs : se = 0 <;> simp [puppetObs, Observable.setFreq, Observable.register, Observable.new, hs]

theorem puppet_su (resNorm : S → K) (f se : Int) : ((puppetObs resNorm f se).obs .solutionUpdate =
    if se = 0 then none else some [.ok]) ∧ (puppetObs (S := S) resNorm f se).freq .solutionUpdate = se := by
  by_cases hs : se = 0 <;> simp [puppetObs, Observable.setFreq, Observable.register, Observable.new, hs]

/-- One round of notifications of the driver's observers. -/
theorem puppet_notify (doStep : S → K → K → Except Err S) (nextDT : S → K → S × K) (resNorm : S → K) (f : Nat)
    (hf : f ≠ 0) (se : Int) (ob : Observable (Mon S K)) (v : Mon S K) (k : Nat)
    (h1 : ob.obs = (puppetObs resNorm f se).obs) (h2 : ob.freq = (puppetObs (S := S) resNorm f se).freq)
    (h3 : ob.count .timeStepComplete = k) (i : Int) (t dt : K) :
    ∃ ob', (puppetEnv doStep nextDT).notify (ob, v) i t dt = .ok (ob', if f ∣ k then
        { v with mon := (residRecord v.maxRes (resNorm v.s)).1, maxRes := (residRecord v.maxRes (resNorm v.s)).2 }
        else v) ∧
      ob'.obs = (puppetObs resNorm f se).obs ∧ ob'.freq = (puppetObs (S := S) resNorm f se).freq ∧
      ob'.count .timeStepComplete = ((k + 1 : Nat) : Int) := by
  have hd : ((k : Int).tmod (f : Int) = 0) ↔ f ∣ k := by
    rw [← Int.dvd_iff_tmod_eq_zero, Int.natCast_dvd_natCast]
  have e1 := notify_some (o := ob) (e := .timeStepComplete) (by rw [h1]; exact (puppet_tsc resNorm f se).1)
    (by rw [h2, (puppet_tsc resNorm f se).2]; exact_mod_cast hf) v
    { v with mon := (residRecord v.maxRes (resNorm v.s)).1, maxRes := (residRecord v.maxRes (resNorm v.s)).2 } rfl
  rw [h3, h2, (puppet_tsc resNorm f se).2] at e1
  simp only [hd] at e1
  set v' := if f ∣ k then
        { v with mon := (residRecord v.maxRes (resNorm v.s)).1, maxRes := (residRecord v.maxRes (resNorm v.s)).2 }
        else v with hv
  change ∃ ob', ((ob.notify .timeStepComplete v).bind fun p => p.1.notify .solutionUpdate p.2) = _ ∧ _
  rw [e1]
  generalize hob : (⟨ob.obs, (puppetObs (S := S) resNorm f se).freq,
    fun e' => if e' = Event.timeStepComplete then (k : Int) + 1 else ob.count e'⟩ : Observable (Mon S K)) = ob1
  have g1 : ob1.obs = (puppetObs resNorm f se).obs := by rw [← hob]; exact h1
  have g2 : ob1.freq = (puppetObs (S := S) resNorm f se).freq := by rw [← hob]
  have g3 : ob1.count .timeStepComplete = ((k + 1 : Nat) : Int) := by rw [← hob]; simp
  change ∃ ob', ob1.notify .solutionUpdate v' = _ ∧ _
  by_cases hs : se = 0
  · refine ⟨ob1, ?_, g1, g2, g3⟩
    unfold Observable.notify
    rw [g1, (puppet_su resNorm f se).1, if_pos hs]
  · have e2 := notify_some (o := ob1) (e := .solutionUpdate) (fs := [.ok])
      (by rw [g1, (puppet_su resNorm f se).1, if_neg hs]) (by rw [g2, (puppet_su resNorm f se).2]; exact hs) v' v' rfl
    rw [ite_self] at e2
    exact ⟨_, e2, g1, g2, by simp [g3]⟩

theorem seenMax_zero (f : Nat) (r : Nat → K) : seenMax f r 0 = 0 := rfl

theorem seenMax_succ (f : Nat) (r : Nat → K) (k : Nat) :
    seenMax f r (k + 1) = if f ∣ k then max (seenMax f r k) (r k) else seenMax f r k := by
  unfold seenMax maxOf
  rw [List.range_succ, List.filter_append, List.map_append, List.foldl_append]
  by_cases h : f ∣ k <;> simp [h]

theorem lastLogged_succ (f k : Nat) : lastLogged f (k + 1) = if f ∣ k then k else lastLogged f k := by
  unfold lastLogged
  rw [Nat.add_sub_cancel]
  split
  · rename_i h; exact Nat.div_mul_cancel h
  · rename_i h
    cases k with
    | zero => exact absurd (dvd_zero f) h
    | succ k => rw [Nat.succ_div, if_neg h]; simp

/-- The residual function describes the states of the run. -/
def ResOf (resNorm : S → K) (hist : List S) (r : Nat → K) : Prop := ∀ i s, hist[i]? = some s → r i = resNorm s

/-- What is known about the driver's world after `k` steps. -/
def DriverInv (resNorm : S → K) (f : Nat) (se : Int) (w : Observable (Mon S K) × Mon S K) (k : Nat) : Prop :=
  w.1.obs = (puppetObs resNorm f se).obs ∧ w.1.freq = (puppetObs (S := S) resNorm f se).freq ∧
  w.1.count .timeStepComplete = k ∧ w.2.hist.length = k ∧
  ∀ r, ResOf resNorm w.2.hist r → w.2.maxRes = seenMax f r k ∧ (1 ≤ k →
    findMon w.2.mon "rel_res" = some (seenRel f r k) ∧ ∃ rest, w.2.mon = ("res_c", r (lastLogged f k)) :: rest)

/-- One step with its notifications. -/
theorem driver_step (doStep : S → K → K → Except Err S) (nextDT : S → K → S × K) (resNorm : S → K) (f : Nat)
    (hf : f ≠ 0) (se : Int) (w : Observable (Mon S K) × Mon S K) (k : Nat) (h : DriverInv resNorm f se w k) (t dt : K)
    (s : S) (hs : doStep w.2.s t dt = .ok s) (i : Int) (t' dt' : K) :
    ∃ w1 w2, (puppetEnv doStep nextDT).doStep w t dt = .ok w1 ∧ (puppetEnv doStep nextDT).notify w1 i t' dt' = .ok w2 ∧
      DriverInv resNorm f se w2 (k + 1) ∧ w2.2.hist = w.2.hist ++ [s] := by
  obtain ⟨h1, h2, h3, h4, h5⟩ := h
  obtain ⟨ob', e, g1, g2, g3⟩ := puppet_notify doStep nextDT resNorm f hf se w.1
    { w.2 with s := s, hist := w.2.hist ++ [s] } k h1 h2 h3 i t' dt'
  refine ⟨(w.1, { w.2 with s := s, hist := w.2.hist ++ [s] }), _, ?_, e, ⟨g1, g2, g3, ?_, ?_⟩, ?_⟩
  · simp [puppetEnv, hs, bind, Except.bind]
  · dsimp only; split <;> simp [h4]
  · intro r hr
    have hr0 : ResOf resNorm w.2.hist r := by
      intro i s' hs'
      refine hr i s' ?_
      have hl : i < w.2.hist.length := (List.getElem?_eq_some_iff.1 hs').1
      dsimp only
      split <;> simp only [List.getElem?_append_left hl, hs']
    have hrk : r k = resNorm s := by
      refine hr k s ?_
      dsimp only
      split <;> simp [← h4]
    obtain ⟨m1, m2⟩ := h5 r hr0
    rw [seenMax_succ]
    unfold seenRel
    rw [seenMax_succ, lastLogged_succ]
    dsimp only
    by_cases hk : f ∣ k
    · simp only [if_pos hk]
      unfold residRecord
      dsimp only
      rw [m1, hrk, stdMax_eq]
      split
      · exact ⟨rfl, fun _ => ⟨by simp [findMon, List.find?], _, rfl⟩⟩
      · exact ⟨rfl, fun _ => ⟨by simp [findMon, List.find?], _, rfl⟩⟩
    · simp only [if_neg hk]
      have hk1 : 1 ≤ k := by
        rcases Nat.eq_zero_or_pos k with rfl | h
        · exact absurd (dvd_zero f) hk
        · exact h
      exact ⟨m1, fun _ => m2 hk1⟩
  · dsimp only; split <;> rfl

/-- Start of a run of the driver. -/
theorem driver_start (resNorm : S → K) (f : Nat) (se : Int) (s0 : S) (mon : List (String × K)) :
    DriverInv resNorm f se (puppetObs resNorm f se, ⟨s0, mon, 0, []⟩) 0 := by
  refine ⟨rfl, rfl, ?_, rfl, fun r _ => ⟨rfl, fun h => absurd h (by omega)⟩⟩
  by_cases hs : se = 0 <;> simp [puppetObs, Observable.setFreq, Observable.register, Observable.new, hs]

/-- The stop flag of the driver is the documented rule. -/
theorem driver_stop {doStep : S → K → K → Except Err S} {nextDT : S → K → S × K} {resNorm : S → K} {f : Nat}
    {se : Int} {o : TimeOpts K} {l : LoopSt (Observable (Mon S K) × Mon S K) K} {k : Nat}
    (hI : DriverInv resNorm f se l.w k) (hk : 1 ≤ k) (hit : l.iter = o.initialStep + k)
    {r' : (Observable (Mon S K) × Mon S K) × K × K × Bool × Bool}
    (h : nextTimestep (puppetEnv doStep nextDT) o l = .ok r') (r : Nat → K) (hr : ResOf resNorm l.w.2.hist r) :
    (r'.2.2.2.2 = true ↔ StopAt o f r k) := by
  obtain ⟨r1, -, -, r4⟩ := nextTimestep_ok h
  obtain ⟨-, m⟩ := hI.2.2.2.2 r hr
  obtain ⟨m1, rest, m2⟩ := m hk
  have hmon : (puppetEnv doStep nextDT).resmon r'.1 = l.w.2.mon := by rw [r1]; rfl
  rw [r4, hmon, StopAt, hit, m1]
  refine or_congr Iff.rfl (or_congr (and_congr_right fun _ => ?_) (and_congr_right fun _ => ?_))
  · simp
  · rw [m2]
    constructor
    · rintro ⟨kv, rest', h, h'⟩
      rw [(List.cons.inj h).1.symm] at h'
      exact h'
    · intro h; exact ⟨_, _, rfl, h⟩

/-- Every run of the driver: it stops at the first completed step for which the documented rule holds (residuals are
those of the last logged step, relative to the largest logged one), or after the step that the final time called for;
and it takes no step beyond either.  `hist` are the states after each step, `r i` the residual norm of the `i`-th. -/
theorem C44_stops_exactly (doStep : S → K → K → Except Err S) (nextDT : S → K → S × K) (resNorm : S → K) (f : Nat)
    (hf : f ≠ 0) (se : Int) (o : TimeOpts K) (s0 : S) (fuel : Nat)
    (l : LoopSt (Observable (Mon S K) × Mon S K) K)
    (h : solve (puppetEnv doStep nextDT) o fuel (puppetObs resNorm f se, ⟨s0, [], 0, []⟩) = some (.ok l))
    (r : Nat → K) (hr : ∀ i s, l.w.2.hist[i]? = some s → r i = resNorm s) :
    l.w.2.hist.length = l.steps.length ∧ 1 ≤ l.steps.length ∧
    (∀ k, 1 ≤ k → k < l.steps.length → ¬ StopAt o f r k) ∧
    (∀ i s, 1 ≤ i → i + 1 < l.steps.length → l.steps[i]? = some s → s.t + s.prop < o.tfinal) ∧
    (StopAt o f r l.steps.length ∨ 2 ≤ l.steps.length ∧
      ∃ s, l.steps[l.steps.length - 1]? = some s ∧ o.tfinal ≤ s.t + s.prop) := by
  unfold solve at h
  split at h
  · simp at h
  · have hgrow : ∀ (hist : List S) (s : S) (r : Nat → K), ResOf resNorm (hist ++ [s]) r → ResOf resNorm hist r := by
      intro hist s r hr i s' hs'
      exact hr i s' (by rw [List.getElem?_append_left (List.getElem?_eq_some_iff.1 hs').1]; exact hs')
    refine loop_inv (puppetEnv doStep nextDT) o
      (fun last l => DriverInv resNorm f se l.w l.steps.length ∧ l.iter = o.initialStep + l.steps.length ∧
        (∀ r, ResOf resNorm l.w.2.hist r → ∀ k, 1 ≤ k → k ≤ l.steps.length → ¬ StopAt o f r k) ∧
        (∀ i s, 1 ≤ i → l.steps[i]? = some s → s.t + s.prop < o.tfinal) ∧
        (last = true → 1 ≤ l.steps.length ∧ o.tfinal ≤ l.time + l.prop) ∧
        (last = false → 1 ≤ l.steps.length → l.time + l.prop < o.tfinal))
      (fun l => ∀ r, ResOf resNorm l.w.2.hist r →
        l.w.2.hist.length = l.steps.length ∧ 1 ≤ l.steps.length ∧
        (∀ k, 1 ≤ k → k < l.steps.length → ¬ StopAt o f r k) ∧
        (∀ i s, 1 ≤ i → i + 1 < l.steps.length → l.steps[i]? = some s → s.t + s.prop < o.tfinal) ∧
        (StopAt o f r l.steps.length ∨ 2 ≤ l.steps.length ∧
          ∃ s, l.steps[l.steps.length - 1]? = some s ∧ o.tfinal ≤ s.t + s.prop))
      ?_ ?_ fuel false _ l ?_ h r hr
    · rintro l w1 w2 ⟨i1, i2, i3, i4, i5, -⟩ h1 h2 r hr
      obtain ⟨s, hs⟩ : ∃ s, doStep l.w.2.s l.time l.dt = .ok s := by
        cases hd : doStep l.w.2.s l.time l.dt with
        | ok s => exact ⟨s, rfl⟩
        | error e => simp [puppetEnv, hd, bind, Except.bind] at h1
      obtain ⟨w1', w2', e1, e2, e3, e4⟩ := driver_step doStep nextDT resNorm f hf se l.w _ i1 l.time l.dt s hs
        (l.iter + 1) (l.time + l.dt) l.dt
      rw [h1] at e1; obtain rfl := Except.ok.inj e1
      rw [h2] at e2; obtain rfl := Except.ok.inj e2
      have hlen : (l.after w2).steps.length = l.steps.length + 1 := by simp [LoopSt.after]
      have hr' : ResOf resNorm l.w.2.hist r := hgrow _ s r (by rw [← e4]; exact hr)
      refine ⟨by rw [hlen]; exact e3.2.2.2.1, by omega, fun k hk hk' => i3 r hr' k hk (by omega), ?_, ?_⟩
      · intro i s' hi hi' hs'
        refine i4 i s' hi ?_
        rw [hlen] at hi'
        simp only [LoopSt.after] at hs'
        rwa [List.getElem?_append_left (by omega)] at hs'
      · right
        rw [hlen]
        obtain ⟨j1, j2⟩ := i5 rfl
        exact ⟨by omega, ⟨l.time, l.dt, l.prop⟩, by simp [LoopSt.after], j2⟩
    · rintro l w1 w2 r' ⟨i1, i2, i3, i4, -, i6⟩ h1 h2 h3
      obtain ⟨s, hs⟩ : ∃ s, doStep l.w.2.s l.time l.dt = .ok s := by
        cases hd : doStep l.w.2.s l.time l.dt with
        | ok s => exact ⟨s, rfl⟩
        | error e => simp [puppetEnv, hd, bind, Except.bind] at h1
      obtain ⟨w1', w2', e1, e2, e3, e4⟩ := driver_step doStep nextDT resNorm f hf se l.w _ i1 l.time l.dt s hs
        (l.iter + 1) (l.time + l.dt) l.dt
      rw [h1] at e1; obtain rfl := Except.ok.inj e1
      rw [h2] at e2; obtain rfl := Except.ok.inj e2
      have hlen : ((l.after w2).chosen r').steps.length = l.steps.length + 1 := by simp [LoopSt.chosen, LoopSt.after]
      obtain ⟨r1, r2, r3, -⟩ := nextTimestep_ok h3
      have hhist : ((l.after w2).chosen r').w.2.hist = w2.2.hist := by
        simp only [LoopSt.chosen, r1]; rfl
      have hstop : ∀ r, ResOf resNorm w2.2.hist r → (r'.2.2.2.2 = true ↔ StopAt o f r (l.steps.length + 1)) :=
        fun r hr => driver_stop (l := l.after w2) e3 (by omega) (by simp only [LoopSt.after, i2]; push_cast; ring) h3 r hr
      have hold : ∀ r, ResOf resNorm w2.2.hist r → ∀ k, 1 ≤ k → k ≤ l.steps.length → ¬ StopAt o f r k :=
        fun r hr => i3 r (hgrow _ s r (by rw [← e4]; exact hr))
      have hst : ∀ i s, 1 ≤ i → ((l.after w2).chosen r').steps[i]? = some s → s.t + s.prop < o.tfinal := by
        intro i s' hi hs'
        simp only [LoopSt.chosen, LoopSt.after] at hs'
        by_cases hil : i < l.steps.length
        · rw [List.getElem?_append_left hil] at hs'; exact i4 i s' hi hs'
        · have hi2 : i = l.steps.length := by
            have := (List.getElem?_eq_some_iff.1 hs').1
            simp at this; omega
          subst hi2
          simp at hs'
          rw [← hs']
          exact i6 rfl hi
      split
      · rename_i hs1
        intro r hr
        rw [hhist] at hr ⊢
        rw [hlen]
        refine ⟨e3.2.2.2.1, by omega, fun k hk hk' => hold r hr k hk (by omega),
          fun i s' hi _ hs' => hst i s' hi hs', Or.inl ((hstop r hr).1 hs1)⟩
      · rename_i hs1
        rw [hlen, hhist]
        refine ⟨⟨?_, ?_, ?_, ?_, ?_⟩, ?_, ?_, hst, ?_, ?_⟩
        · simp only [LoopSt.chosen, r1]; exact e3.1
        · simp only [LoopSt.chosen, r1]; exact e3.2.1
        · simp only [LoopSt.chosen, r1]; exact e3.2.2.1
        · rw [hhist]; exact e3.2.2.2.1
        · simp only [LoopSt.chosen, r1]; exact e3.2.2.2.2
        · simp only [LoopSt.chosen, LoopSt.after, i2]; push_cast; ring
        · intro r hr k hk hk'
          rcases Nat.lt_or_ge l.steps.length k with hkl | hkl
          · obtain rfl : k = l.steps.length + 1 := by omega
            exact fun hc => hs1 ((hstop r hr).2 hc)
          · exact hold r hr k hk hkl
        · intro hl
          rcases r3 with ⟨-, a, b⟩ | ⟨a, -, -⟩
          · exact ⟨by omega, a⟩
          · rw [a] at hl; exact absurd hl (by decide)
        · intro hl _
          rcases r3 with ⟨a, -, -⟩ | ⟨-, a, b⟩
          · rw [a] at hl; exact absurd hl (by decide)
          · exact a
    · exact ⟨driver_start resNorm f se s0 [], by simp, fun r _ k hk hk' => absurd hk' (by simp; omega), by simp,
        by simp, by simp⟩

/-- With a non-zero logging frequency (and any `save_every`, 0 included) the driver's loop never fails by itself: in
particular the residual monitor is never empty when the absolute tolerance is tested. -/
theorem C44_no_failure (doStep : S → K → K → Except Err S) (nextDT : S → K → S × K) (resNorm : S → K) (f : Nat)
    (hf : f ≠ 0) (se : Int) (o : TimeOpts K) (hcfl : o.useCfl = false) (hdo : ∀ s t dt, ∃ s', doStep s t dt = .ok s')
    (s0 : S) (fuel : Nat) (e : Err) :
    solve (puppetEnv doStep nextDT) o fuel (puppetObs resNorm f se, ⟨s0, [], 0, []⟩) ≠ some (.error e) := by
  unfold solve
  rw [if_neg (by simp [hcfl])]
  refine loop_no_error (puppetEnv doStep nextDT) o (fun _ l => ∃ k, DriverInv resNorm f se l.w k) ?_ fuel false _ e
    ⟨0, driver_start resNorm f se s0 []⟩
  rintro last l ⟨k, hk⟩
  obtain ⟨s, hs⟩ := hdo l.w.2.s l.time l.dt
  obtain ⟨w1, w2, e1, e2, e3, e4⟩ := driver_step doStep nextDT resNorm f hf se l.w k hk l.time l.dt s hs
        (l.iter + 1) (l.time + l.dt) l.dt
  refine ⟨w1, w2, e1, e2, fun _ => ?_⟩
  have hmon : ∃ kv rest, w2.2.mon = kv :: rest := by
    obtain ⟨-, m⟩ := e3.2.2.2.2 (fun i => (w2.2.hist[i]?).elim 0 resNorm) (by intro i s h; simp [h])
    obtain ⟨-, rest, m⟩ := m (by omega)
    exact ⟨_, rest, m⟩
  obtain ⟨kv, rest, hmon⟩ := hmon
  have hx : ∃ r, nextTimestep (puppetEnv doStep nextDT) o (l.after w2) = .ok r := by
    unfold nextTimestep
    dsimp only [LoopSt.after]
    rw [if_neg (by simp [hcfl])]
    by_cases ha : o.absTol ≠ 0
    · rw [if_pos ha]
      have : (puppetEnv doStep nextDT).resmon ((puppetEnv doStep nextDT).nextDT w2 l.dt).1 = kv :: rest := hmon
      rw [this]
      exact ⟨_, rfl⟩
    · rw [if_neg ha]; exact ⟨_, rfl⟩
  obtain ⟨r, hr⟩ := hx
  refine ⟨r, hr, fun _ => ⟨k + 1, ?_⟩⟩
  obtain ⟨r1, -⟩ := nextTimestep_ok hr
  obtain ⟨g1, g2, g3, g4, g5⟩ := e3
  have : ((l.after w2).chosen r).w = (w2.1, { w2.2 with s := (nextDT w2.2.s l.dt).1 }) := by
    simp only [LoopSt.chosen, r1]; rfl
  rw [this]
  exact ⟨g1, g2, g3, g4, g5⟩

/-- A logging frequency of 0 makes every run fail at the first notification (integer division by zero). -/
theorem C44_zero_log_frequency (doStep : S → K → K → Except Err S) (nextDT : S → K → S × K) (resNorm : S → K)
    (se : Int) (o : TimeOpts K) (hcfl : o.useCfl = false) (s0 s1 : S) (hs : doStep s0 o.t0 o.dt0 = .ok s1)
    (fuel : Nat) : solve (puppetEnv doStep nextDT) o (fuel + 1) (puppetObs resNorm 0 se, ⟨s0, [], 0, []⟩) =
      some (.error .divByZero) := by
  unfold solve
  rw [if_neg (by simp [hcfl]), loop]
  have hn : ∀ v, (puppetObs resNorm 0 se).notify .timeStepComplete v = .error .divByZero := fun v =>
    (C45_zero_frequency _ _ (puppet_tsc resNorm 0 se).2 v).1 (by rw [(puppet_tsc resNorm 0 se).1]; simp)
  simp [puppetEnv, hs, bind, Except.bind, hn]

/-- An absolute tolerance without a residual observer reads the first element of an empty vector. -/
theorem C44_no_monitor_is_undefined {W : Type} (E : LoopEnv W K) (o : TimeOpts K) (hcfl : o.useCfl = false)
    (ha : o.absTol ≠ 0) (hE : ∀ w, E.resmon w = []) (w w1 w2 : W) (h1 : E.doStep w o.t0 o.dt0 = .ok w1)
    (h2 : E.notify w1 (o.initialStep + 1) (o.t0 + o.dt0) o.dt0 = .ok w2) (fuel : Nat) :
    solve E o (fuel + 1) w = some (.error .outOfBounds) := by
  unfold solve
  rw [if_neg (by simp [hcfl]), loop]
  dsimp only
  rw [h1]
  dsimp only
  rw [h2]
  simp [nextTimestep, hcfl, ha, hE]

/-- The decision after a single step, for any integrator and any recorded residuals (in particular several records of one name,
of which the first counts): the run ends there exactly when the step limit is reached, the first record called `rel_res` is below
the relative tolerance, or the very first record is below the absolute tolerance. -/
theorem C44_decision {W : Type} (E : LoopEnv W K) (o : TimeOpts K) (hcfl : o.useCfl = false) (w w1 w2 : W)
    (h1 : E.doStep w o.t0 o.dt0 = .ok w1) (h2 : E.notify w1 (o.initialStep + 1) (o.t0 + o.dt0) o.dt0 = .ok w2)
    (hm : o.absTol ≠ 0 → E.resmon (E.nextDT w2 o.dt0).1 ≠ []) :
    (∃ l, solve E o 1 w = some (.ok l) ∧ l.steps.length = 1) ↔
      (o.maxSteps ≠ 0 ∧ o.maxSteps ≤ o.initialStep + 1) ∨
      (o.relTol ≠ 0 ∧ ∃ v, (E.resmon (E.nextDT w2 o.dt0).1).lookup "rel_res" = some v ∧ v < o.relTol) ∨
      (o.absTol ≠ 0 ∧ ∃ v, (E.resmon (E.nextDT w2 o.dt0).1).head? = some v ∧ v.2 < o.absTol) := by
  unfold solve
  rw [if_neg (by simp [hcfl]), loop]
  dsimp only
  rw [h1]
  dsimp only
  rw [h2]
  dsimp only
  rw [if_neg (by decide)]
  cases hx : nextTimestep E o ⟨w2, o.initialStep + 1, o.t0 + o.dt0, o.dt0, o.dt0, [] ++ [⟨o.t0, o.dt0, o.dt0⟩]⟩ with
  | error e =>
    exfalso
    simp only [nextTimestep, hcfl, Bool.false_eq_true, if_false] at hx
    split at hx
    · rename_i ha
      cases hr : E.resmon (E.nextDT w2 o.dt0).1 with
      | nil => exact hm ha hr
      | cons kv rest => rw [hr] at hx; cases hx
    · cases hx
  | ok r =>
    obtain ⟨r1, r2, r3, r4⟩ := nextTimestep_ok hx
    obtain ⟨w3, dt, prop, last, stop⟩ := r
    dsimp only at *
    rw [r1, findMon_eq] at r4
    cases hr : E.resmon (E.nextDT w2 o.dt0).1 with
    | nil =>
      rw [hr] at r4
      cases stop <;> simp [loop] at r4 ⊢ <;> exact r4
    | cons kv rest =>
      rw [hr] at r4
      cases stop <;> simp [loop] at r4 ⊢ <;> exact r4

/-- Two records called `rel_res`: only the first counts. -/
example : ¬ ∃ l, solve (W := Unit) ⟨fun _ _ _ => .ok (), fun _ dt => ((), dt), fun _ _ _ _ => .ok (),
    fun _ => [("rel_res", 1), ("rel_res", 0)]⟩ (⟨0, 100, 1, false, 0, 0, 1 / 3, 0⟩ : TimeOpts ℚ) 1 () = some (.ok l) ∧
      l.steps.length = 1 := by
  rw [C44_decision _ _ rfl () () () rfl rfl (by simp)]
  norm_num [List.lookup]

/-- Non-vacuity of the driver theorems: residuals 8, 4, 2, 1, …, relative tolerance 1/3, logging every second step. -/
example : ∃ fuel l, solve (puppetEnv (S := ℚ) (fun s _ _ => .ok (s / 2)) (fun s dt => (s, dt)))
    ⟨0, 100, 1, false, 0, 0, 1 / 3, 0⟩ fuel (puppetObs (fun s => s) ((2 : Nat) : Int) 0, ⟨16, [], 0, []⟩) =
      some (.ok l) := by
  have h1 := C44_no_failure (K := ℚ) (S := ℚ) (fun s _ _ => .ok (s / 2)) (fun s dt => (s, dt)) (fun s => s) 2
    (by norm_num) 0 ⟨0, 100, 1, false, 0, 0, 1 / 3, 0⟩ rfl (fun s _ _ => ⟨s / 2, rfl⟩) 16
  obtain ⟨fuel, h2⟩ := C43_min_step_terminates' (puppetEnv (S := ℚ) (fun s _ _ => .ok (s / 2)) (fun s dt => (s, dt)))
    ⟨0, 100, 1, false, 0, 0, 1 / 3, 0⟩ 1 one_pos le_rfl (fun w dt h => h)
    (puppetObs (fun s => s) ((2 : Nat) : Int) 0, ⟨16, [], 0, []⟩)
  rcases hx : solve (puppetEnv (S := ℚ) (fun s _ _ => .ok (s / 2)) (fun s dt => (s, dt)))
    ⟨0, 100, 1, false, 0, 0, 1 / 3, 0⟩ fuel (puppetObs (fun s => s) ((2 : Nat) : Int) 0, ⟨16, [], 0, []⟩) with _ | _ | l
  · exact absurd hx h2
  · exact absurd hx (h1 _ _)
  · exact ⟨fuel, l, hx⟩
end Mon

end Madg
