/-
Closed form of the random initial condition.
-/
import Verif.Model.InitCond
import Verif.Proofs.Single
import Verif.Spec.Kahan
import Mathlib.Algebra.BigOperators.Group.List.Basic

set_option linter.unusedSectionVars false
set_option linter.unusedVariables false

namespace Madg
variable {A K : Type} [DecidableEq A]

section
variable [Arith K]

theorem getD_lt {l : List Int} {i : Nat} (h : i < l.length) : l.getD i 0 = l[i] := by
  rw [List.getD_eq_getElem?_getD, List.getElem?_eq_getElem h, Option.getD_some]

/-- Memory after writing `f ii` at `l[ii]` for the `ii` in `xs`. -/
def setAll (l : List Int) (c : A) (f : Nat → K) : List Nat → Mem A K → Mem A K
  | [], m => m
  | ii :: xs, m => setAll l c f xs (m.set c (l.getD ii 0) (f ii))

theorem setAll_miss (l : List Int) (c : A) (f : Nat → K) (xs : List Nat) (m : Mem A K) {b : A} {n : Int}
    (h : b = c → ∀ ii ∈ xs, l.getD ii 0 ≠ n) : setAll l c f xs m b n = m b n := by
  induction xs generalizing m with
  | nil => rfl
  | cons x xs ih =>
    rw [setAll, ih _ fun e ii hii => h e ii (by simp [hii])]
    refine Mem.set_of_ne _ _ fun e => h e.1 x (by simp) e.2.symm

theorem setAll_hit (l : List Int) (hl : l.Nodup) (c : A) (f : Nat → K) (xs : List Nat) (hx : xs.Nodup) (hb : ∀ ii ∈ xs, ii < l.length)
    (m : Mem A K) {ii : Nat} (hi : ii ∈ xs) : setAll l c f xs m c (l.getD ii 0) = f ii := by
  have inj : ∀ a < l.length, ∀ b < l.length, l.getD a 0 = l.getD b 0 → a = b := by
    intro a ha b hb' e
    rw [getD_lt ha, getD_lt hb'] at e
    exact (List.Nodup.getElem_inj_iff hl).1 e
  induction xs generalizing m with
  | nil => simp at hi
  | cons x xs ih =>
    rw [List.nodup_cons] at hx
    rcases List.mem_cons.1 hi with rfl | hi
    · rw [setAll, setAll_miss]
      · exact Mem.set_same _ _ _ _
      · intro _ jj hj e
        exact hx.1 (inj jj (hb jj (by simp [hj])) ii (hb ii (by simp)) e ▸ hj)
    · rw [setAll]
      exact ih hx.2 (fun j hj => hb j (by simp [hj])) _ hi

theorem idx_getD {l : List Int} {ii : Nat} (h : ii < l.length) : (Prog.idx l ii : Prog A K Int) = .pure (l.getD ii 0) := by
  rw [Prog.idx, List.getElem?_eq_getElem h, getD_lt h]

theorem icStep_foldA {sz : A → Int} (l : List Int) (c : A) (mm : K) (draw : Nat → K) (xs : List Nat) (hx : ∀ ii ∈ xs, ii < l.length)
    (hs : ∀ n ∈ l, InB sz c n) (st : K × K) (m : Mem A K) :
    (Prog.fold (icStep l c mm draw) xs st).run sz m =
      .ok ((xs.map fun ii => mm + draw ii).foldl Spec.kahanStep st, setAll l c (fun ii => mm + draw ii) xs m) := by
  induction xs generalizing st m with
  | nil => simp [Prog.fold, Prog.run, setAll]
  | cons x xs ih =>
    have hxl := hx x (by simp)
    have hb : InB sz c (l.getD x 0) := by
      rw [getD_lt hxl]; exact hs _ (List.getElem_mem hxl)
    rw [Prog.fold]
    have e : (icStep l c mm draw st x).run sz m = .ok (Spec.kahanStep st (mm + draw x), m.set c (l.getD x 0) (mm + draw x)) := by
      unfold icStep
      simp only [Prog.monad_bind, idx_getD hxl, Prog.pure_bind']
      rw [run_bind_ok (run_wr hb _ _), run_bind_ok (run_rd hb _), Mem.set_same]
      rfl
    rw [run_bind_ok e, ih (fun j hj => hx j (by simp [hj])), List.map_cons, List.foldl_cons]
    rfl

theorem icShift_forEach {sz : A → Int} (l : List Int) (hl : l.Nodup) (c : A) (s : K) (xs : List Nat) (hx : ∀ ii ∈ xs, ii < l.length) (hxn : xs.Nodup)
    (hs : ∀ n ∈ l, InB sz c n) (m : Mem A K) :
    (Prog.forEach xs (icShift l c s)).run sz m = .ok ((), setAll l c (fun ii => m c (l.getD ii 0) - s) xs m) := by
  have inj : ∀ a < l.length, ∀ b < l.length, l.getD a 0 = l.getD b 0 → a = b := by
    intro a ha b hb' e
    rw [getD_lt ha, getD_lt hb'] at e
    exact (List.Nodup.getElem_inj_iff hl).1 e
  have congr : ∀ (xs : List Nat) (f g : Nat → K) (m : Mem A K), (∀ ii ∈ xs, f ii = g ii) → setAll l c f xs m = setAll l c g xs m := by
    intro xs
    induction xs with
    | nil => intros; rfl
    | cons x xs ih =>
      intro f g m h
      rw [setAll, setAll, h x (by simp), ih f g _ fun ii hi => h ii (by simp [hi])]
  induction xs generalizing m with
  | nil => rfl
  | cons x xs ih =>
    have hxl := hx x (by simp)
    rw [List.nodup_cons] at hxn
    have hb : InB sz c (l.getD x 0) := by
      rw [getD_lt hxl]; exact hs _ (List.getElem_mem hxl)
    have e : (icShift l c s x).run sz m = .ok ((), m.set c (l.getD x 0) (m c (l.getD x 0) - s)) := by
      unfold icShift
      simp only [Prog.monad_bind, idx_getD hxl, Prog.pure_bind']
      rw [run_bind_ok (run_rd hb _), run_wr hb]
    rw [Prog.forEach, run_bind_ok e, ih (fun j hj => hx j (by simp [hj])) hxn.2, setAll]
    congr 2
    refine congr xs _ _ _ fun ii hi => ?_
    rw [Mem.set_of_ne]
    rintro ⟨-, e⟩
    exact hxn.1 (inj ii (hx ii (by simp [hi])) x hxl e ▸ hi)

/-- Closed form in any arithmetic. -/
theorem icRandom_detA {sz : A → Int} (l : List Int) (hl : l.Nodup) (c : A) (hs : ∀ n ∈ l, InB sz c n) (mm : K) (draw : Nat → K)
    (m : Mem A K) : ∃ m', Det sz (icRandom l c mm draw) m m' ∧
      (∀ ii, ii < l.length → m' c (l.getD ii 0) =
        mm + draw ii - (Spec.kahan ((List.range l.length).map fun ii => mm + draw ii) / (l.length : K) - mm)) ∧
      (∀ n, n ∉ l → m' c n = m c n) ∧ (∀ b, b ≠ c → m' b = m b) := by
  have hr : ∀ ii ∈ List.range l.length, ii < l.length := fun ii h => List.mem_range.1 h
  have hmem : ∀ n ii, ii ∈ List.range l.length → l.getD ii 0 = n → n ∈ l := by
    intro n ii h e
    rw [← e, getD_lt (hr ii h)]
    exact List.getElem_mem _
  obtain ⟨m1, e1⟩ : ∃ m1 : Mem A K, m1 = setAll l c (fun ii => mm + draw ii) (List.range l.length) m := ⟨_, rfl⟩
  obtain ⟨s, es⟩ : ∃ s : K, s = Spec.kahan ((List.range l.length).map fun ii => mm + draw ii) / (l.length : K) - mm := ⟨_, rfl⟩
  refine ⟨setAll l c (fun ii => m1 c (l.getD ii 0) - s) (List.range l.length) m1, det_single ?_, ?_, ?_, ?_⟩
  · rw [run_bind_ok (icStep_foldA l c mm draw _ hr hs (0, 0) m), ← e1]
    have := icShift_forEach l hl c s _ hr List.nodup_range hs m1
    rw [es] at this ⊢
    exact this
  · intro ii hii
    rw [setAll_hit l hl c _ _ List.nodup_range hr _ (List.mem_range.2 hii), e1,
      setAll_hit l hl c _ _ List.nodup_range hr _ (List.mem_range.2 hii), es]
  · intro n hn
    rw [setAll_miss _ _ _ _ _ fun _ ii hi e => hn (hmem n ii hi e), e1]
    exact setAll_miss _ _ _ _ _ fun _ ii hi e => hn (hmem n ii hi e)
  · intro b hb
    funext n
    rw [setAll_miss _ _ _ _ _ fun e => absurd e hb, e1]
    exact setAll_miss _ _ _ _ _ fun e => absurd e hb

end

variable [Field K]

theorem icStep_fold {sz : A → Int} (l : List Int) (c : A) (mm : K) (draw : Nat → K) (xs : List Nat) (hx : ∀ ii ∈ xs, ii < l.length)
    (hs : ∀ n ∈ l, InB sz c n) (s : K) (m : Mem A K) :
    (Prog.fold (icStep l c mm draw) xs (s, 0)).run sz m =
      .ok ((s + (xs.map fun ii => mm + draw ii).sum, 0), setAll l c (fun ii => mm + draw ii) xs m) := by
  induction xs generalizing s m with
  | nil => simp [Prog.fold, Prog.run, setAll]
  | cons x xs ih =>
    have hxl := hx x (by simp)
    have hb : InB sz c (l.getD x 0) := by
      rw [getD_lt hxl]; exact hs _ (List.getElem_mem hxl)
    rw [Prog.fold]
    have e : (icStep l c mm draw (s, 0) x).run sz m = .ok ((s + (mm + draw x), 0), m.set c (l.getD x 0) (mm + draw x)) := by
      unfold icStep
      simp only [Prog.monad_bind, idx_getD hxl, Prog.pure_bind']
      rw [run_bind_ok (run_wr hb _ _), run_bind_ok (run_rd hb _), Mem.set_same]
      simp only [sub_zero, add_sub_cancel_left, sub_self]
      rfl
    rw [run_bind_ok e, ih (fun j hj => hx j (by simp [hj])), List.map_cons, List.sum_cons, add_assoc]
    rfl

/-- Closed form: cell number `ii` ends as its draw minus the mean draw, plus `mm`. -/
theorem icRandom_det [CharZero K] {sz : A → Int} (l : List Int) (hl : l.Nodup) (h0 : l ≠ []) (c : A) (hs : ∀ n ∈ l, InB sz c n) (mm : K) (draw : Nat → K)
    (m : Mem A K) : ∃ m', Det sz (icRandom l c mm draw) m m' ∧
      (∀ ii, ii < l.length → m' c (l.getD ii 0) = mm + (draw ii - ((List.range l.length).map draw).sum / (l.length : K))) ∧
      (∀ n, n ∉ l → m' c n = m c n) ∧ (∀ b, b ≠ c → m' b = m b) := by
  have hr : ∀ ii ∈ List.range l.length, ii < l.length := fun ii h => List.mem_range.1 h
  have hn : (l.length : K) ≠ 0 := by
    have := List.length_pos_of_ne_nil h0
    exact_mod_cast this.ne'
  have hmem : ∀ n ii, ii ∈ List.range l.length → l.getD ii 0 = n → n ∈ l := by
    intro n ii h e
    rw [← e, getD_lt (hr ii h)]
    exact List.getElem_mem _
  let m1 : Mem A K := setAll l c (fun ii => mm + draw ii) (List.range l.length) m
  let s : K := (0 + ((List.range l.length).map fun ii => mm + draw ii).sum) / (l.length : K) - mm
  refine ⟨setAll l c (fun ii => m1 c (l.getD ii 0) - s) (List.range l.length) m1, det_single ?_, ?_, ?_, ?_⟩
  · rw [run_bind_ok (icStep_fold l c mm draw _ hr hs 0 m)]
    exact icShift_forEach l hl c s _ hr List.nodup_range hs m1
  · intro ii hii
    rw [setAll_hit l hl c _ _ List.nodup_range hr _ (List.mem_range.2 hii)]
    simp only [m1, s]
    rw [setAll_hit l hl c _ _ List.nodup_range hr _ (List.mem_range.2 hii)]
    have : ((List.range l.length).map fun ii => mm + draw ii).sum = l.length * mm + ((List.range l.length).map draw).sum := by
      rw [List.sum_map_add]
      simp [List.sum_replicate]
    rw [this]
    field_simp
    ring
  · intro n hn
    rw [setAll_miss _ _ _ _ _ fun _ ii hi e => hn (hmem n ii hi e)]
    exact setAll_miss _ _ _ _ _ fun _ ii hi e => hn (hmem n ii hi e)
  · intro b hb
    funext n
    rw [setAll_miss _ _ _ _ _ fun e => absurd e hb]
    exact setAll_miss _ _ _ _ _ fun e => absurd e hb

end Madg
