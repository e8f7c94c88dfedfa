/-
Initial conditions (C47).
-/
import Verif.Proofs.InitCond
import Verif.Proofs.Interior
import Verif.Proofs.Kern3
import Verif.Proofs.CH2
import Mathlib.Algebra.Order.Field.Basic
import Mathlib.Algebra.Order.Archimedean.Basic
import Mathlib.Data.Rat.Floor

set_option linter.unusedVariables false
set_option linter.unusedSectionVars false

namespace Madg
open Spec
variable {A K : Type} [DecidableEq A] [Field K]

/-- A value of a list within `[lo,hi]` is near the mean. -/
theorem near_mean [LinearOrder K] [IsStrictOrderedRing K] {lo hi : K} {xs : List K} (h : ∀ x ∈ xs, lo ≤ x ∧ x ≤ hi) {x : K} (hx : x ∈ xs) :
    |x - xs.sum / (xs.length : K)| ≤ (hi - lo) * (1 - 1 / (xs.length : K)) := by
  obtain ⟨s, t, rfl⟩ := List.append_of_mem hx
  have hS : ∀ ys : List K, (∀ y ∈ ys, lo ≤ y ∧ y ≤ hi) → ys.length * lo ≤ ys.sum ∧ ys.sum ≤ ys.length * hi := by
    intro ys
    induction ys with
    | nil => intro _; simp
    | cons y ys ih =>
      intro hy
      obtain ⟨h1, h2⟩ := ih fun z hz => hy z (by simp [hz])
      obtain ⟨h3, h4⟩ := hy y (by simp)
      simp only [List.length_cons, List.sum_cons]
      push_cast
      constructor <;> linarith
  obtain ⟨a1, a2⟩ := hS s fun y hy => h y (by simp [hy])
  obtain ⟨b1, b2⟩ := hS t fun y hy => h y (by simp [hy])
  obtain ⟨c1, c2⟩ := h x hx
  have e1 : (s ++ x :: t).sum = s.sum + x + t.sum := by
    rw [List.sum_append, List.sum_cons]; ring
  have e2 : ((s ++ x :: t).length : K) = s.length + t.length + 1 := by
    rw [List.length_append, List.length_cons]; push_cast; ring
  rw [e1, e2]
  have hs0 : (0 : K) ≤ s.length := Nat.cast_nonneg _
  have ht0 : (0 : K) ≤ t.length := Nat.cast_nonneg _
  generalize (s.length : K) = p at *
  generalize (t.length : K) = q at *
  have hn : (0 : K) < p + q + 1 := by positivity
  have f1 : x - (s.sum + x + t.sum) / (p + q + 1) = (x * (p + q) - s.sum - t.sum) / (p + q + 1) := by
    field_simp; ring
  have f2 : (hi - lo) * (1 - 1 / (p + q + 1)) = (hi - lo) * (p + q) / (p + q + 1) := by
    field_simp; ring
  rw [f1, f2, abs_div, abs_of_pos hn]
  refine div_le_div_of_nonneg_right ?_ hn.le
  rw [abs_le]
  have g1 := mul_le_mul_of_nonneg_right c1 (add_nonneg hs0 ht0)
  have g2 := mul_le_mul_of_nonneg_right c2 (add_nonneg hs0 ht0)
  constructor <;> nlinarith

/-- List form of the random initial condition: mean, deviation, frame. -/
theorem icRandom_facts [LinearOrder K] [IsStrictOrderedRing K] {sz : A → Int} (l : List Int) (hl : l.Nodup) (h0 : l ≠ []) (c : A)
    (hs : ∀ n ∈ l, InB sz c n) (mm : K) (draw : Nat → K) (m : Mem A K) : ∃ m', Det sz (icRandom l c mm draw) m m' ∧
      (l.map (m' c)).sum / (l.length : K) = mm ∧
      (∀ lo hi, (∀ n, lo ≤ draw n ∧ draw n ≤ hi) → ∀ n ∈ l, |m' c n - mm| ≤ (hi - lo) * (1 - 1 / (l.length : K))) ∧
      (∀ n, n ∉ l → m' c n = m c n) ∧ (∀ b, b ≠ c → m' b = m b) := by
  obtain ⟨m', d, v, o, f⟩ := icRandom_det (K := K) l hl h0 c hs mm draw m
  have hn : (l.length : K) ≠ 0 := by
    have := List.length_pos_of_ne_nil h0
    exact_mod_cast this.ne'
  refine ⟨m', d, ?_, ?_, o, f⟩
  · have e : l.map (m' c) = (List.range l.length).map fun ii =>
        mm + (draw ii - ((List.range l.length).map draw).sum / (l.length : K)) := by
      apply List.ext_getElem (by simp)
      intro ii h1 h2
      rw [List.length_map] at h1
      rw [List.getElem_map, List.getElem_map, List.getElem_range, ← getD_lt h1, v ii h1]
    have e2 : ∀ (xs : List Nat) (a b : K), (xs.map fun ii => a + (draw ii - b)).sum = xs.length * a + ((xs.map draw).sum - xs.length * b) := by
      intro xs a b
      induction xs with
      | nil => simp
      | cons x xs ih =>
        simp only [List.map_cons, List.sum_cons, List.length_cons, ih]
        push_cast
        ring
    rw [e, e2, List.length_range]
    field_simp
    ring
  · intro lo hi hd n h
    obtain ⟨ii, hii, e⟩ := List.mem_iff_getElem.1 h
    rw [← e, ← getD_lt hii, v ii hii, add_sub_cancel_left]
    have := near_mean (lo := lo) (hi := hi) (xs := (List.range l.length).map draw) (by
      intro x hx
      obtain ⟨y, -, rfl⟩ := List.mem_map.1 hx
      exact hd y) (x := draw ii) (List.mem_map.2 ⟨ii, List.mem_range.2 hii, rfl⟩)
    rwa [List.length_map, List.length_range] at this

section
variable (g : Grid3) (hh : 0 ≤ g.nhalo) (hi : 1 ≤ g.ni) (hj : 1 ≤ g.nj) (hk : 1 ≤ g.nk)
  (xbc ybc zbc : BCType) (G : Geom3) (hG : mkGeom3 g xbc ybc zbc = .ok G)
  (sz : A → Int) (c : A) (hs : sz c = g.size)
include hh hi hj hk hG hs

/-- Random initial condition, 3D: for every sequence of draws the interior mean is exactly `mm`; with draws in `[lo,hi]`
every cell deviates from `mm` by at most `(hi - lo) (1 - 1/N)` where `N` is the number of cells. Halo cells and other arrays
keep their contents. -/
theorem C47_mean_3d [LinearOrder K] [IsStrictOrderedRing K] (mm : K) (draw : Nat → K) (m : Mem A K) :
    ∃ m', Det sz (icRandom G.interior c mm draw) m m' ∧
      sum3 g.ni g.nj g.nk (fun i j k => m' c (g.at3 i j k)) / ((g.ni : K) * g.nj * g.nk) = mm ∧
      (∀ lo hi, (∀ n, lo ≤ draw n ∧ draw n ≤ hi) → ∀ i j k, (0 ≤ i ∧ i < g.ni) → (0 ≤ j ∧ j < g.nj) → (0 ≤ k ∧ k < g.nk) →
        |m' c (g.at3 i j k) - mm| ≤ (hi - lo) * (1 - 1 / ((g.ni : K) * g.nj * g.nk))) ∧
      (∀ n, (∀ i j k, (0 ≤ i ∧ i < g.ni) → (0 ≤ j ∧ j < g.nj) → (0 ≤ k ∧ k < g.nk) → g.at3 i j k ≠ n) → m' c n = m c n) ∧
      (∀ b, b ≠ c → m' b = m b) := by
  obtain ⟨hGo, rfl, -, -, -⟩ := Geom3.ok_of_mk ⟨hi, hj, hk, hh⟩ hG
  obtain ⟨m', d, mean, dev, o, f⟩ := icRandom_facts (K := K) G.interior hGo.nodup_int hGo.int_ne c (fun n h => hGo.int_inB hs h) mm draw m
  rw [hGo.int_sum, hGo.length_int'] at mean
  rw [hGo.length_int'] at dev
  refine ⟨m', d, mean, fun lo hi' hd i j k h1 h2 h3 => dev lo hi' hd _ (hGo.mem_int.2 ⟨i, j, k, ⟨h1, h2, h3⟩, rfl⟩), ?_, f⟩
  intro n h
  refine o n fun hm => ?_
  obtain ⟨i, j, k, hi, e⟩ := hGo.mem_int.1 hm
  exact h i j k hi.1 hi.2.1 hi.2.2 e

/-- Constant initial condition, 3D: every interior cell gets the value, nothing else changes, whatever the schedule. -/
theorem C47_constant_3d (v : K) (m : Mem A K) :
    ∃ m', Det sz (icConst G.interior c v) m m' ∧
      (∀ i j k, (0 ≤ i ∧ i < g.ni) → (0 ≤ j ∧ j < g.nj) → (0 ≤ k ∧ k < g.nk) → m' c (g.at3 i j k) = v) ∧
      (∀ n, (∀ i j k, (0 ≤ i ∧ i < g.ni) → (0 ≤ j ∧ j < g.nj) → (0 ≤ k ∧ k < g.nk) → g.at3 i j k ≠ n) → m' c n = m c n) ∧
      (∀ b, b ≠ c → m' b = m b) := by
  obtain ⟨hGo, rfl, -, -, -⟩ := Geom3.ok_of_mk ⟨hi, hj, hk, hh⟩ hG
  obtain ⟨m', d, w⟩ := interior_det (K := K) hGo (sz := sz) (r := c) (fun n => Prog.wr c n v) (fun _ _ _ => v) m
    (fun i j k h => ⟨hGo.int_inB hs (hGo.mem_int.2 ⟨i, j, k, h, rfl⟩), ⟨rfl, rfl⟩, trivial⟩)
    (fun i j k h => Mem.set_same _ _ _ _)
  exact ⟨m', d, fun i j k h1 h2 h3 => w.view i j k ⟨h1, h2, h3⟩, fun n hn => w.out n fun i j k h => hn i j k h.1 h.2.1 h.2.2, w.frame⟩

end

section
variable (n nhalo : Int) (hn : 1 ≤ n) (hh : 0 ≤ nhalo) (G : Geom2) (hG : mkGeom2 n nhalo = .ok G)
  (sz : A → Int) (c : A) (hs : sz c = G.g.size)
include hn hh hG hs

/-- Random initial condition, 2D. -/
theorem C47_mean_2d [LinearOrder K] [IsStrictOrderedRing K] (mm : K) (draw : Nat → K) (m : Mem A K) :
    ∃ m', Det sz (icRandom G.interior c mm draw) m m' ∧
      sum2 n n (fun i j => m' c (G.g.at2 i j)) / ((n : K) * n) = mm ∧
      (∀ lo hi, (∀ n, lo ≤ draw n ∧ draw n ≤ hi) → ∀ i j, (0 ≤ i ∧ i < n) → (0 ≤ j ∧ j < n) →
        |m' c (G.g.at2 i j) - mm| ≤ (hi - lo) * (1 - 1 / ((n : K) * n))) ∧
      (∀ x, (∀ i j, (0 ≤ i ∧ i < n) → (0 ≤ j ∧ j < n) → G.g.at2 i j ≠ x) → m' c x = m c x) ∧
      (∀ b, b ≠ c → m' b = m b) := by
  obtain ⟨hGo, hg⟩ := Geom2.ok_of_mk hn hh hG
  have e1 : G.g.ni = n := by rw [hg]
  have e2 : G.g.nj = n := by rw [hg]
  obtain ⟨m', d, mean, dev, o, f⟩ := icRandom_facts (K := K) G.interior hGo.nodup_int hGo.int_ne c (fun n h => hGo.int_inB hs h) mm draw m
  rw [hGo.int_sum, hGo.length_int', e1] at mean
  rw [hGo.length_int', e1] at dev
  refine ⟨m', d, mean, fun lo hi' hd i j h1 h2 => dev lo hi' hd _ (hGo.mem_int.2 ⟨i, j, ⟨by omega, by omega⟩, rfl⟩), ?_, f⟩
  intro x h
  refine o x fun hm => ?_
  obtain ⟨i, j, hi, e⟩ := hGo.mem_int.1 hm
  have h1 := hi.1
  have h2 := hi.2
  exact h i j (by omega) (by omega) e

/-- Constant initial condition, 2D. -/
theorem C47_constant_2d (v : K) (m : Mem A K) :
    ∃ m', Det sz (icConst G.interior c v) m m' ∧
      (∀ i j, (0 ≤ i ∧ i < n) → (0 ≤ j ∧ j < n) → m' c (G.g.at2 i j) = v) ∧
      (∀ x, (∀ i j, (0 ≤ i ∧ i < n) → (0 ≤ j ∧ j < n) → G.g.at2 i j ≠ x) → m' c x = m c x) ∧
      (∀ b, b ≠ c → m' b = m b) := by
  obtain ⟨hGo, hg⟩ := Geom2.ok_of_mk hn hh hG
  have e1 : G.g.ni = n := by rw [hg]
  have e2 : G.g.nj = n := by rw [hg]
  obtain ⟨m', d, w⟩ := interior2_det (K := K) hGo (sz := sz) (r := c) (fun n => Prog.wr c n v) (fun _ _ => v) m
    (fun i j h => ⟨hGo.int_inB hs (hGo.mem_int.2 ⟨i, j, h, rfl⟩), ⟨rfl, rfl⟩, trivial⟩)
    (fun i j h => Mem.set_same _ _ _ _)
  refine ⟨m', d, fun i j h1 h2 => w.view i j ⟨by omega, by omega⟩, fun n hn => w.out n fun i j h => ?_, w.frame⟩
  have h1 := h.1
  have h2 := h.2
  exact hn i j (by omega) (by omega)

end

/-- The bound on the deviation is attained: with two cells and draws `0, 1` the field is `m - 1/2, m + 1/2`. -/
theorem C47_bound_attained : ∃ (G : Geom3) (m' : Mem Bool ℚ), mkGeom3 ⟨2, 1, 1, 1⟩ .periodic .periodic .periodic = .ok G ∧
    Det (fun _ => (⟨2, 1, 1, 1⟩ : Grid3).size) (icRandom G.interior true 5 fun n => if n = 1 then 1 else 0) (fun _ _ => 0) m' ∧
    |m' true (G.g.at3 1 0 0) - 5| = (1 - 0) * (1 - 1 / 2) := by
  have hG := mkGeom3_ok (g := ⟨2, 1, 1, 1⟩) ⟨by decide, by decide, by decide, by decide⟩ .periodic .periodic .periodic
  have hGo := (Geom3.ok_of_mk ⟨by decide, by decide, by decide, by decide⟩ hG).1
  obtain ⟨m', d, v, -⟩ := icRandom_det (K := ℚ) (sz := fun _ : Bool => (⟨2, 1, 1, 1⟩ : Grid3).size) _ hGo.nodup_int hGo.int_ne true
    (fun n h => hGo.int_inB rfl h) 5 (fun n => if n = 1 then 1 else 0) fun _ _ => 0
  refine ⟨_, m', hG, d, ?_⟩
  have e : (Grid3.interiorVals ⟨2, 1, 1, 1⟩) = [13, 22] := by decide
  have := v 1
  simp only [e] at this
  have h2 := this (by decide)
  have e3 : (Grid3.at3 ⟨2, 1, 1, 1⟩ 1 0 0) = 22 := by decide
  rw [e3]
  simp at h2
  rw [h2]
  norm_num [List.range_succ, abs_of_pos]

example : ∃ G, mkGeom3 ⟨3, 4, 5, 2⟩ .periodic .neumann .periodic = .ok G ∧ (fun _ : Bool => (⟨3, 4, 5, 2⟩ : Grid3).size) true = (⟨3, 4, 5, 2⟩ : Grid3).size :=
  ⟨_, mkGeom3_ok ⟨by decide, by decide, by decide, by decide⟩ _ _ _, rfl⟩

example : ∃ G, mkGeom2 6 2 = .ok G := let ⟨G, h, _⟩ := mkGeom2_ok (n := 6) (nhalo := 2) (by decide) (by decide); ⟨G, h⟩

/-- Draws in a range exist. -/
example : ∀ n : Nat, (-1 / 200 : ℚ) ≤ (if n % 2 = 0 then 1 / 300 else -1 / 400) ∧ (if n % 2 = 0 then (1 / 300 : ℚ) else -1 / 400) ≤ 1 / 200 := by
  intro n; split <;> norm_num

end Madg
