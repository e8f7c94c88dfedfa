/-
Reductions over the interior: closed forms.
-/
import Verif.Model.Reduce
import Verif.Spec.Measure
import Verif.Proofs.Cmd
import Verif.Proofs.Interior
import Verif.Proofs.Single
import Verif.Proofs.Kern3
import Verif.Proofs.Sums
import Mathlib.Order.Bounds.Basic

set_option linter.unusedSectionVars false
set_option linter.unusedVariables false

namespace Madg
open Spec
variable {A K : Type} [DecidableEq A]

theorem redIdx_eq_map (l : List Int) (body : Int → Prog A K K) : redIdx l body = l.map body := by
  refine List.ext_getElem (by simp [redIdx]) ?_
  intro i h1 h2
  have hi : i < l.length := by simpa [redIdx] using h1
  simp [redIdx, Prog.idx, List.getElem?_eq_getElem hi]

theorem foldl_add_sum [Field K] (xs : List K) (s : K) : xs.foldl (· + ·) s = s + xs.sum := by
  induction xs generalizing s with
  | nil => simp
  | cons x xs ih => rw [List.foldl_cons, ih, List.sum_cons, add_assoc]

theorem foldl_min_least [LinearOrder K] (xs : List K) (s : K) : IsLeast {x | x = s ∨ x ∈ xs} (xs.foldl min s) := by
  induction xs generalizing s with
  | nil => simp [IsLeast, lowerBounds]
  | cons x xs ih =>
    rw [List.foldl_cons]
    obtain ⟨h1, h2⟩ := ih (min s x)
    refine ⟨?_, ?_⟩
    · rcases h1 with h1 | h1
      · rcases min_choice s x with h | h
        · exact Or.inl (h1.trans h)
        · exact Or.inr (by rw [h1, h]; simp)
      · exact Or.inr (List.mem_cons_of_mem _ h1)
    · rintro y (rfl | hy)
      · exact (h2 (Or.inl rfl)).trans (min_le_left _ _)
      · rcases List.mem_cons.1 hy with rfl | hy
        · exact (h2 (Or.inl rfl)).trans (min_le_right _ _)
        · exact h2 (Or.inr hy)

theorem foldl_max_greatest [LinearOrder K] (xs : List K) (s : K) : IsGreatest {x | x = s ∨ x ∈ xs} (xs.foldl max s) := by
  induction xs generalizing s with
  | nil => simp [IsGreatest, upperBounds]
  | cons x xs ih =>
    rw [List.foldl_cons]
    obtain ⟨h1, h2⟩ := ih (max s x)
    refine ⟨?_, ?_⟩
    · rcases h1 with h1 | h1
      · rcases max_choice s x with h | h
        · exact Or.inl (h1.trans h)
        · exact Or.inr (by rw [h1, h]; simp)
      · exact Or.inr (List.mem_cons_of_mem _ h1)
    · rintro y (rfl | hy)
      · exact (le_max_left _ _).trans (h2 (Or.inl rfl))
      · rcases List.mem_cons.1 hy with rfl | hy
        · exact (le_max_right _ _).trans (h2 (Or.inl rfl))
        · exact h2 (Or.inr hy)

/-- Reduction over the positions of an index list. -/
theorem CDet.redIdx {sz : A → Int} {op : K → K → K} (ha : ∀ a b c, op (op a b) c = op a (op b c)) (hc : ∀ a b, op a b = op b a)
    (l : List Int) (body : Int → Prog A K K) (val : Int → K) (init : K) (m : Mem A K)
    (hrun : ∀ n ∈ l, (body n).run sz m = .ok (val n, m)) :
    CDet sz (Cmd.reduceOf op init (Madg.redIdx l body)) m ((l.map val).foldl op init) m := by
  rw [redIdx_eq_map]
  exact CDet.reduce ha hc l body val init m hrun

theorem sideDiff_run [Arith K] {sz : A → Int} {n i : Int} {hi lo : Prog A K K} {v dx a b : K} {m : Mem A K}
    (h1 : i ≠ n - 1 ∨ i = 0 → hi.run sz m = .ok (a, m)) (h2 : i ≠ 0 → lo.run sz m = .ok (b, m)) :
    (sideDiff n i hi lo v dx).run sz m =
      .ok (if i = 0 then (a - v) / dx else if i = n - 1 then (v - b) / dx else (a - b) / (2 * dx), m) := by
  unfold sideDiff
  split
  · rename_i h
    rw [run_bind_ok (h1 (Or.inr h))]; rfl
  · rename_i h
    split
    · rw [run_bind_ok (h2 h)]; rfl
    · rename_i h'
      rw [run_bind_ok (h1 (Or.inl h')), run_bind_ok (h2 h)]; rfl

variable [Field K]

theorem residNorm_det {sz : A → Int} (rt : K → K) (l : List Int) (a : A) (h : ∀ n ∈ l, InB sz a n) (m : Mem A K) :
    CDet sz (residNorm rt l a) m (rt ((l.map fun n => m a n ^ 2).sum / (l.length : K))) m := by
  unfold residNorm
  have d := CDet.redIdx (sz := sz) (op := (· + · : K → K → K)) add_assoc add_comm l
    (fun n => (Prog.rd a n).bind fun v => .pure (v ^ 2)) (fun n => m a n ^ 2) 0 m (fun n hn => by
      rw [run_bind_ok (run_rd (h n hn) m)]; rfl)
  rw [foldl_add_sum, zero_add] at d
  exact d.bind (CDet.ret _ _)

/-- The value computed in one direction, as the specification's difference quotient. -/
theorem sideDiff_spec {sz : A → Int} {n i : Int} {hi lo : Prog A K K} {dx : K} {m : Mem A K} (w : Int → K)
    (h1 : i ≠ n - 1 ∨ i = 0 → hi.run sz m = .ok (w (i + 1), m)) (h2 : i ≠ 0 → lo.run sz m = .ok (w (i - 1), m)) :
    (sideDiff n i hi lo (w i) dx).run sz m = .ok (diff1 n w i dx, m) := by
  rw [sideDiff_run h1 h2, diff1]
  split
  · rename_i h; subst h; rfl
  · split
    · rename_i h; subst h
      rw [show n - 1 - 1 = n - 2 by ring]
    · rfl

end Madg

namespace Madg
open Spec
variable {A K : Type} [DecidableEq A] [Field K]

theorem gradCell3_run {g : Grid3} (hg : g.Ok) (h1 : 1 ≤ g.nhalo) {sz : A → Int} {f : A} (hs : sz f = g.size) (rt : K → K) (dx : K)
    (m : Mem A K) {i j k : Int} (h : g.Int3 i j k) :
    (g.gradCell rt dx f (g.at3 i j k)).run sz m =
      .ok (gradMag3 rt dx g.ni g.ni g.ni (fun i j k => m f (g.at3 i j k)) i j k * dx * dx, m) := by
  have hp := h.pad hg
  have rd : ∀ a b c, g.Pad a b c → (Prog.rd f (g.at3 a b c) : Prog A K K).run sz m = .ok (m f (g.at3 a b c), m) := by
    intro a b c hb
    have := Grid3.at3_bounds hb
    exact run_rd ⟨this.1, hs ▸ this.2⟩ m
  unfold Grid3.gradCell
  simp only [Grid3.getI_at3 hp, Grid3.getJ_at3 hp, Grid3.getK_at3 hp]
  obtain ⟨a, b, c⟩ := h
  have P : ∀ x y z, x - i ∈ [(-1 : Int), 0, 1] → y - j ∈ [(-1 : Int), 0, 1] → z - k ∈ [(-1 : Int), 0, 1] → g.Pad x y z := by
    intro x y z hx hy hz
    simp only [List.mem_cons, List.not_mem_nil, or_false] at hx hy hz
    unfold Grid3.Pad; omega
  rw [run_bind_ok (rd i j k hp),
    run_bind_ok (sideDiff_spec (dx := dx) (fun a => m f (g.at3 a j k)) (fun _ => rd _ _ _ (P _ _ _ (by simp) (by simp) (by simp)))
      (fun _ => rd _ _ _ (P _ _ _ (by simp) (by simp) (by simp)))),
    run_bind_ok (sideDiff_spec (dx := dx) (fun a => m f (g.at3 i a k)) (fun _ => rd _ _ _ (P _ _ _ (by simp) (by simp) (by simp)))
      (fun _ => rd _ _ _ (P _ _ _ (by simp) (by simp) (by simp)))),
    run_bind_ok (sideDiff_spec (dx := dx) (fun a => m f (g.at3 i j a)) (fun _ => rd _ _ _ (P _ _ _ (by simp) (by simp) (by simp)))
      (fun _ => rd _ _ _ (P _ _ _ (by simp) (by simp) (by simp))))]
  rfl

theorem gradCell2_run {g : Grid2} (hg : g.Ok) (h1 : 1 ≤ g.nhalo) {sz : A → Int} {f : A} (hs : sz f = g.size) (rt : K → K) (dx : K)
    (m : Mem A K) {i j : Int} (h : g.Int2 i j) :
    (g.gradCell rt dx f (g.at2 i j)).run sz m =
      .ok (gradMag2 rt dx g.ni g.ni (fun i j => m f (g.at2 i j)) i j * dx * dx, m) := by
  have hp := h.pad hg
  have rd : ∀ a b, g.Pad a b → (Prog.rd f (g.at2 a b) : Prog A K K).run sz m = .ok (m f (g.at2 a b), m) := by
    intro a b hb
    have := Grid2.at2_bounds hb
    exact run_rd ⟨this.1, hs ▸ this.2⟩ m
  unfold Grid2.gradCell
  simp only [(Grid2.get_at2 hp).1, (Grid2.get_at2 hp).2]
  obtain ⟨a, b⟩ := h
  have P : ∀ x y, x - i ∈ [(-1 : Int), 0, 1] → y - j ∈ [(-1 : Int), 0, 1] → g.Pad x y := by
    intro x y hx hy
    simp only [List.mem_cons, List.not_mem_nil, or_false] at hx hy
    unfold Grid2.Pad; omega
  rw [run_bind_ok (rd i j hp),
    run_bind_ok (sideDiff_spec (dx := dx) (fun a => m f (g.at2 a j)) (fun _ => rd _ _ (P _ _ (by simp) (by simp)))
      (fun _ => rd _ _ (P _ _ (by simp) (by simp)))),
    run_bind_ok (sideDiff_spec (dx := dx) (fun a => m f (g.at2 i a)) (fun _ => rd _ _ (P _ _ (by simp) (by simp)))
      (fun _ => rd _ _ (P _ _ (by simp) (by simp))))]
  rfl

variable [LinearOrder K]

theorem solMonitor3_det {G : Geom3} (hG : G.Ok) (h1 : 1 ≤ G.g.nhalo) {sz : A → Int} {f : A} (hs : sz f = G.g.size) (rt : K → K)
    (big tiny dx : K) (m : Mem A K) :
    CDet sz (G.solMonitor rt big tiny dx f) m ((G.interior.map (m f)).foldl min big, (G.interior.map (m f)).foldl max tiny,
      sum3 G.g.ni G.g.nj G.g.nk fun i j k =>
        gradMag3 rt dx G.g.ni G.g.ni G.g.ni (fun i j k => m f (G.g.at3 i j k)) i j k * dx * dx) m := by
  have hr : ∀ n ∈ G.interior, (Prog.rd f (G.g.at3 (G.g.getI n) (G.g.getJ n) (G.g.getK n)) : Prog A K K).run sz m = .ok (m f n, m) := by
    intro n hn
    obtain ⟨i, j, k, hi, rfl⟩ := hG.mem_int.1 hn
    have hp := hi.pad hG.ok
    rw [Grid3.getI_at3 hp, Grid3.getJ_at3 hp, Grid3.getK_at3 hp]
    exact run_rd (hG.int_inB hs hn) m
  refine (CDet.redIdx min_assoc min_comm _ _ (m f) big m hr).bind ?_
  refine (CDet.redIdx max_assoc max_comm _ _ (m f) tiny m hr).bind ?_
  have d := CDet.redIdx (sz := sz) (op := (· + · : K → K → K)) add_assoc add_comm G.interior (G.g.gradCell rt dx f)
    (fun n => gradMag3 rt dx G.g.ni G.g.ni G.g.ni (fun i j k => m f (G.g.at3 i j k)) (G.g.getI n) (G.g.getJ n) (G.g.getK n) * dx * dx) 0 m (by
      intro n hn
      obtain ⟨i, j, k, hi, rfl⟩ := hG.mem_int.1 hn
      have hp := hi.pad hG.ok
      rw [gradCell3_run hG.ok h1 hs rt dx m hi, Grid3.getI_at3 hp, Grid3.getJ_at3 hp, Grid3.getK_at3 hp])
  rw [foldl_add_sum, zero_add, hG.int_sum] at d
  have e : (sum3 G.g.ni G.g.nj G.g.nk fun i j k =>
      gradMag3 rt dx G.g.ni G.g.ni G.g.ni (fun i j k => m f (G.g.at3 i j k)) (G.g.getI (G.g.at3 i j k)) (G.g.getJ (G.g.at3 i j k))
        (G.g.getK (G.g.at3 i j k)) * dx * dx) = sum3 G.g.ni G.g.nj G.g.nk fun i j k =>
      gradMag3 rt dx G.g.ni G.g.ni G.g.ni (fun i j k => m f (G.g.at3 i j k)) i j k * dx * dx := by
    refine sum3_congr fun i j k a b c => ?_
    have hp := Grid3.Int3.pad hG.ok (show G.g.Int3 i j k from ⟨a, b, c⟩)
    rw [Grid3.getI_at3 hp, Grid3.getJ_at3 hp, Grid3.getK_at3 hp]
  rw [e] at d
  exact d.bind (CDet.ret _ _)

theorem solMonitor2_det {G : Geom2} (hG : G.Ok) (h1 : 1 ≤ G.g.nhalo) {sz : A → Int} {f : A} (hs : sz f = G.g.size) (rt : K → K)
    (big tiny dx : K) (m : Mem A K) :
    CDet sz (G.solMonitor rt big tiny dx f) m ((G.interior.map (m f)).foldl min big, (G.interior.map (m f)).foldl max tiny,
      sum2 G.g.ni G.g.ni fun i j => gradMag2 rt dx G.g.ni G.g.ni (fun i j => m f (G.g.at2 i j)) i j * dx * dx) m := by
  have hr : ∀ n ∈ G.interior, (Prog.rd f (G.g.at2 (G.g.getI n) (G.g.getJ n)) : Prog A K K).run sz m = .ok (m f n, m) := by
    intro n hn
    obtain ⟨i, j, hi, rfl⟩ := hG.mem_int.1 hn
    have hp := hi.pad hG.ok
    rw [(Grid2.get_at2 hp).1, (Grid2.get_at2 hp).2]
    exact run_rd (hG.int_inB hs hn) m
  refine (CDet.redIdx min_assoc min_comm _ _ (m f) big m hr).bind ?_
  refine (CDet.redIdx max_assoc max_comm _ _ (m f) tiny m hr).bind ?_
  have d := CDet.redIdx (sz := sz) (op := (· + · : K → K → K)) add_assoc add_comm G.interior (G.g.gradCell rt dx f)
    (fun n => gradMag2 rt dx G.g.ni G.g.ni (fun i j => m f (G.g.at2 i j)) (G.g.getI n) (G.g.getJ n) * dx * dx) 0 m (by
      intro n hn
      obtain ⟨i, j, hi, rfl⟩ := hG.mem_int.1 hn
      have hp := hi.pad hG.ok
      rw [gradCell2_run hG.ok h1 hs rt dx m hi, (Grid2.get_at2 hp).1, (Grid2.get_at2 hp).2])
  rw [foldl_add_sum, zero_add, hG.int_sum] at d
  have e : (sum2 G.g.ni G.g.ni fun i j =>
      gradMag2 rt dx G.g.ni G.g.ni (fun i j => m f (G.g.at2 i j)) (G.g.getI (G.g.at2 i j)) (G.g.getJ (G.g.at2 i j)) * dx * dx) =
      sum2 G.g.ni G.g.ni fun i j => gradMag2 rt dx G.g.ni G.g.ni (fun i j => m f (G.g.at2 i j)) i j * dx * dx := by
    refine sum2_congr fun i j a b => ?_
    have hp := Grid2.Int2.pad hG.ok (show G.g.Int2 i j from ⟨a, by rw [hG.sq]; exact b⟩)
    rw [(Grid2.get_at2 hp).1, (Grid2.get_at2 hp).2]
  rw [e] at d
  exact d.bind (CDet.ret _ _)

end Madg
