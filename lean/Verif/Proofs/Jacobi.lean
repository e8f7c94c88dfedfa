/-
Jacobi sweeps: repeated sweeps, contraction, row scaling, histories of the diagonal cache.
-/
import Verif.Proofs.LDU
import Mathlib.Algebra.Order.BigOperators.Group.Finset
import Mathlib.Tactic.Linarith
import Mathlib.Tactic.Positivity

set_option linter.unusedSectionVars false
set_option linter.unusedVariables false

namespace Madg
open Spec Finset
variable {A K : Type} [DecidableEq A] [Field K] [LinearOrder K] [IsStrictOrderedRing K]

theorem guard_eq {eps v : K} (h : eps < |v|) : guardDiag eps v = v := by unfold guardDiag; rw [if_pos h]

theorem jacobiStep_congr {n : Int} {a : Int → Int → K} {b : Int → K} {w : K} {x y : Int → K}
    (h : ∀ i, 0 ≤ i → i < n → x i = y i) {i : Int} (h0 : 0 ≤ i) (h1 : i < n) :
    jacobiStep n a b w x i = jacobiStep n a b w y i := by
  unfold jacobiStep
  rw [h i h0 h1, mulVec_congr (a := a) (a' := a) (x := x) (x' := y) (i := i) fun j j0 j1 => by rw [h j j0 j1]]

theorem jacobiStep_iter_congr {n : Int} {a : Int → Int → K} {b : Int → K} {w : K} {x y : Int → K}
    (h : ∀ i, 0 ≤ i → i < n → x i = y i) (k : Nat) :
    ∀ i, 0 ≤ i → i < n → (jacobiStep n a b w)^[k] x i = (jacobiStep n a b w)^[k] y i := by
  induction k generalizing x y with
  | zero => exact h
  | succ k ih =>
    rw [Function.iterate_succ, Function.comp, Function.comp]
    exact ih fun i h0 h1 => jacobiStep_congr h h0 h1

/-- Plain form of the sweep when the diagonal is not guarded. -/
theorem sweep_eq {eps : K} (he : 0 ≤ eps) {n : Int} {a : Int → Int → K} {b x : Int → K} {w : K} {i : Int}
    (hd : eps < |a i i|) :
    w / guardDiag eps (a i i) * (b i - (mulVec n a x i - a i i * x i)) + (1 - w) * x i = jacobiStep n a b w x i := by
  have h0 : a i i ≠ 0 := by
    intro h; rw [h, abs_zero] at hd; exact absurd hd (not_lt.2 he)
  rw [guard_eq hd]
  unfold jacobiStep
  field_simp
  ring

theorem fixed_iff {n : Int} {a : Int → Int → K} {b x : Int → K} {w : K} (hw : w ≠ 0) {i : Int} (h0 : a i i ≠ 0) :
    jacobiStep n a b w x i = x i ↔ mulVec n a x i = b i := by
  unfold jacobiStep
  constructor
  · intro h
    have h' : w / a i i * (b i - mulVec n a x i) = 0 := by
      have := congrArg (fun t => t - x i) h
      simpa using this
    rcases mul_eq_zero.1 h' with h2 | h2
    · exact absurd h2 (div_ne_zero hw h0)
    · exact (sub_eq_zero.1 h2).symm
  · intro h; rw [h, sub_self, mul_zero, add_zero]

/-! ### Contraction -/

theorem jacobi_contract {n : Int} {a : Int → Int → K} {b x y : Int → K} {w q E : K} (hw0 : 0 ≤ w) (hw1 : w ≤ 1)
    (hy : ∀ i, 0 ≤ i → i < n → mulVec n a y i = b i)
    (hdiag : ∀ i, 0 ≤ i → i < n → a i i ≠ 0)
    (hdom : ∀ i, 0 ≤ i → i < n → ∑ j ∈ (Ico 0 n).erase i, |a i j| ≤ q * |a i i|)
    (hE : ∀ i, 0 ≤ i → i < n → |x i - y i| ≤ E) :
    ∀ i, 0 ≤ i → i < n → |jacobiStep n a b w x i - y i| ≤ (1 - w + w * q) * E := by
  intro i h0 h1
  have hd := hdiag i h0 h1
  have hdp : 0 < |a i i| := abs_pos.2 hd
  have hmem : i ∈ Ico 0 n := Finset.mem_Ico.2 ⟨h0, h1⟩
  have hE0 : 0 ≤ E := (abs_nonneg _).trans (hE i h0 h1)
  have hdiff : mulVec n a x i - mulVec n a y i = a i i * (x i - y i) + ∑ j ∈ (Ico 0 n).erase i, a i j * (x j - y j) := by
    unfold mulVec
    rw [← Finset.sum_sub_distrib, ← Finset.add_sum_erase _ _ hmem]
    congr 1
    · ring
    · exact Finset.sum_congr rfl fun j _ => by ring
  have key : jacobiStep n a b w x i - y i =
      (1 - w) * (x i - y i) - w / a i i * ∑ j ∈ (Ico 0 n).erase i, a i j * (x j - y j) := by
    unfold jacobiStep
    rw [← hy i h0 h1]
    have : mulVec n a y i - mulVec n a x i = -(a i i * (x i - y i) + ∑ j ∈ (Ico 0 n).erase i, a i j * (x j - y j)) := by
      rw [← hdiff]; ring
    rw [this]
    field_simp
    ring
  have hs : |∑ j ∈ (Ico 0 n).erase i, a i j * (x j - y j)| ≤ q * |a i i| * E := by
    refine (Finset.abs_sum_le_sum_abs _ _).trans ?_
    refine le_trans ?_ (mul_le_mul_of_nonneg_right (hdom i h0 h1) hE0)
    rw [Finset.sum_mul]
    refine Finset.sum_le_sum fun j hj => ?_
    rw [abs_mul]
    have hj' := Finset.mem_Ico.1 (Finset.mem_erase.1 hj).2
    exact mul_le_mul_of_nonneg_left (hE j hj'.1 hj'.2) (abs_nonneg _)
  rw [key]
  refine (abs_sub _ _).trans ?_
  rw [abs_mul, abs_mul, abs_div, abs_of_nonneg hw0, abs_of_nonneg (by linarith : (0 : K) ≤ 1 - w)]
  have h3 : (1 - w) * |x i - y i| ≤ (1 - w) * E := mul_le_mul_of_nonneg_left (hE i h0 h1) (by linarith)
  have h4 : w / |a i i| * |∑ j ∈ (Ico 0 n).erase i, a i j * (x j - y j)| ≤ w * q * E := by
    refine (mul_le_mul_of_nonneg_left hs (by positivity)).trans (le_of_eq ?_)
    field_simp
  calc _ ≤ (1 - w) * E + w * q * E := add_le_add h3 h4
    _ = _ := by ring

theorem jacobi_contract_iter {n : Int} {a : Int → Int → K} {b x y : Int → K} {w q E : K} (hw0 : 0 ≤ w) (hw1 : w ≤ 1)
    (hy : ∀ i, 0 ≤ i → i < n → mulVec n a y i = b i)
    (hdiag : ∀ i, 0 ≤ i → i < n → a i i ≠ 0)
    (hdom : ∀ i, 0 ≤ i → i < n → ∑ j ∈ (Ico 0 n).erase i, |a i j| ≤ q * |a i i|)
    (hE : ∀ i, 0 ≤ i → i < n → |x i - y i| ≤ E) (k : Nat) :
    ∀ i, 0 ≤ i → i < n → |(jacobiStep n a b w)^[k] x i - y i| ≤ (1 - w + w * q) ^ k * E := by
  induction k generalizing x E with
  | zero => intro i h0 h1; simpa using hE i h0 h1
  | succ k ih =>
    intro i h0 h1
    rw [Function.iterate_succ, Function.comp]
    refine (ih (jacobi_contract hw0 hw1 hy hdiag hdom hE) i h0 h1).trans (le_of_eq ?_)
    ring

/-! ### Kernels -/

section
variable {sz : A → Int} {M : CSR A} (hM : CSRWf sz M)
include hM

section
variable (hD : OneDiag M)
include hD

theorem jacobiN_det (hsq : M.rows = M.cols) (eps : K) (he : 0 ≤ eps) (w : K) (b : A) (hb : M.rows ≤ sz b) (k : Nat) :
    ∀ (x tmp : A) (hx : M.rows ≤ sz x) (ht : M.rows ≤ sz tmp) (hnd : [M.vals, x, b, tmp].Nodup) (m : Mem A K)
      (hg : ∀ i, 0 ≤ i → i < M.rows → eps < |dense M (m M.vals) i i|),
      ∃ m', Det sz (M.jacobiN eps b w k x tmp).1 m m' ∧
        (∀ i, 0 ≤ i → i < M.rows → m' (M.jacobiN eps b w k x tmp).2 i =
          (jacobiStep M.cols (dense M (m M.vals)) (m b) w)^[k] (m x) i) ∧
        (∀ c, c ≠ x → c ≠ tmp → m' c = m c) := by
  induction k with
  | zero => intro x tmp _ _ _ m _; exact ⟨m, det_nil sz m, fun i _ _ => rfl, fun c _ _ => rfl⟩
  | succ k ih =>
    intro x tmp hx ht hnd m hg
    simp only [List.nodup_cons, List.mem_cons, List.not_mem_nil, or_false, not_or, List.nodup_nil, and_true,
      not_false_eq_true] at hnd
    obtain ⟨⟨hvx, hvb, hvt⟩, ⟨hxb, hxt⟩, hbt⟩ := hnd
    obtain ⟨m1, d1, w1⟩ := jacobi_det_guard hM hD eps x b tmp w (by omega) hsq.le hb ht hxt hbt hvt m
    have ev : m1 M.vals = m M.vals := w1.frame _ hvt
    have eb : m1 b = m b := w1.frame _ hbt
    obtain ⟨m2, d2, v2, f2⟩ := ih tmp x ht hx
      (by simp [hvx, hvb, hvt, Ne.symm hxb, Ne.symm hxt, Ne.symm hbt]) m1 (by rw [ev]; exact hg)
    refine ⟨m2, det_append d1 d2, fun i h0 h1 => ?_, fun c c1 c2 => by rw [f2 c c2 c1, w1.frame c c2]⟩
    have := v2 i h0 h1
    rw [ev, eb] at this
    rw [Function.iterate_succ, Function.comp]
    refine this.trans (jacobiStep_iter_congr (fun j j0 j1 => ?_) k i h0 (by omega))
    have j1' : j < M.rows := by omega
    rw [w1.view j j0 j1']
    exact sweep_eq he (hg j j0 j1')

theorem jacobiCached_det (hsq : M.rows = M.cols) (eps : K) (x b tmp dinv : A) (w : K) (hx : M.rows ≤ sz x)
    (hb : M.rows ≤ sz b) (ht : M.rows ≤ sz tmp) (hd : M.rows ≤ sz dinv) (hnd : [M.vals, x, b, tmp, dinv].Nodup)
    (stale : Bool) (m : Mem A K)
    (hc : stale = false → ∀ i, 0 ≤ i → i < M.rows → m dinv i = 1 / guardDiag eps (dense M (m M.vals) i i)) :
    ∃ m', Det sz (M.jacobiCached eps x b tmp dinv w stale) m m' ∧
      (∀ i, 0 ≤ i → i < M.rows → m' tmp i = m x i + w * (1 / guardDiag eps (dense M (m M.vals) i i)) *
        (m b i - mulVec M.cols (dense M (m M.vals)) (m x) i)) ∧
      (∀ i, 0 ≤ i → i < M.rows → m' dinv i = 1 / guardDiag eps (dense M (m M.vals) i i)) ∧
      (∀ c, c ≠ tmp → c ≠ dinv → m' c = m c) := by
  simp only [List.nodup_cons, List.mem_cons, List.not_mem_nil, or_false, not_or, List.nodup_nil, and_true,
      not_false_eq_true] at hnd
  obtain ⟨⟨hvx, hvb, hvt, hvd⟩, ⟨hxb, hxt, hxd⟩, ⟨hbt, hbd⟩, htd⟩ := hnd
  have main : ∀ m1 : Mem A K, (∀ c, c ≠ dinv → m1 c = m c) →
      (∀ i, 0 ≤ i → i < M.rows → m1 dinv i = 1 / guardDiag eps (dense M (m M.vals) i i)) →
      ∃ m', Det sz (M.jacobiCachedLoop x b tmp dinv w) m1 m' ∧
        (∀ i, 0 ≤ i → i < M.rows → m' tmp i = m x i + w * (1 / guardDiag eps (dense M (m M.vals) i i)) *
          (m b i - mulVec M.cols (dense M (m M.vals)) (m x) i)) ∧
        (∀ i, 0 ≤ i → i < M.rows → m' dinv i = 1 / guardDiag eps (dense M (m M.vals) i i)) ∧
        (∀ c, c ≠ tmp → c ≠ dinv → m' c = m c) := by
    intro m1 f1 v1
    obtain ⟨m2, d2, w2⟩ := jacobiCachedLoop_det hM x b tmp dinv w (by omega) hsq.le hb ht hd hxt hbt hvt
      (Ne.symm htd) m1
    refine ⟨m2, d2, fun i h0 h1 => ?_, fun i h0 h1 => ?_, fun c c1 c2 => by rw [w2.frame c c1, f1 c c2]⟩
    · rw [w2.view i h0 h1, v1 i h0 h1, f1 x hxd, f1 b hbd, f1 M.vals hvd]
    · rw [w2.frame _ (Ne.symm htd)]; exact v1 i h0 h1
  unfold CSR.jacobiCached
  cases stale with
  | false =>
    obtain ⟨m2, d2, r⟩ := main m (fun _ _ => rfl) (hc rfl)
    exact ⟨m2, by simpa using d2, r⟩
  | true =>
    obtain ⟨m1, d1, w1⟩ := updateDiags_det hM hD eps dinv hd hvd m
    obtain ⟨m2, d2, r⟩ := main m1 w1.frame w1.view
    exact ⟨m2, by simpa using det_append d1 d2, r⟩

end

/-- Row scaling multiplies each row of the dense matrix. -/
theorem scaleRows_det (hmono : Monotone' M) (scale : A) (hs : M.rows ≤ sz scale) (hne : scale ≠ M.vals) (m : Mem A K) :
    ∃ m', Det sz (M.scaleRows scale) m m' ∧
      (∀ i j, 0 ≤ i → i < M.rows → dense M (m' M.vals) i j = m scale i * dense M (m M.vals) i j) ∧
      ∀ b, b ≠ M.vals → m' b = m b := by
  have hmono' : ∀ n : Nat, ∀ i, 0 ≤ i → i + n ≤ M.rows → rowPtr M i ≤ rowPtr M (i + n) := by
    intro n
    induction n with
    | zero => intro i _ _; simp
    | succ n ih =>
      intro i h0 h1
      push_cast at h1
      have a1 := ih i h0 (by omega)
      have a2 := hmono (i + n) (by omega) (by omega)
      push_cast
      rw [← add_assoc]
      omega
  have hle : ∀ i j, 0 ≤ i → i ≤ j → j ≤ M.rows → rowPtr M i ≤ rowPtr M j := by
    intro i j h0 hij hj
    have := hmono' (j - i).toNat i h0 (by omega)
    rwa [show i + ((j - i).toNat : Int) = j by omega] at this
  have hpool : M.scaleRows scale = [(irange 0 M.rows).map fun irow =>
      (M.rowLoop irow (fun (_ : Unit) j => do
        let s ← Prog.rd scale irow
        let v ← Prog.rd M.vals j
        (Prog.wr M.vals j (v * s) : Prog A K Unit)) ())] := rfl
  have hbody : (irange 0 M.rows).map (fun irow =>
      (M.rowLoop irow (fun (_ : Unit) j => do
        let s ← Prog.rd scale irow
        let v ← Prog.rd M.vals j
        (Prog.wr M.vals j (v * s) : Prog A K Unit)) ())) =
      (irange 0 M.rows).map (fun irow => Prog.forEach (irange (rowPtr M irow) (rowPtr M (irow + 1))) (fun j => do
        let s ← Prog.rd scale irow
        let v ← Prog.rd M.vals j
        (Prog.wr M.vals j (v * s) : Prog A K Unit))) := by
    refine List.map_congr_left fun i hi => ?_
    rw [mem_irange] at hi
    rw [hM.rowLoop_eq hi.1 hi.2]
    generalize irange (rowPtr M i) (rowPtr M (i + 1)) = ps
    induction ps with
    | nil => rfl
    | cons p ps ih =>
      rw [Prog.fold, Prog.forEach]
      congr 1
      funext _
      exact ih
  have sep : ∀ c : Int × Int, c.1 ∈ irange 0 M.rows → c.2 ∈ irange (rowPtr M c.1) (rowPtr M (c.1 + 1)) →
      ∀ c' : Int × Int, c'.1 ∈ irange 0 M.rows → c'.2 ∈ irange (rowPtr M c'.1) (rowPtr M (c'.1 + 1)) →
      c.2 = c'.2 → c = c' := by
    rintro ⟨i, p⟩ hi hp ⟨i', p'⟩ hi' hp' e
    simp only [mem_irange] at hi hp hi' hp'
    simp only at e
    subst e
    rcases lt_trichotomy i i' with h | h | h
    · have := hle (i + 1) i' (by omega) (by omega) (by omega); omega
    · rw [h]
    · have := hle (i' + 1) i (by omega) (by omega) (by omega); omega
  have hdet := det_cells_nested (sz := sz) (ts := irange 0 M.rows)
    (us := fun irow => irange (rowPtr M irow) (rowPtr M (irow + 1)))
    (body := fun irow j => do
        let s ← Prog.rd scale irow
        let v ← Prog.rd M.vals j
        (Prog.wr M.vals j (v * s) : Prog A K Unit)) (nodup_irange _ _) (fun _ _ => nodup_irange _ _)
    (fun c => (M.vals, c.2)) (fun c => m M.vals c.2 * m scale c.1) m
    (fun c hc hc2 c' hc' hc2' e => sep c hc hc2 c' hc' hc2' (Prod.mk.inj e).2)
    (fun c hc hc2 => by
      have hc' := mem_irange.1 hc
      have hin := (hM.in_row hc'.1 hc'.2 hc2).2.2
      refine ⟨⟨hc'.1, by omega⟩, fun c' _ _ _ e => hne (congrArg Prod.fst e).symm, fun _ => ⟨hin,
        fun c' h1 h2 h3 e => h3 (sep c' h1 h2 c hc hc2 (Prod.mk.inj e).2), fun _ => ⟨hin, rfl, trivial⟩⟩⟩)
    (fun c hc hc2 => by
      simp only [Prog.monad_bind, Prog.rd_bind, Prog.exec, Prog.wr, Mem.set_same])
  rw [hpool, hbody]
  refine ⟨_, hdet, ?_, ?_⟩
  · intro i j h0 h1
    unfold dense
    rw [Finset.mul_sum]
    refine Finset.sum_congr rfl fun p hp => ?_
    split
    · have hp' : p ∈ irange (rowPtr M i) (rowPtr M (i + 1)) := mem_irange.2 (Finset.mem_Ico.1 hp)
      have := Mem.upd_hit (loc := fun c : Int × Int => (M.vals, c.2)) (P := fun c : Int × Int => c.1 ∈ irange 0 M.rows ∧
        c.2 ∈ irange (rowPtr M c.1) (rowPtr M (c.1 + 1))) (f := fun c : Int × Int => m M.vals c.2 * m scale c.1) (m := m)
        (c := (i, p)) (fun c' hc' e => sep c' hc'.1 hc'.2 (i, p) (mem_irange.2 ⟨h0, h1⟩) hp' (Prod.mk.inj e).2)
        ⟨mem_irange.2 ⟨h0, h1⟩, hp'⟩ rfl
      rw [this]
      ring
    · ring
  · intro b hb
    funext n
    exact Mem.upd_miss fun c _ e => hb (congrArg Prod.fst e).symm

end

end Madg
