/-
Sparse matrices and Jacobi smoothing (C27–C31).

`dense M v` is the dense matrix denoted by the CSR matrix `M` with stored values `v` (Verif/Spec/Matrix.lean);
duplicates add up.  `mulVec n a x` is the dense product, `jacobiStep` the textbook weighted Jacobi step.
-/
import Verif.Proofs.Jacobi
import Mathlib.Algebra.Order.Ring.Rat
import Mathlib.Tactic.NormNum
import Mathlib.Tactic.IntervalCases
import Mathlib.Tactic.FinCases

set_option linter.unusedSectionVars false
set_option linter.unusedVariables false

namespace Madg
open Spec Finset
variable {A K : Type} [DecidableEq A] [Field K]

/-! ### C27 -/

/-- `matVecMultiply` stores the dense product in `b`, for every well-formed matrix, under every schedule, without
out-of-range access; nothing else changes. -/
theorem C27_matvec {sz : A → Int} {M : CSR A} (hM : CSRWf sz M) (x b : A) (hx : M.cols ≤ sz x) (hb : M.rows ≤ sz b)
    (hxb : x ≠ b) (hvb : M.vals ≠ b) (m : Mem A K) :
    ∃ m', Det sz (M.matVec x b) m m' ∧
      (∀ i, 0 ≤ i → i < M.rows → m' b i = ∑ j ∈ Ico 0 M.cols, dense M (m M.vals) i j * m x j) ∧
      (∀ i, ¬ (0 ≤ i ∧ i < M.rows) → m' b i = m b i) ∧ ∀ c, c ≠ b → m' c = m c := by
  obtain ⟨m', d, w⟩ := matVec_det hM x b hx hb hxb hvb m
  exact ⟨m', d, w.view, w.out, w.frame⟩

/-- Scaling the rows multiplies row `i` of the dense matrix by `s_i`, under every schedule. -/
theorem C27_scale_rows [LinearOrder K] [IsStrictOrderedRing K] {sz : A → Int} {M : CSR A} (hM : CSRWf sz M)
    (hmono : Monotone' M) (s : A) (hs : M.rows ≤ sz s) (hne : s ≠ M.vals) (m : Mem A K) :
    ∃ m', Det sz (M.scaleRows s) m m' ∧
      (∀ i j, 0 ≤ i → i < M.rows → dense M (m' M.vals) i j = m s i * dense M (m M.vals) i j) ∧
      ∀ b, b ≠ M.vals → m' b = m b :=
  scaleRows_det hM hmono s hs hne m

theorem meanSquare_det {sz : A → Int} (n : Int) (l r : A) (hl : n ≤ sz l) (hr : n ≤ sz r) (m : Mem A K) :
    CDet sz (meanSquare n l r) m ((∑ i ∈ Ico 0 n, (m l i - m r i) ^ 2) / (n : K)) m := by
  unfold meanSquare
  have h := CDet.reduce (sz := sz) (op := (· + · : K → K → K)) add_assoc add_comm (irange 0 n)
    (fun i => (do
      let a ← Prog.rd l i
      let b ← Prog.rd r i
      pure ((a - b) ^ 2) : Prog A K K)) (fun i => (m l i - m r i) ^ 2) 0 m (fun i hi => by
      rw [mem_irange] at hi
      simp only [Prog.monad_bind, Prog.rd_bind, Prog.run]
      rw [if_pos ⟨hi.1, by omega⟩, if_pos ⟨hi.1, by omega⟩]
      rfl)
  refine h.bind ?_
  have e : ((irange 0 n).map fun i => (m l i - m r i) ^ 2).foldl (· + ·) 0 = ∑ i ∈ Ico 0 n, (m l i - m r i) ^ 2 := by
    rw [List.foldl_map, foldl_add_irange, zero_add]
  rw [e]
  exact CDet.ret _ _

/-- `rmsNorm` before its square root is the mean of the squared residuals, whatever the order of the reduction. -/
theorem C27_rms {sz : A → Int} {M : CSR A} (hM : CSRWf sz M) (hsq : M.rows = M.cols) (x b tmp : A)
    (hx : M.cols ≤ sz x) (hb : M.rows ≤ sz b) (ht : M.rows ≤ sz tmp) (hxt : x ≠ tmp) (hbt : b ≠ tmp)
    (hvt : M.vals ≠ tmp) (m : Mem A K) :
    ∃ m', CDet sz (M.rms2 x b tmp) m
      ((∑ i ∈ Ico 0 M.rows, (mulVec M.cols (dense M (m M.vals)) (m x) i - m b i) ^ 2) / (M.rows : K)) m' ∧
      ∀ c, c ≠ tmp → m' c = m c := by
  obtain ⟨m', d, w⟩ := matVec_det hM x tmp hx ht hxt hvt m
  refine ⟨m', ?_, w.frame⟩
  have h := meanSquare_det (K := K) (sz := sz) M.cols tmp b (by omega) (by omega) m'
  have e : ∑ i ∈ Ico 0 M.cols, (m' tmp i - m' b i) ^ 2 =
      ∑ i ∈ Ico 0 M.rows, (mulVec M.cols (dense M (m M.vals)) (m x) i - m b i) ^ 2 := by
    rw [hsq]
    refine Finset.sum_congr rfl fun i hi => ?_
    rw [Finset.mem_Ico] at hi
    rw [w.view i hi.1 (by omega), w.frame b hbt]
  rw [e, ← hsq] at h
  rw [hsq] at h ⊢
  exact (CDet.ofHost d).bind h

/-- It is zero exactly for solutions of the system. -/
theorem C27_rms_zero_iff [LinearOrder K] [IsStrictOrderedRing K] (n : Int) (hn : 0 < n) (a : Int → Int → K) (x b : Int → K) :
    (∑ i ∈ Ico 0 n, (mulVec n a x i - b i) ^ 2) / (n : K) = 0 ↔ ∀ i, 0 ≤ i → i < n → mulVec n a x i = b i := by
  have hn' : (n : K) ≠ 0 := by exact_mod_cast hn.ne'
  rw [div_eq_zero_iff, or_iff_left hn', Finset.sum_eq_zero_iff_of_nonneg fun i _ => sq_nonneg _]
  constructor
  · intro h i h0 h1
    exact sub_eq_zero.1 (pow_eq_zero_iff (two_ne_zero) |>.1 (h i (Finset.mem_Ico.2 ⟨h0, h1⟩)))
  · intro h i hi
    rw [Finset.mem_Ico] at hi
    rw [h i hi.1 hi.2, sub_self]; norm_num

/-! ### C28 -/

section
variable [LinearOrder K]

/-- Splitting a square matrix with exactly one stored diagonal entry per row: the constructor succeeds and leaves the
strictly lower part, the strictly upper part and the diagonal in the new arrays (whatever their names), and the
original matrix is unchanged. -/
theorem C28_split {sz : A → Int} {M : CSR A} (hM : CSRWf sz M) (hD : OneDiag M) (hsq : M.rows = M.cols) (eps : K)
    (m : Mem A K) :
    ∃ s : LDUVecs K, (M.split).run sz m = .ok (s, m) ∧
      ∀ lv uv dg di : A, [M.vals, lv, uv, dg, di].Nodup → sz lv = s.lowerVals.length → sz uv = s.upperVals.length →
        sz dg = s.diags.length → sz di = s.diags.length →
        ∃ m', Det sz (s.store eps lv uv dg di) m m' ∧
          LDURep sz eps (s.toLDU M lv uv dg di) m' (dense M (m M.vals)) ∧
          ∀ b, b ∉ [lv, uv, dg, di] → m' b = m b :=
  ldu_build hM hD hsq eps m

/-- The product of the split matrix is the dense product. -/
theorem C28_matvec {sz : A → Int} {eps : K} {L : LDU A} {a : Int → Int → K} {m : Mem A K} (hL : LDURep sz eps L m a)
    (x b : A) (hx : L.cols ≤ sz x) (hb : L.rows ≤ sz b)
    (hne : x ≠ b ∧ L.lower.vals ≠ b ∧ L.upper.vals ≠ b ∧ L.diag ≠ b) :
    ∃ m', Det sz (L.matVec x b) m m' ∧
      (∀ i, 0 ≤ i → i < L.rows → m' b i = ∑ j ∈ Ico 0 L.cols, a i j * m x j) ∧ ∀ c, c ≠ b → m' c = m c := by
  obtain ⟨m', d, w⟩ := lduMatVec_det hL x b hx hb hne.1 hne.2.1 hne.2.2.1 hne.2.2.2
  exact ⟨m', d, w.view, w.frame⟩

/-- Split and original give the same product: construct the split from `M`, then multiply with either. -/
theorem C28_same_product {sz : A → Int} {M : CSR A} (hM : CSRWf sz M) (hD : OneDiag M) (hsq : M.rows = M.cols) (eps : K)
    (m : Mem A K) (s : LDUVecs K) (hs : (M.split).run sz m = .ok (s, m)) (lv uv dg di x b : A)
    (hnd : [M.vals, lv, uv, dg, di, x, b].Nodup) (hlv : sz lv = s.lowerVals.length) (huv : sz uv = s.upperVals.length)
    (hdg : sz dg = s.diags.length) (hdi : sz di = s.diags.length) (hx : M.cols ≤ sz x) (hb : M.rows ≤ sz b) :
    ∃ m0 m1 m2, Det sz (s.store eps lv uv dg di) m m0 ∧ Det sz (M.matVec x b) m m1 ∧
      Det sz ((s.toLDU M lv uv dg di).matVec x b) m0 m2 ∧
      ∀ i, 0 ≤ i → i < M.rows → m2 b i = m1 b i := by
  have hnd' : [M.vals, lv, uv, dg, di].Nodup := by
    have := hnd.sublist (List.Sublist.cons_cons M.vals (.cons_cons lv (.cons_cons uv (.cons_cons dg (.cons_cons di
      (List.nil_sublist [x, b]))))))
    exact this
  simp only [List.nodup_cons, List.mem_cons, List.not_mem_nil, or_false, not_or, List.nodup_nil, and_true,
    not_false_eq_true] at hnd
  obtain ⟨⟨_, _, _, _, hvx, hvb⟩, ⟨_, _, _, hlx, hlb⟩, ⟨_, _, hux, hub⟩, ⟨_, hdx, hdb⟩, ⟨hix, hib⟩, hxb⟩ := hnd
  obtain ⟨s', hs', key⟩ := ldu_build hM hD hsq eps m
  rw [hs] at hs'
  obtain rfl : s = s' := by injection hs' with h; exact congrArg Prod.fst h
  obtain ⟨m0, d0, hL, f0⟩ := key lv uv dg di hnd' hlv huv hdg hdi
  obtain ⟨m1, d1, w1⟩ := matVec_det hM x b hx hb hxb hvb m
  obtain ⟨m2, d2, w2⟩ := lduMatVec_det hL x b hx hb hxb hlb hub hdb
  refine ⟨m0, m1, m2, d0, d1, d2, fun i h0 h1 => ?_⟩
  rw [w2.view i h0 h1, w1.view i h0 h1, f0 x (by simp [Ne.symm hlx, Ne.symm hux, Ne.symm hdx, Ne.symm hix])]
  rfl

end

/-- A 1x1 matrix with an empty row, in the arrays `0` (values), `1`, `2` (lower, upper), `3`, `4` (diagonal and its
inverse, no elements), `5` (`x`), `6` (`b`). -/
def emptyRow : CSR Nat := ⟨1, 1, [0, 0], [], 0⟩
def emptyRowSz (a : Nat) : Int := if a = 5 ∨ a = 6 then 1 else 0

/-- Without a stored diagonal entry the split product reads the diagonal array out of range. -/
theorem C28_missing_diagonal_faults (m : Mem Nat ℚ) :
    CSRWf emptyRowSz emptyRow ∧ (emptyRow.split).run emptyRowSz m = .ok (⟨[], [], [], [0, 0], [], [], [0, 0]⟩, m) ∧
      HostOut emptyRowSz (LDU.matVec (LDUVecs.toLDU (⟨[], [], [], [0, 0], [], [], [0, 0]⟩ : LDUVecs ℚ) emptyRow 1 2 3 4) 5 6)
        m (.fault .outOfBounds) := by
  refine ⟨⟨by decide, rfl, ?_, ?_, by simp [emptyRow], by decide⟩, rfl, ?_⟩
  · intro i h0 h1
    have : i ≤ 1 := h1
    interval_cases i <;> decide
  · intro i h0 h1
    have : i ≤ 1 := h1
    interval_cases i <;> decide
  · refine Or.inr ⟨.outOfBounds, ?_, rfl⟩
    refine .fault _ m Relation.ReflTransGen.refl _ List.mem_cons_self _ ?_
    exact ⟨fun h => absurd h.2 (by decide), rfl⟩

/-! ### C29 -/

section
variable [LinearOrder K] [IsStrictOrderedRing K]

/-- Plain sweep: for diagonals above the threshold the new iterate (left in `tmp`, which `x` is swapped with) is one
textbook weighted Jacobi step. -/
theorem C29_plain_sweep {sz : A → Int} {M : CSR A} (hM : CSRWf sz M) (hD : OneDiag M) (hsq : M.rows = M.cols)
    (eps : K) (he : 0 ≤ eps) (x b tmp : A) (w : K) (hx : M.rows ≤ sz x) (hb : M.rows ≤ sz b) (ht : M.rows ≤ sz tmp)
    (hnd : [M.vals, x, b, tmp].Nodup) (m : Mem A K)
    (hg : ∀ i, 0 ≤ i → i < M.rows → eps < |dense M (m M.vals) i i|) :
    ∃ m', Det sz (M.jacobi eps x b tmp w) m m' ∧
      (∀ i, 0 ≤ i → i < M.rows → m' tmp i = jacobiStep M.cols (dense M (m M.vals)) (m b) w (m x) i) ∧
      ∀ c, c ≠ tmp → m' c = m c := by
  simp only [List.nodup_cons, List.mem_cons, List.not_mem_nil, or_false, not_or, List.nodup_nil, and_true,
    not_false_eq_true] at hnd
  obtain ⟨⟨hvx, hvb, hvt⟩, ⟨hxb, hxt⟩, hbt⟩ := hnd
  obtain ⟨m1, d1, w1⟩ := jacobi_det_guard hM hD eps x b tmp w (by omega) hsq.le hb ht hxt hbt hvt m
  exact ⟨m1, d1, fun i h0 h1 => (w1.view i h0 h1).trans (sweep_eq he (hg i h0 h1)), w1.frame⟩

/-- Sweep with cached reciprocals of the diagonal, starting with an outdated cache. -/
theorem C29_cached_sweep {sz : A → Int} {M : CSR A} (hM : CSRWf sz M) (hD : OneDiag M) (hsq : M.rows = M.cols)
    (eps : K) (he : 0 ≤ eps) (x b tmp dinv : A) (w : K) (hx : M.rows ≤ sz x) (hb : M.rows ≤ sz b)
    (ht : M.rows ≤ sz tmp) (hd : M.rows ≤ sz dinv) (hnd : [M.vals, x, b, tmp, dinv].Nodup) (m : Mem A K)
    (hg : ∀ i, 0 ≤ i → i < M.rows → eps < |dense M (m M.vals) i i|) :
    ∃ m', Det sz (M.jacobiCached eps x b tmp dinv w true) m m' ∧
      (∀ i, 0 ≤ i → i < M.rows → m' tmp i = jacobiStep M.cols (dense M (m M.vals)) (m b) w (m x) i) ∧
      ∀ c, c ≠ tmp → c ≠ dinv → m' c = m c := by
  obtain ⟨m1, d1, v1, -, f1⟩ := jacobiCached_det hM hD hsq eps x b tmp dinv w hx hb ht hd hnd true m (by simp)
  refine ⟨m1, d1, fun i h0 h1 => ?_, f1⟩
  rw [v1 i h0 h1, guard_eq (hg i h0 h1)]
  unfold jacobiStep
  rw [mul_one_div]

/-- Sweep of the split matrix, plain and with cached reciprocals; `x` is updated in place. -/
theorem C29_ldu_sweeps {sz : A → Int} {eps : K} (he : 0 ≤ eps) {L : LDU A} {a : Int → Int → K} {m : Mem A K}
    (hL : LDURep sz eps L m a) (x b t1 t2 : A) (w : K) (hx : L.rows ≤ sz x) (hb : L.rows ≤ sz b)
    (ht1 : L.rows ≤ sz t1) (ht2 : L.rows ≤ sz t2) (hnd : [x, b, t1, t2].Nodup)
    (hl : L.lower.vals ∉ [x, t1, t2]) (hu : L.upper.vals ∉ [x, t1, t2]) (hdg : L.diag ∉ [x, t1, t2])
    (hdi : L.diagInv ∉ [x, t1, t2]) (hg : ∀ i, 0 ≤ i → i < L.rows → eps < |a i i|) :
    (∃ m', Det sz (L.jacobi eps x b t1 t2 w) m m' ∧
      (∀ i, 0 ≤ i → i < L.rows → m' x i = jacobiStep L.cols a (m b) w (m x) i) ∧
      ∀ c, c ∉ [x, t1, t2] → m' c = m c) ∧
    (∃ m', Det sz (L.jacobiCached x b t1 t2 w) m m' ∧
      (∀ i, 0 ≤ i → i < L.rows → m' x i = jacobiStep L.cols a (m b) w (m x) i) ∧
      ∀ c, c ∉ [x, t1, t2] → m' c = m c) := by
  have hsq := hL.sq
  have hl' := hl
  have hu' := hu
  simp only [List.mem_cons, List.not_mem_nil, or_false, not_or] at hl' hu'
  constructor
  · obtain ⟨m1, d1, v1, -, f1⟩ := lduJacobi_det hL x b t1 t2 w (by omega) hb ht1 ht2 hnd hl'.2.1 hu'.2.1 hu'.2.2 hdg
    refine ⟨m1, d1, fun i h0 h1 => (v1 i h0 h1).trans (sweep_eq he (hg i h0 h1)), fun c hc => ?_⟩
    simp only [List.mem_cons, List.not_mem_nil, or_false, not_or] at hc
    exact f1 c hc.1 hc.2.1 hc.2.2
  · obtain ⟨m1, d1, v1, -, f1⟩ := lduJacobiCached_det hL x b t1 t2 w (by omega) hb ht1 ht2 hnd hl'.2.1 hu'.2.1 hu'.2.2 hdi
    refine ⟨m1, d1, fun i h0 h1 => (v1 i h0 h1).trans (sweep_eq he (hg i h0 h1)), fun c hc => ?_⟩
    simp only [List.mem_cons, List.not_mem_nil, or_false, not_or] at hc
    exact f1 c hc.1 hc.2.1 hc.2.2

/-- One plain sweep leaves `x` unchanged exactly when `A x = b`. -/
theorem C29_fixed_points {sz : A → Int} {M : CSR A} (hM : CSRWf sz M) (hD : OneDiag M) (hsq : M.rows = M.cols)
    (eps : K) (he : 0 ≤ eps) (x b tmp : A) (w : K) (hw : w ≠ 0) (hx : M.rows ≤ sz x) (hb : M.rows ≤ sz b)
    (ht : M.rows ≤ sz tmp) (hnd : [M.vals, x, b, tmp].Nodup) (m : Mem A K)
    (hg : ∀ i, 0 ≤ i → i < M.rows → eps < |dense M (m M.vals) i i|) :
    ∃ m', Det sz (M.jacobi eps x b tmp w) m m' ∧
      ((∀ i, 0 ≤ i → i < M.rows → m' tmp i = m x i) ↔
        ∀ i, 0 ≤ i → i < M.rows → ∑ j ∈ Ico 0 M.cols, dense M (m M.vals) i j * m x j = m b i) := by
  obtain ⟨m1, d1, v1, -⟩ := C29_plain_sweep hM hD hsq eps he x b tmp w hx hb ht hnd m hg
  have hne : ∀ i, 0 ≤ i → i < M.rows → dense M (m M.vals) i i ≠ 0 := by
    intro i h0 h1 h
    have := hg i h0 h1
    rw [h, abs_zero] at this
    exact absurd this (not_lt.2 he)
  refine ⟨m1, d1, ?_⟩
  constructor
  · intro h i h0 h1
    exact (fixed_iff hw (hne i h0 h1)).1 ((v1 i h0 h1).symm.trans (h i h0 h1))
  · intro h i h0 h1
    rw [v1 i h0 h1]
    exact (fixed_iff hw (hne i h0 h1)).2 (h i h0 h1)

/-- The same for the cached sweep. -/
theorem C29_fixed_points_cached {sz : A → Int} {M : CSR A} (hM : CSRWf sz M) (hD : OneDiag M) (hsq : M.rows = M.cols)
    (eps : K) (he : 0 ≤ eps) (x b tmp dinv : A) (w : K) (hw : w ≠ 0) (hx : M.rows ≤ sz x) (hb : M.rows ≤ sz b)
    (ht : M.rows ≤ sz tmp) (hd : M.rows ≤ sz dinv) (hnd : [M.vals, x, b, tmp, dinv].Nodup) (m : Mem A K)
    (hg : ∀ i, 0 ≤ i → i < M.rows → eps < |dense M (m M.vals) i i|) :
    ∃ m', Det sz (M.jacobiCached eps x b tmp dinv w true) m m' ∧
      ((∀ i, 0 ≤ i → i < M.rows → m' tmp i = m x i) ↔
        ∀ i, 0 ≤ i → i < M.rows → ∑ j ∈ Ico 0 M.cols, dense M (m M.vals) i j * m x j = m b i) := by
  obtain ⟨m1, d1, v1, -⟩ := C29_cached_sweep hM hD hsq eps he x b tmp dinv w hx hb ht hd hnd m hg
  have hne : ∀ i, 0 ≤ i → i < M.rows → dense M (m M.vals) i i ≠ 0 := by
    intro i h0 h1 h
    have := hg i h0 h1
    rw [h, abs_zero] at this
    exact absurd this (not_lt.2 he)
  refine ⟨m1, d1, ?_⟩
  constructor
  · intro h i h0 h1
    exact (fixed_iff hw (hne i h0 h1)).1 ((v1 i h0 h1).symm.trans (h i h0 h1))
  · intro h i h0 h1
    rw [v1 i h0 h1]
    exact (fixed_iff hw (hne i h0 h1)).2 (h i h0 h1)

end

/-! ### C30 -/

section
variable [LinearOrder K] [IsStrictOrderedRing K]

/-- `k` consecutive calls of the plain sweep: under every schedule the iterate is the `k`-fold textbook step. -/
theorem C30_sweeps {sz : A → Int} {M : CSR A} (hM : CSRWf sz M) (hD : OneDiag M) (hsq : M.rows = M.cols) (eps : K)
    (he : 0 ≤ eps) (x b tmp : A) (w : K) (hx : M.rows ≤ sz x) (hb : M.rows ≤ sz b) (ht : M.rows ≤ sz tmp)
    (hnd : [M.vals, x, b, tmp].Nodup) (m : Mem A K)
    (hg : ∀ i, 0 ≤ i → i < M.rows → eps < |dense M (m M.vals) i i|) (k : Nat) :
    ∃ m', Det sz (M.jacobiN eps b w k x tmp).1 m m' ∧
      (∀ i, 0 ≤ i → i < M.rows → m' (M.jacobiN eps b w k x tmp).2 i =
        (jacobiStep M.cols (dense M (m M.vals)) (m b) w)^[k] (m x) i) ∧
      ∀ c, c ≠ x → c ≠ tmp → m' c = m c :=
  jacobiN_det hM hD hsq eps he w b hb k x tmp hx ht hnd m hg

/-- Geometric convergence: if off-diagonal row sums are at most `q` times the diagonal and `y` solves the system, then
after `k` sweeps with weight in (0,1] every component is within `(1-w+w*q)^k` times the initial error of `y`. -/
theorem C30_convergence {sz : A → Int} {M : CSR A} (hM : CSRWf sz M) (hD : OneDiag M) (hsq : M.rows = M.cols) (eps : K)
    (he : 0 ≤ eps) (x b tmp : A) (w q E : K) (hw0 : 0 < w) (hw1 : w ≤ 1) (hx : M.rows ≤ sz x) (hb : M.rows ≤ sz b)
    (ht : M.rows ≤ sz tmp) (hnd : [M.vals, x, b, tmp].Nodup) (m : Mem A K)
    (hg : ∀ i, 0 ≤ i → i < M.rows → eps < |dense M (m M.vals) i i|)
    (hdom : ∀ i, 0 ≤ i → i < M.rows →
      ∑ j ∈ (Ico 0 M.cols).erase i, |dense M (m M.vals) i j| ≤ q * |dense M (m M.vals) i i|)
    (y : Int → K) (hy : ∀ i, 0 ≤ i → i < M.rows → ∑ j ∈ Ico 0 M.cols, dense M (m M.vals) i j * y j = m b i)
    (hE : ∀ i, 0 ≤ i → i < M.rows → |m x i - y i| ≤ E) (k : Nat) :
    ∃ m', Det sz (M.jacobiN eps b w k x tmp).1 m m' ∧
      ∀ i, 0 ≤ i → i < M.rows → |m' (M.jacobiN eps b w k x tmp).2 i - y i| ≤ (1 - w + w * q) ^ k * E := by
  obtain ⟨m', d, v, -⟩ := jacobiN_det hM hD hsq eps he w b hb k x tmp hx ht hnd m hg
  refine ⟨m', d, fun i h0 h1 => ?_⟩
  rw [v i h0 h1]
  have hne : ∀ i, 0 ≤ i → i < M.cols → dense M (m M.vals) i i ≠ 0 := by
    intro i h0 h1 h
    have := hg i h0 (by omega)
    rw [h, abs_zero] at this
    exact absurd this (not_lt.2 he)
  exact jacobi_contract_iter hw0.le hw1 (fun i h0 h1 => hy i h0 (by omega)) hne (fun i h0 h1 => hdom i h0 (by omega))
    (fun i h0 h1 => hE i h0 (by omega)) k i h0 (by omega)

omit [DecidableEq A] in
/-- The factor is below one for strictly dominant matrices. -/
theorem C30_factor_lt_one (w q : K) (hw0 : 0 < w) (hw1 : w ≤ 1) (hq0 : 0 ≤ q) (hq : q < 1) :
    0 ≤ 1 - w + w * q ∧ 1 - w + w * q < 1 := by
  constructor
  · have := mul_nonneg hw0.le hq0; linarith
  · have := mul_lt_mul_of_pos_left hq hw0; linarith

end

/-! ### C31 -/

section
variable [LinearOrder K] [IsStrictOrderedRing K]

/-- The discipline of callers: entries are stored only through a view obtained after the last sweep.  The Boolean says
whether a mutable accessor was called since. -/
def FreshViews : Bool → List (MatOp A K) → Prop
  | _, [] => True
  | _, .access :: ops => FreshViews true ops
  | s, .write _ _ :: ops => s = true ∧ FreshViews s ops
  | _, .scale _ :: ops => FreshViews true ops
  | _, .smooth _ _ _ _ :: ops => FreshViews false ops

/-- Arrays of the sweeps and scalings of a history are distinct from each other and from the matrix, and large enough. -/
def OpsOk (sz : A → Int) (M : CSR A) (dinv : A) (ops : List (MatOp A K)) : Prop :=
  ∀ op ∈ ops, match op with
    | .access => True
    | .write _ _ => True
    | .scale s => M.rows ≤ sz s ∧ s ≠ M.vals
    | .smooth x b tmp _ => M.rows ≤ sz x ∧ M.rows ≤ sz b ∧ M.rows ≤ sz tmp ∧ [M.vals, x, b, tmp, dinv].Nodup

theorem cache_invariant {sz : A → Int} {M : CSR A} (hM : CSRWf sz M) (hD : OneDiag M)
    (hsq : M.rows = M.cols) (eps : K) (dinv : A) (hd : M.rows ≤ sz dinv) (hvd : M.vals ≠ dinv) {ops : List (MatOp A K)}
    {c c' : Mem A K × Bool} (hrun : MatRun sz M eps dinv ops c c') (hok : OpsOk sz M dinv ops)
    (hf : FreshViews c.2 ops)
    (hc : c.2 = false → ∀ i, 0 ≤ i → i < M.rows → c.1 dinv i = 1 / guardDiag eps (dense M (c.1 M.vals) i i)) :
    c'.2 = false → ∀ i, 0 ≤ i → i < M.rows → c'.1 dinv i = 1 / guardDiag eps (dense M (c'.1 M.vals) i i) := by
  induction hrun with
  | nil c => exact hc
  | @cons op ops c c1 c2 hs hr ih =>
    have hok1 := hok op List.mem_cons_self
    refine ih (fun o ho => hok o (List.mem_cons_of_mem _ ho)) ?_ ?_
    · cases hs with
      | access m s => exact hf
      | write m s p v h => exact hf.2
      | scale m s c m' h => exact hf
      | smooth m s x b tmp w m' h => exact hf
    · cases hs with
      | access m s => intro h; exact absurd h (by simp)
      | write m s p v h =>
        intro hs
        have := hf.1
        simp only at this hs
        rw [this] at hs
        exact absurd hs (by simp)
      | scale m s c m' h => intro h; exact absurd h (by simp)
      | smooth m s x b tmp w m' h =>
        intro _
        obtain ⟨hx, hb, ht, hnd⟩ := hok1
        obtain ⟨m1, d1, -, v1, f1⟩ := jacobiCached_det hM hD hsq eps x b tmp dinv w hx hb ht hd hnd s m hc
        have := (d1 _).1 h
        cases this
        intro i h0 h1
        simp only [List.nodup_cons, List.mem_cons, List.not_mem_nil, or_false, not_or] at hnd
        show m' dinv i = 1 / guardDiag eps (dense M (m' M.vals) i i)
        rw [v1 i h0 h1, f1 M.vals hnd.1.2.2.1 hnd.1.2.2.2]

/-- In every history of accessor calls, stores through fresh views, row scalings and cached sweeps on a new matrix object,
a following cached sweep uses the diagonal of the current values. -/
theorem C31_cache_coherent {sz : A → Int} {M : CSR A} (hM : CSRWf sz M) (hD : OneDiag M)
    (hsq : M.rows = M.cols) (eps : K) (dinv : A) (hd : M.rows ≤ sz dinv) (hvd : M.vals ≠ dinv) (ops : List (MatOp A K))
    (m m1 : Mem A K) (stale : Bool) (hrun : MatRun sz M eps dinv ops (m, true) (m1, stale))
    (hok : OpsOk sz M dinv ops) (hf : FreshViews true ops) (x b tmp : A) (w : K) (hx : M.rows ≤ sz x)
    (hb : M.rows ≤ sz b) (ht : M.rows ≤ sz tmp) (hnd : [M.vals, x, b, tmp, dinv].Nodup) :
    ∃ m2, Det sz (M.jacobiCached eps x b tmp dinv w stale) m1 m2 ∧
      ∀ i, 0 ≤ i → i < M.rows → m2 tmp i = m1 x i + w * (1 / guardDiag eps (dense M (m1 M.vals) i i)) *
        (m1 b i - ∑ j ∈ Ico 0 M.cols, dense M (m1 M.vals) i j * m1 x j) := by
  have hinv := cache_invariant hM hD hsq eps dinv hd hvd hrun hok hf (by simp)
  obtain ⟨m2, d2, v2, -⟩ := jacobiCached_det hM hD hsq eps x b tmp dinv w hx hb ht hd hnd stale m1 hinv
  exact ⟨m2, d2, v2⟩

end

/-! ### Concrete matrices -/

/-- The 2x2 matrix with full rows; array 0 holds its four values, every other array two elements. -/
def ex2 : CSR Nat := ⟨2, 2, [0, 2, 4], [0, 1, 0, 1], 0⟩
def ex2Sz (a : Nat) : Int := if a = 0 then 4 else 2
/-- Values 4 1 / 1 3, `x = (1, 1)` in array 1, `b = (5, 4)` in array 2, zero elsewhere. -/
def ex2Mem (a : Nat) (n : Int) : ℚ :=
  if a = 0 then (if n = 0 then 4 else if n = 3 then 3 else 1) else if a = 1 then 1 else
    if a = 2 then (if n = 0 then 5 else 4) else 0

theorem ex2_wf : CSRWf ex2Sz ex2 := by
  refine ⟨by decide, rfl, ?_, ?_, by decide, by decide⟩
  · intro i h0 h1
    have : i ≤ 2 := h1
    interval_cases i <;> decide
  · intro i h0 h1
    have : i ≤ 2 := h1
    interval_cases i <;> decide

theorem ex2_diag : OneDiag ex2 := by
  intro i h0 h1
  have h1' : i < 2 := h1
  interval_cases i
  · refine ⟨0, by decide, by decide, rfl, fun q q0 q1 hq => ?_⟩
    have a0 : (0 : Int) ≤ q := q0
    have a1 : q < 2 := q1
    interval_cases q
    · rfl
    · exact absurd hq (by decide)
  · refine ⟨3, by decide, by decide, rfl, fun q q0 q1 hq => ?_⟩
    have a0 : (2 : Int) ≤ q := q0
    have a1 : q < 4 := q1
    interval_cases q
    · exact absurd hq (by decide)
    · rfl

theorem ex2_mono : Monotone' ex2 := by
  intro i h0 h1
  have h1' : i < 2 := h1
  interval_cases i <;> decide

theorem ex2_dense (v : Int → ℚ) (i j : Int) (hi : i = 0 ∨ i = 1) (hj : j = 0 ∨ j = 1) :
    dense ex2 v i j = v (2 * i + j) := by
  have e0 : rowPtr ex2 0 = 0 := rfl
  have e1 : rowPtr ex2 1 = 2 := rfl
  have e2 : rowPtr ex2 2 = 4 := rfl
  have s0 : Ico (0 : Int) 2 = {0, 1} := by decide
  have s1 : Ico (2 : Int) 4 = {2, 3} := by decide
  have c0 : colOf ex2 0 = 0 := rfl
  have c1 : colOf ex2 1 = 1 := rfl
  have c2 : colOf ex2 2 = 0 := rfl
  have c3 : colOf ex2 3 = 1 := rfl
  rcases hi with rfl | rfl <;> rcases hj with rfl | rfl <;>
    simp [dense, e0, e1, e2, s0, s1, c0, c1, c2, c3, show (1 : Int) + 1 = 2 from rfl]

theorem ex2_guard : ∀ i, 0 ≤ i → i < ex2.rows → (1 / 1000 : ℚ) < |dense ex2 (ex2Mem 0) i i| := by
  intro i h0 h1
  have h1' : i < 2 := h1
  interval_cases i
  · rw [ex2_dense _ _ _ (by simp) (by simp)]; norm_num [ex2Mem]
  · rw [ex2_dense _ _ _ (by simp) (by simp)]; norm_num [ex2Mem]

/-- C27, C29: the hypotheses hold for a concrete matrix, whose solution is left fixed. -/
example : ∃ m', Det ex2Sz (ex2.jacobi (1 / 1000) 1 2 3 (2 / 3)) ex2Mem m' ∧
    (∀ i, 0 ≤ i → i < ex2.rows → m' 3 i = ex2Mem 1 i) := by
  obtain ⟨m', d, h⟩ := C29_fixed_points ex2_wf ex2_diag rfl (1 / 1000 : ℚ) (by norm_num) 1 2 3 (2 / 3) (by norm_num)
    (by decide) (by decide) (by decide) (by decide) ex2Mem ex2_guard
  refine ⟨m', d, h.2 fun i h0 h1 => ?_⟩
  have h1' : i < 2 := h1
  have s0 : Ico (0 : Int) ex2.cols = {0, 1} := by decide
  rw [s0, Finset.sum_pair (by decide)]
  interval_cases i
  · rw [ex2_dense _ _ _ (by simp) (by simp), ex2_dense _ _ _ (by simp) (by simp)]; norm_num [ex2Mem, ex2]
  · rw [ex2_dense _ _ _ (by simp) (by simp), ex2_dense _ _ _ (by simp) (by simp)]; norm_num [ex2Mem, ex2]

/-- C30: the matrix is dominant with ratio 1/3. -/
example : ∀ i, 0 ≤ i → i < ex2.rows →
    ∑ j ∈ (Ico 0 ex2.cols).erase i, |dense ex2 (ex2Mem 0) i j| ≤ 1 / 3 * |dense ex2 (ex2Mem 0) i i| := by
  intro i h0 h1
  have h1' : i < 2 := h1
  interval_cases i
  · rw [show (Ico (0 : Int) ex2.cols).erase 0 = {1} by decide, Finset.sum_singleton,
      ex2_dense _ _ _ (by simp) (by simp), ex2_dense _ _ _ (by simp) (by simp)]
    norm_num [ex2Mem]
  · rw [show (Ico (0 : Int) ex2.cols).erase 1 = {0} by decide, Finset.sum_singleton,
      ex2_dense _ _ _ (by simp) (by simp), ex2_dense _ _ _ (by simp) (by simp)]
    norm_num [ex2Mem]

/-- C28: the split of the example has one lower and one upper entry; arrays 4 to 7 can hold it. -/
example : (ex2.split).run ex2Sz ex2Mem = .ok (⟨[4, 3], [1], [0], [0, 0, 1], [1], [1], [0, 1, 1]⟩, ex2Mem) := by
  rw [split_run ex2_wf]
  rfl

/-- A store through a view kept from before the sweep: the next sweep uses the old diagonal. Stated for the concrete
matrix: sweep, then overwrite the first diagonal entry 4 by 8 without calling an accessor, then sweep. The second sweep
divides the first residual by 4 and not by 8. -/
theorem C31_retained_view_breaks :
    ∃ (m1 m2 m3 : Mem Nat ℚ), MatRun ex2Sz ex2 (1 / 1000) 4 [.smooth 1 2 3 1, .write 0 8] (ex2Mem, true) (m2, false) ∧
      Det ex2Sz (ex2.jacobiCached (1 / 1000) 1 2 3 4 1 false) m2 m3 ∧
      dense ex2 (m2 0) 0 0 = 8 ∧ m2 1 0 = 1 ∧
      m3 3 0 ≠ m2 1 0 + 1 * (1 / guardDiag (1 / 1000) (dense ex2 (m2 0) 0 0)) *
        (m2 2 0 - ∑ j ∈ Ico 0 2, dense ex2 (m2 0) 0 j * m2 1 j) := by
  obtain ⟨m1, d1, v1, c1, f1⟩ := jacobiCached_det ex2_wf ex2_diag rfl (1 / 1000 : ℚ) 1 2 3 4 1 (by decide) (by decide)
    (by decide) (by decide) (by decide) true ex2Mem (by simp)
  obtain ⟨m3, d3, w3⟩ := jacobiCachedLoop_det ex2_wf 1 2 3 4 (1 : ℚ) (by decide) (by decide) (by decide) (by decide)
    (by decide) (by decide) (by decide) (by decide) (by decide) (m1.set 0 0 8)
  have e1 : m1.set 0 0 8 1 = ex2Mem 1 := by
    funext n; rw [Mem.set_of_ne _ _ (by simp), f1 1 (by decide) (by decide)]
  have e2 : m1.set 0 0 8 2 = ex2Mem 2 := by
    funext n; rw [Mem.set_of_ne _ _ (by simp), f1 2 (by decide) (by decide)]
  have e4 : m1.set 0 0 8 4 0 = 1 / 4 := by
    rw [Mem.set_of_ne _ _ (by simp), c1 0 (by decide) (by decide), show ex2.vals = 0 from rfl,
      ex2_dense _ _ _ (by simp) (by simp)]
    norm_num [ex2Mem, guardDiag]
  have e00 : m1.set 0 0 8 0 0 = 8 := Mem.set_same _ _ _ _
  have e01 : m1.set 0 0 8 0 1 = 1 := by
    rw [Mem.set_of_ne _ _ (by simp), f1 0 (by decide) (by decide)]; norm_num [ex2Mem]
  have s0 : Ico (0 : Int) ex2.cols = {0, 1} := by decide
  have s0' : Ico (0 : Int) 2 = {0, 1} := by decide
  have hd0 : dense ex2 (m1.set 0 0 8 0) 0 0 = 8 := by
    rw [ex2_dense _ _ _ (by simp) (by simp)]; exact e00
  have hd1 : dense ex2 (m1.set 0 0 8 0) 0 1 = 1 := by
    rw [ex2_dense _ _ _ (by simp) (by simp)]; exact e01
  refine ⟨m1, m1.set 0 0 8, m3, ?_, by simpa [CSR.jacobiCached] using d3, hd0, ?_, ?_⟩
  · exact .cons (.smooth _ _ _ _ _ _ _ ((d1 _).2 rfl)) (.cons (.write _ _ _ _ ⟨by decide, by decide⟩) (.nil _))
  · rw [e1]; norm_num [ex2Mem]
  · rw [w3.view 0 (by decide) (by decide)]
    unfold mulVec
    rw [show ex2.vals = 0 from rfl, s0, s0', Finset.sum_pair (by decide), hd0, hd1, e1, e2, e4]
    norm_num [ex2Mem, guardDiag]

/-- C31: a history meeting the discipline: access, store, sweep, access, store. -/
example : FreshViews (A := Nat) (K := ℚ) true [.access, .write 0 8, .smooth 1 2 3 1, .access, .write 3 5, .scale 2] ∧
    OpsOk ex2Sz ex2 4 ([.access, .write 0 8, .smooth 1 2 3 1, .access, .write 3 5, .scale 2] : List (MatOp Nat ℚ)) := by
  refine ⟨⟨rfl, rfl, trivial⟩, ?_⟩
  intro op hop
  simp only [List.mem_cons, List.not_mem_nil, or_false] at hop
  rcases hop with rfl | rfl | rfl | rfl | rfl | rfl
  · trivial
  · trivial
  · exact ⟨by decide, by decide, by decide, by decide⟩
  · trivial
  · trivial
  · exact ⟨by decide, by decide⟩

/-! ### C29: where the variants differ -/

/-- A 1x1 matrix. -/
def ex1 : CSR Nat := ⟨1, 1, [0, 1], [0], 0⟩

theorem ex1_wf : CSRWf (fun _ => 1) ex1 := by
  refine ⟨by decide, rfl, ?_, ?_, by decide, by decide⟩
  · intro i h0 h1
    have : i ≤ 1 := h1
    interval_cases i <;> decide
  · intro i h0 h1
    have : i ≤ 1 := h1
    interval_cases i <;> decide

theorem ex1_diag : OneDiag ex1 := by
  intro i h0 h1
  have h1' : i < 1 := h1
  obtain rfl : i = 0 := by omega
  refine ⟨0, by decide, by decide, rfl, fun q q0 q1 _ => ?_⟩
  have a0 : (0 : Int) ≤ q := q0
  have a1 : q < 1 := q1
  omega

theorem ex1_dense (v : Int → ℚ) : dense ex1 v 0 0 = v 0 := by
  have e0 : rowPtr ex1 0 = 0 := rfl
  have e1 : rowPtr ex1 1 = 1 := rfl
  have s : Ico (0 : Int) 1 = {0} := by decide
  have c : colOf ex1 0 = 0 := rfl
  simp [dense, e0, e1, s, c]

/-- For a diagonal entry at or below the threshold the variants disagree: with `A = (eps/2)`, `x = 1`, `b = eps/2`, so that
`A x = b`, the cached sweep keeps the solution while the plain sweep replaces it by 1/2. -/
theorem C29_tiny_diagonal_differs (eps : ℚ) (he : 0 < eps) :
    ∃ m mp mc : Mem Nat ℚ, m 1 0 = 1 ∧ dense ex1 (m 0) 0 0 * m 1 0 = m 2 0 ∧
      Det (fun _ => 1) (ex1.jacobi eps 1 2 3 1) m mp ∧ mp 3 0 = 1 / 2 ∧
      Det (fun _ => 1) (ex1.jacobiCached eps 1 2 3 4 1 true) m mc ∧ mc 3 0 = 1 := by
  have s : Ico (0 : Int) ex1.cols = {0} := by decide
  have hg : guardDiag eps (eps / 2) = eps := by
    unfold guardDiag
    rw [if_neg]
    rw [abs_of_pos (by linarith)]
    linarith
  obtain ⟨mp, dp, wp⟩ := jacobi_det_guard ex1_wf ex1_diag eps 1 2 3 1 (by decide) (by decide) (by decide) (by decide)
    (by decide) (by decide) (by decide) (fun a _ => if a = 1 then 1 else eps / 2)
  obtain ⟨mc, dc, vc, -⟩ := jacobiCached_det ex1_wf ex1_diag rfl eps 1 2 3 4 1 (by decide) (by decide) (by decide)
    (by decide) (by decide) true (fun a _ => if a = 1 then 1 else eps / 2) (by simp)
  refine ⟨fun a _ => if a = 1 then 1 else eps / 2, mp, mc, by simp, ?_, dp, ?_, dc, ?_⟩
  · rw [ex1_dense]; simp
  · rw [wp.view 0 (by decide) (by decide), show ex1.vals = 0 from rfl]
    unfold mulVec
    rw [s, Finset.sum_singleton, ex1_dense]
    simp only [if_neg (show ¬ (0 : Nat) = 1 by decide), if_neg (show ¬ (2 : Nat) = 1 by decide), if_true, hg]
    field_simp
    ring
  · rw [vc 0 (by decide) (by decide), show ex1.vals = 0 from rfl]
    unfold mulVec
    rw [s, Finset.sum_singleton, ex1_dense]
    simp

/-- A row without a stored diagonal entry makes the plain sweep use an uninitialised variable. -/
theorem C29_missing_diagonal_undefined (m : Mem Nat ℚ) :
    HostOut emptyRowSz (emptyRow.jacobi (1 / 1000) 5 6 7 1) m (.fault .uninit) := by
  refine Or.inr ⟨.uninit, ?_, rfl⟩
  exact .fault _ m Relation.ReflTransGen.refl _ List.mem_cons_self _ rfl

end Madg
