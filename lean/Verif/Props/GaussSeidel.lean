/-
Gauss-Seidel smoothing of the split matrix (C69), what the first such call does to the split matrix (C70), and the
reported diagonal dominance (C71).

`GSForward`, `GSBackward`, `Relaxed`, `GSSteps` (Verif/Spec/GaussSeidel.lean) are textbook sweeps for the dense system
`a x = b`.
-/
import Verif.Proofs.GSAlg
import Verif.Props.CSR

set_option linter.unusedSectionVars false
set_option linter.unusedVariables false

namespace Madg
open Spec Finset
variable {A K : Type} [DecidableEq A] [Field K] [LinearOrder K] [IsStrictOrderedRing K]

/-! ### C69 -/

section
variable {sz : A → Int} {eps : K} (he : 0 ≤ eps) {L : LDU A} {a : Int → Int → K}
  (hg : ∀ i, 0 ≤ i → i < L.rows → eps < |a i i|) {x b t1 t2 : A} (hA : GSArgs sz L x b t1 t2)
include he hg hA

/-- Every sequence of forward, backward and symmetric calls on a newly split matrix performs the textbook sweeps for
the original matrix `a`, although the first call rescales the stored matrix; the right-hand side and everything outside
the split matrix, `x` and the work vectors is unchanged. -/
theorem C69_calls (m : Mem A K) (hL : LDURep sz eps L m a) (cs : List (GSKind × K)) :
    ∃ m', Det sz (L.gsCalls (sz x) x b t1 t2 false cs) m m' ∧ GSSteps L.rows a (m b) cs (m x) (m' x) ∧
      (cs ≠ [] → ScaledRep sz eps L m' a) ∧ ∀ d, d ∉ [x, t1, t2] → d ∉ [L.lower.vals, L.upper.vals, L.diag] → m' d = m d := by
  cases cs with
  | nil => exact ⟨m, det_nil _ _, fun i _ _ => rfl, fun h => absurd rfl h, fun _ _ _ => rfl⟩
  | cons c cs =>
    obtain ⟨m', d, r, s, f⟩ := gsCalls_fresh he hg hA c cs m hL
    exact ⟨m', d, s, fun _ => r, f⟩

/-- The same for later sequences of calls, possibly with other vectors: the scaled split matrix is left as it is. -/
theorem C69_later_calls (m : Mem A K) (hL : ScaledRep sz eps L m a) (cs : List (GSKind × K)) :
    ∃ m', Det sz (L.gsCalls (sz x) x b t1 t2 true cs) m m' ∧ GSSteps L.rows a (m b) cs (m x) (m' x) ∧
      ScaledRep sz eps L m' a ∧ ∀ d, d ∉ [x, t1, t2] → m' d = m d := by
  obtain ⟨m', d, l, s, f⟩ := gsCalls_ready he hg hA cs m hL
  exact ⟨m', d, s, l, f⟩

end

omit [DecidableEq A] in
/-- A sweep determines the new values. -/
theorem C69_sweep_unique {n : Int} {a : Int → Int → K} {b : Int → K} (hd : ∀ i, 0 ≤ i → i < n → a i i ≠ 0) {x y y' : Int → K} :
    (GSForward n a b x y → GSForward n a b x y' → ∀ i, 0 ≤ i → i < n → y i = y' i) ∧
    (GSBackward n a b x y → GSBackward n a b x y' → ∀ i, 0 ≤ i → i < n → y i = y' i) :=
  ⟨gsForward_unique hd, gsBackward_unique hd⟩

section
variable {sz : A → Int} {eps : K} (he : 0 ≤ eps) {L : LDU A} {a : Int → Int → K}
  (hg : ∀ i, 0 ≤ i → i < L.rows → eps < |a i i|) {x b t1 t2 : A} (hA : GSArgs sz L x b t1 t2)
include he hg

theorem gs_diag_ne : ∀ i, 0 ≤ i → i < L.rows → a i i ≠ 0 := by
  intro i h0 h1 e
  have := hg i h0 h1
  rw [e, abs_zero] at this
  exact absurd this (not_lt.2 he)

theorem gsStep_fixed {k : GSKind} (hk : k = .forward ∨ k = .backward) {w : K} (hw : w ≠ 0) {b x x' : Int → K}
    (h : GSStep L.rows a b k w x x') :
    (∀ i, 0 ≤ i → i < L.rows → x' i = x i) ↔ ∀ i, 0 ≤ i → i < L.rows → ∑ j ∈ Ico 0 L.rows, a i j * x j = b i := by
  have hd := gs_diag_ne he hg
  have rel : ∀ y : Int → K, Relaxed L.rows w x y x' → (∀ i, 0 ≤ i → i < L.rows → x' i = x i) →
      ∀ i, 0 ≤ i → i < L.rows → x i = y i := by
    intro y r e i h0 h1
    have h2 := r i h0 h1
    rw [e i h0 h1] at h2
    have : w * (x i - y i) = 0 := by linear_combination h2
    rcases mul_eq_zero.1 this with h | h
    · exact absurd h hw
    · exact sub_eq_zero.1 h
  have lin : ∀ y : Int → K, Relaxed L.rows w x y x' → (∀ i, 0 ≤ i → i < L.rows → y i = x i) →
      ∀ i, 0 ≤ i → i < L.rows → x' i = x i := by
    intro y r e i h0 h1
    rw [r i h0 h1, e i h0 h1]
    ring
  rcases hk with rfl | rfl
  · obtain ⟨y, s, r⟩ := h
    constructor
    · intro e
      exact (gsForward_self x).1 (gsForward_congr s (fun i _ _ => rfl) (rel y r e))
    · intro e
      exact lin y r (gsForward_unique hd s ((gsForward_self x).2 e))
  · obtain ⟨y, s, r⟩ := h
    constructor
    · intro e
      exact (gsBackward_self x).1 (gsBackward_congr s (fun i _ _ => rfl) (rel y r e))
    · intro e
      exact lin y r (gsBackward_unique hd s ((gsBackward_self x).2 e))

include hA

/-- A forward or backward call with non-zero weight leaves `x` unchanged exactly when `a x = b`. -/
theorem C69_fixed_points (m : Mem A K) (hL : LDURep sz eps L m a) (k : GSKind) (hk : k = .forward ∨ k = .backward)
    (w : K) (hw : w ≠ 0) :
    ∃ m', Det sz (L.gsCall false (sz x) x b t1 t2 k w) m m' ∧
      ((∀ i, 0 ≤ i → i < L.rows → m' x i = m x i) ↔
        ∀ i, 0 ≤ i → i < L.rows → ∑ j ∈ Ico 0 L.rows, a i j * m x j = m b i) := by
  obtain ⟨m', d, -, s, -⟩ := gsFresh_det he hg hA k w m hL
  exact ⟨m', d, gsStep_fixed he hg hk hw s⟩

omit hA in
theorem gsSteps_contract {q : K} (hq0 : 0 ≤ q) (hq1 : q ≤ 1) {bb z : Int → K}
    (hdom : ∀ i, 0 ≤ i → i < L.rows → ∑ j ∈ (Ico 0 L.rows).erase i, |a i j| ≤ q * |a i i|)
    (hz : ∀ i, 0 ≤ i → i < L.rows → mulVec L.rows a z i = bb i) (cs : List (GSKind × K))
    (hw : ∀ c ∈ cs, 0 < c.2 ∧ c.2 ≤ 1) : ∀ (u u' : Int → K) (E : K), (∀ i, 0 ≤ i → i < L.rows → |u i - z i| ≤ E) →
    GSSteps L.rows a bb cs u u' → ∀ i, 0 ≤ i → i < L.rows → |u' i - z i| ≤ (cs.map (gsFactor q)).prod * E := by
  have hd := gs_diag_ne he hg
  induction cs with
  | nil =>
    intro u u' E hE h i h0 h1
    rw [List.map_nil, List.prod_nil, one_mul, h i h0 h1]
    exact hE i h0 h1
  | cons c cs ih =>
    intro u u' E hE h i h0 h1
    obtain ⟨v, hs, hr⟩ := h
    obtain ⟨w0, w1⟩ := hw c List.mem_cons_self
    have hf : ∀ i, 0 ≤ i → i < L.rows → |v i - z i| ≤ gsFactor q c * E := by
      obtain ⟨k, w⟩ := c
      cases k with
      | forward =>
        obtain ⟨y, s, r⟩ := hs
        exact relaxed_contract w0.le w1 r hE (gsForward_contract hd hq1 hz hdom hE s)
      | backward =>
        obtain ⟨y, s, r⟩ := hs
        exact relaxed_contract w0.le w1 r hE (gsBackward_contract hd hq1 hz hdom hE s)
      | symmetric =>
        obtain ⟨y, p, y2, s, r, s2, r2⟩ := hs
        have hE2 := relaxed_contract w0.le w1 r hE (gsForward_contract hd hq1 hz hdom hE s)
        have := relaxed_contract w0.le w1 r2 hE2 (gsBackward_contract hd hq1 hz hdom hE2 s2)
        intro i h0 h1
        refine (this i h0 h1).trans (le_of_eq ?_)
        show _ = (1 - w + w * q) ^ 2 * E
        ring
    have := ih (fun c hc => hw c (List.mem_cons_of_mem _ hc)) v u' _ hf hr i h0 h1
    refine this.trans (le_of_eq ?_)
    rw [List.map_cons, List.prod_cons]
    ring

/-- Convergence for every mixture of calls with weights in (0,1]: if the off-diagonal row sums are at most `q ≤ 1` times
the diagonal and `z` solves the system, the error is reduced by `1 - w + w q` per sweep (two sweeps for the symmetric
smoother). -/
theorem C69_convergence (m : Mem A K) (hL : LDURep sz eps L m a) (cs : List (GSKind × K))
    (hw : ∀ c ∈ cs, 0 < c.2 ∧ c.2 ≤ 1) (q : K) (hq0 : 0 ≤ q) (hq1 : q ≤ 1)
    (hdom : ∀ i, 0 ≤ i → i < L.rows → ∑ j ∈ (Ico 0 L.rows).erase i, |a i j| ≤ q * |a i i|)
    (z : Int → K) (hz : ∀ i, 0 ≤ i → i < L.rows → ∑ j ∈ Ico 0 L.rows, a i j * z j = m b i) (E : K)
    (hE : ∀ i, 0 ≤ i → i < L.rows → |m x i - z i| ≤ E) :
    ∃ m', Det sz (L.gsCalls (sz x) x b t1 t2 false cs) m m' ∧
      ∀ i, 0 ≤ i → i < L.rows → |m' x i - z i| ≤ (cs.map (gsFactor q)).prod * E := by
  obtain ⟨m', d, s, -⟩ := C69_calls he hg hA m hL cs
  exact ⟨m', d, gsSteps_contract he hg hq0 hq1 hdom hz cs hw _ _ E hE s⟩

end

/-- Without the sparse library every Gauss-Seidel call stops the program. -/
theorem C69_no_library_aborts {sz : A → Int} {eps : K} {L : LDU A} {a : Int → Int → K} (m : Mem A K)
    (hL : LDURep sz eps L m a) (hne : L.diagInv ≠ L.lower.vals) (o : Outcome A K) :
    HostOut sz L.gaussSeidel m o ↔ o = .fault .abort := by
  obtain ⟨m1, d1, -⟩ := scaleRows_det hL.wfl hL.ml L.diagInv (by rw [hL.rl]; exact hL.szi) hne m
  unfold LDU.gaussSeidel abortHost
  have hab : ∀ o : Outcome A K, HostOut sz [[.fail .abort]] m1 o ↔ o = .fault .abort := by
    intro o
    simp only [HostOut, kernelOut_single, Prog.run, outOf]
    constructor
    · rintro (⟨m', h, -⟩ | ⟨e, h, rfl⟩)
      · cases h
      · rw [h]
    · rintro rfl
      exact Or.inr ⟨_, rfl, rfl⟩
  rw [hostOut_append]
  constructor
  · rintro (⟨m2, h, h'⟩ | ⟨e, h, rfl⟩)
    · have := (d1 _).1 h
      cases this
      exact (hab o).1 h'
    · have := (d1 _).1 h
      cases this
  · rintro rfl
    exact Or.inl ⟨m1, (d1 _).2 rfl, (hab _).2 rfl⟩

/-- A vector longer than the matrix: with any weight other than one, each sweep reads its work vector out of range. -/
theorem C69_long_vector_faults {sz : A → Int} {eps : K} {L : LDU A} {a : Int → Int → K} (m : Mem A K)
    (hL : ScaledRep sz eps L m a) (x b t1 t2 : A) (hb : L.rows ≤ sz b) (h1 : L.rows ≤ sz t1) (h2 : sz t2 = L.rows)
    (hx : L.rows < sz x) (hnd : [x, b, t1, t2].Nodup)
    (hsep : ∀ c ∈ [L.lower.vals, L.upper.vals, L.diagInv], c ∉ [x, t1, t2]) (w : K) (hw : w ≠ 1) (k : GSKind) :
    HostOut sz (L.gsCall true (sz x) x b t1 t2 k w) m (.fault .outOfBounds) := by
  have hf : HostOut sz (L.gsBody L.upper L.lower .lower (sz x) x b t1 t2 w) m (.fault .outOfBounds) :=
    gsBody_long hL.wfu hL.wfl hL.ru hL.cu hL.rl hL.cl hL.sq .lower x b t1 t2 w hw (by omega) hb h1 h2.symm hL.szi hnd
      (hsep _ (by simp)) (hsep _ (by simp)) (hsep _ (by simp)) m
  cases k with
  | forward => exact hf
  | backward =>
    exact gsBody_long hL.wfl hL.wfu hL.rl hL.cl hL.ru hL.cu hL.sq .upper x b t1 t2 w hw (by omega) hb h1 h2.symm hL.szi hnd
      (hsep _ (by simp)) (hsep _ (by simp)) (hsep _ (by simp)) m
  | symmetric => exact hostOut_append.2 (Or.inr ⟨_, hf, rfl⟩)

/-! ### C70 -/

/-- The matrix the split arrays denote after the first Gauss-Seidel call. -/
theorem scaled_ldu {sz : A → Int} {eps eps' : K} (he' : eps' < 1) {L : LDU A} {m : Mem A K} {a : Int → Int → K}
    (hL : ScaledRep sz eps L m a) (hg : ∀ i, 0 ≤ i → i < L.rows → a i i ≠ 0 ∧ eps < |a i i|) :
    LDURep sz eps' { L with diagInv := L.diag } m (fun i j => a i j / a i i) := by
  refine ⟨hL.wfl, hL.wfu, hL.rl, hL.ru, hL.cl, hL.cu, hL.sq, hL.szd, hL.szd, ?_, ?_, ?_, ?_, hL.ml, hL.mu⟩
  · intro i j h0 h1
    rw [hL.low i j h0 h1, guard_eq (hg i h0 h1).2]
  · intro i j h0 h1
    rw [hL.up i j h0 h1, guard_eq (hg i h0 h1).2]
  · intro i h0 h1
    rw [hL.dg i h0 h1, div_self (hg i h0 h1).1]
  · intro i h0 h1
    show m L.diag i = _
    rw [hL.dg i h0 h1, div_self (hg i h0 h1).1, guard_eq (by rwa [abs_one]), one_div_one]

section
variable {sz : A → Int} {eps : K} (he : 0 ≤ eps) {L : LDU A} {a : Int → Int → K} {m : Mem A K}
  (hg : ∀ i, 0 ≤ i → i < L.rows → eps < |a i i|)

theorem mulVec_scaled (n : Int) (a : Int → Int → K) (x : Int → K) (i : Int) :
    mulVec n (fun i j => a i j / a i i) x i = mulVec n a x i / a i i := by
  unfold mulVec
  rw [Finset.sum_div]
  exact Finset.sum_congr rfl fun j _ => by ring

/-- `rmsNorm` of the split matrix before its square root: the mean squared residual of the original system, as long as
no Gauss-Seidel call was made. -/
theorem C28_rms (hL : LDURep sz eps L m a) (x b tmp : A) (hx : L.rows ≤ sz x) (hb : L.rows ≤ sz b) (ht : L.rows ≤ sz tmp)
    (hxt : x ≠ tmp) (hbt : b ≠ tmp) (hv : tmp ∉ [L.lower.vals, L.upper.vals, L.diag]) :
    ∃ m', CDet sz (L.rms2 x b tmp) m ((∑ i ∈ Ico 0 L.rows, (∑ j ∈ Ico 0 L.rows, a i j * m x j - m b i) ^ 2) / (L.rows : K)) m' ∧
      ∀ c, c ≠ tmp → m' c = m c := by
  have hsq := hL.sq
  simp only [List.mem_cons, List.not_mem_nil, or_false, not_or] at hv
  obtain ⟨m', d, w⟩ := lduMatVec_det hL x tmp (by omega) ht hxt (Ne.symm hv.1) (Ne.symm hv.2.1) (Ne.symm hv.2.2)
  refine ⟨m', ?_, w.frame⟩
  have h := meanSquare_det (K := K) (sz := sz) L.cols tmp b (by omega) (by omega) m'
  have e : ∑ i ∈ Ico 0 L.cols, (m' tmp i - m' b i) ^ 2 =
      ∑ i ∈ Ico 0 L.rows, (∑ j ∈ Ico 0 L.rows, a i j * m x j - m b i) ^ 2 := by
    rw [hsq]
    refine Finset.sum_congr rfl fun i hi => ?_
    rw [Finset.mem_Ico] at hi
    rw [w.view i hi.1 (by omega), w.frame b hbt]
    rfl
  rw [e] at h
  rw [show (L.rows : K) = (L.cols : K) by rw [hsq]]
  exact (CDet.ofHost d).bind h

include he hg

/-- After a Gauss-Seidel call the product of the split matrix is no longer `a x` but `D⁻¹ a x`. -/
theorem C70_product_after (hL : ScaledRep sz eps L m a) (x b : A) (hx : L.rows ≤ sz x) (hb : L.rows ≤ sz b)
    (hne : x ≠ b ∧ L.lower.vals ≠ b ∧ L.upper.vals ≠ b ∧ L.diag ≠ b) :
    ∃ m', Det sz (L.matVec x b) m m' ∧
      (∀ i, 0 ≤ i → i < L.rows → m' b i = (∑ j ∈ Ico 0 L.rows, a i j * m x j) / a i i) ∧ ∀ c, c ≠ b → m' c = m c := by
  have hsq := hL.sq
  have hL' := scaled_ldu (eps' := 0) one_pos hL (fun i h0 h1 => ⟨gs_diag_ne he hg i h0 h1, hg i h0 h1⟩)
  obtain ⟨m', d, w⟩ := lduMatVec_det hL' x b (by show L.cols ≤ _; omega) hb hne.1 hne.2.1 hne.2.2.1 hne.2.2.2
  refine ⟨m', d, fun i h0 h1 => ?_, w.frame⟩
  refine (w.view i h0 h1).trans ((mulVec_scaled _ _ _ _).trans ?_)
  show mulVec L.cols a (m x) i / _ = _
  rw [← hsq]
  rfl

/-- After a Gauss-Seidel call `rmsNorm` compares `D⁻¹ a x` with the unscaled `b`. -/
theorem C70_rms_after (hL : ScaledRep sz eps L m a) (x b tmp : A) (hx : L.rows ≤ sz x) (hb : L.rows ≤ sz b)
    (ht : L.rows ≤ sz tmp) (hxt : x ≠ tmp) (hbt : b ≠ tmp) (hv : tmp ∉ [L.lower.vals, L.upper.vals, L.diag]) :
    ∃ m', CDet sz (L.rms2 x b tmp) m
      ((∑ i ∈ Ico 0 L.rows, ((∑ j ∈ Ico 0 L.rows, a i j * m x j) / a i i - m b i) ^ 2) / (L.rows : K)) m' ∧
      ∀ c, c ≠ tmp → m' c = m c := by
  have hL' := scaled_ldu (eps' := 0) one_pos hL (fun i h0 h1 => ⟨gs_diag_ne he hg i h0 h1, hg i h0 h1⟩)
  obtain ⟨m', d, f⟩ := C28_rms hL' x b tmp hx hb ht hxt hbt hv
  refine ⟨m', ?_, f⟩
  have e : ∑ i ∈ Ico 0 L.rows, ((∑ j ∈ Ico 0 L.rows, a i j * m x j) / a i i - m b i) ^ 2 =
      ∑ i ∈ Ico 0 L.rows, (∑ j ∈ Ico 0 L.rows, a i j / a i i * m x j - m b i) ^ 2 := by
    refine Finset.sum_congr rfl fun i _ => ?_
    rw [Finset.sum_div]
    congr 2
    exact Finset.sum_congr rfl fun j _ => by ring
  rw [e]
  exact d

omit he in
theorem rmsScaled_det {sz : A → Int} {eps : K} {L : LDU A} {a : Int → Int → K} {m : Mem A K} (dv : Int → K)
    (hL : LDURep sz eps { L with diagInv := L.diag } m a ∨ LDURep sz eps L m a) (hszi : L.rows ≤ sz L.diagInv)
    (hdv : ∀ i, 0 ≤ i → i < L.rows → m L.diagInv i = dv i)
    (x b tmp : A) (hx : L.rows ≤ sz x) (hb : L.rows ≤ sz b)
    (ht : L.rows ≤ sz tmp) (hxt : x ≠ tmp) (hbt : b ≠ tmp) (hv : tmp ∉ [L.lower.vals, L.upper.vals, L.diag, L.diagInv]) :
    ∃ m', CDet sz (L.rmsScaled2 x b tmp) m
      ((∑ i ∈ Ico 0 L.rows, (∑ j ∈ Ico 0 L.rows, a i j * m x j - dv i * m b i) ^ 2) / (L.rows : K)) m' ∧
      ∀ c, c ≠ tmp → m' c = m c := by
  have hsq : L.rows = L.cols := by rcases hL with h | h <;> exact h.sq
  simp only [List.mem_cons, List.not_mem_nil, or_false, not_or] at hv
  have hmv : ∃ m', Det sz (L.matVec x tmp) m m' ∧ WritesAll L.rows tmp m m' (mulVec L.cols a (m x)) := by
    rcases hL with h | h
    · exact lduMatVec_det h x tmp (by show L.cols ≤ _; omega) ht hxt (Ne.symm hv.1) (Ne.symm hv.2.1) (Ne.symm hv.2.2.1)
    · exact lduMatVec_det h x tmp (by omega) ht hxt (Ne.symm hv.1) (Ne.symm hv.2.1) (Ne.symm hv.2.2.1)
  obtain ⟨m', d, w⟩ := hmv
  refine ⟨m', ?_, w.frame⟩
  unfold LDU.rmsScaled2
  have h := CDet.reduce (sz := sz) (op := (· + · : K → K → K)) add_assoc add_comm (irange 0 L.cols)
    (fun i => (do
      let l ← Prog.rd tmp i
      let d ← Prog.rd L.diagInv i
      let r ← Prog.rd b i
      pure ((l - d * r) ^ 2) : Prog A K K)) (fun i => (m' tmp i - m' L.diagInv i * m' b i) ^ 2) 0 m' (fun i hi => by
      rw [mem_irange] at hi
      simp only [Prog.monad_bind, Prog.rd_bind, Prog.run]
      rw [if_pos ⟨hi.1, by omega⟩, if_pos ⟨hi.1, by omega⟩, if_pos ⟨hi.1, by omega⟩]
      rfl)
  refine (CDet.ofHost d).bind (h.bind ?_)
  have e : ((irange 0 L.cols).map fun i => (m' tmp i - m' L.diagInv i * m' b i) ^ 2).foldl (· + ·) 0 =
      ∑ i ∈ Ico 0 L.rows, (∑ j ∈ Ico 0 L.rows, a i j * m x j - dv i * m b i) ^ 2 := by
    rw [List.foldl_map, foldl_add_irange, zero_add, ← hsq]
    refine Finset.sum_congr rfl fun i hi => ?_
    rw [Finset.mem_Ico] at hi
    rw [w.view i hi.1 hi.2, w.frame b hbt, w.frame _ (Ne.symm hv.2.2.2), hdv i hi.1 hi.2, ← hsq]
    rfl
  rw [e, show (L.rows : K) = (L.cols : K) by rw [hsq]]
  exact CDet.ret _ _

/-- `rmsNormDiagScaledRHS` is the counterpart that scales `b`: after a Gauss-Seidel call its square is the mean squared
residual of the row-scaled system, and is zero exactly for solutions; before such a call it compares `a x` with
`D⁻¹ b`. -/
theorem C70_rms_scaled (x b tmp : A) (hx : L.rows ≤ sz x) (hb : L.rows ≤ sz b)
    (ht : L.rows ≤ sz tmp) (hxt : x ≠ tmp) (hbt : b ≠ tmp) (hv : tmp ∉ [L.lower.vals, L.upper.vals, L.diag, L.diagInv]) :
    (ScaledRep sz eps L m a → ∃ m', CDet sz (L.rmsScaled2 x b tmp) m
      ((∑ i ∈ Ico 0 L.rows, ((∑ j ∈ Ico 0 L.rows, a i j * m x j - m b i) / a i i) ^ 2) / (L.rows : K)) m' ∧
      ∀ c, c ≠ tmp → m' c = m c) ∧
    (LDURep sz eps L m a → ∃ m', CDet sz (L.rmsScaled2 x b tmp) m
      ((∑ i ∈ Ico 0 L.rows, (∑ j ∈ Ico 0 L.rows, a i j * m x j - m b i / a i i) ^ 2) / (L.rows : K)) m' ∧
      ∀ c, c ≠ tmp → m' c = m c) := by
  constructor
  · intro hL
    have hL' := scaled_ldu (eps' := 0) one_pos hL (fun i h0 h1 => ⟨gs_diag_ne he hg i h0 h1, hg i h0 h1⟩)
    obtain ⟨m', d, f⟩ := rmsScaled_det hg (fun i => 1 / a i i) (Or.inl hL') hL.szi
      (fun i h0 h1 => by rw [hL.di i h0 h1, guard_eq (hg i h0 h1)]) x b tmp hx hb ht hxt hbt hv
    refine ⟨m', ?_, f⟩
    have e : ∑ i ∈ Ico 0 L.rows, ((∑ j ∈ Ico 0 L.rows, a i j * m x j - m b i) / a i i) ^ 2 =
        ∑ i ∈ Ico 0 L.rows, (∑ j ∈ Ico 0 L.rows, a i j / a i i * m x j - 1 / a i i * m b i) ^ 2 := by
      refine Finset.sum_congr rfl fun i _ => ?_
      rw [sub_div, Finset.sum_div]
      congr 2
      · exact Finset.sum_congr rfl fun j _ => by ring
      · ring
    rw [e]
    exact d
  · intro hL
    obtain ⟨m', d, f⟩ := rmsScaled_det hg (fun i => 1 / a i i) (Or.inr hL) hL.szi
      (fun i h0 h1 => by rw [hL.di i h0 h1, guard_eq (hg i h0 h1)]) x b tmp hx hb ht hxt hbt hv
    refine ⟨m', ?_, f⟩
    have e : ∑ i ∈ Ico 0 L.rows, (∑ j ∈ Ico 0 L.rows, a i j * m x j - m b i / a i i) ^ 2 =
        ∑ i ∈ Ico 0 L.rows, (∑ j ∈ Ico 0 L.rows, a i j * m x j - 1 / a i i * m b i) ^ 2 := by
      refine Finset.sum_congr rfl fun i _ => ?_
      rw [one_div_mul_eq_div]
    rw [e]
    exact d

/-- After a Gauss-Seidel call a plain Jacobi sweep of the split matrix relaxes towards `a x = D b` instead of
`a x = b`: its fixed points are the solutions of that system. -/
theorem C70_jacobi_after (he1 : eps < 1) (hL : ScaledRep sz eps L m a) (x b t1 t2 : A) (w : K) (hw : w ≠ 0)
    (hx : L.rows ≤ sz x) (hb : L.rows ≤ sz b)
    (ht1 : L.rows ≤ sz t1) (ht2 : L.rows ≤ sz t2) (hnd : [x, b, t1, t2].Nodup)
    (hl : L.lower.vals ∉ [x, t1, t2]) (hu : L.upper.vals ∉ [x, t1, t2]) (hdg : L.diag ∉ [x, t1, t2]) :
    ∃ m', Det sz (L.jacobi eps x b t1 t2 w) m m' ∧
      (∀ i, 0 ≤ i → i < L.rows → m' x i = m x i + w * (m b i - (∑ j ∈ Ico 0 L.rows, a i j * m x j) / a i i)) ∧
      ((∀ i, 0 ≤ i → i < L.rows → m' x i = m x i) ↔
        ∀ i, 0 ≤ i → i < L.rows → ∑ j ∈ Ico 0 L.rows, a i j * m x j = a i i * m b i) := by
  have hsq := hL.sq
  have hne := gs_diag_ne he hg
  have hL' := scaled_ldu he1 hL (fun i h0 h1 => ⟨hne i h0 h1, hg i h0 h1⟩)
  simp only [List.mem_cons, List.not_mem_nil, or_false, not_or] at hl hu
  obtain ⟨m1, d1, v1, -, f1⟩ := lduJacobi_det hL' x b t1 t2 w (by show L.cols ≤ _; omega) hb ht1 ht2 hnd hl.2.1 hu.2.1 hu.2.2 hdg
  have hv : ∀ i, 0 ≤ i → i < L.rows → m1 x i = m x i + w * (m b i - (∑ j ∈ Ico 0 L.rows, a i j * m x j) / a i i) := by
    intro i h0 h1
    have e := v1 i h0 h1
    have e2 : mulVec L.cols (fun i j => a i j / a i i) (m x) i = (∑ j ∈ Ico 0 L.rows, a i j * m x j) / a i i := by
      rw [mulVec_scaled, ← hsq]
      rfl
    beta_reduce at e
    rw [div_self (hne i h0 h1), guard_eq (by rwa [abs_one])] at e
    change m1 x i = w / 1 * (m b i - (mulVec L.cols (fun i j => a i j / a i i) (m x) i - 1 * m x i)) + (1 - w) * m x i at e
    rw [e, e2]
    ring
  refine ⟨m1, d1, hv, ?_⟩
  constructor
  · intro h i h0 h1
    have e := hv i h0 h1
    rw [h i h0 h1] at e
    have e3 : w * (m b i - (∑ j ∈ Ico 0 L.rows, a i j * m x j) / a i i) = 0 := by linear_combination -e
    rcases mul_eq_zero.1 e3 with h2 | h2
    · exact absurd h2 hw
    · rw [sub_eq_zero] at h2
      rw [h2, mul_div_cancel₀ _ (hne i h0 h1)]
  · intro h i h0 h1
    rw [hv i h0 h1, h i h0 h1, mul_div_cancel_left₀ _ (hne i h0 h1)]
    ring

end

/-! ### The library variants of Jacobi (C29) -/

/-- Sweep with cached reciprocals and the library product, with an outdated or a valid cache. -/
theorem C29_library_sweep {sz : A → Int} {M : CSR A} (hM : CSRWf sz M) (hD : OneDiag M) (hsq : M.rows = M.cols)
    (eps : K) (he : 0 ≤ eps) (x b tmp dinv : A) (w : K) (hx : M.rows ≤ sz x) (hb : M.rows ≤ sz b)
    (ht : M.rows ≤ sz tmp) (hd : M.rows ≤ sz dinv) (hnd : [M.vals, x, b, tmp, dinv].Nodup) (stale : Bool) (m : Mem A K)
    (hc : stale = false → ∀ i, 0 ≤ i → i < M.rows → m dinv i = 1 / guardDiag eps (dense M (m M.vals) i i))
    (hg : ∀ i, 0 ≤ i → i < M.rows → eps < |dense M (m M.vals) i i|) :
    ∃ m', Det sz (M.jacobiBLAS eps x b tmp dinv w stale) m m' ∧
      (∀ i, 0 ≤ i → i < M.rows → m' tmp i = jacobiStep M.cols (dense M (m M.vals)) (m b) w (m x) i) ∧
      ∀ c, c ≠ tmp → c ≠ dinv → m' c = m c := by
  simp only [List.nodup_cons, List.mem_cons, List.not_mem_nil, or_false, not_or, List.nodup_nil, and_true,
    not_false_eq_true] at hnd
  obtain ⟨⟨hvx, hvb, hvt, hvd⟩, ⟨hxb, hxt, hxd⟩, ⟨hbt, hbd⟩, htd⟩ := hnd
  have hup : ∃ m1, Det sz (if stale then M.updateDiags eps dinv else []) m m1 ∧
      (∀ i, 0 ≤ i → i < M.rows → m1 dinv i = 1 / guardDiag eps (dense M (m M.vals) i i)) ∧ ∀ c, c ≠ dinv → m1 c = m c := by
    cases stale with
    | true =>
      obtain ⟨m1, d1, w1⟩ := updateDiags_det hM hD eps dinv hd hvd m
      exact ⟨m1, d1, w1.view, w1.frame⟩
    | false => exact ⟨m, det_nil _ _, hc rfl, fun _ _ => rfl⟩
  obtain ⟨m1, d1, v1, f1⟩ := hup
  obtain ⟨m2, d2, w2⟩ := matVecBLAS_det hM x tmp (0 : K) (by omega) ht hxt hvt m1
  obtain ⟨m3, d3, w3⟩ := forAll_det (sz := sz) (r := tmp) M.rows (fun irow => (do
      let d ← Prog.rd dinv irow
      let bv ← Prog.rd b irow
      let xv ← Prog.rd x irow
      let t ← Prog.rd tmp irow
      Prog.wr tmp irow (w * d * bv + (xv - w * d * t)) : Prog A K Unit))
    (fun i => w * m2 dinv i * m2 b i + (m2 x i - w * m2 dinv i * m2 tmp i)) m2
    (fun i h0 h1 => ⟨⟨h0, by omega⟩, Or.inl (Ne.symm htd), fun _ => ⟨⟨h0, by omega⟩, Or.inl hbt, fun _ =>
      ⟨⟨h0, by omega⟩, Or.inl hxt, fun _ => ⟨⟨h0, by omega⟩, Or.inr rfl, fun _ => ⟨⟨h0, by omega⟩, ⟨rfl, rfl⟩, trivial⟩⟩⟩⟩⟩)
    (fun i h0 h1 => Mem.set_same _ _ _ _)
  refine ⟨m3, ?_, fun i h0 h1 => ?_, fun c c1 c2 => by rw [w3.frame c c1, w2.frame c c1, f1 c c2]⟩
  · unfold CSR.jacobiBLAS
    exact det_append (det_append d1 d2) d3
  · rw [w3.view i h0 h1, w2.view i h0 h1, w2.frame _ (Ne.symm htd), v1 i h0 h1, w2.frame _ hbt, f1 _ hbd,
      w2.frame _ hxt, f1 _ hxd, f1 _ hvd, guard_eq (hg i h0 h1)]
    unfold jacobiStep
    ring

/-- Sweep of the split matrix with library products; one work vector holds `L x + U x`. -/
theorem C29_library_ldu_sweep {sz : A → Int} {eps : K} (he : 0 ≤ eps) {L : LDU A} {a : Int → Int → K} {m : Mem A K}
    (hL : LDURep sz eps L m a) (x b t1 : A) (w : K) (hx : L.rows ≤ sz x) (hb : L.rows ≤ sz b)
    (ht1 : L.rows ≤ sz t1) (hnd : [x, b, t1].Nodup)
    (hl : L.lower.vals ∉ [x, t1]) (hu : L.upper.vals ∉ [x, t1])
    (hdi : L.diagInv ∉ [x, t1]) (hg : ∀ i, 0 ≤ i → i < L.rows → eps < |a i i|) :
    ∃ m', Det sz (L.jacobiBLAS x b t1 w) m m' ∧
      (∀ i, 0 ≤ i → i < L.rows → m' x i = jacobiStep L.cols a (m b) w (m x) i) ∧
      ∀ c, c ∉ [x, t1] → m' c = m c := by
  simp only [List.nodup_cons, List.mem_cons, List.not_mem_nil, or_false, not_or, List.nodup_nil, and_true,
    not_false_eq_true] at hnd hl hu hdi
  obtain ⟨⟨hxb, hx1⟩, hb1⟩ := hnd
  have hsq := hL.sq
  obtain ⟨m1, d1, w1⟩ := matVecBLAS_det hL.wfl x t1 (0 : K) (by rw [hL.cl]; omega) (by rw [hL.rl]; omega) hx1 hl.2 m
  obtain ⟨m2, d2, w2⟩ := matVecBLAS_det hL.wfu x t1 (1 : K) (by rw [hL.cu]; omega) (by rw [hL.ru]; omega) hx1 hu.2 m1
  have hsum : ∀ i, 0 ≤ i → i < L.rows → m2 t1 i + a i i * m x i = mulVec L.cols a (m x) i := by
    intro i h0 h1
    rw [w2.view i h0 (by rw [hL.ru]; exact h1), w1.view i h0 (by rw [hL.rl]; exact h1), hL.cl, hL.cu,
      hL.low_mul h0 h1, w1.frame _ hu.2, w1.frame _ hx1, hL.up_mul h0 h1, ← mulVec_split L.cols a (m x) h0 (by omega)]
    ring
  have e2x : m2 x = m x := by rw [w2.frame _ hx1, w1.frame _ hx1]
  have e2b : m2 b = m b := by rw [w2.frame _ hb1, w1.frame _ hb1]
  have e2d : m2 L.diagInv = m L.diagInv := by rw [w2.frame _ hdi.2, w1.frame _ hdi.2]
  have hszi := hL.szi
  obtain ⟨m3, d3, w3⟩ := forAll_det (sz := sz) (r := x) L.rows (fun i => (do
      let di ← Prog.rd L.diagInv i
      let bv ← Prog.rd b i
      let lux ← Prog.rd t1 i
      if w = 1 then Prog.wr x i (di * (bv - lux))
      else
        let xv ← Prog.rd x i
        Prog.wr x i (w * di * (bv - lux) + (1 - w) * xv) : Prog A K Unit))
    (fun i => w * m2 L.diagInv i * (m2 b i - m2 t1 i) + (1 - w) * m2 x i) m2
    (fun i h0 h1 => by
      refine ⟨⟨h0, by omega⟩, Or.inl hdi.1, fun _ => ⟨⟨h0, by omega⟩, Or.inl (Ne.symm hxb), fun _ =>
        ⟨⟨h0, by omega⟩, Or.inl (Ne.symm hx1), fun _ => ?_⟩⟩⟩
      simp only [Prog.pure_bind']
      by_cases hw : w = 1
      · rw [if_pos hw]
        exact ⟨⟨h0, by omega⟩, ⟨rfl, rfl⟩, trivial⟩
      · rw [if_neg hw]
        exact ⟨⟨h0, by omega⟩, Or.inr rfl, fun _ => ⟨⟨h0, by omega⟩, ⟨rfl, rfl⟩, trivial⟩⟩)
    (fun i h0 h1 => by
      simp only [Prog.monad_bind, Prog.rd_bind, Prog.exec]
      by_cases hw : w = 1
      · rw [if_pos hw]
        refine (Mem.set_same _ _ _ _).trans ?_
        rw [hw]
        ring
      · rw [if_neg hw]
        exact Mem.set_same _ _ _ _)
  refine ⟨m3, det_append (det_append d1 d2) d3, fun i h0 h1 => ?_, fun c hc => ?_⟩
  · rw [w3.view i h0 h1, e2x, e2b, e2d, hL.di i h0 h1, ← sweep_eq he (hg i h0 h1), ← hsum i h0 h1]
    ring
  · simp only [List.mem_cons, List.not_mem_nil, or_false, not_or] at hc
    rw [w3.frame c hc.1, w2.frame c hc.2, w1.frame c hc.2]

/-! ### C71 -/

/-- Sum of the absolute values of the off-diagonal entries stored in row `i`. -/
def Spec.storedOff (M : CSR A) (v : Int → K) (i : Int) : K :=
  ∑ p ∈ Ico (rowPtr M i) (rowPtr M (i + 1)), if colOf M p = i then 0 else |v p|

/-- No row stores two entries in the same column. -/
def Spec.NoDupCols (M : CSR A) : Prop :=
  ∀ i, 0 ≤ i → i < M.rows → ∀ p q, rowPtr M i ≤ p → p < rowPtr M (i + 1) → rowPtr M i ≤ q → q < rowPtr M (i + 1) →
    colOf M p = colOf M q → p = q

theorem foldl_dominance (M : CSR A) (v : Int → K) (i p0 : Int) (ps : List Int) (hP : colOf M p0 = i)
    (hu : ∀ q ∈ ps, colOf M q = i → q = p0) (st : K × K) (h : p0 ∈ ps ∨ st.1 = |v p0|) :
    ps.foldl (fun (st : K × K) p => if colOf M p = i then (|v p|, st.2) else (st.1, st.2 + |v p|)) st =
      (|v p0|, ps.foldl (fun s p => s + if colOf M p = i then 0 else |v p|) st.2) := by
  induction ps generalizing st with
  | nil =>
    rcases h with h | h
    · simp at h
    · exact Prod.ext h rfl
  | cons q ps ih =>
    rw [List.foldl_cons, List.foldl_cons]
    have hu' : ∀ q' ∈ ps, colOf M q' = i → q' = p0 := fun q' hq' => hu q' (List.mem_cons_of_mem _ hq')
    by_cases hq : colOf M q = i
    · rw [if_pos hq, if_pos hq, add_zero]
      rw [ih hu' _ (Or.inr (by rw [hu q List.mem_cons_self hq]))]
    · rw [if_neg hq, if_neg hq]
      refine ih hu' _ ?_
      rcases h with h | h
      · rcases List.mem_cons.1 h with rfl | h
        · exact absurd hP hq
        · exact Or.inl h
      · exact Or.inr h

theorem dominance_min_spec {ι : Type} (l : List ι) (f : ι → K) (big : K) :
    (l.map f).foldl min big ≤ big ∧ (∀ i ∈ l, (l.map f).foldl min big ≤ f i) ∧
      ((l.map f).foldl min big = big ∨ ∃ i ∈ l, (l.map f).foldl min big = f i) := by
  induction l generalizing big with
  | nil => exact ⟨le_rfl, by simp, Or.inl rfl⟩
  | cons a l ih =>
    rw [List.map_cons, List.foldl_cons]
    obtain ⟨h1, h2, h3⟩ := ih (min big (f a))
    refine ⟨h1.trans (min_le_left _ _), ?_, ?_⟩
    · intro i hi
      rcases List.mem_cons.1 hi with rfl | hi
      · exact h1.trans (min_le_right _ _)
      · exact h2 i hi
    · rcases h3 with h | ⟨i, hi, h⟩
      · rcases min_choice big (f a) with e | e
        · exact Or.inl (h.trans e)
        · exact Or.inr ⟨a, List.mem_cons_self, h.trans e⟩
      · exact Or.inr ⟨i, List.mem_cons_of_mem _ hi, h⟩

/-- `diagonalDominance` returns the smallest ratio of diagonal to stored off-diagonal sum (or the initial value `big`
when that is smaller), for every order of the reduction, without changing anything. -/
theorem C71_value {sz : A → Int} {M : CSR A} (hM : CSRWf sz M) (hD : OneDiag M) (big : K) (m : Mem A K) :
    ∃ r, CDet sz (M.dominance big) m r m ∧ r ≤ big ∧
      (∀ i, 0 ≤ i → i < M.rows → r ≤ |dense M (m M.vals) i i| / storedOff M (m M.vals) i) ∧
      (r = big ∨ ∃ i, 0 ≤ i ∧ i < M.rows ∧ r = |dense M (m M.vals) i i| / storedOff M (m M.vals) i) := by
  have hl := hM.len
  have hrun : ∀ i ∈ irange 0 ((M.rowIdx.length : Int) - 1), ((do
      let (dg, off) ← M.rowLoop i (fun (st : K × K) j => do
        let c ← Prog.idxAt M.colIdx j
        let v ← Prog.rd M.vals j
        pure (if c = i then (|v|, st.2) else (st.1, st.2 + |v|))) (0, 0)
      pure (dg / off) : Prog A K K)).run sz m =
      .ok (|dense M (m M.vals) i i| / storedOff M (m M.vals) i, m) := by
    intro i hi
    rw [mem_irange] at hi
    have h0 := hi.1
    have h1 : i < M.rows := by omega
    obtain ⟨p, hp0, hp1, hpc, hu⟩ := hD i h0 h1
    simp only [Prog.monad_bind]
    rw [hM.rowLoop_eq h0 h1, run_bind, run_fold (fun (st : K × K) q =>
      if colOf M q = i then (|m M.vals q|, st.2) else (st.1, st.2 + |m M.vals q|)) m]
    · rw [foldl_dominance M (m M.vals) i p _ hpc (fun q hq hc => by rw [mem_irange] at hq; exact hu q hq.1 hq.2 hc) _
        (Or.inl (mem_irange.2 ⟨hp0, hp1⟩)), foldl_add_irange, zero_add, ← dense_diag hM (m M.vals) hp0 hp1 hpc hu]
      rfl
    · intro st q hq
      obtain ⟨q0, q1, q2⟩ := hM.in_row h0 h1 hq
      rw [hM.col_idx q0 q1]
      simp only [Prog.pure_bind', Prog.rd_bind, Prog.run]
      rw [if_pos q2]
      rfl
  have h := CDet.reduce (sz := sz) (op := (min : K → K → K)) min_assoc min_comm (irange 0 ((M.rowIdx.length : Int) - 1)) _ _
    big m hrun
  obtain ⟨a1, a2, a3⟩ := dominance_min_spec (irange 0 ((M.rowIdx.length : Int) - 1))
    (fun i => |dense M (m M.vals) i i| / storedOff M (m M.vals) i) big
  refine ⟨_, h, a1, fun i h0 h1 => a2 i (mem_irange.2 ⟨h0, by omega⟩), ?_⟩
  rcases a3 with e | ⟨i, hi, e⟩
  · exact Or.inl e
  · rw [mem_irange] at hi
    exact Or.inr ⟨i, hi.1, by omega, e⟩

theorem offdiag_le_stored {sz : A → Int} {M : CSR A} (hM : CSRWf sz M) (v : Int → K) {i : Int} (h0 : 0 ≤ i) (h1 : i < M.rows) :
    ∑ j ∈ (Ico 0 M.cols).erase i, |dense M v i j| ≤ storedOff M v i := by
  have h2 : ∑ j ∈ (Ico 0 M.cols).erase i, |dense M v i j| ≤
      ∑ j ∈ (Ico 0 M.cols).erase i, ∑ p ∈ Ico (rowPtr M i) (rowPtr M (i + 1)), if colOf M p = j then |v p| else 0 := by
    refine Finset.sum_le_sum fun j _ => ?_
    unfold dense
    refine (Finset.abs_sum_le_sum_abs _ _).trans (le_of_eq (Finset.sum_congr rfl fun p _ => ?_))
    split
    · rfl
    · exact abs_zero
  refine h2.trans (le_of_eq ?_)
  rw [Finset.sum_comm]
  refine Finset.sum_congr rfl fun p hp => ?_
  rw [Finset.mem_Ico] at hp
  obtain ⟨p0, p1, -⟩ := hM.in_row h0 h1 (mem_irange.2 hp)
  have hc := hM.col_range p0 p1
  rw [Finset.sum_ite_eq]
  by_cases hi : colOf M p = i
  · rw [if_pos hi, if_neg (by rw [hi]; simp)]
  · rw [if_neg hi, if_pos (Finset.mem_erase.2 ⟨hi, Finset.mem_Ico.2 hc⟩)]

/-- The stored sum is the off-diagonal row sum of the dense matrix when no column is stored twice, and never less. -/
theorem C71_stored {sz : A → Int} {M : CSR A} (hM : CSRWf sz M) (v : Int → K) (i : Int) (h0 : 0 ≤ i) (h1 : i < M.rows) :
    ∑ j ∈ (Ico 0 M.cols).erase i, |dense M v i j| ≤ storedOff M v i ∧
    (NoDupCols M → ∑ j ∈ (Ico 0 M.cols).erase i, |dense M v i j| = storedOff M v i) := by
  refine ⟨offdiag_le_stored hM v h0 h1, fun hN => ?_⟩
  have h2 : ∀ j, |dense M v i j| = ∑ p ∈ Ico (rowPtr M i) (rowPtr M (i + 1)), if colOf M p = j then |v p| else 0 := by
    intro j
    unfold dense
    by_cases h : ∃ p ∈ Ico (rowPtr M i) (rowPtr M (i + 1)), colOf M p = j
    · obtain ⟨p, hp, hj⟩ := h
      rw [Finset.sum_eq_single p, Finset.sum_eq_single p, if_pos hj, if_pos hj]
      · intro q hq hne
        rw [if_neg]
        intro hc
        rw [Finset.mem_Ico] at hp hq
        exact hne (hN i h0 h1 q p hq.1 hq.2 hp.1 hp.2 (hc.trans hj.symm))
      · exact fun hn => absurd hp hn
      · intro q hq hne
        rw [if_neg]
        intro hc
        rw [Finset.mem_Ico] at hp hq
        exact hne (hN i h0 h1 q p hq.1 hq.2 hp.1 hp.2 (hc.trans hj.symm))
      · exact fun hn => absurd hp hn
    · have hz : ∀ p ∈ Ico (rowPtr M i) (rowPtr M (i + 1)), ¬ colOf M p = j := fun p hp hc => h ⟨p, hp, hc⟩
      rw [Finset.sum_eq_zero fun p hp => if_neg (hz p hp), Finset.sum_eq_zero fun p hp => if_neg (hz p hp), abs_zero]
  rw [Finset.sum_congr rfl fun j _ => h2 j, Finset.sum_comm]
  refine Finset.sum_congr rfl fun p hp => ?_
  rw [Finset.mem_Ico] at hp
  obtain ⟨p0, p1, -⟩ := hM.in_row h0 h1 (mem_irange.2 hp)
  have hc := hM.col_range p0 p1
  rw [Finset.sum_ite_eq]
  by_cases hi : colOf M p = i
  · rw [if_pos hi, if_neg (by rw [hi]; simp)]
  · rw [if_neg hi, if_pos (Finset.mem_erase.2 ⟨hi, Finset.mem_Ico.2 hc⟩)]

/-- A reported dominance `r > 1` is a guarantee: every row has off-diagonal sum at most `1/r < 1` times its diagonal, so
the convergence theorems for Jacobi and Gauss-Seidel apply with `q = 1/r`.  (Rows without off-diagonal entries divide by
zero in the code and are excluded.) -/
theorem C71_guarantee {sz : A → Int} {M : CSR A} (hM : CSRWf sz M) (hD : OneDiag M) (big : K) (m m' : Mem A K) (r : K)
    (hr : CDet sz (M.dominance big) m r m') (hr1 : 1 < r)
    (hoff : ∀ i, 0 ≤ i → i < M.rows → storedOff M (m M.vals) i ≠ 0) :
    0 ≤ 1 / r ∧ 1 / r < 1 ∧ ∀ i, 0 ≤ i → i < M.rows →
      ∑ j ∈ (Ico 0 M.cols).erase i, |dense M (m M.vals) i j| ≤ 1 / r * |dense M (m M.vals) i i| := by
  obtain ⟨r', h, -, h2, -⟩ := C71_value hM hD big m
  obtain ⟨rfl, rfl⟩ := hr.unique h
  have hr0 : 0 < r := zero_lt_one.trans hr1
  refine ⟨by positivity, by rw [div_lt_one hr0]; exact hr1, fun i h0 h1 => ?_⟩
  refine (offdiag_le_stored hM _ h0 h1).trans ?_
  have hpos : 0 < storedOff M (m' M.vals) i := by
    refine lt_of_le_of_ne (Finset.sum_nonneg fun p _ => ?_) (Ne.symm (hoff i h0 h1))
    split
    · exact le_rfl
    · exact abs_nonneg _
  have := h2 i h0 h1
  rw [le_div_iff₀ hpos] at this
  rw [one_div_mul_eq_div, le_div_iff₀ hr0]
  linarith

/-! ### Concrete cases -/

/-- Sizes for the example: arrays 10 and 11 hold one stored triangle entry each. -/
def exLSz (a : Nat) : Int := if a = 0 then 4 else if a = 10 ∨ a = 11 then 1 else 2

/-- The split form of `ex2` (4 1 / 1 3), values in arrays 10 to 13. -/
def exL : LDU Nat := LDUVecs.toLDU (K := ℚ) ⟨[4, 3], [1], [0], [0, 0, 1], [1], [1], [0, 1, 1]⟩ ex2 10 11 12 13

theorem exL_wf : CSRWf exLSz ex2 := ⟨ex2_wf.rows, ex2_wf.len, ex2_wf.lo, ex2_wf.hi, ex2_wf.col, ex2_wf.vals⟩

/-- The stored split of the example, from the construction of `C28_split`. -/
theorem exL_rep : ∃ m0, Det exLSz (LDUVecs.store ⟨[4, 3], [1], [0], [0, 0, 1], [1], [1], [0, 1, 1]⟩ (1 / 1000 : ℚ)
      10 11 12 13) ex2Mem m0 ∧
    LDURep exLSz (1 / 1000) exL m0 (dense ex2 (ex2Mem 0)) ∧ m0 1 = ex2Mem 1 ∧ m0 2 = ex2Mem 2 := by
  obtain ⟨s, hs, h⟩ := C28_split exL_wf ex2_diag rfl (1 / 1000 : ℚ) ex2Mem
  have e : s = ⟨[4, 3], [1], [0], [0, 0, 1], [1], [1], [0, 1, 1]⟩ := by
    have h2 : (ex2.split).run exLSz ex2Mem = .ok (⟨[4, 3], [1], [0], [0, 0, 1], [1], [1], [0, 1, 1]⟩, ex2Mem) := by
      rw [split_run exL_wf]
      rfl
    rw [h2] at hs
    injection hs with hs
    injection hs with hs
    exact hs.symm
  subst e
  obtain ⟨m0, d, r, f⟩ := h 10 11 12 13 (by decide) rfl rfl rfl rfl
  exact ⟨m0, d, r, f 1 (by decide), f 2 (by decide)⟩

theorem exL_guard : ∀ i, 0 ≤ i → i < exL.rows → (1 / 1000 : ℚ) < |dense ex2 (ex2Mem 0) i i| := ex2_guard

theorem exL_args : GSArgs exLSz exL 1 2 3 4 := ⟨rfl, by decide, by decide, by decide, by decide, by decide, by decide⟩

theorem exL_solved (x : Int → ℚ) (hx : x = ex2Mem 1) (i : Int) (h0 : 0 ≤ i) (h1 : i < 2) :
    ∑ j ∈ Ico 0 exL.rows, dense ex2 (ex2Mem 0) i j * x j = ex2Mem 2 i := by
  subst hx
  have s0 : Ico (0 : Int) exL.rows = {0, 1} := by decide
  rw [s0, Finset.sum_pair (by decide)]
  interval_cases i
  · rw [ex2_dense _ _ _ (by simp) (by simp), ex2_dense _ _ _ (by simp) (by simp)]; norm_num [ex2Mem]
  · rw [ex2_dense _ _ _ (by simp) (by simp), ex2_dense _ _ _ (by simp) (by simp)]; norm_num [ex2Mem]

/-- C69: a sequence of calls on the example matrix. -/
example : ∃ m0 m' : Mem Nat ℚ, Det exLSz (exL.gsCalls 2 1 2 3 4 false [(.forward, 1), (.symmetric, 1 / 2), (.backward, 1)]) m0 m' ∧
    GSSteps 2 (dense ex2 (ex2Mem 0)) (ex2Mem 2) [(.forward, 1), (.symmetric, 1 / 2), (.backward, 1)] (m0 1) (m' 1) := by
  obtain ⟨m0, -, r, e1, e2⟩ := exL_rep
  obtain ⟨m', d, s, -⟩ := C69_calls (by norm_num) exL_guard exL_args m0 r [(.forward, 1), (.symmetric, 1 / 2), (.backward, 1)]
  rw [e2] at s
  exact ⟨m0, m', d, s⟩

/-- The observable consequence of C70 for the system 4 1 / 1 3 with solution (1, 1): the mean squared residual reported
for the exact solution is 0 before a forward Gauss-Seidel call, the call leaves the solution in place, and afterwards the
same report is (225/16 + 64/9)/2 rather than 0, while the variant scaling `b` reports 0. -/
theorem C70_residual_changes : ∃ m0 m1 m2 m3 m4 : Mem Nat ℚ,
    Det exLSz (LDUVecs.store ⟨[4, 3], [1], [0], [0, 0, 1], [1], [1], [0, 1, 1]⟩ (1 / 1000 : ℚ) 10 11 12 13)
      ex2Mem m0 ∧
    CDet exLSz (exL.rms2 1 2 3) m0 0 m1 ∧
    Det exLSz (exL.gsCall false 2 1 2 3 4 .forward 1) m0 m2 ∧ (∀ i, 0 ≤ i → i < 2 → m2 1 i = m0 1 i) ∧ m2 2 = m0 2 ∧
    CDet exLSz (exL.rms2 1 2 3) m2 ((225 / 16 + 64 / 9) / 2) m3 ∧
    CDet exLSz (exL.rmsScaled2 1 2 3) m2 0 m4 := by
  obtain ⟨m0, d0, r, e1, e2⟩ := exL_rep
  obtain ⟨m1, c1, -⟩ := C28_rms r 1 2 3 (by decide) (by decide) (by decide) (by decide) (by decide) (by decide)
  obtain ⟨m2, d2, r2, s2, f2⟩ := gsFresh_det (by norm_num) exL_guard exL_args .forward 1 m0 r
  have hx : ∀ i, 0 ≤ i → i < 2 → m2 1 i = m0 1 i := by
    obtain ⟨m2', d2', hfix⟩ := C69_fixed_points (by norm_num) exL_guard exL_args m0 r .forward (Or.inl rfl) 1 one_ne_zero
    obtain rfl := d2.unique d2'
    refine hfix.2 fun i h0 h1 => ?_
    rw [e2]
    exact exL_solved _ e1 i h0 h1
  have hb : m2 2 = m0 2 := f2 2 (by decide) (by decide)
  obtain ⟨m3, c3, -⟩ := C70_rms_after (by norm_num) exL_guard r2 1 2 3 (by decide) (by decide) (by decide) (by decide)
    (by decide) (by decide)
  obtain ⟨m4, c4, -⟩ := (C70_rms_scaled (by norm_num) exL_guard 1 2 3 (by decide) (by decide) (by decide) (by decide)
    (by decide) (by decide)).1 r2
  have s0 : Ico (0 : Int) exL.rows = {0, 1} := by decide
  have hs : ∀ i, 0 ≤ i → i < 2 → ∑ j ∈ Ico 0 exL.rows, dense ex2 (ex2Mem 0) i j * m2 1 j = ex2Mem 2 i := by
    intro i h0 h1
    rw [← exL_solved (m0 1) e1 i h0 h1]
    refine Finset.sum_congr rfl fun j hj => ?_
    rw [Finset.mem_Ico] at hj
    rw [hx j hj.1 hj.2]
  have d00 : dense ex2 (ex2Mem 0) 0 0 = 4 := by rw [ex2_dense _ _ _ (by simp) (by simp)]; norm_num [ex2Mem]
  have d11 : dense ex2 (ex2Mem 0) 1 1 = 3 := by rw [ex2_dense _ _ _ (by simp) (by simp)]; norm_num [ex2Mem]
  refine ⟨m0, m1, m2, m3, m4, d0, ?_, d2, hx, hb, ?_, ?_⟩
  · convert c1 using 1
    rw [e1, e2, s0, Finset.sum_pair (by decide), ← s0, exL_solved _ rfl 0 (by decide) (by decide),
      exL_solved _ rfl 1 (by decide) (by decide)]
    norm_num
  · convert c3 using 1
    rw [hb, e2, show ∀ f : Int → ℚ, ∑ i ∈ Ico 0 exL.rows, f i = f 0 + f 1 from fun f => by
      rw [s0, Finset.sum_pair (by decide)]]
    rw [hs 0 (by decide) (by decide), hs 1 (by decide) (by decide), d00, d11, show (exL.rows : ℚ) = 2 from rfl]
    norm_num [ex2Mem]
  · convert c4 using 1
    rw [hb, e2, show ∀ f : Int → ℚ, ∑ i ∈ Ico 0 exL.rows, f i = f 0 + f 1 from fun f => by
      rw [s0, Finset.sum_pair (by decide)]]
    rw [hs 0 (by decide) (by decide), hs 1 (by decide) (by decide)]
    norm_num

theorem ex2_storedOff (i : Int) (h0 : 0 ≤ i) (h1 : i < 2) : storedOff ex2 (ex2Mem 0) i = 1 := by
  have s0 : Ico (0 : Int) 2 = {0, 1} := by decide
  have s1 : Ico (2 : Int) 4 = {2, 3} := by decide
  interval_cases i
  · show ∑ p ∈ Ico (0 : Int) 2, _ = _
    rw [s0, Finset.sum_pair (by decide), if_pos (by rfl), if_neg (by decide)]
    norm_num [ex2Mem]
  · show ∑ p ∈ Ico (2 : Int) 4, _ = _
    rw [s1, Finset.sum_pair (by decide), if_neg (by decide), if_pos (by rfl)]
    norm_num [ex2Mem]

/-- C71: the reported dominance of 4 1 / 1 3 is 3. -/
example : CDet ex2Sz (ex2.dominance 1000000) ex2Mem (3 : ℚ) ex2Mem := by
  obtain ⟨r, h, -, h2, h3⟩ := C71_value ex2_wf ex2_diag (1000000 : ℚ) ex2Mem
  have d00 : dense ex2 (ex2Mem 0) 0 0 = 4 := by rw [ex2_dense _ _ _ (by simp) (by simp)]; norm_num [ex2Mem]
  have d11 : dense ex2 (ex2Mem 0) 1 1 = 3 := by rw [ex2_dense _ _ _ (by simp) (by simp)]; norm_num [ex2Mem]
  have a1 := h2 1 (by decide) (by decide)
  rw [show ex2.vals = 0 from rfl, d11, ex2_storedOff 1 (by decide) (by decide)] at a1
  have e : r = 3 := by
    rcases h3 with e | ⟨i, i0, i1, e⟩
    · rw [e] at a1
      norm_num at a1
    · have i1' : i < 2 := i1
      rw [show ex2.vals = 0 from rfl, ex2_storedOff i i0 i1'] at e
      interval_cases i
      · rw [d00] at e
        rw [e] at a1
        norm_num at a1
      · rw [d11] at e
        rw [e]
        norm_num
  rw [← e]
  exact h

example : NoDupCols ex2 := by
  intro i h0 h1 p q p0 p1 q0 q1 h
  have h1' : i < 2 := h1
  interval_cases i
  · have p0' : (0 : Int) ≤ p := p0
    have p1' : p < 2 := p1
    have q0' : (0 : Int) ≤ q := q0
    have q1' : q < 2 := q1
    interval_cases p <;> interval_cases q <;> first | rfl | exact absurd h (by decide)
  · have p0' : (2 : Int) ≤ p := p0
    have p1' : p < 4 := p1
    have q0' : (2 : Int) ≤ q := q0
    have q1' : q < 4 := q1
    interval_cases p <;> interval_cases q <;> first | rfl | exact absurd h (by decide)

end Madg
