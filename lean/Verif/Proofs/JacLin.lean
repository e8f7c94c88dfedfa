/-
The assembled Jacobian as a linear operator; PETSc copies.
-/
import Verif.Proofs.Jacobian
import Verif.Proofs.CH3
import Verif.Model.Petsc
import Verif.Spec.Linear
import Mathlib.Analysis.Calculus.Deriv.Mul
import Mathlib.Analysis.Calculus.Deriv.Pow
import Mathlib.Analysis.Calculus.Deriv.Add

set_option linter.unusedSectionVars false
set_option linter.unusedVariables false

namespace Madg
open Spec Finset
variable {A K : Type} [DecidableEq A] [Field K]

/-- Weight of the offset `o` in the row of cell `(i, j, k)`. -/
def jacWeight (p : CHParams K) (dx : K) (u : Int → Int → Int → K) (i j k : Int) (o : Int × Int × Int) : K :=
  let dx2 := dx * dx
  let dx4 := dx2 * dx2
  (if o = (0, 0, 0) then -p.sigma + (-p.eps2 * 42 / dx4 + -6 * (3 * u i j k ^ 2 - 1) / dx2) else 0) +
  ((jacNear.map fun o' => if o = o' then
      (3 * u (i + o'.1) (j + o'.2.1) (k + o'.2.2) ^ 2 - 1) / dx2 + 12 * p.eps2 / dx4 else 0).sum +
  ((if ∃ o' ∈ jacFar, o = o' then -p.eps2 / dx4 else 0) +
   (if ∃ o' ∈ jacDiag, o = o' then -p.eps2 * 2 / dx4 else 0)))

theorem jacEntry_img {g : Grid3} (hw : g.Wide) (p : CHParams K) (dx : K) (u : Int → Int → Int → K) {i j k : Int}
    (h : g.Int3 i j k) {o : Int × Int × Int} (ho : o ∈ jacOffsets) :
    jacEntry g p dx u (g.bare.at3 i j k) i j k (g.periodicIdx (i + o.1) (j + o.2.1) (k + o.2.2)) = jacWeight p dx u i j k o := by
  have key : ∀ o' ∈ jacOffsets, (g.periodicIdx (i + o.1) (j + o.2.1) (k + o.2.2) = g.periodicIdx (i + o'.1) (j + o'.2.1) (k + o'.2.2)
      ↔ o = o') := fun o' ho' => ⟨fun e => images_inj hw h ho ho' e, fun e => by rw [e]⟩
  have hz : g.bare.at3 i j k = g.periodicIdx (i + (0, 0, 0).1) (j + (0, 0, 0).2.1) (k + (0, 0, 0).2.2) := by
    obtain ⟨⟨h0, h1⟩, ⟨h2, h3⟩, h4, h5⟩ := h
    have s : ∀ n x : Int, 0 ≤ x → x < n → shift1 n (x + 0) = x := by
      intro n x hx0 hx1
      unfold shift1
      simp only
      rw [if_neg (by omega), if_neg (by omega)]
      omega
    rw [periodicIdx_bare]
    simp only
    rw [s _ _ h0 h1, s _ _ h2 h3, s _ _ h4 h5]
  have nearS : ∀ o' ∈ jacNear, o' ∈ jacOffsets := by decide
  have farS : ∀ o' ∈ jacFar, o' ∈ jacOffsets := by decide
  have diagS : ∀ o' ∈ jacDiag, o' ∈ jacOffsets := by decide
  unfold jacEntry jacWeight
  rw [hz]
  simp only
  refine congrArg₂ _ ?_ (congrArg₂ _ ?_ (congrArg₂ _ ?_ ?_))
  · exact if_congr (key (0, 0, 0) (by decide)) rfl rfl
  · congr 1
    exact List.map_congr_left fun o' ho' => if_congr (key o' (nearS o' ho')) rfl rfl
  · exact if_congr (exists_congr fun o' => and_congr_right fun ho' => key o' (farS o' ho')) rfl rfl
  · exact if_congr (exists_congr fun o' => and_congr_right fun ho' => key o' (diagS o' ho')) rfl rfl

theorem jacWeight_sum (p : CHParams K) (dx : K) (u v : Int → Int → Int → K) (i j k : Int) :
    (jacOffsets.map fun o => jacWeight p dx u i j k o * v (i + o.1) (j + o.2.1) (k + o.2.2)).sum = chLin3 p dx u v i j k := by
  simp [jacOffsets, jacWeight, jacNear, jacFar, jacDiag, -neg_mul]
  simp only [chLin3, bih3, lap3, d2x, d2y, d2z, add_zero, sub_eq_add_neg, add_assoc, Int.reduceNeg, Int.reduceAdd,
    neg_add_cancel, add_neg_cancel]
  ring

theorem sum_irange (lo hi : Int) (f : Int → K) : ((irange lo hi).map f).sum = ∑ q ∈ Ico lo hi, f q := by
  have h2 : Ico lo hi = (irange lo hi).toFinset := by ext x; simp
  rw [h2, List.sum_toFinset _ (nodup_irange lo hi)]

/-- A value array holding `jacEntry` acts on vectors as the linearised operator. -/
theorem jac_mulVec {sz : A → Int} {g : Grid3} (hg : g.Ok) (hw : g.Wide) {vals : A}
    (hsv : sz vals = 25 * (g.ni * g.nj * g.nk)) (p : CHParams K) (dx : K) (uu : Int → Int → Int → K) (a : Int → K)
    (ha : ∀ n, 0 ≤ n → n < g.ni * g.nj * g.nk → ∀ q, 25 * n ≤ q → q < 25 * n + 25 →
        a q = jacEntry g p dx uu n (g.cellOf n).1 (g.cellOf n).2.1 (g.cellOf n).2.2 (colOf (g.jacMat vals) q))
    (v : Int → K) {i j k : Int} (h : g.Int3 i j k) :
    mulVec (g.ni * g.nj * g.nk) (dense (g.jacMat vals) a) v (g.bare.at3 i j k) =
      chLin3 p dx uu (ext3 .periodic .periodic .periodic g.ni g.nj g.nk fun x y z => v (g.bare.at3 x y z)) i j k := by
  have hM := jac_wf hg hw vals hsv
  obtain ⟨n0, n1⟩ := row_bounds h
  have hc := cellOf_row h
  have e1 := hM.sum_dense (K := K) n0 n1 a v
  have e2 : mulVec (g.ni * g.nj * g.nk) (dense (g.jacMat vals) a) v (g.bare.at3 i j k) = _ := e1.symm
  rw [e2, jac_rowPtr hg vals n0 n1.le, jac_rowPtr hg vals (by omega) (by omega), mul_add, mul_one, ← sum_irange]
  have e3 : (irange (25 * g.bare.at3 i j k) (25 * g.bare.at3 i j k + 25)).map (fun q => a q * v (colOf (g.jacMat vals) q)) =
      (g.rowCols (i, j, k)).map fun col => jacEntry g p dx uu (g.bare.at3 i j k) i j k col * v col := by
    rw [← hc, ← jac_row_cols hg hw vals n0 n1, List.map_map]
    refine List.map_congr_left fun q hq => ?_
    rw [mem_irange] at hq
    rw [ha _ n0 n1 q hq.1 hq.2, hc]
    rfl
  rw [e3, ((rowCols_perm g (i, j, k) (images_nodup hw h)).map _).sum_eq, ← jacWeight_sum]
  unfold Grid3.images
  rw [List.map_map]
  congr 1
  refine List.map_congr_left fun o ho => ?_
  simp only [Function.comp]
  rw [jacEntry_img hw p dx uu h ho]
  obtain ⟨r1, r2, r3⟩ := jac_range o ho
  have := hw.hi; have := hw.hj; have := hw.hk
  rw [periodicIdx_bare, shift1_mod (by omega) h.1.1 h.1.2 r1, shift1_mod (by omega) h.2.1.1 h.2.1.2 r2,
    shift1_mod (by omega) h.2.2.1 h.2.2.2 r3]
  rfl

/-! ### Derivative -/

/-- Exact expansion of the right-hand side along a line. -/
theorem chRhs3_line (p : CHParams K) (dx t : K) (u v : Int → Int → Int → K) (i j k : Int) :
    chRhs3 p dx (fun x y z => u x y z + t * v x y z) i j k =
      chRhs3 p dx u i j k + t * chLin3 p dx u v i j k + t ^ 2 * lap3 dx (fun x y z => 3 * u x y z * v x y z ^ 2) i j k +
        t ^ 3 * lap3 dx (fun x y z => v x y z ^ 3) i j k := by
  simp only [chRhs3, chLin3, bih3, lap3, d2x, d2y, d2z]
  ring

theorem chRhs3_hasDeriv (p : CHParams ℝ) (dx : ℝ) (u v : Int → Int → Int → ℝ) (i j k : Int) :
    HasDerivAt (fun t : ℝ => chRhs3 p dx (fun x y z => u x y z + t * v x y z) i j k) (chLin3 p dx u v i j k) 0 := by
  have e : (fun t : ℝ => chRhs3 p dx (fun x y z => u x y z + t * v x y z) i j k) = fun t =>
      chRhs3 p dx u i j k + t * chLin3 p dx u v i j k + t ^ 2 * lap3 dx (fun x y z => 3 * u x y z * v x y z ^ 2) i j k +
        t ^ 3 * lap3 dx (fun x y z => v x y z ^ 3) i j k := funext fun t => chRhs3_line p dx t u v i j k
  rw [e]
  have h1 := (((hasDerivAt_id (0 : ℝ)).mul_const (chLin3 p dx u v i j k)).const_add (chRhs3 p dx u i j k))
  have h2 := ((hasDerivAt_pow 2 (0 : ℝ)).mul_const (lap3 dx (fun x y z => 3 * u x y z * v x y z ^ 2) i j k))
  have h3 := ((hasDerivAt_pow 3 (0 : ℝ)).mul_const (lap3 dx (fun x y z => v x y z ^ 3) i j k))
  have h := (h1.add h2).add h3
  refine (h.congr_deriv ?_)
  simp

theorem chLin3_congr {p : CHParams K} {dx : K} {u u' v : Int → Int → Int → K} {i j k : Int}
    (h : ∀ x y z, (-1 ≤ x ∧ x ≤ 1) → (-1 ≤ y ∧ y ≤ 1) → (-1 ≤ z ∧ z ≤ 1) →
      u (i + x) (j + y) (k + z) = u' (i + x) (j + y) (k + z)) : chLin3 p dx u v i j k = chLin3 p dx u' v i j k := by
  unfold chLin3
  rw [lap3_congr (dx := dx) (u := fun x y z => (3 * u x y z ^ 2 - 1) * v x y z)
    (v := fun x y z => (3 * u' x y z ^ 2 - 1) * v x y z)]
  intro x y z hx hy hz
  simp only [h x y z hx hy hz]

/-! ### PETSc copies -/

theorem interiorVals_enum {g : Grid3} (hg : g.Ok) :
    g.interiorVals = (irange 0 (g.ni * g.nj * g.nk)).map fun n => g.at3 (g.cellOf n).1 (g.cellOf n).2.1 (g.cellOf n).2.2 := by
  have e : g.interiorVals = g.cells.map fun c => g.at3 c.1 c.2.1 c.2.2 := by
    rw [Grid3.interiorVals_eq]; rfl
  rw [e, cells_eq hg, List.map_map]
  rfl

theorem range_idx_eq {g : Grid3} (hg : g.Ok) (f : Int → Int → Prog A K Unit) :
    ((List.range g.interiorVals.length).map fun i => (Prog.idx g.interiorVals i).bind fun n => f (i : Int) n) =
      (irange 0 (g.ni * g.nj * g.nk)).map fun n => f n (g.at3 (g.cellOf n).1 (g.cellOf n).2.1 (g.cellOf n).2.2) := by
  have hlen := Grid3.length_interiorVals hg
  refine List.ext_getElem ?_ ?_
  · rw [List.length_map, List.length_map, List.length_range, length_irange]; omega
  · intro t h1 h2
    rw [List.length_map, List.length_range] at h1
    rw [List.getElem_map, List.getElem_map, List.getElem_range]
    have hidx : (irange 0 (g.ni * g.nj * g.nk))[t]'(by rw [length_irange]; omega) = (t : Int) := by simp [irange]
    have e : g.interiorVals[t]? = some (g.at3 (g.cellOf t).1 (g.cellOf t).2.1 (g.cellOf t).2.2) := by
      rw [interiorVals_enum hg]
      have := getElem?_irange_map (g.ni * g.nj * g.nk) (fun n => g.at3 (g.cellOf n).1 (g.cellOf n).2.1 (g.cellOf n).2.2)
        (i := (t : Int)) (by omega) (by omega)
      simpa using this
    rw [Prog.idx_of_some e, hidx]
    rfl

theorem petscToState_det {G : Geom3} (hG : G.Ok) {sz : A → Int} {x s : A} (hx : G.g.ni * G.g.nj * G.g.nk ≤ sz x)
    (hs : sz s = G.g.size) (hne : x ≠ s) (m : Mem A K) :
    ∃ m', Det sz (petscToState G.interior x s) m m' ∧ Writes G.g s m m' (fun i j k => m x (G.g.bare.at3 i j k)) := by
  have hok := hG.ok
  have pad : ∀ n ∈ irange 0 (G.g.ni * G.g.nj * G.g.nk), G.g.Pad (G.g.cellOf n).1 (G.g.cellOf n).2.1 (G.g.cellOf n).2.2 := by
    intro n hn
    rw [mem_irange] at hn
    exact (cellOf_int hok hn.1 hn.2).pad hok
  have inj : ∀ n ∈ irange 0 (G.g.ni * G.g.nj * G.g.nk), ∀ n' ∈ irange 0 (G.g.ni * G.g.nj * G.g.nk),
      G.g.loc s (G.g.cellOf n) = G.g.loc s (G.g.cellOf n') → n = n' := by
    intro n hn n' hn' e
    have e' := Grid3.loc_inj (pad n hn) (pad n' hn') e
    rw [mem_irange] at hn hn'
    rw [← row_cellOf hok hn.1, ← row_cellOf hok hn'.1, e']
  unfold petscToState
  rw [hG.int, range_idx_eq hok fun i n => (Prog.rd x i).bind fun v => Prog.wr s n v]
  refine ⟨_, det_cells (nodup_irange _ _) (fun n => G.g.loc s (G.g.cellOf n)) (fun n => m x n) m inj ?_ ?_, ?_⟩
  · intro n hn
    have hb := Grid3.at3_bounds (pad n hn)
    have hn' := hn
    rw [mem_irange] at hn'
    refine ⟨⟨hn'.1, by omega⟩, ?_, fun v => ⟨⟨hb.1, by rw [hs]; exact hb.2⟩, rfl, trivial⟩⟩
    intro c' _ _ e
    exact hne (Prod.mk.inj e).1.symm
  · intro n hn
    exact Mem.set_same _ _ _ _
  · refine ⟨?_, ?_, ?_⟩
    · intro i j k h
      obtain ⟨r0, r1⟩ := row_bounds h
      have hr : G.g.bare.at3 i j k ∈ irange 0 (G.g.ni * G.g.nj * G.g.nk) := mem_irange.2 ⟨r0, r1⟩
      rw [Mem.upd_hit (c := G.g.bare.at3 i j k) _ hr (by rw [cellOf_row h]; rfl)]
      intro c' hc' e
      exact inj c' hc' _ hr e
    · intro n hn
      rw [Mem.upd_miss]
      intro c hc e
      have hc' := hc
      rw [mem_irange] at hc'
      exact hn _ _ _ (cellOf_int hok hc'.1 hc'.2) (Prod.mk.inj e).2
    · intro b hb
      exact Mem.upd_ne fun c _ e => hb e.symm

theorem stateToPetsc_det {G : Geom3} (hG : G.Ok) {sz : A → Int} {x s : A} (hx : G.g.ni * G.g.nj * G.g.nk ≤ sz x)
    (hs : sz s = G.g.size) (hne : x ≠ s) (m : Mem A K) :
    ∃ m', Det sz (stateToPetsc G.interior s x) m m' ∧
      WritesAll (G.g.ni * G.g.nj * G.g.nk) x m m' (fun n => m s (G.g.at3 (G.g.cellOf n).1 (G.g.cellOf n).2.1 (G.g.cellOf n).2.2)) := by
  have hok := hG.ok
  unfold stateToPetsc
  rw [hG.int, range_idx_eq hok fun i n => (Prog.rd s n).bind fun v => Prog.wr x i v]
  refine forAll_det (G.g.ni * G.g.nj * G.g.nk) (fun n => (Prog.rd s (G.g.at3 (G.g.cellOf n).1 (G.g.cellOf n).2.1 (G.g.cellOf n).2.2)).bind
    fun v => Prog.wr x n v) _ m ?_ ?_
  · intro n h0 h1
    have hb := Grid3.at3_bounds ((cellOf_int hok h0 h1).pad hok)
    exact ⟨⟨hb.1, by rw [hs]; exact hb.2⟩, Or.inl hne.symm, fun v => ⟨⟨h0, by omega⟩, ⟨rfl, rfl⟩, trivial⟩⟩
  · intro n h0 h1
    exact Mem.set_same _ _ _ _

end Madg
