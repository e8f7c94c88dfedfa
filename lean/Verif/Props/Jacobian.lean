/-
Sparse Jacobian of the three-dimensional Cahn–Hilliard equation (C24–C26) and PETSc copies (C64).

`cellNo nj nk i j k` is the position of interior cell `(i, j, k)` among the interior cells; `wrapIdx n i = i mod n`.
-/
import Verif.Proofs.JacLin
import Mathlib.Tactic.IntervalCases

set_option linter.unusedSectionVars false
set_option linter.unusedVariables false

namespace Madg
open Spec Finset
variable {A K : Type} [DecidableEq A] [Field K]

theorem bare_at3 (g : Grid3) (i j k : Int) : g.bare.at3 i j k = cellNo g.nj g.nk i j k := by
  unfold Grid3.at3 get1DindexFrom3D Grid3.bare Grid3.njh Grid3.nkh cellNo
  simp
  ring

theorem mem_jacOffsets (a b c : Int) : (a, b, c) ∈ jacOffsets ↔ |a| + |b| + |c| ≤ 2 := by
  constructor
  · have : ∀ o ∈ jacOffsets, |o.1| + |o.2.1| + |o.2.2| ≤ 2 := by decide
    exact this (a, b, c)
  · intro h
    have ha := abs_nonneg a; have hb := abs_nonneg b; have hc := abs_nonneg c
    have ha' := abs_le.1 (show |a| ≤ 2 by omega)
    have hb' := abs_le.1 (show |b| ≤ 2 by omega)
    have hc' := abs_le.1 (show |c| ≤ 2 by omega)
    obtain ⟨a1, a2⟩ := ha'; obtain ⟨b1, b2⟩ := hb'; obtain ⟨c1, c2⟩ := hc'
    interval_cases a <;> interval_cases b <;> interval_cases c <;> revert h <;> decide

/-! ### C24 -/

/-- On a grid with all extents at least five the sparse matrix is built without out-of-range access. Every row has 25
strictly increasing columns in range, row offsets are `25 * row`, and the columns of the row of cell `(i, j, k)` are exactly
the periodic images of the cells at distance `|a| + |b| + |c| ≤ 2`. Each row stores its diagonal once. The reported number
of nonzeros per row agrees with the offsets. -/
theorem C24_pattern (g : Grid3) (hn : 5 ≤ g.ni ∧ 5 ≤ g.nj ∧ 5 ≤ g.nk) (hh : 0 ≤ g.nhalo) (vals : A) (sz : A → Int)
    (N : Int) (hN : N = g.ni * g.nj * g.nk) (hs : sz vals = 25 * N) :
    ∃ M : CSR A, g.createSparse vals = .ok M ∧ M.rows = N ∧ M.cols = N ∧ M.vals = vals ∧ CSRWf sz M ∧ OneDiag M ∧
      (∀ r, 0 ≤ r → r ≤ N → rowPtr M r = 25 * r) ∧
      (∀ r, 0 ≤ r → r < N → ∀ q q', 25 * r ≤ q → q < q' → q' < 25 * r + 25 → colOf M q < colOf M q') ∧
      (∀ i j k, (0 ≤ i ∧ i < g.ni) → (0 ≤ j ∧ j < g.nj) → (0 ≤ k ∧ k < g.nk) → ∀ col,
        (∃ q, 25 * cellNo g.nj g.nk i j k ≤ q ∧ q < 25 * cellNo g.nj g.nk i j k + 25 ∧ colOf M q = col) ↔
        ∃ a b c, |a| + |b| + |c| ≤ 2 ∧
          col = cellNo g.nj g.nk (wrapIdx g.ni (i + a)) (wrapIdx g.nj (j + b)) (wrapIdx g.nk (k + c))) ∧
      g.nNonZerosPerRow = (irange 0 N).map (fun r => rowPtr M (r + 1) - rowPtr M r) := by
  subst hN
  have hg : g.Ok := ⟨by omega, by omega, by omega, hh⟩
  have hw : g.Wide := ⟨hn.1, hn.2.1, hn.2.2⟩
  have hsort : ∀ r, 0 ≤ r → r < g.ni * g.nj * g.nk → ∀ q q', 25 * r ≤ q → q < q' → q' < 25 * r + 25 →
      colOf (g.jacMat vals) q < colOf (g.jacMat vals) q' := by
    intro r h0 h1 q q' hq hqq hq'
    have hs := rowCols_sorted g (g.cellOf r)
    rw [← jac_row_cols hg hw vals h0 h1, List.pairwise_iff_getElem] at hs
    have hl : ((irange (25 * r) (25 * r + 25)).map (colOf (g.jacMat vals))).length = 25 := by
      rw [List.length_map, length_irange]; omega
    have := hs (q - 25 * r).toNat (q' - 25 * r).toNat (by rw [hl]; omega) (by rw [hl]; omega) (by omega)
    simp only [List.getElem_map, irange, List.getElem_range] at this
    rwa [show 25 * r + (((q - 25 * r).toNat : Nat) : Int) = q by omega,
      show 25 * r + (((q' - 25 * r).toNat : Nat) : Int) = q' by omega] at this
  have hcols : ∀ i j k, (0 ≤ i ∧ i < g.ni) → (0 ≤ j ∧ j < g.nj) → (0 ≤ k ∧ k < g.nk) → ∀ col,
        (∃ q, 25 * cellNo g.nj g.nk i j k ≤ q ∧ q < 25 * cellNo g.nj g.nk i j k + 25 ∧ colOf (g.jacMat vals) q = col) ↔
        ∃ a b c, |a| + |b| + |c| ≤ 2 ∧
          col = cellNo g.nj g.nk (wrapIdx g.ni (i + a)) (wrapIdx g.nj (j + b)) (wrapIdx g.nk (k + c)) := by
    intro i j k hi hj hk col
    have hint : g.Int3 i j k := ⟨hi, hj, hk⟩
    obtain ⟨r0, r1⟩ := row_bounds hint
    have hr := jac_row_cols hg hw vals r0 r1
    rw [cellOf_row hint] at hr
    rw [← bare_at3]
    have e1 : (∃ q, 25 * g.bare.at3 i j k ≤ q ∧ q < 25 * g.bare.at3 i j k + 25 ∧ colOf (g.jacMat vals) q = col) ↔
        col ∈ g.rowCols (i, j, k) := by
      rw [← hr, List.mem_map]
      exact exists_congr fun q => by rw [mem_irange, and_assoc]
    rw [e1, mem_rowCols]
    unfold Grid3.images
    rw [List.mem_map]
    have im : ∀ o ∈ jacOffsets, g.periodicIdx (i + o.1) (j + o.2.1) (k + o.2.2) =
        cellNo g.nj g.nk (wrapIdx g.ni (i + o.1)) (wrapIdx g.nj (j + o.2.1)) (wrapIdx g.nk (k + o.2.2)) := by
      intro o ho
      obtain ⟨a1, a2, a3⟩ := jac_range o ho
      rw [periodicIdx_bare, bare_at3, shift1_mod (by omega) hi.1 hi.2 a1, shift1_mod (by omega) hj.1 hj.2 a2,
        shift1_mod (by omega) hk.1 hk.2 a3]
    constructor
    · rintro ⟨⟨a, b, c⟩, ho, rfl⟩
      exact ⟨a, b, c, (mem_jacOffsets a b c).1 ho, im _ ho⟩
    · rintro ⟨a, b, c, h, rfl⟩
      have ho := (mem_jacOffsets a b c).2 h
      exact ⟨(a, b, c), ho, im _ ho⟩
  refine ⟨_, createSparse_ok hg hw vals, rfl, rfl, rfl, jac_wf hg hw vals hs, ?_, fun r h0 h1 => jac_rowPtr hg vals h0 h1, hsort, hcols, ?_⟩
  · intro r h0 h1
    have h1' : r < g.ni * g.nj * g.nk := h1
    have hin := cellOf_int hg h0 h1'
    have hrow := row_cellOf hg h0
    have hz := (hcols _ _ _ hin.1 hin.2.1 hin.2.2 r).2 ⟨0, 0, 0, by decide, by
      rw [add_zero, add_zero, add_zero, wrapIdx_of_int hin.1.1 hin.1.2, wrapIdx_of_int hin.2.1.1 hin.2.1.2,
        wrapIdx_of_int hin.2.2.1 hin.2.2.2, ← bare_at3, hrow]⟩
    rw [← bare_at3, hrow] at hz
    obtain ⟨q, hq0, hq1, hqc⟩ := hz
    have p0 : rowPtr (g.jacMat vals) r = 25 * r := jac_rowPtr hg vals h0 h1'.le
    have p1 : rowPtr (g.jacMat vals) (r + 1) = 25 * r + 25 := by rw [jac_rowPtr hg vals (by omega) (by omega)]; ring
    refine ⟨q, p0.le.trans hq0, by show q < rowPtr (g.jacMat vals) (r + 1); omega, hqc, ?_⟩
    intro q' hq0' hq1' hqc'
    have a0 : 25 * r ≤ q' := p0 ▸ hq0'
    have a1 : q' < 25 * r + 25 := p1 ▸ hq1'
    have hqc2 : colOf (g.jacMat vals) q' = r := hqc'
    rcases lt_trichotomy q q' with h | h | h
    · have := hsort r h0 h1' q q' hq0 h a1; omega
    · exact h.symm
    · have := hsort r h0 h1' q' q a0 h hq1; omega
  · have hp := cells_pos hg hw
    unfold Grid3.nNonZerosPerRow
    symm
    rw [List.eq_replicate_iff]
    refine ⟨by rw [List.length_map, length_irange]; omega, ?_⟩
    intro b hb
    obtain ⟨r, hr, rfl⟩ := List.mem_map.1 hb
    rw [mem_irange] at hr
    have p0 : rowPtr (g.jacMat vals) r = 25 * r := jac_rowPtr hg vals hr.1 hr.2.le
    have p1 : rowPtr (g.jacMat vals) (r + 1) = 25 * (r + 1) := jac_rowPtr hg vals (by omega) (by omega)
    show rowPtr (g.jacMat vals) (r + 1) - rowPtr (g.jacMat vals) r = 25
    rw [p0, p1]
    ring

example : (5 : Int) ≤ (Grid3.mk 5 6 7 2).ni ∧ 5 ≤ (Grid3.mk 5 6 7 2).nj ∧ 5 ≤ (Grid3.mk 5 6 7 2).nk := by decide

/-- If some extent is below five, building the matrix reads past the end of a vector. -/
theorem C24_narrow_out_of_bounds (g : Grid3) (h1 : 1 ≤ g.ni ∧ 1 ≤ g.nj ∧ 1 ≤ g.nk) (hh : 0 ≤ g.nhalo)
    (hn : g.ni < 5 ∨ g.nj < 5 ∨ g.nk < 5) (vals : A) : g.createSparse vals = .error .outOfBounds :=
  createSparse_fails ⟨h1.1, h1.2.1, h1.2.2, hh⟩ hn vals

example : (Grid3.mk 8 4 8 2).createSparse (0 : Nat) = .error .outOfBounds :=
  C24_narrow_out_of_bounds _ (by decide) (by decide) (by decide) _

/-! ### C25 -/

section
variable (g : Grid3) (hn : 5 ≤ g.ni ∧ 5 ≤ g.nj ∧ 5 ≤ g.nk) (sz : A → Int) (c vals : A) (M : CSR A)
  (hM : g.createSparse vals = .ok M) (hsc : sz c = g.size) (hsv : sz vals = 25 * (g.ni * g.nj * g.nk)) (hne : c ≠ vals)
include hn hM hsc hsv hne

/-- The assembly runs race-free and in bounds from every memory; whatever the halo holds, the matrix it leaves acts on a
vector as `-ε² Δ²v + Δ((3c² - 1) v) - σ v`, with `v` continued periodically and `c` read from the padded array. -/
theorem C25_assembly_operator (hh : 1 ≤ g.nhalo) (p : CHParams K) (dx : K) (m : Mem A K) :
    ∃ m', Det sz (evalJacobian g p dx c M) m m' ∧ (∀ b, b ≠ vals → m' b = m b) ∧
      ∀ (v : Int → K) i j k, (0 ≤ i ∧ i < g.ni) → (0 ≤ j ∧ j < g.nj) → (0 ≤ k ∧ k < g.nk) →
        mulVec (g.ni * g.nj * g.nk) (dense M (m' vals)) v (cellNo g.nj g.nk i j k) =
          chLin3 p dx (fun x y z => m c (g.at3 x y z))
            (fun x y z => v (cellNo g.nj g.nk (wrapIdx g.ni x) (wrapIdx g.nj y) (wrapIdx g.nk z))) i j k := by
  have hg : g.Ok := ⟨by omega, by omega, by omega, by omega⟩
  have hw : g.Wide := ⟨hn.1, hn.2.1, hn.2.2⟩
  obtain rfl : M = g.jacMat vals := by
    have h := hM
    rw [createSparse_ok hg hw] at h
    cases h; rfl
  obtain ⟨m', d, f, e⟩ := evalJacobian_det hg hw hh hsc hsv hne p dx m
  refine ⟨m', d, f, fun v i j k hi hj hk => ?_⟩
  rw [← bare_at3, jac_mulVec hg hw hsv p dx _ (m' vals) e v ⟨hi, hj, hk⟩]
  congr 1
  funext x y z
  simp only [ext3, extIdx, bare_at3]

theorem halo_operator (hh : 1 ≤ g.nhalo) (p : CHParams K) (dx : K) (m : Mem A K) (u : Int → Int → Int → K)
    (hu : ∀ x y z, -1 ≤ x → x ≤ g.ni → -1 ≤ y → y ≤ g.nj → -1 ≤ z → z ≤ g.nk →
      m c (g.at3 x y z) = u (wrapIdx g.ni x) (wrapIdx g.nj y) (wrapIdx g.nk z)) :
    ∃ m', Det sz (evalJacobian g p dx c M) m m' ∧ (∀ b, b ≠ vals → m' b = m b) ∧
      ∀ (v : Int → K) i j k, (0 ≤ i ∧ i < g.ni) → (0 ≤ j ∧ j < g.nj) → (0 ≤ k ∧ k < g.nk) →
        mulVec (g.ni * g.nj * g.nk) (dense M (m' vals)) v (cellNo g.nj g.nk i j k) =
          chLin3 p dx (fun x y z => u (wrapIdx g.ni x) (wrapIdx g.nj y) (wrapIdx g.nk z))
            (fun x y z => v (cellNo g.nj g.nk (wrapIdx g.ni x) (wrapIdx g.nj y) (wrapIdx g.nk z))) i j k := by
  obtain ⟨m', d, f, e⟩ := C25_assembly_operator g hn sz c vals M hM hsc hsv hne hh p dx m
  refine ⟨m', d, f, fun v i j k hi hj hk => ?_⟩
  rw [e v i j k hi hj hk]
  refine chLin3_congr fun x y z hx hy hz => ?_
  exact hu _ _ _ (by omega) (by omega) (by omega) (by omega) (by omega) (by omega)

/-- With the halo holding the periodic image of the interior field `u`, the assembled matrix times `v` is the derivative of
the right-hand side at `u` in direction `v`, in every interior cell. -/
theorem C25_jacobian_is_derivative (hh : 1 ≤ g.nhalo) (p : CHParams ℝ) (dx : ℝ) (m : Mem A ℝ) (u : Int → Int → Int → ℝ)
    (hu : ∀ x y z, -1 ≤ x → x ≤ g.ni → -1 ≤ y → y ≤ g.nj → -1 ≤ z → z ≤ g.nk →
      m c (g.at3 x y z) = u (wrapIdx g.ni x) (wrapIdx g.nj y) (wrapIdx g.nk z)) :
    ∃ m', Det sz (evalJacobian g p dx c M) m m' ∧ (∀ b, b ≠ vals → m' b = m b) ∧
      ∀ (v : Int → ℝ) i j k, (0 ≤ i ∧ i < g.ni) → (0 ≤ j ∧ j < g.nj) → (0 ≤ k ∧ k < g.nk) →
        HasDerivAt (fun t : ℝ => chRhs3 p dx (fun x y z => u (wrapIdx g.ni x) (wrapIdx g.nj y) (wrapIdx g.nk z) +
            t * v (cellNo g.nj g.nk (wrapIdx g.ni x) (wrapIdx g.nj y) (wrapIdx g.nk z))) i j k)
          (mulVec (g.ni * g.nj * g.nk) (dense M (m' vals)) v (cellNo g.nj g.nk i j k)) 0 := by
  obtain ⟨m', d, f, e⟩ := halo_operator g hn sz c vals M hM hsc hsv hne hh p dx m u hu
  refine ⟨m', d, f, fun v i j k hi hj hk => ?_⟩
  rw [e v i j k hi hj hk]
  exact chRhs3_hasDeriv p dx _ _ i j k

end

/-- A non-constant state with a periodic halo exists: `c = i mod 5` on a `5 × 5 × 5` grid. -/
example : ∃ (m : Mem Bool ℝ) (u : Int → Int → Int → ℝ) (M : CSR Bool), (Grid3.mk 5 5 5 2).createSparse true = .ok M ∧
    (∀ x y z, -1 ≤ x → x ≤ 5 → -1 ≤ y → y ≤ 5 → -1 ≤ z → z ≤ 5 →
      m false ((Grid3.mk 5 5 5 2).at3 x y z) = u (wrapIdx 5 x) (wrapIdx 5 y) (wrapIdx 5 z)) ∧ u 0 0 0 ≠ u 1 0 0 := by
  refine ⟨fun _ n => (((Grid3.mk 5 5 5 2).getI n % 5 : Int) : ℝ), fun x _ _ => (x : ℝ), _,
    createSparse_ok ⟨by decide, by decide, by decide, by decide⟩ ⟨by decide, by decide, by decide⟩ true, ?_, by norm_num⟩
  intro x y z x0 x1 y0 y1 z0 z1
  beta_reduce
  rw [Grid3.getI_at3 (by unfold Grid3.Pad; simp only; omega)]
  rfl

/-- The unit vector of the last cell of the first row in `x`. -/
theorem unit_operator {g : Grid3} (hn : 5 ≤ g.ni ∧ 5 ≤ g.nj ∧ 5 ≤ g.nk) (hh : 0 ≤ g.nhalo) (p : CHParams K) (dx : K) (u : Int → Int → Int → K)
    (e : Int → K) (he : e = fun n => if n = cellNo g.nj g.nk (g.ni - 1) 0 0 then 1 else 0) :
    chLin3 p dx u (fun x y z => e (cellNo g.nj g.nk (wrapIdx g.ni x) (wrapIdx g.nj y) (wrapIdx g.nk z))) 0 0 0 =
      (3 * u (-1) 0 0 ^ 2 - 1) / (dx * dx) + 12 * p.eps2 / (dx * dx * (dx * dx)) := by
  have hw : g.Wide := ⟨hn.1, hn.2.1, hn.2.2⟩
  rw [← jacWeight_sum]
  have h0 : g.Int3 0 0 0 := by unfold Grid3.Int3; omega
  have im : ∀ o ∈ jacOffsets, cellNo g.nj g.nk (wrapIdx g.ni (0 + o.1)) (wrapIdx g.nj (0 + o.2.1)) (wrapIdx g.nk (0 + o.2.2)) =
      g.periodicIdx (0 + o.1) (0 + o.2.1) (0 + o.2.2) := by
    intro o ho
    obtain ⟨a1, a2, a3⟩ := jac_range o ho
    rw [periodicIdx_bare, bare_at3, shift1_mod (by omega) (by omega) (by omega) a1, shift1_mod (by omega) (by omega) (by omega) a2,
      shift1_mod (by omega) (by omega) (by omega) a3]
  have last : cellNo g.nj g.nk (g.ni - 1) 0 0 = g.periodicIdx (0 + -1) (0 + 0) (0 + 0) := by
    rw [periodicIdx_bare, bare_at3]
    congr 1
    · unfold shift1; simp only; split <;> split <;> omega
    · unfold shift1; simp only; split <;> split <;> omega
    · unfold shift1; simp only; split <;> split <;> omega
  have hv : ∀ o ∈ jacOffsets, jacWeight p dx u 0 0 0 o *
      e (cellNo g.nj g.nk (wrapIdx g.ni (0 + o.1)) (wrapIdx g.nj (0 + o.2.1)) (wrapIdx g.nk (0 + o.2.2))) =
      jacWeight p dx u 0 0 0 o * (if o = (-1, 0, 0) then 1 else 0) := by
    intro o ho
    rw [he, im o ho, last]
    refine congrArg _ (if_congr ⟨fun h => ?_, fun h => by rw [h]⟩ rfl rfl)
    exact images_inj hw h0 ho (o' := (-1, 0, 0)) (by decide) h
  rw [List.map_congr_left hv]
  simp [jacOffsets, jacWeight, jacNear, jacFar, jacDiag]

section
variable (g : Grid3) (hn : 5 ≤ g.ni ∧ 5 ≤ g.nj ∧ 5 ≤ g.nk) (hh : g.nhalo = 2) (G : Geom3)
  (var : Int) (hvar : var = 0 ∨ var = 1 ∨ var = 2)
  (w : CHArr A) (hw : [w.c, w.r, w.lapRhs, w.lapArg, w.bihar, w.lin].Nodup)
  (sz : A → Int) (hsz : ∀ a ∈ [w.c, w.r, w.lapRhs, w.lapArg, w.bihar, w.lin], sz a = g.size)
  (vals : A) (hvals : vals ∉ [w.c, w.r, w.lapRhs, w.lapArg, w.bihar, w.lin]) (hsv : sz vals = 25 * (g.ni * g.nj * g.nk))
  (M : CSR A) (hM : g.createSparse vals = .ok M)
include hn hh hvar hw hsz hvals hsv hM

/-- Code against code, periodic grid: evaluate the right-hand side at a state, then assemble. For any direction `v` and any
family of memories whose state is the state at hand plus `t v`, the stored right-hand side of the family is differentiable at
`t = 0` and its derivative is the assembled matrix times `v`. -/
theorem C25_code_derivative (hG : mkGeom3 g .periodic .periodic .periodic = .ok G) (p : CHParams ℝ) (dx : ℝ) (m : Mem A ℝ) :
    ∃ m1 m2, Det sz (G.evalRHS var p dx w) m m1 ∧ Det sz (evalJacobian g p dx w.c M) m1 m2 ∧
      ∀ (v : Int → ℝ) (fam out : ℝ → Mem A ℝ),
        (∀ t i j k, (0 ≤ i ∧ i < g.ni) → (0 ≤ j ∧ j < g.nj) → (0 ≤ k ∧ k < g.nk) →
          fam t w.c (g.at3 i j k) = m w.c (g.at3 i j k) + t * v (cellNo g.nj g.nk i j k)) →
        (∀ t, Det sz (G.evalRHS var p dx w) (fam t) (out t)) →
        ∀ i j k, (0 ≤ i ∧ i < g.ni) → (0 ≤ j ∧ j < g.nj) → (0 ≤ k ∧ k < g.nk) →
          HasDerivAt (fun t => out t w.r (g.at3 i j k))
            (mulVec (g.ni * g.nj * g.nk) (dense M (m2 vals)) v (cellNo g.nj g.nk i j k)) 0 := by
  have hok : g.Ok := ⟨by omega, by omega, by omega, by omega⟩
  obtain ⟨hGok, rfl, hx, hy, hz⟩ := Geom3.ok_of_mk hok hG
  have hv' : ctorCH3 var = .ok () := by unfold ctorCH3; rw [if_pos (by omega)]
  have run := fun m => evalRHS_det hGok (w := w) ⟨hw, hsz⟩ (by omega) (by omega) (by omega) (by omega) hv' p dx m
  obtain ⟨m1, d1, q1, -, -⟩ := run m
  have hcv : w.c ≠ vals := fun h => hvals (by simp [← h])
  obtain ⟨m2, d2, -, e2⟩ := C25_jacobian_is_derivative G.g hn sz w.c vals M hM (hsz w.c (by simp)) hsv hcv (by omega) p dx m1
    (fun x y z => m w.c (G.g.at3 x y z)) (by
      intro x y z x0 x1 y0 y1 z0 z1
      rw [q1.state x y z (by unfold Grid3.Pad; omega)]
      simp only [Geom3.extField, ext3, extIdx, hx, hy, hz, Grid3.view])
  refine ⟨m1, m2, d1, d2, ?_⟩
  intro v fam out hf ho i j k hi hj hk
  have e := e2 v i j k hi hj hk
  have : (fun t => out t w.r (G.g.at3 i j k)) = fun t : ℝ => chRhs3 p dx (fun x y z =>
      m w.c (G.g.at3 (wrapIdx G.g.ni x) (wrapIdx G.g.nj y) (wrapIdx G.g.nk z)) +
            t * v (cellNo G.g.nj G.g.nk (wrapIdx G.g.ni x) (wrapIdx G.g.nj y) (wrapIdx G.g.nk z))) i j k := by
    funext t
    obtain ⟨mt, dt, qt, -, -⟩ := run (fam t)
    rw [(ho t).unique dt, qt.rhs i j k ⟨hi, hj, hk⟩]
    congr 1
    funext x y z
    simp only [Geom3.extField, ext3, extIdx, hx, hy, hz, Grid3.view]
    exact hf t _ _ _ (wrapIdx_range x (by omega)) (wrapIdx_range y (by omega)) (wrapIdx_range z (by omega))
  rw [this]
  exact e

/-- Neumann in `x`: the matrix assembled after the same evaluation still couples opposite faces. Its product with the unit
vector of cell `(ni - 1, 0, 0)` in cell `(0, 0, 0)` is `(3c² - 1)/dx² + 12 ε²/dx⁴` with `c` the value in cell `(0, 0, 0)`, while the
derivative of the right-hand side in that direction is zero. -/
theorem C25_neumann_wrong (ybc zbc : BCType) (hG : mkGeom3 g .neumann ybc zbc = .ok G) (p : CHParams ℝ) (dx : ℝ) (m : Mem A ℝ) :
    ∃ m1 m2, Det sz (G.evalRHS var p dx w) m m1 ∧ Det sz (evalJacobian g p dx w.c M) m1 m2 ∧
      ∀ (v : Int → ℝ) (fam out : ℝ → Mem A ℝ), (v = fun n => if n = cellNo g.nj g.nk (g.ni - 1) 0 0 then 1 else 0) →
        (∀ t i j k, (0 ≤ i ∧ i < g.ni) → (0 ≤ j ∧ j < g.nj) → (0 ≤ k ∧ k < g.nk) →
          fam t w.c (g.at3 i j k) = m w.c (g.at3 i j k) + t * v (cellNo g.nj g.nk i j k)) →
        (∀ t, Det sz (G.evalRHS var p dx w) (fam t) (out t)) →
        mulVec (g.ni * g.nj * g.nk) (dense M (m2 vals)) v (cellNo g.nj g.nk 0 0 0) =
            (3 * m w.c (g.at3 0 0 0) ^ 2 - 1) / (dx * dx) + 12 * p.eps2 / (dx * dx * (dx * dx)) ∧
        HasDerivAt (fun t => out t w.r (g.at3 0 0 0)) 0 0 := by
  have hok : g.Ok := ⟨by omega, by omega, by omega, by omega⟩
  obtain ⟨hGok, rfl, hx, hy, hz⟩ := Geom3.ok_of_mk hok hG
  have hv' : ctorCH3 var = .ok () := by unfold ctorCH3; rw [if_pos (by omega)]
  have run := fun m => evalRHS_det hGok (w := w) ⟨hw, hsz⟩ (by omega) (by omega) (by omega) (by omega) hv' p dx m
  obtain ⟨m1, d1, q1, -, -⟩ := run m
  have hcv : w.c ≠ vals := fun h => hvals (by simp [← h])
  obtain ⟨m2, d2, -, e2⟩ := C25_assembly_operator G.g hn sz w.c vals M hM (hsz w.c (by simp)) hsv hcv (by omega) p dx m1
  refine ⟨m1, m2, d1, d2, ?_⟩
  intro v fam out hv hf ho
  constructor
  · rw [e2 v 0 0 0 (by omega) (by omega) (by omega), unit_operator hn (by omega) p dx _ v hv,
      q1.state (-1) 0 0 (by unfold Grid3.Pad; omega)]
    have a1 : extIdx BCType.neumann G.g.ni (-1) = 0 := by simp only [extIdx, clampIdx]; omega
    simp only [Geom3.extField, ext3, hx, Grid3.view]
    rw [a1, extIdx_of_int (by omega) (by omega), extIdx_of_int (by omega) (by omega)]
  · have : (fun t => out t w.r (G.g.at3 0 0 0)) = fun t : ℝ => chRhs3 p dx (G.extField m w.c) 0 0 0 := by
      funext t
      obtain ⟨mt, dt, qt, -, -⟩ := run (fam t)
      rw [(ho t).unique dt, qt.rhs 0 0 0 (by unfold Grid3.Int3; omega)]
      have near : ∀ x y z : Int, -2 ≤ x → x ≤ 2 → G.extField (fam t) w.c x y z = G.extField m w.c x y z := by
        intro x y z h1 h2
        simp only [Geom3.extField, ext3, hx, Grid3.view]
        have hxr : 0 ≤ extIdx BCType.neumann G.g.ni x ∧ extIdx BCType.neumann G.g.ni x ≤ 2 := by
          simp only [extIdx, clampIdx]; omega
        have hyr := extIdx_range (bc := G.ybc) (n := G.g.nj) y (by omega)
        have hzr := extIdx_range (bc := G.zbc) (n := G.g.nk) z (by omega)
        rw [hf t _ _ _ ⟨hxr.1, by omega⟩ hyr hzr, hv]
        beta_reduce
        rw [if_neg]
        · ring
        · intro e
          rw [← bare_at3, ← bare_at3] at e
          have := Grid3.at3_inj ((bare_pad_iff G.g _ _ _).2 ⟨⟨hxr.1, by omega⟩, hyr, hzr⟩)
            ((bare_pad_iff G.g _ _ _).2 ⟨⟨by omega, by omega⟩, ⟨le_refl _, by omega⟩, ⟨le_refl _, by omega⟩⟩) e
          omega
      unfold chRhs3
      rw [bih3_congr (v := G.extField m w.c) (fun x y z h1 _ _ => by
          rw [near _ _ _ (by omega) (by omega)]),
        lap3_congr (v := fun x y z => G.extField m w.c x y z ^ 3 - G.extField m w.c x y z) (fun x y z h1 _ _ => by
          simp only [near (0 + x) (0 + y) (0 + z) (by omega) (by omega)]),
        near 0 0 0 (by omega) (by omega)]
    rw [this]
    exact hasDerivAt_const _ _

end

/-! ### C26 -/

section
variable (g : Grid3) (hn : 5 ≤ g.ni ∧ 5 ≤ g.nj ∧ 5 ≤ g.nk) (hh : 1 ≤ g.nhalo) (G : Geom3)
  (hG : mkGeom3 g .periodic .periodic .periodic = .ok G)
  (sz : A → Int) (c x vals : A) (hnd : [c, x, vals].Nodup) (hsc : sz c = g.size) (hsx : sz x = g.ni * g.nj * g.nk)
  (hsv : sz vals = 25 * (g.ni * g.nj * g.nk)) (M : CSR A) (hM : g.createSparse vals = .ok M)
include hn hh hG hnd hsc hsx hsv hM

theorem petscJacobian_op (p : CHParams K) (dx : K) (m : Mem A K) :
    ∃ m1 m' : Mem A K, Det sz (petscJacobian G p dx x c M) m m' ∧
      ((∀ b, b ≠ vals → m' b = m1 b) ∧ ∀ b, b ≠ c → m1 b = m b) ∧
      (∀ i j k, g.Int3 i j k → m1 c (g.at3 i j k) = m x (cellNo g.nj g.nk i j k)) ∧
      (∀ i j k, g.Pad i j k → ¬ g.Int3 i j k → m1 c (g.at3 i j k) = m c (g.at3 i j k)) ∧
      ∀ (v : Int → K) i j k, (0 ≤ i ∧ i < g.ni) → (0 ≤ j ∧ j < g.nj) → (0 ≤ k ∧ k < g.nk) →
        mulVec (g.ni * g.nj * g.nk) (dense M (m' vals)) v (cellNo g.nj g.nk i j k) =
          chLin3 p dx (fun x y z => m1 c (g.at3 x y z))
            (fun x y z => v (cellNo g.nj g.nk (wrapIdx g.ni x) (wrapIdx g.nj y) (wrapIdx g.nk z))) i j k := by
  have hok : g.Ok := ⟨by omega, by omega, by omega, by omega⟩
  obtain ⟨hGok, rfl, -, -, -⟩ := Geom3.ok_of_mk hok hG
  simp only [List.nodup_cons, List.mem_cons, List.not_mem_nil, or_false, not_or, List.nodup_nil, and_true,
    not_false_eq_true] at hnd
  obtain ⟨m1, d1, w1⟩ := petscToState_det (K := K) hGok (x := x) (s := c) hsx.ge hsc (fun h => hnd.1.1 h.symm) m
  obtain ⟨m2, d2, f2, e2⟩ := C25_assembly_operator (K := K) G.g hn sz c vals M hM hsc hsv hnd.1.2 hh p dx m1
  refine ⟨m1, m2, det_append d1 d2, ?_, ?_, ?_, e2⟩
  · exact ⟨f2, w1.frame⟩
  · intro i j k h
    rw [w1.view i j k h, bare_at3]
  · intro i j k hp hi
    refine w1.out _ fun i' j' k' h' e => ?_
    obtain ⟨rfl, rfl, rfl⟩ := Grid3.at3_inj (h'.pad hok) hp e
    exact hi h'

/-- If the halo left in the state already is the periodic image of the incoming vector, the Jacobian callback assembles the
derivative at that vector. -/
theorem C26_consistent_halo_partial (p : CHParams ℝ) (dx : ℝ) (m : Mem A ℝ)
    (hu : ∀ a b d, -1 ≤ a → a ≤ g.ni → -1 ≤ b → b ≤ g.nj → -1 ≤ d → d ≤ g.nk →
      ¬ ((0 ≤ a ∧ a < g.ni) ∧ (0 ≤ b ∧ b < g.nj) ∧ (0 ≤ d ∧ d < g.nk)) →
      m c (g.at3 a b d) = m x (cellNo g.nj g.nk (wrapIdx g.ni a) (wrapIdx g.nj b) (wrapIdx g.nk d))) :
    ∃ m', Det sz (petscJacobian G p dx x c M) m m' ∧
      ∀ (v : Int → ℝ) i j k, (0 ≤ i ∧ i < g.ni) → (0 ≤ j ∧ j < g.nj) → (0 ≤ k ∧ k < g.nk) →
        HasDerivAt (fun t : ℝ => chRhs3 p dx (fun a b d =>
            m x (cellNo g.nj g.nk (wrapIdx g.ni a) (wrapIdx g.nj b) (wrapIdx g.nk d)) +
            t * v (cellNo g.nj g.nk (wrapIdx g.ni a) (wrapIdx g.nj b) (wrapIdx g.nk d))) i j k)
          (mulVec (g.ni * g.nj * g.nk) (dense M (m' vals)) v (cellNo g.nj g.nk i j k)) 0 := by
  obtain ⟨m1, m', d, -, hint, hhalo, e⟩ := petscJacobian_op g hn hh G hG sz c x vals hnd hsc hsx hsv M hM p dx m
  refine ⟨m', d, fun v i j k hi hj hk => ?_⟩
  rw [e v i j k hi hj hk]
  have : chLin3 p dx (fun x y z => m1 c (g.at3 x y z))
      (fun x y z => v (cellNo g.nj g.nk (wrapIdx g.ni x) (wrapIdx g.nj y) (wrapIdx g.nk z))) i j k =
    chLin3 p dx (fun a b d => m x (cellNo g.nj g.nk (wrapIdx g.ni a) (wrapIdx g.nj b) (wrapIdx g.nk d)))
      (fun x y z => v (cellNo g.nj g.nk (wrapIdx g.ni x) (wrapIdx g.nj y) (wrapIdx g.nk z))) i j k := by
    refine chLin3_congr fun a b d ha hb hd => ?_
    by_cases hin : g.Int3 (i + a) (j + b) (k + d)
    · rw [hint _ _ _ hin, wrapIdx_of_int hin.1.1 hin.1.2, wrapIdx_of_int hin.2.1.1 hin.2.1.2, wrapIdx_of_int hin.2.2.1 hin.2.2.2]
    · rw [hhalo _ _ _ (by unfold Grid3.Pad; omega) hin]
      exact hu _ _ _ (by omega) (by omega) (by omega) (by omega) (by omega) (by omega) hin
  rw [this]
  exact chRhs3_hasDeriv p dx _ _ i j k

/-- In general the claim is false: on every grid with extents at least five, if the halo value left at `(-1, 0, 0)` and the
incoming value of cell `(ni - 1, 0, 0)` have different squares, the callback's matrix is not the derivative at the incoming
vector (direction: the unit vector of that cell). -/
theorem C26_stale_halo_wrong (p : CHParams ℝ) (dx : ℝ) (hdx : dx ≠ 0) (m : Mem A ℝ)
    (hst : m c (g.at3 (-1) 0 0) ^ 2 ≠ m x (cellNo g.nj g.nk (g.ni - 1) 0 0) ^ 2) :
    ∃ m', Det sz (petscJacobian G p dx x c M) m m' ∧
      ∃ v : Int → ℝ, ¬ HasDerivAt (fun t : ℝ => chRhs3 p dx (fun a b d =>
            m x (cellNo g.nj g.nk (wrapIdx g.ni a) (wrapIdx g.nj b) (wrapIdx g.nk d)) +
            t * v (cellNo g.nj g.nk (wrapIdx g.ni a) (wrapIdx g.nj b) (wrapIdx g.nk d))) 0 0 0)
          (mulVec (g.ni * g.nj * g.nk) (dense M (m' vals)) v (cellNo g.nj g.nk 0 0 0)) 0 := by
  obtain ⟨m1, m', d, -, hint, hhalo, e⟩ := petscJacobian_op g hn hh G hG sz c x vals hnd hsc hsx hsv M hM p dx m
  refine ⟨m', d, (fun n => if n = cellNo g.nj g.nk (g.ni - 1) 0 0 then 1 else 0), fun h => ?_⟩
  have h' := h.unique (chRhs3_hasDeriv p dx _ _ 0 0 0)
  rw [e _ 0 0 0 (by omega) (by omega) (by omega), unit_operator hn (by omega) p dx _ _ rfl,
    unit_operator hn (by omega) p dx _ _ rfl,
    hhalo (-1) 0 0 (by unfold Grid3.Pad; omega) (by unfold Grid3.Int3; omega)] at h'
  have wr : wrapIdx g.ni (-1) = g.ni - 1 := by
    rw [← zero_add (-1), ← shift1_mod (by omega) (by omega) (by omega) (by omega)]
    unfold shift1; simp only; split <;> split <;> omega
  rw [wr, wrapIdx_of_int (by omega) (by omega), wrapIdx_of_int (by omega) (by omega)] at h'
  have h2 : (3 * m c (g.at3 (-1) 0 0) ^ 2 - 1) / (dx * dx) = (3 * m x (cellNo g.nj g.nk (g.ni - 1) 0 0) ^ 2 - 1) / (dx * dx) := by
    linarith
  rw [div_left_inj' (mul_ne_zero hdx hdx)] at h2
  exact hst (by linarith)

end

section
variable (g : Grid3) (hn : 5 ≤ g.ni ∧ 5 ≤ g.nj ∧ 5 ≤ g.nk) (hh : g.nhalo = 2) (G : Geom3)
  (hG : mkGeom3 g .periodic .periodic .periodic = .ok G) (var : Int) (hvar : var = 0 ∨ var = 1 ∨ var = 2)
  (w : CHArr A) (x rhs : A)
  (hw : [w.c, w.r, w.lapRhs, w.lapArg, w.bihar, w.lin, x, rhs].Nodup)
  (sz : A → Int) (hsz : ∀ a ∈ [w.c, w.r, w.lapRhs, w.lapArg, w.bihar, w.lin], sz a = g.size)
  (hsx : sz x = g.ni * g.nj * g.nk) (hsr : sz rhs = g.ni * g.nj * g.nk)
include hn hh hG hvar hw hsz hsx hsr

/-- The right-hand-side callback stores in the output vector the right-hand side of the periodic extension of the input
vector, whatever the state held before, and leaves the state with that extension. -/
theorem C64_petsc_rhs (p : CHParams K) (dx : K) (m : Mem A K) :
    ∃ m', Det sz (petscRHS G var p dx w x rhs) m m' ∧ m' x = m x ∧
      (∀ i j k, (0 ≤ i ∧ i < g.ni) → (0 ≤ j ∧ j < g.nj) → (0 ≤ k ∧ k < g.nk) →
        m' rhs (cellNo g.nj g.nk i j k) = chRhs3 p dx (fun a b d =>
            m x (cellNo g.nj g.nk (wrapIdx g.ni a) (wrapIdx g.nj b) (wrapIdx g.nk d))) i j k) ∧
      (∀ i j k, -2 ≤ i → i < g.ni + 2 → -2 ≤ j → j < g.nj + 2 → -2 ≤ k → k < g.nk + 2 →
        m' w.c (g.at3 i j k) = m x (cellNo g.nj g.nk (wrapIdx g.ni i) (wrapIdx g.nj j) (wrapIdx g.nk k))) ∧
      (∀ b, b ∉ [w.c, w.r, w.lapRhs, w.lapArg, w.bihar, w.lin, rhs] → m' b = m b) ∧
      (∀ i j k, (0 ≤ i ∧ i < g.ni) → (0 ≤ j ∧ j < g.nj) → (0 ≤ k ∧ k < g.nk) →
        m' w.r (g.at3 i j k) = m' rhs (cellNo g.nj g.nk i j k)) := by
  have hok : g.Ok := ⟨by omega, by omega, by omega, by omega⟩
  obtain ⟨hGok, rfl, hx, hy, hz⟩ := Geom3.ok_of_mk hok hG
  have hv' : ctorCH3 var = .ok () := by unfold ctorCH3; rw [if_pos (by omega)]
  have hw6 : [w.c, w.r, w.lapRhs, w.lapArg, w.bihar, w.lin].Nodup := by
    have : [w.c, w.r, w.lapRhs, w.lapArg, w.bihar, w.lin, x, rhs] = [w.c, w.r, w.lapRhs, w.lapArg, w.bihar, w.lin] ++ [x, rhs] := rfl
    rw [this] at hw
    exact (List.nodup_append.1 hw).1
  have hdis : x ∉ [w.c, w.r, w.lapRhs, w.lapArg, w.bihar, w.lin] ∧ rhs ∉ [w.c, w.r, w.lapRhs, w.lapArg, w.bihar, w.lin] ∧ x ≠ rhs := by
    have : [w.c, w.r, w.lapRhs, w.lapArg, w.bihar, w.lin, x, rhs] = [w.c, w.r, w.lapRhs, w.lapArg, w.bihar, w.lin] ++ [x, rhs] := rfl
    rw [this] at hw
    obtain ⟨-, h2, h3⟩ := List.nodup_append.1 hw
    exact ⟨fun h => h3 x h x (by simp) rfl, fun h => h3 rhs h rhs (by simp) rfl, by simpa using h2⟩
  have hxc : x ≠ w.c := fun h => hdis.1 (by simp [h])
  have hrr : rhs ≠ w.r := fun h => hdis.2.1 (by simp [h])
  have hrc : w.c ≠ rhs := fun h => hdis.2.1 (by simp [← h])
  obtain ⟨m1, d1, w1⟩ := petscToState_det (K := K) hGok (x := x) (s := w.c) hsx.ge (hsz w.c (by simp)) hxc m
  obtain ⟨m2, d2, q2, -, -⟩ := evalRHS_det hGok (w := w) ⟨hw6, hsz⟩ (by omega) (by omega) (by omega) (by omega) hv' p dx m1
  obtain ⟨m3, d3, w3⟩ := stateToPetsc_det (K := K) hGok (x := rhs) (s := w.r) hsr.ge (hsz w.r (by simp)) hrr m2
  have ext : G.extField m1 w.c = fun a b d =>
      m x (cellNo G.g.nj G.g.nk (wrapIdx G.g.ni a) (wrapIdx G.g.nj b) (wrapIdx G.g.nk d)) := by
    funext a b d
    simp only [Geom3.extField, ext3, extIdx, hx, hy, hz, Grid3.view]
    rw [w1.view _ _ _ ⟨wrapIdx_range a (by omega), wrapIdx_range b (by omega), wrapIdx_range d (by omega)⟩, bare_at3]
  refine ⟨m3, det_append d1 (det_append d2 d3), ?_, ?_, ?_, ?_, ?_⟩
  · rw [w3.frame x hdis.2.2, q2.frame x hdis.1, w1.frame x hxc]
  · intro i j k hi hj hk
    have hint : G.g.Int3 i j k := ⟨hi, hj, hk⟩
    obtain ⟨r0, r1⟩ := row_bounds hint
    rw [← bare_at3, w3.view _ r0 r1, cellOf_row hint, q2.rhs i j k hint, ext]
  · intro i j k _ _ _ _ _ _
    rw [w3.frame w.c hrc, q2.state i j k (by unfold Grid3.Pad; omega), ext]
  · intro b hb
    have hb' : b ∉ [w.c, w.r, w.lapRhs, w.lapArg, w.bihar, w.lin] ∧ b ≠ rhs := by
      have : [w.c, w.r, w.lapRhs, w.lapArg, w.bihar, w.lin, rhs] = [w.c, w.r, w.lapRhs, w.lapArg, w.bihar, w.lin] ++ [rhs] := rfl
      rw [this, List.mem_append] at hb
      exact ⟨fun h => hb (Or.inl h), fun h => hb (Or.inr (by simp [h]))⟩
    rw [w3.frame b hb'.2, q2.frame b hb'.1, w1.frame b fun h => hb'.1 (by simp [h])]
  · intro i j k hi hj hk
    have hint : G.g.Int3 i j k := ⟨hi, hj, hk⟩
    obtain ⟨r0, r1⟩ := row_bounds hint
    rw [← bare_at3, w3.view _ r0 r1, cellOf_row hint, w3.frame w.r hrr.symm]

/-- The order of callbacks matters. After a right-hand-side call at `y`, a Jacobian call at the same vector gives the
derivative there. -/
theorem C26_same_vector (p : CHParams ℝ) (dx : ℝ) (vals : A) (M : CSR A) (hM : g.createSparse vals = .ok M)
    (hsv : sz vals = 25 * (g.ni * g.nj * g.nk)) (hvals : vals ∉ [w.c, x]) (m : Mem A ℝ) :
    ∃ m', Det sz (petscRHS G var p dx w x rhs ++ petscJacobian G p dx x w.c M) m m' ∧
      ∀ (v : Int → ℝ) i j k, (0 ≤ i ∧ i < g.ni) → (0 ≤ j ∧ j < g.nj) → (0 ≤ k ∧ k < g.nk) →
        HasDerivAt (fun t : ℝ => chRhs3 p dx (fun a b d =>
            m x (cellNo g.nj g.nk (wrapIdx g.ni a) (wrapIdx g.nj b) (wrapIdx g.nk d)) +
            t * v (cellNo g.nj g.nk (wrapIdx g.ni a) (wrapIdx g.nj b) (wrapIdx g.nk d))) i j k)
          (mulVec (g.ni * g.nj * g.nk) (dense M (m' vals)) v (cellNo g.nj g.nk i j k)) 0 := by
  obtain ⟨m1, d1, hx1, -, hs1, -⟩ := C64_petsc_rhs g hn hh G hG var hvar w x rhs hw sz hsz hsx hsr p dx m
  have hxc : w.c ≠ x := by
    simp only [List.nodup_cons, List.mem_cons, not_or] at hw
    tauto
  obtain ⟨m2, d2, e2⟩ := C26_consistent_halo_partial g hn (by omega) G hG sz w.c x vals (by simp at hvals ⊢; tauto)
    (hsz w.c (by simp)) hsx hsv M hM p dx m1 (by
      intro a b d a0 a1 b0 b1 d0 d1 _
      rw [hs1 a b d (by omega) (by omega) (by omega) (by omega) (by omega) (by omega), hx1])
  refine ⟨m2, det_append d1 d2, ?_⟩
  rw [hx1] at e2
  exact e2

/-- After a right-hand-side call at `y`, a Jacobian call at a vector `z` read from another array, with
`y(ni-1,0,0)² ≠ z(ni-1,0,0)²`, does not give the derivative at `z`. -/
theorem C26_other_vector_wrong (p : CHParams ℝ) (dx : ℝ) (hdx : dx ≠ 0) (vals z : A) (M : CSR A) (hM : g.createSparse vals = .ok M)
    (hsv : sz vals = 25 * (g.ni * g.nj * g.nk)) (hsz' : sz z = g.ni * g.nj * g.nk)
    (hz : z ∉ [w.c, w.r, w.lapRhs, w.lapArg, w.bihar, w.lin, rhs]) (hvals : vals ∉ [w.c, z]) (m : Mem A ℝ)
    (hyz : m x (cellNo g.nj g.nk (g.ni - 1) 0 0) ^ 2 ≠ m z (cellNo g.nj g.nk (g.ni - 1) 0 0) ^ 2) :
    ∃ m', Det sz (petscRHS G var p dx w x rhs ++ petscJacobian G p dx z w.c M) m m' ∧
      ∃ v : Int → ℝ, ¬ HasDerivAt (fun t : ℝ => chRhs3 p dx (fun a b d =>
            m z (cellNo g.nj g.nk (wrapIdx g.ni a) (wrapIdx g.nj b) (wrapIdx g.nk d)) +
            t * v (cellNo g.nj g.nk (wrapIdx g.ni a) (wrapIdx g.nj b) (wrapIdx g.nk d))) 0 0 0)
          (mulVec (g.ni * g.nj * g.nk) (dense M (m' vals)) v (cellNo g.nj g.nk 0 0 0)) 0 := by
  obtain ⟨m1, d1, hx1, -, hs1, hf1, -⟩ := C64_petsc_rhs g hn hh G hG var hvar w x rhs hw sz hsz hsx hsr p dx m
  have hz1 := hf1 z hz
  have hzc : w.c ≠ z := fun h => hz (by simp [h])
  have wr : wrapIdx g.ni (-1) = g.ni - 1 := by
    rw [← zero_add (-1), ← shift1_mod (by omega) (by omega) (by omega) (by omega)]
    unfold shift1; simp only; split <;> split <;> omega
  obtain ⟨m2, d2, e2⟩ := C26_stale_halo_wrong g hn (by omega) G hG sz w.c z vals (by simp at hvals ⊢; tauto)
    (hsz w.c (by simp)) hsz' hsv M hM p dx hdx m1 (by
      rw [hs1 (-1) 0 0 (by omega) (by omega) (by omega) (by omega) (by omega) (by omega), hz1, wr,
        wrapIdx_of_int (by omega) (by omega), wrapIdx_of_int (by omega) (by omega)]
      exact hyz)
  refine ⟨m2, det_append d1 d2, ?_⟩
  rw [hz1] at e2
  exact e2

end

/-- The hypotheses hold together: arrays named `0..9` on a `5 × 5 × 6` grid, two vectors that differ. -/
example : ∃ (G : Geom3) (w : CHArr Nat) (M : CSR Nat) (sz : Nat → Int) (m : Mem Nat ℝ),
    mkGeom3 ⟨5, 5, 6, 2⟩ .periodic .periodic .periodic = .ok G ∧
    [w.c, w.r, w.lapRhs, w.lapArg, w.bihar, w.lin, 6, 7].Nodup ∧
    (∀ a ∈ [w.c, w.r, w.lapRhs, w.lapArg, w.bihar, w.lin], sz a = (Grid3.mk 5 5 6 2).size) ∧
    sz 6 = 150 ∧ sz 7 = 150 ∧ sz 8 = 25 * 150 ∧ sz 9 = 150 ∧ (Grid3.mk 5 5 6 2).createSparse 8 = .ok M ∧
    m 6 (cellNo 5 6 4 0 0) ^ 2 ≠ m 9 (cellNo 5 6 4 0 0) ^ 2 :=
  ⟨_, ⟨0, 1, 2, 3, 4, 5⟩, _, fun a => if a = 6 ∨ a = 7 ∨ a = 9 then 150 else if a = 8 then 25 * 150 else (Grid3.mk 5 5 6 2).size,
    fun a _ => a, mkGeom3_ok ⟨by decide, by decide, by decide, by decide⟩ _ _ _, by decide, by decide, rfl, rfl, rfl, rfl,
    createSparse_ok ⟨by decide, by decide, by decide, by decide⟩ ⟨by decide, by decide, by decide⟩ 8, by norm_num⟩

/-! ### C64: the copies -/

section
variable (g : Grid3) (hn : 1 ≤ g.ni ∧ 1 ≤ g.nj ∧ 1 ≤ g.nk) (hh : 0 ≤ g.nhalo) (xbc ybc zbc : BCType) (G : Geom3)
  (hG : mkGeom3 g xbc ybc zbc = .ok G) (sz : A → Int) (s x : A) (hne : x ≠ s) (hs : sz s = g.size)
  (hsx : sz x = g.ni * g.nj * g.nk)
include hn hh hG hne hs hsx

/-- Vector to state: every interior cell gets its vector entry, halo cells and other arrays keep their contents. -/
theorem C64_vec_to_state (m : Mem A K) :
    ∃ m', Det sz (petscToState G.interior x s) m m' ∧
      (∀ i j k, (0 ≤ i ∧ i < g.ni) → (0 ≤ j ∧ j < g.nj) → (0 ≤ k ∧ k < g.nk) →
        m' s (g.at3 i j k) = m x (cellNo g.nj g.nk i j k)) ∧
      (∀ n, (∀ i j k, (0 ≤ i ∧ i < g.ni) → (0 ≤ j ∧ j < g.nj) → (0 ≤ k ∧ k < g.nk) → g.at3 i j k ≠ n) → m' s n = m s n) ∧
      ∀ b, b ≠ s → m' b = m b := by
  have hok : g.Ok := ⟨hn.1, hn.2.1, hn.2.2, hh⟩
  obtain ⟨hGok, rfl, -, -, -⟩ := Geom3.ok_of_mk hok hG
  obtain ⟨m', d, w⟩ := petscToState_det (K := K) hGok (x := x) (s := s) hsx.ge hs hne m
  exact ⟨m', d, fun i j k hi hj hk => by rw [w.view i j k ⟨hi, hj, hk⟩, bare_at3],
    fun n hno => w.out n fun i j k h => hno i j k h.1 h.2.1 h.2.2, w.frame⟩

/-- State to vector. -/
theorem C64_state_to_vec (m : Mem A K) :
    ∃ m', Det sz (stateToPetsc G.interior s x) m m' ∧
      (∀ i j k, (0 ≤ i ∧ i < g.ni) → (0 ≤ j ∧ j < g.nj) → (0 ≤ k ∧ k < g.nk) →
        m' x (cellNo g.nj g.nk i j k) = m s (g.at3 i j k)) ∧
      ∀ b, b ≠ x → m' b = m b := by
  have hok : g.Ok := ⟨hn.1, hn.2.1, hn.2.2, hh⟩
  obtain ⟨hGok, rfl, -, -, -⟩ := Geom3.ok_of_mk hok hG
  obtain ⟨m', d, w⟩ := stateToPetsc_det (K := K) hGok (x := x) (s := s) hsx.ge hs hne m
  refine ⟨m', d, fun i j k hi hj hk => ?_, w.frame⟩
  have hint : G.g.Int3 i j k := ⟨hi, hj, hk⟩
  obtain ⟨r0, r1⟩ := row_bounds hint
  rw [← bare_at3, w.view _ r0 r1, cellOf_row hint]

/-- Vector to state and back restores every entry of the vector. -/
theorem C64_round_trip_vec (m : Mem A K) :
    ∃ m', Det sz (petscToState G.interior x s ++ stateToPetsc G.interior s x) m m' ∧
      ∀ n, 0 ≤ n → n < g.ni * g.nj * g.nk → m' x n = m x n := by
  have hok : g.Ok := ⟨hn.1, hn.2.1, hn.2.2, hh⟩
  obtain ⟨m1, d1, w1, -, f1⟩ := C64_vec_to_state (K := K) g hn hh xbc ybc zbc G hG sz s x hne hs hsx m
  obtain ⟨m2, d2, w2, -⟩ := C64_state_to_vec (K := K) g hn hh xbc ybc zbc G hG sz s x hne hs hsx m1
  refine ⟨m2, det_append d1 d2, fun n h0 h1 => ?_⟩
  have hc := cellOf_int hok h0 h1
  have hr := row_cellOf hok h0
  rw [bare_at3] at hr
  rw [← hr, w2 _ _ _ hc.1 hc.2.1 hc.2.2, w1 _ _ _ hc.1 hc.2.1 hc.2.2]

/-- State to vector and back leaves the whole padded state as it was. -/
theorem C64_round_trip_state (m : Mem A K) :
    ∃ m', Det sz (stateToPetsc G.interior s x ++ petscToState G.interior x s) m m' ∧ m' s = m s := by
  obtain ⟨m1, d1, w1, f1⟩ := C64_state_to_vec (K := K) g hn hh xbc ybc zbc G hG sz s x hne hs hsx m
  obtain ⟨m2, d2, w2, o2, -⟩ := C64_vec_to_state (K := K) g hn hh xbc ybc zbc G hG sz s x hne hs hsx m1
  refine ⟨m2, det_append d1 d2, ?_⟩
  funext n
  by_cases h : ∃ i j k, (0 ≤ i ∧ i < g.ni) ∧ (0 ≤ j ∧ j < g.nj) ∧ (0 ≤ k ∧ k < g.nk) ∧ g.at3 i j k = n
  · obtain ⟨i, j, k, hi, hj, hk, rfl⟩ := h
    rw [w2 i j k hi hj hk, w1 i j k hi hj hk]
  · rw [o2 n fun i j k hi hj hk e => h ⟨i, j, k, hi, hj, hk, e⟩, f1 s hne.symm]

end

example : ∃ (G : Geom3) (sz : Bool → Int), mkGeom3 ⟨2, 3, 4, 2⟩ .periodic .neumann .periodic = .ok G ∧ true ≠ false ∧
    sz false = (Grid3.mk 2 3 4 2).size ∧ sz true = 2 * 3 * 4 :=
  ⟨_, fun b => if b then 24 else (Grid3.mk 2 3 4 2).size, mkGeom3_ok ⟨by decide, by decide, by decide, by decide⟩ _ _ _,
    by decide, rfl, rfl⟩

end Madg
