/-
Closed form of the Cahn–Hilliard right-hand side, all kernel variants.
-/
import Verif.Proofs.Kern3

set_option linter.unusedSectionVars false
set_option linter.unusedVariables false

namespace Madg
open Spec
variable {A K : Type} [DecidableEq A] [Field K]

/-- The arrays exist with the size of the padded grid and are pairwise different allocations. -/
structure CHArr.Ok (w : CHArr A) (sz : A → Int) (g : Grid3) : Prop where
  nodup : [w.c, w.r, w.lapRhs, w.lapArg, w.bihar, w.lin].Nodup
  size : ∀ a ∈ [w.c, w.r, w.lapRhs, w.lapArg, w.bihar, w.lin], sz a = g.size

/-- Extension of the interior of array `a` by the boundary conditions of `G`. -/
def Geom3.extField (G : Geom3) (m : Mem A K) (a : A) : Int → Int → Int → K :=
  ext3 G.xbc G.ybc G.zbc G.g.ni G.g.nj G.g.nk (G.g.view m a)

/-- What a right-hand-side evaluation does to memory. -/
structure RhsPost (G : Geom3) (p : CHParams K) (dx : K) (w : CHArr A) (m m' : Mem A K) : Prop where
  rhs : ∀ i j k, G.g.Int3 i j k → m' w.r (G.g.at3 i j k) = chRhs3 p dx (G.extField m w.c) i j k
  state : ∀ i j k, G.g.Pad i j k → m' w.c (G.g.at3 i j k) = G.extField m w.c i j k
  stateOut : ∀ n, ¬ (0 ≤ n ∧ n < G.g.size) → m' w.c n = m w.c n
  frame : ∀ b, b ∉ [w.c, w.r, w.lapRhs, w.lapArg, w.bihar, w.lin] → m' b = m b

theorem lap3_congr {dx : K} {u v : Int → Int → Int → K} {i j k : Int}
    (h : ∀ x y z, (-1 ≤ x ∧ x ≤ 1) → (-1 ≤ y ∧ y ≤ 1) → (-1 ≤ z ∧ z ≤ 1) →
      u (i + x) (j + y) (k + z) = v (i + x) (j + y) (k + z)) : lap3 dx u i j k = lap3 dx v i j k := by
  have h0 := h 0 0 0 (by decide) (by decide) (by decide)
  have h1 := h 1 0 0 (by decide) (by decide) (by decide)
  have h2 := h (-1) 0 0 (by decide) (by decide) (by decide)
  have h3 := h 0 1 0 (by decide) (by decide) (by decide)
  have h4 := h 0 (-1) 0 (by decide) (by decide) (by decide)
  have h5 := h 0 0 1 (by decide) (by decide) (by decide)
  have h6 := h 0 0 (-1) (by decide) (by decide) (by decide)
  simp only [Int.add_zero] at h0 h1 h2 h3 h4 h5 h6
  simp only [lap3, d2x, d2y, d2z, sub_eq_add_neg] at *
  rw [h0, h1, h2, h3, h4, h5, h6]

theorem bih3_congr {dx : K} {u v : Int → Int → Int → K} {i j k : Int}
    (h : ∀ x y z, (-2 ≤ x ∧ x ≤ 2) → (-2 ≤ y ∧ y ≤ 2) → (-2 ≤ z ∧ z ≤ 2) →
      u (i + x) (j + y) (k + z) = v (i + x) (j + y) (k + z)) : bih3 dx u i j k = bih3 dx v i j k := by
  refine lap3_congr fun x y z hx hy hz => lap3_congr fun x' y' z' hx' hy' hz' => ?_
  have := h (x + x') (y + y') (z + z') (by omega) (by omega) (by omega)
  simpa only [Int.add_assoc] using this

/-- After the boundary fill the padded view is the extended field. -/
theorem view_eq_ext {G : Geom3} {m m' : Mem A K} {a : A}
    (h : Fills G.g a m m' (extIdx G.xbc G.g.ni) (extIdx G.ybc G.g.nj) (extIdx G.zbc G.g.nk)) {i j k : Int}
    (hp : G.g.Pad i j k) : G.g.view m' a i j k = G.extField m a i j k := h.view i j k hp

theorem chRhs3_of_view {G : Geom3} {m m' : Mem A K} {a : A} (h2 : 2 ≤ G.g.nhalo) (p : CHParams K) (dx : K)
    (h : ∀ i j k, G.g.Pad i j k → m' a (G.g.at3 i j k) = G.extField m a i j k) {i j k : Int}
    (hi : G.g.Int3 i j k) :
    chRhs3 p dx (G.g.view m' a) i j k = chRhs3 p dx (G.extField m a) i j k := by
  unfold chRhs3
  have e0 := h _ _ _ (pad_of_int_off h2 hi (x := 0) (y := 0) (z := 0) (by decide) (by decide) (by decide))
  simp only [Int.add_zero] at e0
  congr 1
  · congr 1
    · congr 1
      exact bih3_congr fun x y z hx hy hz => h _ _ _ (pad_of_int_off h2 hi hx hy hz)
    · refine lap3_congr fun x y z hx hy hz => ?_
      have := h _ _ _ (pad_of_int_off1 (by omega) hi hx hy hz)
      simp only [Grid3.view]
      rw [this]
  · simp only [Grid3.view, e0]

theorem lapArg_det {G : Geom3} {sz : A → Int} {w : CHArr A} (hw : w.Ok sz G.g) (m : Mem A K) :
    ∃ m', Det sz (G.lapArgLoop w) m m' ∧
      WritesAll G.g.size w.lapArg m m' (fun n => m w.c n ^ 3 - m w.c n) := by
  have hnd := hw.nodup
  simp only [List.nodup_cons, List.mem_cons, not_or, List.not_mem_nil, not_false_eq_true,
    List.nodup_nil, and_true] at hnd
  have hsc := hw.size w.c (by simp); have hsl := hw.size w.lapArg (by simp)
  refine forAll_det _ _ _ m ?_ ?_
  · intro i h0 h1
    refine ⟨?_, Or.inl (by tauto), fun v => ⟨?_, ⟨rfl, rfl⟩, trivial⟩⟩
    · rw [InB, hsc]; exact ⟨h0, h1⟩
    · rw [InB, hsl]; exact ⟨h0, h1⟩
  · intro i h0 h1
    exact Mem.set_same _ _ _ _

theorem fullyFused_det {G : Geom3} (hG : G.Ok) {sz : A → Int} {w : CHArr A} (hw : w.Ok sz G.g)
    (h2 : 2 ≤ G.g.nhalo) (hi : G.g.nhalo ≤ G.g.ni) (hj : G.g.nhalo ≤ G.g.nj) (hk : G.g.nhalo ≤ G.g.nk)
    (p : CHParams K) (dx : K) (m : Mem A K) :
    ∃ m', Det sz (G.evalRHSFullyFused p dx w) m m' ∧ RhsPost G p dx w m m' ∧
      (∀ n, (∀ i j k, G.g.Int3 i j k → G.g.at3 i j k ≠ n) → m' w.r n = m w.r n) ∧
      m' w.lapArg = m w.lapArg := by
  have hnd := hw.nodup
  simp only [List.nodup_cons, List.mem_cons, not_or, List.not_mem_nil, not_false_eq_true,
    List.nodup_nil, and_true] at hnd
  have hsc := hw.size w.c (by simp); have hsr := hw.size w.r (by simp)
  obtain ⟨m1, d1, f1⟩ := bc_det (K := K) hG hsc hi hj hk m
  have hcr : w.c ≠ w.r := by tauto
  obtain ⟨m2, d2, f2⟩ := interior_det (K := K) hG (sz := sz) (r := w.r) (fun n =>
    Geom3.loadStencil G.g w.c (G.g.getI n) (G.g.getJ n) (G.g.getK n) Geom3.lapOffsets fun fl =>
    Geom3.loadStencil G.g w.c (G.g.getI n) (G.g.getJ n) (G.g.getK n) Geom3.biharmOffsets fun f =>
      Prog.wr w.r (G.g.at3 (G.g.getI n) (G.g.getJ n) (G.g.getK n))
        (-p.eps2 * Geom3.biharmExpr f (dx * dx * (dx * dx)) +
          Geom3.lapExpr (fun x y z => fl x y z ^ 3 - fl x y z) (dx * dx) - p.sigma * (f 0 0 0 - p.m)))
    (chRhs3 p dx (G.g.view m1 w.c)) m1 (by
      intro i j k h
      obtain ⟨e1, e2, e3⟩ := Grid3.get_at3 (h.pad hG.ok)
      simp only [e1, e2, e3]
      refine loadStencil_foot ?_ fun fl => loadStencil_foot ?_ fun f => ⟨?_, ⟨rfl, rfl⟩, trivial⟩
      · intro o ho
        obtain ⟨hx, hy, hz⟩ := lapOffsets_le o ho
        refine ⟨?_, Or.inl hcr⟩
        rw [InB, hsc]; exact Grid3.at3_bounds (pad_of_int_off1 (by omega) h hx hy hz)
      · intro o ho
        obtain ⟨hx, hy, hz⟩ := biharmOffsets_le o ho
        refine ⟨?_, Or.inl hcr⟩
        rw [InB, hsc]; exact Grid3.at3_bounds (pad_of_int_off h2 h hx hy hz)
      · rw [InB, hsr]; exact Grid3.at3_bounds (h.pad hG.ok)) (by
      intro i j k h
      obtain ⟨e1, e2, e3⟩ := Grid3.get_at3 (h.pad hG.ok)
      simp only [e1, e2, e3]
      rw [loadStencil_exec, loadStencil_exec]
      refine (Mem.set_same _ _ _ _).trans ?_
      have hb := biharmExpr_eq (G.g.view m1 w.c) dx i j k
      have hl := lapExpr_pow_eq (G.g.view m1 w.c) dx i j k
      have hd : dx * dx * (dx * dx) = dx * dx * dx * dx := by ring
      rw [hd]
      simp only [Grid3.view] at hb hl
      rw [hb, hl]
      beta_reduce
      rw [if_pos (by decide)]
      simp only [chRhs3, Int.add_zero]
      rfl)
  refine ⟨m2, det_append d1 d2, ⟨?_, ?_, ?_, ?_⟩, ?_, ?_⟩
  · intro i j k h
    rw [f2.view i j k h]
    exact chRhs3_of_view h2 p dx f1.view h
  · intro i j k h
    rw [f2.frame _ hcr]; exact f1.view i j k h
  · intro n hn
    rw [f2.frame _ hcr]; exact f1.out n hn
  · intro b hb
    simp only [List.mem_cons, not_or] at hb
    rw [f2.frame b (by tauto), f1.frame b (by tauto)]
  · intro n hn
    rw [f2.out n hn, f1.frame w.r (Ne.symm hcr)]
  · rw [f2.frame _ (by tauto), f1.frame _ (by tauto)]

/-- The Laplacian of the nonlinear term, computed from the array the `lapArg` loop filled. -/
theorem lap_of_lapArg {G : Geom3} {m1 m2 : Mem A K} {c l : A} (h1 : 1 ≤ G.g.nhalo)
    (hl : ∀ n, 0 ≤ n → n < G.g.size → m2 l n = m1 c n ^ 3 - m1 c n) (dx : K) {i j k : Int}
    (h : G.g.Int3 i j k) :
    lap3 dx (G.g.view m2 l) i j k =
      lap3 dx (fun x y z => G.g.view m1 c x y z ^ 3 - G.g.view m1 c x y z) i j k := by
  refine lap3_congr fun x y z hx hy hz => ?_
  have hb := Grid3.at3_bounds (pad_of_int_off1 h1 h hx hy hz)
  exact hl _ hb.1 hb.2

theorem fused_det {G : Geom3} (hG : G.Ok) {sz : A → Int} {w : CHArr A} (hw : w.Ok sz G.g)
    (h2 : 2 ≤ G.g.nhalo) (hi : G.g.nhalo ≤ G.g.ni) (hj : G.g.nhalo ≤ G.g.nj) (hk : G.g.nhalo ≤ G.g.nk)
    (p : CHParams K) (dx : K) (m : Mem A K) :
    ∃ m', Det sz (G.evalRHSFused p dx w) m m' ∧ RhsPost G p dx w m m' ∧
      (∀ n, (∀ i j k, G.g.Int3 i j k → G.g.at3 i j k ≠ n) → m' w.r n = m w.r n) := by
  have hnd := hw.nodup
  simp only [List.nodup_cons, List.mem_cons, not_or, List.not_mem_nil, not_false_eq_true,
    List.nodup_nil, and_true] at hnd
  have hsc := hw.size w.c (by simp); have hsr := hw.size w.r (by simp); have hsl := hw.size w.lapArg (by simp)
  obtain ⟨m0, d0, f0⟩ := bc_det (K := K) hG hsc hi hj hk m
  obtain ⟨m1, d1, f1⟩ := lapArg_det hw m0
  have hcr : w.c ≠ w.r := by tauto
  have hlr : w.lapArg ≠ w.r := by tauto
  have hcl : w.c ≠ w.lapArg := by tauto
  obtain ⟨m2, d2, f2⟩ := interior_det (K := K) hG (sz := sz) (r := w.r) (fun n =>
    Geom3.loadStencil G.g w.lapArg (G.g.getI n) (G.g.getJ n) (G.g.getK n) Geom3.lapOffsets fun la =>
    Geom3.loadStencil G.g w.c (G.g.getI n) (G.g.getJ n) (G.g.getK n) Geom3.biharmOffsets fun f =>
      Prog.wr w.r (G.g.at3 (G.g.getI n) (G.g.getJ n) (G.g.getK n))
        (-p.eps2 * Geom3.biharmExpr f (dx * dx * (dx * dx)) +
          Geom3.lapExpr la (dx * dx) - p.sigma * (f 0 0 0 - p.m)))
    (chRhs3 p dx (G.g.view m0 w.c)) m1 (by
      intro i j k h
      obtain ⟨e1, e2, e3⟩ := Grid3.get_at3 (h.pad hG.ok)
      simp only [e1, e2, e3]
      refine loadStencil_foot ?_ fun fl => loadStencil_foot ?_ fun f => ⟨?_, ⟨rfl, rfl⟩, trivial⟩
      · intro o ho
        obtain ⟨hx, hy, hz⟩ := lapOffsets_le o ho
        refine ⟨?_, Or.inl hlr⟩
        rw [InB, hsl]; exact Grid3.at3_bounds (pad_of_int_off1 (by omega) h hx hy hz)
      · intro o ho
        obtain ⟨hx, hy, hz⟩ := biharmOffsets_le o ho
        refine ⟨?_, Or.inl hcr⟩
        rw [InB, hsc]; exact Grid3.at3_bounds (pad_of_int_off h2 h hx hy hz)
      · rw [InB, hsr]; exact Grid3.at3_bounds (h.pad hG.ok)) (by
      intro i j k h
      obtain ⟨e1, e2, e3⟩ := Grid3.get_at3 (h.pad hG.ok)
      simp only [e1, e2, e3]
      rw [loadStencil_exec, loadStencil_exec]
      refine (Mem.set_same _ _ _ _).trans ?_
      have hb := biharmExpr_eq (G.g.view m1 w.c) dx i j k
      have hl := lapExpr_eq (G.g.view m1 w.lapArg) dx i j k
      have hd : dx * dx * (dx * dx) = dx * dx * dx * dx := by ring
      rw [lap_of_lapArg (by omega) f1.view dx h] at hl
      rw [hd]
      simp only [Grid3.view] at hb hl
      have hv : G.g.view m1 w.c = G.g.view m0 w.c := by
        funext x y z; simp only [Grid3.view]; rw [f1.frame _ hcl]
      rw [hb, hl, hv]
      beta_reduce
      rw [if_pos (by decide)]
      simp only [chRhs3, Int.add_zero, f1.frame _ hcl]
      rfl)
  refine ⟨m2, det_append (det_append d0 d1) d2, ⟨?_, ?_, ?_, ?_⟩, ?_⟩
  · intro i j k h
    rw [f2.view i j k h]
    exact chRhs3_of_view h2 p dx f0.view h
  · intro i j k h
    rw [f2.frame _ hcr, f1.frame _ hcl]; exact f0.view i j k h
  · intro n hn
    rw [f2.frame _ hcr, f1.frame _ hcl]; exact f0.out n hn
  · intro b hb
    simp only [List.mem_cons, not_or] at hb
    rw [f2.frame b (by tauto), f1.frame b (by tauto), f0.frame b (by tauto)]
  · intro n hn
    rw [f2.out n hn, f1.frame w.r (Ne.symm hlr), f0.frame w.r (Ne.symm hcr)]

theorem basic_det {G : Geom3} (hG : G.Ok) {sz : A → Int} {w : CHArr A} (hw : w.Ok sz G.g)
    (h2 : 2 ≤ G.g.nhalo) (hi : G.g.nhalo ≤ G.g.ni) (hj : G.g.nhalo ≤ G.g.nj) (hk : G.g.nhalo ≤ G.g.nk)
    (p : CHParams K) (dx : K) (m : Mem A K) :
    ∃ m', Det sz (G.evalRHSBasic p dx w) m m' ∧ RhsPost G p dx w m m' ∧
      (∀ n, 0 ≤ n → n < G.g.size → (∀ i j k, G.g.Int3 i j k → G.g.at3 i j k ≠ n) → m' w.r n = 0) ∧
      (∀ n, ¬ (0 ≤ n ∧ n < G.g.size) → m' w.r n = m w.r n) := by
  have hnd := hw.nodup
  simp only [List.nodup_cons, List.mem_cons, not_or, List.not_mem_nil, not_false_eq_true,
    List.nodup_nil, and_true] at hnd
  have hsc := hw.size w.c (by simp); have hsr := hw.size w.r (by simp); have hsl := hw.size w.lapArg (by simp)
  have hsl2 := hw.size w.lapRhs (by simp); have hsb := hw.size w.bihar (by simp)
  have hsn := hw.size w.lin (by simp)
  obtain ⟨m0, d0, f0⟩ := bc_det (K := K) hG hsc hi hj hk m
  obtain ⟨m1, d1, f1⟩ := lapArg_det hw m0
  obtain ⟨m2, d2, f2⟩ := laplacian_det hG (s := w.lapArg) (d := w.lapRhs) (by tauto) hsl hsl2 (by omega) dx m1
  obtain ⟨m3, d3, f3⟩ := biharmonic_det hG (s := w.c) (d := w.bihar) (by tauto) hsc hsb h2 dx m2
  have hcl : w.c ≠ w.lin := by tauto
  obtain ⟨m4, d4, f4⟩ := interior_det (K := K) hG (sz := sz) (r := w.lin)
    (fun i => .load w.c i fun v => .store w.lin i (p.sigma * (v - p.m)) (.pure ()))
    (fun i j k => p.sigma * (m3 w.c (G.g.at3 i j k) - p.m)) m3 (by
      intro i j k h
      refine ⟨?_, Or.inl hcl, fun v => ⟨?_, ⟨rfl, rfl⟩, trivial⟩⟩
      · rw [InB, hsc]; exact Grid3.at3_bounds (h.pad hG.ok)
      · rw [InB, hsn]; exact Grid3.at3_bounds (h.pad hG.ok)) (by
      intro i j k h; exact Mem.set_same _ _ _ _)
  obtain ⟨m5, d5, f5⟩ := forAll_det (K := K) (sz := sz) (r := w.r) G.g.size
    (fun i => .store w.r i 0 (.pure ())) (fun _ => 0) m4 (by
      intro i h0 h1
      refine ⟨?_, ⟨rfl, rfl⟩, trivial⟩
      rw [InB, hsr]; exact ⟨h0, h1⟩) (by
      intro i h0 h1; exact Mem.set_same _ _ _ _)
  have hbr : w.bihar ≠ w.r := by tauto
  have hlr : w.lapRhs ≠ w.r := by tauto
  have hnr : w.lin ≠ w.r := by tauto
  have hcr : w.c ≠ w.r := by tauto
  obtain ⟨m6, d6, f6⟩ := interior_det (K := K) hG (sz := sz) (r := w.r)
    (fun i => .load w.bihar i fun b => .load w.lapRhs i fun l => .load w.lin i fun s =>
      .store w.r i (-p.eps2 * b + l - s) (.pure ()))
    (fun i j k => -p.eps2 * m5 w.bihar (G.g.at3 i j k) + m5 w.lapRhs (G.g.at3 i j k) -
      m5 w.lin (G.g.at3 i j k)) m5 (by
      intro i j k h
      have hb := Grid3.at3_bounds (h.pad hG.ok)
      refine ⟨?_, Or.inl hbr, fun _ => ⟨?_, Or.inl hlr, fun _ => ⟨?_, Or.inl hnr, fun _ =>
        ⟨?_, ⟨rfl, rfl⟩, trivial⟩⟩⟩⟩
      · rw [InB, hsb]; exact hb
      · rw [InB, hsl2]; exact hb
      · rw [InB, hsn]; exact hb
      · rw [InB, hsr]; exact hb) (by
      intro i j k h; exact Mem.set_same _ _ _ _)
  have hc1 : m1 w.c = m0 w.c := f1.frame _ (by tauto)
  have hc2 : m2 w.c = m1 w.c := f2.frame _ (by tauto)
  have hc3 : m3 w.c = m2 w.c := f3.frame _ (by tauto)
  have hc4 : m4 w.c = m3 w.c := f4.frame _ (by tauto)
  have hc5 : m5 w.c = m4 w.c := f5.frame _ (by tauto)
  have hc6 : m6 w.c = m5 w.c := f6.frame _ (by tauto)
  have hc : m6 w.c = m0 w.c := by rw [hc6, hc5, hc4, hc3, hc2, hc1]
  refine ⟨m6, ?_, ⟨?_, ?_, ?_, ?_⟩, ?_, ?_⟩
  · exact det_append (det_append (det_append (det_append (det_append (det_append d0 d1) d2) d3) d4) d5) d6
  · intro i j k h
    rw [f6.view i j k h, ← chRhs3_of_view h2 p dx f0.view h]
    rw [f5.frame _ hbr, f4.frame w.bihar (by tauto), f3.view i j k h]
    rw [f5.frame _ hlr, f4.frame w.lapRhs (by tauto), f3.frame w.lapRhs (by tauto), f2.view i j k h]
    rw [f5.frame _ hnr, f4.view i j k h]
    rw [lap_of_lapArg (by omega) f1.view dx h]
    have hv : G.g.view m2 w.c = G.g.view m0 w.c := by
      funext x y z; simp only [Grid3.view]; rw [hc2, hc1]
    rw [hv, hc3, hc2, hc1]
    rfl
  · intro i j k h; rw [hc]; exact f0.view i j k h
  · intro n hn; rw [hc]; exact f0.out n hn
  · intro b hb
    simp only [List.mem_cons, not_or] at hb
    rw [f6.frame b (by tauto), f5.frame b (by tauto), f4.frame b (by tauto), f3.frame b (by tauto),
      f2.frame b (by tauto), f1.frame b (by tauto), f0.frame b (by tauto)]
  · intro n h0 h1 hn
    rw [f6.out n hn, f5.view n h0 h1]
  · intro n hn
    rw [f6.out n (fun i j k h e => hn (by rw [← e]; exact Grid3.at3_bounds (h.pad hG.ok))), f5.out n hn,
      f4.frame w.r (by tauto), f3.frame w.r (by tauto), f2.frame w.r (by tauto), f1.frame w.r (by tauto),
      f0.frame w.r (by tauto)]

theorem evalRHS_det {G : Geom3} (hG : G.Ok) {sz : A → Int} {w : CHArr A} (hw : w.Ok sz G.g)
    (h2 : 2 ≤ G.g.nhalo) (hi : G.g.nhalo ≤ G.g.ni) (hj : G.g.nhalo ≤ G.g.nj) (hk : G.g.nhalo ≤ G.g.nk)
    {v : Int} (hv : ctorCH3 v = .ok ()) (p : CHParams K) (dx : K) (m : Mem A K) :
    ∃ m', Det sz (G.evalRHS v p dx w) m m' ∧ RhsPost G p dx w m m' ∧
      (∀ n, ¬ (0 ≤ n ∧ n < G.g.size) → m' w.r n = m w.r n) ∧
      (∀ n, (∀ i j k, G.g.Int3 i j k → G.g.at3 i j k ≠ n) → m' w.r n = m w.r n ∨ m' w.r n = 0) := by
  have hout : ∀ n, ¬ (0 ≤ n ∧ n < G.g.size) → ∀ i j k, G.g.Int3 i j k → G.g.at3 i j k ≠ n := by
    intro n hn i j k h e
    exact hn (by rw [← e]; exact Grid3.at3_bounds (h.pad hG.ok))
  unfold ctorCH3 at hv
  split at hv
  next hv' =>
    unfold Geom3.evalRHS
    by_cases h0 : v = 0
    · rw [if_pos h0]
      obtain ⟨m', d, q, z, f⟩ := basic_det hG hw h2 hi hj hk p dx m
      refine ⟨m', d, q, f, fun n hn => ?_⟩
      by_cases hb : 0 ≤ n ∧ n < G.g.size
      · exact Or.inr (z n hb.1 hb.2 hn)
      · exact Or.inl (f n hb)
    · rw [if_neg h0]
      by_cases h1 : v = 1
      · rw [if_pos h1]
        obtain ⟨m', d, q, f⟩ := fused_det hG hw h2 hi hj hk p dx m
        exact ⟨m', d, q, fun n hn => f n (hout n hn), fun n hn => Or.inl (f n hn)⟩
      · rw [if_neg h1, if_pos (by omega)]
        obtain ⟨m', d, q, f, -⟩ := fullyFused_det hG hw h2 hi hj hk p dx m
        exact ⟨m', d, q, fun n hn => f n (hout n hn), fun n hn => Or.inl (f n hn)⟩
  next => simp at hv

end Madg
