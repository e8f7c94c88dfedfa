/-
The kernels in any arithmetic: which expression of the state every cell receives, without using laws of arithmetic.
-/
import Verif.Proofs.CH3
import Verif.Proofs.CH2
import Verif.Proofs.Poisson
import Verif.Proofs.RK
import Verif.Proofs.Agree

set_option linter.unusedSectionVars false
set_option linter.unusedVariables false

namespace Madg
open Spec
variable {A K : Type} [DecidableEq A] [Arith K]

/-! ### Three dimensions -/

/-- The Laplacian as the code computes it. -/
def lapA (dx : K) (u : Int → Int → Int → K) (i j k : Int) : K :=
  Geom3.lapExpr (fun x y z => u (i + x) (j + y) (k + z)) (dx * dx)

/-- The biharmonic operator as the code computes it, `dx4` being the denominator. -/
def bihA (dx4 : K) (u : Int → Int → Int → K) (i j k : Int) : K :=
  Geom3.biharmExpr (fun x y z => u (i + x) (j + y) (k + z)) dx4

/-- The right-hand side as the code computes it. -/
def chA (p : CHParams K) (dx dx4 : K) (u : Int → Int → Int → K) (i j k : Int) : K :=
  -p.eps2 * bihA dx4 u i j k + lapA dx (fun x y z => u x y z ^ 3 - u x y z) i j k - p.sigma * (u i j k - p.m)

theorem biharmExpr_congr {f f' : Int → Int → Int → K} (dx4 : K)
    (h : ∀ x y z, (x, y, z) ∈ Geom3.biharmOffsets → f x y z = f' x y z) : Geom3.biharmExpr f dx4 = Geom3.biharmExpr f' dx4 := by
  simp only [Geom3.biharmExpr]
  rw [h 0 0 0 (by decide), h 1 0 0 (by decide), h 0 1 0 (by decide), h 0 0 1 (by decide),
    h (-1) 0 0 (by decide), h 0 (-1) 0 (by decide), h 0 0 (-1) (by decide),
    h 2 0 0 (by decide), h 0 2 0 (by decide), h 0 0 2 (by decide),
    h (-2) 0 0 (by decide), h 0 (-2) 0 (by decide), h 0 0 (-2) (by decide),
    h (-1) (-1) 0 (by decide), h (-1) 1 0 (by decide), h 1 (-1) 0 (by decide), h 1 1 0 (by decide),
    h (-1) 0 (-1) (by decide), h 1 0 (-1) (by decide), h 0 (-1) (-1) (by decide), h 0 1 (-1) (by decide),
    h (-1) 0 1 (by decide), h 1 0 1 (by decide), h 0 (-1) 1 (by decide), h 0 1 1 (by decide)]

theorem lapExpr_congr {f f' : Int → Int → Int → K} (dx2 : K)
    (h : ∀ x y z, (x, y, z) ∈ Geom3.lapOffsets → f x y z = f' x y z) : Geom3.lapExpr f dx2 = Geom3.lapExpr f' dx2 := by
  simp only [Geom3.lapExpr]
  rw [h 0 0 0 (by decide), h 1 0 0 (by decide), h 0 1 0 (by decide), h 0 0 1 (by decide),
    h (-1) 0 0 (by decide), h 0 (-1) 0 (by decide), h 0 0 (-1) (by decide)]

theorem lapA_congr {dx : K} {u v : Int → Int → Int → K} {i j k : Int}
    (h : ∀ x y z, (-1 ≤ x ∧ x ≤ 1) → (-1 ≤ y ∧ y ≤ 1) → (-1 ≤ z ∧ z ≤ 1) →
      u (i + x) (j + y) (k + z) = v (i + x) (j + y) (k + z)) : lapA dx u i j k = lapA dx v i j k :=
  lapExpr_congr _ fun x y z hm => by
    obtain ⟨hx, hy, hz⟩ := lapOffsets_le _ hm
    exact h x y z hx hy hz

theorem bihA_congr {dx : K} {u v : Int → Int → Int → K} {i j k : Int}
    (h : ∀ x y z, (-2 ≤ x ∧ x ≤ 2) → (-2 ≤ y ∧ y ≤ 2) → (-2 ≤ z ∧ z ≤ 2) →
      u (i + x) (j + y) (k + z) = v (i + x) (j + y) (k + z)) : bihA dx u i j k = bihA dx v i j k :=
  biharmExpr_congr _ fun x y z hm => by
    obtain ⟨hx, hy, hz⟩ := biharmOffsets_le _ hm
    exact h x y z hx hy hz

/-- Extension of the interior by the boundary conditions, in any arithmetic. -/
def Geom3.extA (G : Geom3) (m : Mem A K) (a : A) : Int → Int → Int → K :=
  ext3 G.xbc G.ybc G.zbc G.g.ni G.g.nj G.g.nk (G.g.view m a)

theorem chA_of_view {G : Geom3} {m m' : Mem A K} {a : A} (h2 : 2 ≤ G.g.nhalo) (p : CHParams K) (dx dx4 : K)
    (h : ∀ i j k, G.g.Pad i j k → m' a (G.g.at3 i j k) = G.extA m a i j k) {i j k : Int}
    (hi : G.g.Int3 i j k) :
    chA p dx dx4 (G.g.view m' a) i j k = chA p dx dx4 (G.extA m a) i j k := by
  unfold chA
  have e0 := h _ _ _ (pad_of_int_off h2 hi (x := 0) (y := 0) (z := 0) (by decide) (by decide) (by decide))
  simp only [Int.add_zero] at e0
  congr 1
  · congr 1
    · congr 1
      exact bihA_congr fun x y z hx hy hz => h _ _ _ (pad_of_int_off h2 hi hx hy hz)
    · refine lapA_congr fun x y z hx hy hz => ?_
      have := h _ _ _ (pad_of_int_off1 (by omega) hi hx hy hz)
      simp only [Grid3.view]
      rw [this]
  · simp only [Grid3.view, e0]

theorem laplacian_detA {G : Geom3} (hG : G.Ok) {sz : A → Int} {s d : A} (hne : s ≠ d)
    (hs : sz s = G.g.size) (hd : sz d = G.g.size) (h1 : 1 ≤ G.g.nhalo) (dx : K) (m : Mem A K) :
    ∃ m', Det sz (G.laplacian dx s d) m m' ∧ Writes G.g d m m' (lapA dx (G.g.view m s)) := by
  refine interior_det hG _ _ m ?_ ?_
  · intro i j k h
    obtain ⟨e1, e2, e3⟩ := Grid3.get_at3 (h.pad hG.ok)
    simp only [e1, e2, e3]
    have hb : ∀ x y z, (-1 ≤ x ∧ x ≤ 1) → (-1 ≤ y ∧ y ≤ 1) → (-1 ≤ z ∧ z ≤ 1) →
        InB sz s (G.g.at3 (i + x) (j + y) (k + z)) := by
      intro x y z hx hy hz
      rw [InB, hs]; exact Grid3.at3_bounds (pad_of_int_off1 h1 h hx hy hz)
    have e : ∀ t : Int, t - 1 = t + -1 := fun t => rfl
    refine ⟨?_, Or.inl hne, fun _ => ⟨?_, Or.inl hne, fun _ => ⟨?_, Or.inl hne, fun _ =>
      ⟨?_, Or.inl hne, fun _ => ⟨?_, Or.inl hne, fun _ => ⟨?_, Or.inl hne, fun _ =>
      ⟨?_, Or.inl hne, fun _ => ⟨?_, ⟨rfl, rfl⟩, trivial⟩⟩⟩⟩⟩⟩⟩⟩
    · simpa [e] using hb (-1) 0 0 (by decide) (by decide) (by decide)
    · simpa using hb 1 0 0 (by decide) (by decide) (by decide)
    · simpa [e] using hb 0 (-1) 0 (by decide) (by decide) (by decide)
    · simpa using hb 0 1 0 (by decide) (by decide) (by decide)
    · simpa [e] using hb 0 0 (-1) (by decide) (by decide) (by decide)
    · simpa using hb 0 0 1 (by decide) (by decide) (by decide)
    · simpa using hb 0 0 0 (by decide) (by decide) (by decide)
    · rw [InB, hd]; exact Grid3.at3_bounds (h.pad hG.ok)
  · intro i j k h
    obtain ⟨e1, e2, e3⟩ := Grid3.get_at3 (h.pad hG.ok)
    simp only [e1, e2, e3]
    refine (Mem.set_same _ _ _ _).trans ?_
    simp only [lapA, Geom3.lapExpr, Grid3.view, Int.add_zero]
    rfl

theorem biharmonic_detA {G : Geom3} (hG : G.Ok) {sz : A → Int} {s d : A} (hne : s ≠ d)
    (hs : sz s = G.g.size) (hd : sz d = G.g.size) (h2 : 2 ≤ G.g.nhalo) (dx : K) (m : Mem A K) :
    ∃ m', Det sz (G.biharmonic dx s d) m m' ∧ Writes G.g d m m' (bihA (dx * dx * dx * dx) (G.g.view m s)) := by
  refine interior_det hG _ _ m ?_ ?_
  · intro i j k h
    obtain ⟨e1, e2, e3⟩ := Grid3.get_at3 (h.pad hG.ok)
    simp only [e1, e2, e3]
    refine loadStencil_foot ?_ ?_
    · intro o ho
      obtain ⟨hx, hy, hz⟩ := biharmOffsets_le o ho
      refine ⟨?_, Or.inl hne⟩
      rw [InB, hs]; exact Grid3.at3_bounds (pad_of_int_off h2 h hx hy hz)
    · intro f
      refine ⟨?_, ⟨rfl, rfl⟩, trivial⟩
      rw [InB, hd]; exact Grid3.at3_bounds (h.pad hG.ok)
  · intro i j k h
    obtain ⟨e1, e2, e3⟩ := Grid3.get_at3 (h.pad hG.ok)
    simp only [e1, e2, e3]
    rw [loadStencil_exec]
    refine (Mem.set_same _ _ _ _).trans ?_
    exact biharmExpr_congr _ fun x y z hm => if_pos hm

/-- What a right-hand-side evaluation does to memory. -/
structure RhsPostA (G : Geom3) (p : CHParams K) (dx dx4 : K) (w : CHArr A) (m m' : Mem A K) : Prop where
  rhs : ∀ i j k, G.g.Int3 i j k → m' w.r (G.g.at3 i j k) = chA p dx dx4 (G.extA m w.c) i j k
  state : ∀ i j k, G.g.Pad i j k → m' w.c (G.g.at3 i j k) = G.extA m w.c i j k
  halo : ∀ n, (∀ i j k, G.g.Int3 i j k → G.g.at3 i j k ≠ n) → m' w.r n = m w.r n ∨ m' w.r n = 0
  frame : ∀ b, b ∉ [w.c, w.r, w.lapRhs, w.lapArg, w.bihar, w.lin] → m' b = m b

theorem lapArg_detA {G : Geom3} {sz : A → Int} {w : CHArr A} (hw : w.Ok sz G.g) (m : Mem A K) :
    ∃ m', Det sz (G.lapArgLoop w) m m' ∧
      WritesAll G.g.size w.lapArg m m' (fun n => m w.c n ^ 3 - m w.c n) := by
  have hnd := hw.nodup
  simp only [List.nodup_cons, List.mem_cons, not_or, List.not_mem_nil, not_false_eq_true,
    List.nodup_nil, and_true] at hnd
  have hsc := hw.size w.c (by simp); have hsl := hw.size w.lapArg (by simp)
  refine forAll_det _ _ _ m ?_ ?_
  · intro i h0 h1
    refine ⟨?_, Or.inl (by tauto), fun v => ⟨?_, ⟨rfl, rfl⟩, trivial⟩⟩
    · rw [InB, hsc]; exact ⟨h0, h1⟩
    · rw [InB, hsl]; exact ⟨h0, h1⟩
  · intro i h0 h1
    exact Mem.set_same _ _ _ _

theorem lapA_of_lapArg {G : Geom3} {m1 m2 : Mem A K} {c l : A} (h1 : 1 ≤ G.g.nhalo)
    (hl : ∀ n, 0 ≤ n → n < G.g.size → m2 l n = m1 c n ^ 3 - m1 c n) (dx : K) {i j k : Int}
    (h : G.g.Int3 i j k) :
    lapA dx (G.g.view m2 l) i j k =
      lapA dx (fun x y z => G.g.view m1 c x y z ^ 3 - G.g.view m1 c x y z) i j k := by
  refine lapA_congr fun x y z hx hy hz => ?_
  have hb := Grid3.at3_bounds (pad_of_int_off1 h1 h hx hy hz)
  exact hl _ hb.1 hb.2

theorem fullyFused_detA {G : Geom3} (hG : G.Ok) {sz : A → Int} {w : CHArr A} (hw : w.Ok sz G.g)
    (h2 : 2 ≤ G.g.nhalo) (hi : G.g.nhalo ≤ G.g.ni) (hj : G.g.nhalo ≤ G.g.nj) (hk : G.g.nhalo ≤ G.g.nk)
    (p : CHParams K) (dx : K) (m : Mem A K) :
    ∃ m', Det sz (G.evalRHSFullyFused p dx w) m m' ∧ RhsPostA G p dx (dx * dx * (dx * dx)) w m m' := by
  have hnd := hw.nodup
  simp only [List.nodup_cons, List.mem_cons, not_or, List.not_mem_nil, not_false_eq_true,
    List.nodup_nil, and_true] at hnd
  have hsc := hw.size w.c (by simp); have hsr := hw.size w.r (by simp)
  obtain ⟨m1, d1, f1⟩ := bc_det (K := K) hG hsc hi hj hk m
  have hcr : w.c ≠ w.r := by tauto
  obtain ⟨m2, d2, f2⟩ := interior_det (K := K) hG (sz := sz) (r := w.r) (fun n =>
    Geom3.loadStencil G.g w.c (G.g.getI n) (G.g.getJ n) (G.g.getK n) Geom3.lapOffsets fun fl =>
    Geom3.loadStencil G.g w.c (G.g.getI n) (G.g.getJ n) (G.g.getK n) Geom3.biharmOffsets fun f =>
      Prog.wr w.r (G.g.at3 (G.g.getI n) (G.g.getJ n) (G.g.getK n))
        (-p.eps2 * Geom3.biharmExpr f (dx * dx * (dx * dx)) +
          Geom3.lapExpr (fun x y z => fl x y z ^ 3 - fl x y z) (dx * dx) - p.sigma * (f 0 0 0 - p.m)))
    (chA p dx (dx * dx * (dx * dx)) (G.g.view m1 w.c)) m1 (by
      intro i j k h
      obtain ⟨e1, e2, e3⟩ := Grid3.get_at3 (h.pad hG.ok)
      simp only [e1, e2, e3]
      refine loadStencil_foot ?_ fun fl => loadStencil_foot ?_ fun f => ⟨?_, ⟨rfl, rfl⟩, trivial⟩
      · intro o ho
        obtain ⟨hx, hy, hz⟩ := lapOffsets_le o ho
        refine ⟨?_, Or.inl hcr⟩
        rw [InB, hsc]; exact Grid3.at3_bounds (pad_of_int_off1 (by omega) h hx hy hz)
      · intro o ho
        obtain ⟨hx, hy, hz⟩ := biharmOffsets_le o ho
        refine ⟨?_, Or.inl hcr⟩
        rw [InB, hsc]; exact Grid3.at3_bounds (pad_of_int_off h2 h hx hy hz)
      · rw [InB, hsr]; exact Grid3.at3_bounds (h.pad hG.ok)) (by
      intro i j k h
      obtain ⟨e1, e2, e3⟩ := Grid3.get_at3 (h.pad hG.ok)
      simp only [e1, e2, e3]
      rw [loadStencil_exec, loadStencil_exec]
      refine (Mem.set_same _ _ _ _).trans ?_
      have eb : Geom3.biharmExpr (fun x y z => if (x, y, z) ∈ Geom3.biharmOffsets then m1 w.c (G.g.at3 (i + x) (j + y) (k + z)) else 0)
          (dx * dx * (dx * dx)) = bihA (dx * dx * (dx * dx)) (G.g.view m1 w.c) i j k :=
        biharmExpr_congr _ fun x y z hm => if_pos hm
      have el : Geom3.lapExpr (fun x y z =>
          (if (x, y, z) ∈ Geom3.lapOffsets then m1 w.c (G.g.at3 (i + x) (j + y) (k + z)) else 0) ^ 3 -
          (if (x, y, z) ∈ Geom3.lapOffsets then m1 w.c (G.g.at3 (i + x) (j + y) (k + z)) else 0)) (dx * dx) =
          lapA dx (fun x y z => G.g.view m1 w.c x y z ^ 3 - G.g.view m1 w.c x y z) i j k :=
        lapExpr_congr _ fun x y z hm => by simp only [if_pos hm]; rfl
      dsimp only
      rw [eb, el, if_pos (by decide)]
      simp only [Int.add_zero]
      rfl)
  refine ⟨m2, det_append d1 d2, ⟨?_, ?_, ?_, ?_⟩⟩
  · intro i j k h
    rw [f2.view i j k h]
    exact chA_of_view h2 p dx _ f1.view h
  · intro i j k h
    rw [f2.frame _ hcr]; exact f1.view i j k h
  · intro n hn
    rw [f2.out n hn, f1.frame w.r (Ne.symm hcr)]
    exact Or.inl rfl
  · intro b hb
    simp only [List.mem_cons, not_or] at hb
    rw [f2.frame b (by tauto), f1.frame b (by tauto)]

theorem fused_detA {G : Geom3} (hG : G.Ok) {sz : A → Int} {w : CHArr A} (hw : w.Ok sz G.g)
    (h2 : 2 ≤ G.g.nhalo) (hi : G.g.nhalo ≤ G.g.ni) (hj : G.g.nhalo ≤ G.g.nj) (hk : G.g.nhalo ≤ G.g.nk)
    (p : CHParams K) (dx : K) (m : Mem A K) :
    ∃ m', Det sz (G.evalRHSFused p dx w) m m' ∧ RhsPostA G p dx (dx * dx * (dx * dx)) w m m' := by
  have hnd := hw.nodup
  simp only [List.nodup_cons, List.mem_cons, not_or, List.not_mem_nil, not_false_eq_true,
    List.nodup_nil, and_true] at hnd
  have hsc := hw.size w.c (by simp); have hsr := hw.size w.r (by simp); have hsl := hw.size w.lapArg (by simp)
  obtain ⟨m0, d0, f0⟩ := bc_det (K := K) hG hsc hi hj hk m
  obtain ⟨m1, d1, f1⟩ := lapArg_detA hw m0
  have hcr : w.c ≠ w.r := by tauto
  have hlr : w.lapArg ≠ w.r := by tauto
  have hcl : w.c ≠ w.lapArg := by tauto
  obtain ⟨m2, d2, f2⟩ := interior_det (K := K) hG (sz := sz) (r := w.r) (fun n =>
    Geom3.loadStencil G.g w.lapArg (G.g.getI n) (G.g.getJ n) (G.g.getK n) Geom3.lapOffsets fun la =>
    Geom3.loadStencil G.g w.c (G.g.getI n) (G.g.getJ n) (G.g.getK n) Geom3.biharmOffsets fun f =>
      Prog.wr w.r (G.g.at3 (G.g.getI n) (G.g.getJ n) (G.g.getK n))
        (-p.eps2 * Geom3.biharmExpr f (dx * dx * (dx * dx)) +
          Geom3.lapExpr la (dx * dx) - p.sigma * (f 0 0 0 - p.m)))
    (chA p dx (dx * dx * (dx * dx)) (G.g.view m0 w.c)) m1 (by
      intro i j k h
      obtain ⟨e1, e2, e3⟩ := Grid3.get_at3 (h.pad hG.ok)
      simp only [e1, e2, e3]
      refine loadStencil_foot ?_ fun fl => loadStencil_foot ?_ fun f => ⟨?_, ⟨rfl, rfl⟩, trivial⟩
      · intro o ho
        obtain ⟨hx, hy, hz⟩ := lapOffsets_le o ho
        refine ⟨?_, Or.inl hlr⟩
        rw [InB, hsl]; exact Grid3.at3_bounds (pad_of_int_off1 (by omega) h hx hy hz)
      · intro o ho
        obtain ⟨hx, hy, hz⟩ := biharmOffsets_le o ho
        refine ⟨?_, Or.inl hcr⟩
        rw [InB, hsc]; exact Grid3.at3_bounds (pad_of_int_off h2 h hx hy hz)
      · rw [InB, hsr]; exact Grid3.at3_bounds (h.pad hG.ok)) (by
      intro i j k h
      obtain ⟨e1, e2, e3⟩ := Grid3.get_at3 (h.pad hG.ok)
      simp only [e1, e2, e3]
      rw [loadStencil_exec, loadStencil_exec]
      refine (Mem.set_same _ _ _ _).trans ?_
      unfold chA
      congr 1
      · congr 1
        · congr 1
          refine biharmExpr_congr _ fun x y z hm => ?_
          rw [if_pos hm, f1.frame _ hcl]
          rfl
        · rw [← lapA_of_lapArg (by omega) f1.view dx h]
          exact lapExpr_congr _ fun x y z hm => if_pos hm
      · dsimp only
        rw [if_pos (by decide), f1.frame _ hcl]
        simp only [Int.add_zero]
        rfl)
  refine ⟨m2, det_append (det_append d0 d1) d2, ⟨?_, ?_, ?_, ?_⟩⟩
  · intro i j k h
    rw [f2.view i j k h]
    exact chA_of_view h2 p dx _ f0.view h
  · intro i j k h
    rw [f2.frame _ hcr, f1.frame _ hcl]; exact f0.view i j k h
  · intro n hn
    rw [f2.out n hn, f1.frame w.r (Ne.symm hlr), f0.frame w.r (Ne.symm hcr)]
    exact Or.inl rfl
  · intro b hb
    simp only [List.mem_cons, not_or] at hb
    rw [f2.frame b (by tauto), f1.frame b (by tauto), f0.frame b (by tauto)]

theorem basic_detA {G : Geom3} (hG : G.Ok) {sz : A → Int} {w : CHArr A} (hw : w.Ok sz G.g)
    (h2 : 2 ≤ G.g.nhalo) (hi : G.g.nhalo ≤ G.g.ni) (hj : G.g.nhalo ≤ G.g.nj) (hk : G.g.nhalo ≤ G.g.nk)
    (p : CHParams K) (dx : K) (m : Mem A K) :
    ∃ m', Det sz (G.evalRHSBasic p dx w) m m' ∧ RhsPostA G p dx (dx * dx * dx * dx) w m m' := by
  have hnd := hw.nodup
  simp only [List.nodup_cons, List.mem_cons, not_or, List.not_mem_nil, not_false_eq_true,
    List.nodup_nil, and_true] at hnd
  have hsc := hw.size w.c (by simp); have hsr := hw.size w.r (by simp); have hsl := hw.size w.lapArg (by simp)
  have hsl2 := hw.size w.lapRhs (by simp); have hsb := hw.size w.bihar (by simp)
  have hsn := hw.size w.lin (by simp)
  obtain ⟨m0, d0, f0⟩ := bc_det (K := K) hG hsc hi hj hk m
  obtain ⟨m1, d1, f1⟩ := lapArg_detA hw m0
  obtain ⟨m2, d2, f2⟩ := laplacian_detA hG (s := w.lapArg) (d := w.lapRhs) (by tauto) hsl hsl2 (by omega) dx m1
  obtain ⟨m3, d3, f3⟩ := biharmonic_detA hG (s := w.c) (d := w.bihar) (by tauto) hsc hsb h2 dx m2
  have hcl : w.c ≠ w.lin := by tauto
  obtain ⟨m4, d4, f4⟩ := interior_det (K := K) hG (sz := sz) (r := w.lin)
    (fun i => .load w.c i fun v => .store w.lin i (p.sigma * (v - p.m)) (.pure ()))
    (fun i j k => p.sigma * (m3 w.c (G.g.at3 i j k) - p.m)) m3 (by
      intro i j k h
      refine ⟨?_, Or.inl hcl, fun v => ⟨?_, ⟨rfl, rfl⟩, trivial⟩⟩
      · rw [InB, hsc]; exact Grid3.at3_bounds (h.pad hG.ok)
      · rw [InB, hsn]; exact Grid3.at3_bounds (h.pad hG.ok)) (by
      intro i j k h; exact Mem.set_same _ _ _ _)
  obtain ⟨m5, d5, f5⟩ := forAll_det (K := K) (sz := sz) (r := w.r) G.g.size
    (fun i => .store w.r i 0 (.pure ())) (fun _ => 0) m4 (by
      intro i h0 h1
      refine ⟨?_, ⟨rfl, rfl⟩, trivial⟩
      rw [InB, hsr]; exact ⟨h0, h1⟩) (by
      intro i h0 h1; exact Mem.set_same _ _ _ _)
  have hbr : w.bihar ≠ w.r := by tauto
  have hlr : w.lapRhs ≠ w.r := by tauto
  have hnr : w.lin ≠ w.r := by tauto
  have hcr : w.c ≠ w.r := by tauto
  obtain ⟨m6, d6, f6⟩ := interior_det (K := K) hG (sz := sz) (r := w.r)
    (fun i => .load w.bihar i fun b => .load w.lapRhs i fun l => .load w.lin i fun s =>
      .store w.r i (-p.eps2 * b + l - s) (.pure ()))
    (fun i j k => -p.eps2 * m5 w.bihar (G.g.at3 i j k) + m5 w.lapRhs (G.g.at3 i j k) -
      m5 w.lin (G.g.at3 i j k)) m5 (by
      intro i j k h
      have hb := Grid3.at3_bounds (h.pad hG.ok)
      refine ⟨?_, Or.inl hbr, fun _ => ⟨?_, Or.inl hlr, fun _ => ⟨?_, Or.inl hnr, fun _ =>
        ⟨?_, ⟨rfl, rfl⟩, trivial⟩⟩⟩⟩
      · rw [InB, hsb]; exact hb
      · rw [InB, hsl2]; exact hb
      · rw [InB, hsn]; exact hb
      · rw [InB, hsr]; exact hb) (by
      intro i j k h; exact Mem.set_same _ _ _ _)
  have hc1 : m1 w.c = m0 w.c := f1.frame _ (by tauto)
  have hc2 : m2 w.c = m1 w.c := f2.frame _ (by tauto)
  have hc3 : m3 w.c = m2 w.c := f3.frame _ (by tauto)
  have hc4 : m4 w.c = m3 w.c := f4.frame _ (by tauto)
  have hc5 : m5 w.c = m4 w.c := f5.frame _ (by tauto)
  have hc6 : m6 w.c = m5 w.c := f6.frame _ (by tauto)
  have hc : m6 w.c = m0 w.c := by rw [hc6, hc5, hc4, hc3, hc2, hc1]
  refine ⟨m6, ?_, ⟨?_, ?_, ?_, ?_⟩⟩
  · exact det_append (det_append (det_append (det_append (det_append (det_append d0 d1) d2) d3) d4) d5) d6
  · intro i j k h
    rw [f6.view i j k h, ← chA_of_view h2 p dx _ f0.view h]
    rw [f5.frame _ hbr, f4.frame w.bihar (by tauto), f3.view i j k h]
    rw [f5.frame _ hlr, f4.frame w.lapRhs (by tauto), f3.frame w.lapRhs (by tauto), f2.view i j k h]
    rw [f5.frame _ hnr, f4.view i j k h]
    rw [lapA_of_lapArg (by omega) f1.view dx h]
    have hv : G.g.view m2 w.c = G.g.view m0 w.c := by
      funext x y z; simp only [Grid3.view]; rw [hc2, hc1]
    rw [hv, hc3, hc2, hc1]
    rfl
  · intro i j k h; rw [hc]; exact f0.view i j k h
  · intro n hn
    by_cases hb : 0 ≤ n ∧ n < G.g.size
    · rw [f6.out n hn, f5.view n hb.1 hb.2]
      exact Or.inr rfl
    · rw [f6.out n hn, f5.out n hb,
        f4.frame w.r (by tauto), f3.frame w.r (by tauto), f2.frame w.r (by tauto), f1.frame w.r (by tauto),
        f0.frame w.r (by tauto)]
      exact Or.inl rfl
  · intro b hb
    simp only [List.mem_cons, not_or] at hb
    rw [f6.frame b (by tauto), f5.frame b (by tauto), f4.frame b (by tauto), f3.frame b (by tauto),
      f2.frame b (by tauto), f1.frame b (by tauto), f0.frame b (by tauto)]

/-- The denominator of the biharmonic operator, computed differently by the variants. -/
def dx4A (v : Int) (dx : K) : K := if v = 0 then dx * dx * dx * dx else dx * dx * (dx * dx)

theorem evalRHS_detA {G : Geom3} (hG : G.Ok) {sz : A → Int} {w : CHArr A} (hw : w.Ok sz G.g)
    (h2 : 2 ≤ G.g.nhalo) (hi : G.g.nhalo ≤ G.g.ni) (hj : G.g.nhalo ≤ G.g.nj) (hk : G.g.nhalo ≤ G.g.nk)
    {v : Int} (hv : ctorCH3 v = .ok ()) (p : CHParams K) (dx : K) (m : Mem A K) :
    ∃ m', Det sz (G.evalRHS v p dx w) m m' ∧ RhsPostA G p dx (dx4A v dx) w m m' := by
  unfold ctorCH3 at hv
  split at hv
  next hv' =>
    unfold Geom3.evalRHS dx4A
    by_cases h0 : v = 0
    · rw [if_pos h0, if_pos h0]
      exact basic_detA hG hw h2 hi hj hk p dx m
    · rw [if_neg h0, if_neg h0]
      by_cases h1 : v = 1
      · rw [if_pos h1]
        exact fused_detA hG hw h2 hi hj hk p dx m
      · rw [if_neg h1, if_pos (by omega)]
        exact fullyFused_detA hG hw h2 hi hj hk p dx m
  next => simp at hv

/-! ### The Poisson problem -/

theorem source_detA {G : Geom3} (hG : G.Ok) {sz : A → Int} {w : PoisArr A} (hw : w.Ok G.g sz) (sn cs : K → K) (m : Mem A K) :
    ∃ m', Det sz (G.addSource sn cs w) m m' ∧
      Writes G.g w.r m m' fun i j k => m w.r (G.g.at3 i j k) +
        3 * sn (m w.x (G.g.at3 i j k)) * cs (m w.y (G.g.at3 i j k)) * cs (m w.z (G.g.at3 i j k)) := by
  refine interior_det hG _ _ m ?_ ?_
  · intro i j k h
    obtain ⟨e1, e2, e3⟩ := Grid3.get_at3 (h.pad hG.ok)
    simp only [e1, e2, e3]
    have hb := Grid3.at3_bounds (h.pad hG.ok)
    refine ⟨?_, Or.inl hw.rx.1, fun _ => ⟨?_, Or.inl hw.rx.2.1, fun _ => ⟨?_, Or.inl hw.rx.2.2, fun _ => ⟨?_, Or.inr rfl, fun _ =>
      ⟨?_, ⟨rfl, rfl⟩, trivial⟩⟩⟩⟩⟩
    · rw [InB, hw.sx.1]; exact hb
    · rw [InB, hw.sx.2.1]; exact hb
    · rw [InB, hw.sx.2.2]; exact hb
    · rw [InB, hw.sr]; exact hb
    · rw [InB, hw.sr]; exact hb
  · intro i j k h
    obtain ⟨e1, e2, e3⟩ := Grid3.get_at3 (h.pad hG.ok)
    simp only [e1, e2, e3]
    exact Mem.set_same _ _ _ _

theorem poisson_hdet {G : Geom3} (hG : G.Ok) {sz : A → Int} {w : PoisArr A} (hw : w.Ok G.g sz) (h1 : 1 ≤ G.g.nhalo)
    (hi : G.g.nhalo ≤ G.g.ni) (hj : G.g.nhalo ≤ G.g.nj) (hk : G.g.nhalo ≤ G.g.nk) (sn cs : K → K) (dx : K) :
    HDet sz (G.poissonRHS sn cs dx w) := by
  refine HDet.append (HDet.append (HDet.append ?_ ?_) ?_) ?_ <;> intro m
  · obtain ⟨m1, d1, -⟩ := periodic_det (K := K) hG hw.sc hi hj hk m; exact ⟨m1, d1⟩
  · obtain ⟨m2, d2, -⟩ := dirichlet_det hG hw sn cs m; exact ⟨m2, d2⟩
  · obtain ⟨m3, d3, -⟩ := laplacian_detA hG hw.cr hw.sc hw.sr h1 dx m; exact ⟨m3, d3⟩
  · obtain ⟨m4, d4, -⟩ := source_detA hG hw sn cs m; exact ⟨m4, d4⟩

/-! ### Two dimensions -/

theorem laplacian2_hdet {G : Geom2} (hG : G.Ok) {sz : A → Int} {s d : A} (hne : s ≠ d)
    (hs : sz s = G.g.size) (hd : sz d = G.g.size) (h1 : 1 ≤ G.g.nhalo) (dx : K) (m : Mem A K) :
    ∃ m', Det sz (G.laplacian dx s d) m m' ∧ Writes2 G.g d m m' fun i j =>
      Geom2.lapExpr (fun x y => if (x, y) ∈ Geom2.lapOffsets then m s (G.g.at2 (i + x) (j + y)) else 0) (dx * dx) := by
  refine interior2_det hG _ _ m ?_ ?_
  · intro i j h
    obtain ⟨e1, e2⟩ := Grid2.get_at2 (h.pad hG.ok)
    simp only [e1, e2]
    refine loadStencil2_foot ?_ fun f => ⟨?_, ⟨rfl, rfl⟩, trivial⟩
    · intro o ho
      obtain ⟨hx, hy⟩ := lapOffsets2_le o ho
      refine ⟨?_, Or.inl hne⟩
      rw [InB, hs]; exact Grid2.at2_bounds (pad_of_int2_off h1 h hx hy)
    · rw [InB, hd]; exact Grid2.at2_bounds (h.pad hG.ok)
  · intro i j h
    obtain ⟨e1, e2⟩ := Grid2.get_at2 (h.pad hG.ok)
    simp only [e1, e2]
    rw [loadStencil2_exec]
    exact Mem.set_same _ _ _ _

theorem biharmonic2_hdet {G : Geom2} (hG : G.Ok) {sz : A → Int} {s d : A} (hne : s ≠ d)
    (hs : sz s = G.g.size) (hd : sz d = G.g.size) (h2 : 2 ≤ G.g.nhalo) (dx : K) (m : Mem A K) :
    ∃ m', Det sz (G.biharmonic dx s d) m m' ∧ Writes2 G.g d m m' fun i j =>
      Geom2.biharmExpr (fun x y => if (x, y) ∈ Geom2.biharmOffsets then m s (G.g.at2 (i + x) (j + y)) else 0)
        (dx * dx * dx * dx) := by
  refine interior2_det hG _ _ m ?_ ?_
  · intro i j h
    obtain ⟨e1, e2⟩ := Grid2.get_at2 (h.pad hG.ok)
    simp only [e1, e2]
    refine loadStencil2_foot ?_ fun f => ⟨?_, ⟨rfl, rfl⟩, trivial⟩
    · intro o ho
      obtain ⟨hx, hy⟩ := biharmOffsets2_le o ho
      refine ⟨?_, Or.inl hne⟩
      rw [InB, hs]; exact Grid2.at2_bounds (pad_of_int2_off h2 h hx hy)
    · rw [InB, hd]; exact Grid2.at2_bounds (h.pad hG.ok)
  · intro i j h
    obtain ⟨e1, e2⟩ := Grid2.get_at2 (h.pad hG.ok)
    simp only [e1, e2]
    rw [loadStencil2_exec]
    exact Mem.set_same _ _ _ _

theorem evalRHS2_hdet {G : Geom2} (hG : G.Ok) {sz : A → Int} {w : CHArr A}
    (hnd : [w.c, w.r, w.lapRhs, w.lapArg, w.bihar, w.lin].Nodup)
    (hsz : ∀ a ∈ [w.c, w.r, w.lapRhs, w.lapArg, w.bihar, w.lin], sz a = G.g.size)
    (h2 : 2 ≤ G.g.nhalo) (hle : G.g.nhalo ≤ G.g.ni) (p : CHParams K) (dx : K) : HDet sz (G.evalRHS p dx w) := by
  simp only [List.nodup_cons, List.mem_cons, not_or, List.not_mem_nil, not_false_eq_true,
    List.nodup_nil, and_true] at hnd
  have hsc := hsz w.c (by simp); have hsr := hsz w.r (by simp); have hsl := hsz w.lapArg (by simp)
  have hsl2 := hsz w.lapRhs (by simp); have hsb := hsz w.bihar (by simp)
  have hsn := hsz w.lin (by simp)
  have hcl : w.c ≠ w.lin := by tauto
  have hca : w.c ≠ w.lapArg := by tauto
  have hbr : w.bihar ≠ w.r := by tauto
  have hlr : w.lapRhs ≠ w.r := by tauto
  have hnr : w.lin ≠ w.r := by tauto
  refine HDet.append (HDet.append (HDet.append (HDet.append (HDet.append (HDet.append ?_ ?_) ?_) ?_) ?_) ?_) ?_ <;> intro m
  · obtain ⟨m0, d0, -⟩ := periodic2_det (K := K) hG hle hsc m; exact ⟨m0, d0⟩
  · obtain ⟨m1, d1, -⟩ := forAll_det (K := K) (sz := sz) (r := w.lapArg) G.g.size
      (fun i => .load w.c i fun v => .store w.lapArg i (v ^ 3 - v) (.pure ()))
      (fun n => m w.c n ^ 3 - m w.c n) m (by
        intro i h0 h1
        refine ⟨?_, Or.inl hca, fun v => ⟨?_, ⟨rfl, rfl⟩, trivial⟩⟩
        · rw [InB, hsc]; exact ⟨h0, h1⟩
        · rw [InB, hsl]; exact ⟨h0, h1⟩) (by
        intro i h0 h1; exact Mem.set_same _ _ _ _)
    exact ⟨m1, d1⟩
  · obtain ⟨m2, d2, -⟩ := laplacian2_hdet hG (s := w.lapArg) (d := w.lapRhs) (by tauto) hsl hsl2 (by omega) dx m
    exact ⟨m2, d2⟩
  · obtain ⟨m3, d3, -⟩ := biharmonic2_hdet hG (s := w.c) (d := w.bihar) (by tauto) hsc hsb h2 dx m
    exact ⟨m3, d3⟩
  · obtain ⟨m4, d4, -⟩ := interior2_det (K := K) hG (sz := sz) (r := w.lin)
      (fun i => .load w.c i fun v => .store w.lin i (p.sigma * (v - p.m)) (.pure ()))
      (fun i j => p.sigma * (m w.c (G.g.at2 i j) - p.m)) m (by
        intro i j h
        refine ⟨?_, Or.inl hcl, fun v => ⟨?_, ⟨rfl, rfl⟩, trivial⟩⟩
        · rw [InB, hsc]; exact Grid2.at2_bounds (h.pad hG.ok)
        · rw [InB, hsn]; exact Grid2.at2_bounds (h.pad hG.ok)) (by
        intro i j h; exact Mem.set_same _ _ _ _)
    exact ⟨m4, d4⟩
  · obtain ⟨m5, d5, -⟩ := forAll_det (K := K) (sz := sz) (r := w.r) G.g.size
      (fun i => .store w.r i 0 (.pure ())) (fun _ => 0) m (by
        intro i h0 h1
        refine ⟨?_, ⟨rfl, rfl⟩, trivial⟩
        rw [InB, hsr]; exact ⟨h0, h1⟩) (by
        intro i h0 h1; exact Mem.set_same _ _ _ _)
    exact ⟨m5, d5⟩
  · obtain ⟨m6, d6, -⟩ := interior2_det (K := K) hG (sz := sz) (r := w.r)
      (fun i => .load w.bihar i fun b => .load w.lapRhs i fun l => .load w.lin i fun s =>
        .store w.r i (-p.eps2 * b + l - s) (.pure ()))
      (fun i j => -p.eps2 * m w.bihar (G.g.at2 i j) + m w.lapRhs (G.g.at2 i j) -
        m w.lin (G.g.at2 i j)) m (by
        intro i j h
        have hb := Grid2.at2_bounds (h.pad hG.ok)
        refine ⟨?_, Or.inl hbr, fun _ => ⟨?_, Or.inl hlr, fun _ => ⟨?_, Or.inl hnr, fun _ =>
          ⟨?_, ⟨rfl, rfl⟩, trivial⟩⟩⟩⟩
        · rw [InB, hsb]; exact hb
        · rw [InB, hsl2]; exact hb
        · rw [InB, hsn]; exact hb
        · rw [InB, hsr]; exact hb) (by
        intro i j h; exact Mem.set_same _ _ _ _)
    exact ⟨m6, d6⟩

/-! ### Time steps -/

section
variable {sz : A → Int} {N : Int} {scratch : A → Prop} {w : RKArr A} (hw : w.Ok sz N scratch)
  {rhs : A → A → K → Host A K}
  (hr : ∀ s r t, s ≠ r → ¬ scratch s → ¬ scratch r → sz s = N → sz r = N → HDet sz (rhs s r t))
include hw hr

theorem rk3_hdet (t dt : K) : HDet sz (rk3Step N rhs w t dt) := by
  have hnd := hw.nodup
  simp only [List.nodup_cons, List.mem_cons, not_or, List.not_mem_nil, not_false_eq_true,
    List.nodup_nil, and_true] at hnd
  have R : ∀ s r t, s ∈ [w.sol, w.res, w.k1, w.k2, w.k3, w.k4, w.stage] → r ∈ [w.sol, w.res, w.k1, w.k2, w.k3, w.k4, w.stage] →
      s ≠ r → HDet sz (rhs s r t) := fun s r t h1 h2 h =>
    hr s r t h (hw.fresh _ h1) (hw.fresh _ h2) (hw.size _ h1) (hw.size _ h2)
  refine HDet.append (HDet.append (HDet.append (HDet.append (HDet.append (HDet.append ?_ ?_) ?_) ?_) ?_) ?_) ?_
  · exact R _ _ _ (by simp) (by simp) (by tauto)
  · exact fun m => (stage2_det hw dt _ m).imp fun _ h => h.1
  · exact R _ _ _ (by simp) (by simp) (by tauto)
  · exact fun m => (stage3_det hw dt _ _ m).imp fun _ h => h.1
  · exact R _ _ _ (by simp) (by simp) (by tauto)
  · exact fun m => (residual_det hw _ _ _ m).imp fun _ h => h.1
  · exact fun m => (update_det hw dt m).imp fun _ h => h.1

theorem ode23_hdet (first : Bool) (t dt : K) : HDet sz (ode23Host N rhs w first t dt) := by
  have hnd := hw.nodup
  simp only [List.nodup_cons, List.mem_cons, not_or, List.not_mem_nil, not_false_eq_true,
    List.nodup_nil, and_true] at hnd
  have R : ∀ s r t, s ∈ [w.sol, w.res, w.k1, w.k2, w.k3, w.k4, w.stage] → r ∈ [w.sol, w.res, w.k1, w.k2, w.k3, w.k4, w.stage] →
      s ≠ r → HDet sz (rhs s r t) := fun s r t h1 h2 h =>
    hr s r t h (hw.fresh _ h1) (hw.fresh _ h2) (hw.size _ h1) (hw.size _ h2)
  refine HDet.append (HDet.append (HDet.append (HDet.append (HDet.append (HDet.append (HDet.append ?_ ?_) ?_) ?_) ?_) ?_) ?_) ?_
  · cases first
    · exact fun m => (fsal_det hw m).imp fun _ h => h.1
    · exact R _ _ _ (by simp) (by simp) (by tauto)
  · exact fun m => (stage2_det hw dt _ m).imp fun _ h => h.1
  · exact R _ _ _ (by simp) (by simp) (by tauto)
  · exact fun m => (stage3_det hw dt _ _ m).imp fun _ h => h.1
  · exact R _ _ _ (by simp) (by simp) (by tauto)
  · exact fun m => (residual_det hw _ _ _ m).imp fun _ h => h.1
  · exact fun m => (update_det hw dt m).imp fun _ h => h.1
  · exact R _ _ _ (by simp) (by simp) (by tauto)

end

end Madg
