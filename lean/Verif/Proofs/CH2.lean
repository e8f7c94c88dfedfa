/-
Closed forms of the 2D kernels and of the 2D Cahn–Hilliard right-hand side.
-/
import Verif.Proofs.Grid2
import Mathlib.Tactic.FieldSimp

set_option linter.unusedSectionVars false
set_option linter.unusedVariables false

namespace Madg
open Spec
variable {A K : Type} [DecidableEq A]

/-- `m'` is `m` with `F` stored at the interior cells of `r`. -/
structure Writes2 (g : Grid2) (r : A) (m m' : Mem A K) (F : Int → Int → K) : Prop where
  view : ∀ i j, g.Int2 i j → m' r (g.at2 i j) = F i j
  out : ∀ n, (∀ i j, g.Int2 i j → g.at2 i j ≠ n) → m' r n = m r n
  frame : ∀ b, b ≠ r → m' b = m b

theorem interior2_det {G : Geom2} (hG : G.Ok) {sz : A → Int} {r : A} (body : Int → Prog A K Unit)
    (F : Int → Int → K) (m : Mem A K)
    (hfoot : ∀ i j, G.g.Int2 i j → (body (G.g.at2 i j)).Foot sz
      (fun a n => a ≠ r ∨ n = G.g.at2 i j) (fun a n => a = r ∧ n = G.g.at2 i j))
    (hval : ∀ i j, G.g.Int2 i j → (body (G.g.at2 i j)).exec m r (G.g.at2 i j) = F i j) :
    ∃ m', Det sz [forIdx G.interior body] m m' ∧ Writes2 G.g r m m' F := by
  rw [forIdx_eq_map, hG.int, List.map_map]
  have hsq := hG.sq
  have hmem : ∀ c : Int × Int, c ∈ box2 0 G.g.ni 0 G.g.ni ↔ G.g.Int2 c.1 c.2 := by
    intro c; rw [mem_box2]; unfold Grid2.Int2; rw [hsq]
  obtain ⟨m', d, v, o, f⟩ := cells_det (K := K) (sz := sz) (nodup_box2 0 G.g.ni 0 G.g.ni)
    (fun c => G.g.at2 c.1 c.2)
    (fun c hc c' hc' e => by
      obtain ⟨e1, e2⟩ := Grid2.at2_inj (((hmem c).1 hc).pad hG.ok) (((hmem c').1 hc').pad hG.ok) e
      exact Prod.ext e1 e2) r (fun c => body (G.g.at2 c.1 c.2)) (fun c => F c.1 c.2) m
    (fun c hc => hfoot _ _ ((hmem c).1 hc)) (fun c hc => hval _ _ ((hmem c).1 hc))
  refine ⟨m', d, fun i j h => v (i, j) ((hmem _).2 h), fun n hn => o n fun c hc => hn _ _ ((hmem c).1 hc), f⟩

section
variable [Arith K]

theorem loadStencil2_foot {sz : A → Int} {g : Grid2} {a : A} {i j : Int} {R W : A → Int → Prop}
    {os : List (Int × Int)} {cont : (Int → Int → K) → Prog A K Unit}
    (ho : ∀ o ∈ os, InB sz a (g.at2 (i + o.1) (j + o.2)) ∧ R a (g.at2 (i + o.1) (j + o.2)))
    (hc : ∀ f, (cont f).Foot sz R W) :
    (Geom2.loadStencil g a i j os cont).Foot sz R W := by
  induction os generalizing cont with
  | nil => exact hc _
  | cons o os ih =>
    obtain ⟨x, y⟩ := o
    have h := ho (x, y) (by simp)
    exact ⟨h.1, h.2, fun v => ih (fun o ho' => ho o (by simp [ho'])) fun f => hc _⟩

theorem loadStencil2_exec {g : Grid2} {a : A} {i j : Int} (m : Mem A K)
    (os : List (Int × Int)) (cont : (Int → Int → K) → Prog A K Unit) :
    (Geom2.loadStencil g a i j os cont).exec m =
      (cont fun x y => if (x, y) ∈ os then m a (g.at2 (i + x) (j + y)) else 0).exec m := by
  induction os generalizing cont with
  | nil => simp [Geom2.loadStencil]
  | cons o os ih =>
    obtain ⟨x, y⟩ := o
    refine (ih _).trans ?_
    congr 2
    funext x' y'
    simp only [List.mem_cons, Prod.mk.injEq]
    by_cases h : x' = x ∧ y' = y
    · obtain ⟨rfl, rfl⟩ := h; simp
    · simp [h]

end

variable [Field K]

theorem pad_of_int2_off {g : Grid2} {w : Int} (h2 : w ≤ g.nhalo) {i j x y : Int} (h : g.Int2 i j)
    (hx : -w ≤ x ∧ x ≤ w) (hy : -w ≤ y ∧ y ≤ w) : g.Pad (i + x) (j + y) := by
  unfold Grid2.Int2 at h; unfold Grid2.Pad; omega

theorem biharmOffsets2_le : ∀ o ∈ Geom2.biharmOffsets,
    (-2 ≤ o.1 ∧ o.1 ≤ 2) ∧ (-2 ≤ o.2 ∧ o.2 ≤ 2) := by decide

theorem lapOffsets2_le : ∀ o ∈ Geom2.lapOffsets,
    (-1 ≤ o.1 ∧ o.1 ≤ 1) ∧ (-1 ≤ o.2 ∧ o.2 ≤ 1) := by decide

/-- The padded view of an array as a field on ℤ² (arbitrary outside the padded box). -/
def Grid2.view (g : Grid2) (m : Mem A K) (a : A) (i j : Int) : K := m a (g.at2 i j)

theorem biharmExpr2_eq (f : Int → Int → K) (dx : K) (i j : Int) :
    Geom2.biharmExpr (fun x y => if (x, y) ∈ Geom2.biharmOffsets then f (i + x) (j + y) else 0)
      (dx * dx * dx * dx) = bih2 dx f i j := by
  have h : ∀ x y : Int, (x, y) ∈ Geom2.biharmOffsets →
      (if (x, y) ∈ Geom2.biharmOffsets then f (i + x) (j + y) else 0) = f (i + x) (j + y) :=
    fun x y h => if_pos h
  simp only [Geom2.biharmExpr]
  rw [h 0 0 (by decide), h 1 0 (by decide), h 0 1 (by decide), h (-1) 0 (by decide), h 0 (-1) (by decide),
    h 2 0 (by decide), h 0 2 (by decide), h (-2) 0 (by decide), h 0 (-2) (by decide),
    h (-1) (-1) (by decide), h (-1) 1 (by decide), h 1 (-1) (by decide), h 1 1 (by decide)]
  simp only [bih2, lap2, add_zero, sub_eq_add_neg, add_assoc, Int.reduceNeg, Int.reduceAdd,
    neg_add_cancel, add_neg_cancel]
  ring

theorem lapExpr2_eq (f : Int → Int → K) (dx : K) (i j : Int) :
    Geom2.lapExpr (fun x y => if (x, y) ∈ Geom2.lapOffsets then f (i + x) (j + y) else 0)
      (dx * dx) = lap2 dx f i j := by
  have h : ∀ x y : Int, (x, y) ∈ Geom2.lapOffsets →
      (if (x, y) ∈ Geom2.lapOffsets then f (i + x) (j + y) else 0) = f (i + x) (j + y) :=
    fun x y h => if_pos h
  simp only [Geom2.lapExpr]
  rw [h 0 0 (by decide), h 1 0 (by decide), h 0 1 (by decide), h (-1) 0 (by decide), h 0 (-1) (by decide)]
  simp only [lap2, add_zero, sub_eq_add_neg]
  ring

theorem laplacian2_det {G : Geom2} (hG : G.Ok) {sz : A → Int} {s d : A} (hne : s ≠ d)
    (hs : sz s = G.g.size) (hd : sz d = G.g.size) (h1 : 1 ≤ G.g.nhalo) (dx : K) (m : Mem A K) :
    ∃ m', Det sz (G.laplacian dx s d) m m' ∧ Writes2 G.g d m m' (lap2 dx (G.g.view m s)) := by
  refine interior2_det hG _ _ m ?_ ?_
  · intro i j h
    obtain ⟨e1, e2⟩ := Grid2.get_at2 (h.pad hG.ok)
    simp only [e1, e2]
    refine loadStencil2_foot ?_ fun f => ⟨?_, ⟨rfl, rfl⟩, trivial⟩
    · intro o ho
      obtain ⟨hx, hy⟩ := lapOffsets2_le o ho
      refine ⟨?_, Or.inl hne⟩
      rw [InB, hs]; exact Grid2.at2_bounds (pad_of_int2_off h1 h hx hy)
    · rw [InB, hd]; exact Grid2.at2_bounds (h.pad hG.ok)
  · intro i j h
    obtain ⟨e1, e2⟩ := Grid2.get_at2 (h.pad hG.ok)
    simp only [e1, e2]
    rw [loadStencil2_exec]
    refine (Mem.set_same _ _ _ _).trans ?_
    exact lapExpr2_eq (G.g.view m s) dx i j

theorem biharmonic2_det {G : Geom2} (hG : G.Ok) {sz : A → Int} {s d : A} (hne : s ≠ d)
    (hs : sz s = G.g.size) (hd : sz d = G.g.size) (h2 : 2 ≤ G.g.nhalo) (dx : K) (m : Mem A K) :
    ∃ m', Det sz (G.biharmonic dx s d) m m' ∧ Writes2 G.g d m m' (bih2 dx (G.g.view m s)) := by
  refine interior2_det hG _ _ m ?_ ?_
  · intro i j h
    obtain ⟨e1, e2⟩ := Grid2.get_at2 (h.pad hG.ok)
    simp only [e1, e2]
    refine loadStencil2_foot ?_ fun f => ⟨?_, ⟨rfl, rfl⟩, trivial⟩
    · intro o ho
      obtain ⟨hx, hy⟩ := biharmOffsets2_le o ho
      refine ⟨?_, Or.inl hne⟩
      rw [InB, hs]; exact Grid2.at2_bounds (pad_of_int2_off h2 h hx hy)
    · rw [InB, hd]; exact Grid2.at2_bounds (h.pad hG.ok)
  · intro i j h
    obtain ⟨e1, e2⟩ := Grid2.get_at2 (h.pad hG.ok)
    simp only [e1, e2]
    rw [loadStencil2_exec]
    refine (Mem.set_same _ _ _ _).trans ?_
    exact biharmExpr2_eq (G.g.view m s) dx i j

theorem lap2_congr {dx : K} {u v : Int → Int → K} {i j : Int}
    (h : ∀ x y, (-1 ≤ x ∧ x ≤ 1) → (-1 ≤ y ∧ y ≤ 1) → u (i + x) (j + y) = v (i + x) (j + y)) :
    lap2 dx u i j = lap2 dx v i j := by
  have h0 := h 0 0 (by decide) (by decide)
  have h1 := h 1 0 (by decide) (by decide)
  have h2 := h (-1) 0 (by decide) (by decide)
  have h3 := h 0 1 (by decide) (by decide)
  have h4 := h 0 (-1) (by decide) (by decide)
  simp only [Int.add_zero] at h0 h1 h2 h3 h4
  simp only [lap2, sub_eq_add_neg] at *
  rw [h0, h1, h2, h3, h4]

theorem bih2_congr {dx : K} {u v : Int → Int → K} {i j : Int}
    (h : ∀ x y, (-2 ≤ x ∧ x ≤ 2) → (-2 ≤ y ∧ y ≤ 2) → u (i + x) (j + y) = v (i + x) (j + y)) :
    bih2 dx u i j = bih2 dx v i j := by
  refine lap2_congr fun x y hx hy => lap2_congr fun x' y' hx' hy' => ?_
  have := h (x + x') (y + y') (by omega) (by omega)
  simpa only [Int.add_assoc] using this

theorem evalRHS2_det {G : Geom2} (hG : G.Ok) {sz : A → Int} {w : CHArr A}
    (hnd : [w.c, w.r, w.lapRhs, w.lapArg, w.bihar, w.lin].Nodup)
    (hsz : ∀ a ∈ [w.c, w.r, w.lapRhs, w.lapArg, w.bihar, w.lin], sz a = G.g.size)
    (h2 : 2 ≤ G.g.nhalo) (hle : G.g.nhalo ≤ G.g.ni) (p : CHParams K) (dx : K) (m : Mem A K) :
    ∃ m', Det sz (G.evalRHS p dx w) m m' ∧
      (∀ i j, G.g.Int2 i j → m' w.r (G.g.at2 i j) =
        chRhs2 p dx (fun x y => m w.c (G.g.at2 (wrapIdx G.g.ni x) (wrapIdx G.g.ni y))) i j) ∧
      (∀ i j, G.g.Pad i j → m' w.c (G.g.at2 i j) = m w.c (G.g.at2 (wrapIdx G.g.ni i) (wrapIdx G.g.ni j))) ∧
      (∀ n, ¬ (0 ≤ n ∧ n < G.g.size) → m' w.c n = m w.c n) ∧
      (∀ n, 0 ≤ n → n < G.g.size → (∀ i j, G.g.Int2 i j → G.g.at2 i j ≠ n) → m' w.r n = 0) ∧
      (∀ n, ¬ (0 ≤ n ∧ n < G.g.size) → m' w.r n = m w.r n) ∧
      (∀ b, b ∉ [w.c, w.r, w.lapRhs, w.lapArg, w.bihar, w.lin] → m' b = m b) := by
  simp only [List.nodup_cons, List.mem_cons, not_or, List.not_mem_nil, not_false_eq_true,
    List.nodup_nil, and_true] at hnd
  have hsc := hsz w.c (by simp); have hsr := hsz w.r (by simp); have hsl := hsz w.lapArg (by simp)
  have hsl2 := hsz w.lapRhs (by simp); have hsb := hsz w.bihar (by simp)
  have hsn := hsz w.lin (by simp)
  obtain ⟨m0, d0, v0, o0, f0⟩ := periodic2_det (K := K) hG hle hsc m
  obtain ⟨m1, d1, f1⟩ := forAll_det (K := K) (sz := sz) (r := w.lapArg) G.g.size
    (fun i => .load w.c i fun v => .store w.lapArg i (v ^ 3 - v) (.pure ()))
    (fun n => m0 w.c n ^ 3 - m0 w.c n) m0 (by
      intro i h0 h1
      refine ⟨?_, Or.inl (by tauto), fun v => ⟨?_, ⟨rfl, rfl⟩, trivial⟩⟩
      · rw [InB, hsc]; exact ⟨h0, h1⟩
      · rw [InB, hsl]; exact ⟨h0, h1⟩) (by
      intro i h0 h1; exact Mem.set_same _ _ _ _)
  obtain ⟨m2, d2, f2⟩ := laplacian2_det hG (s := w.lapArg) (d := w.lapRhs) (by tauto) hsl hsl2 (by omega) dx m1
  obtain ⟨m3, d3, f3⟩ := biharmonic2_det hG (s := w.c) (d := w.bihar) (by tauto) hsc hsb h2 dx m2
  have hcl : w.c ≠ w.lin := by tauto
  obtain ⟨m4, d4, f4⟩ := interior2_det (K := K) hG (sz := sz) (r := w.lin)
    (fun i => .load w.c i fun v => .store w.lin i (p.sigma * (v - p.m)) (.pure ()))
    (fun i j => p.sigma * (m3 w.c (G.g.at2 i j) - p.m)) m3 (by
      intro i j h
      refine ⟨?_, Or.inl hcl, fun v => ⟨?_, ⟨rfl, rfl⟩, trivial⟩⟩
      · rw [InB, hsc]; exact Grid2.at2_bounds (h.pad hG.ok)
      · rw [InB, hsn]; exact Grid2.at2_bounds (h.pad hG.ok)) (by
      intro i j h; exact Mem.set_same _ _ _ _)
  obtain ⟨m5, d5, f5⟩ := forAll_det (K := K) (sz := sz) (r := w.r) G.g.size
    (fun i => .store w.r i 0 (.pure ())) (fun _ => 0) m4 (by
      intro i h0 h1
      refine ⟨?_, ⟨rfl, rfl⟩, trivial⟩
      rw [InB, hsr]; exact ⟨h0, h1⟩) (by
      intro i h0 h1; exact Mem.set_same _ _ _ _)
  have hbr : w.bihar ≠ w.r := by tauto
  have hlr : w.lapRhs ≠ w.r := by tauto
  have hnr : w.lin ≠ w.r := by tauto
  have hcr : w.c ≠ w.r := by tauto
  obtain ⟨m6, d6, f6⟩ := interior2_det (K := K) hG (sz := sz) (r := w.r)
    (fun i => .load w.bihar i fun b => .load w.lapRhs i fun l => .load w.lin i fun s =>
      .store w.r i (-p.eps2 * b + l - s) (.pure ()))
    (fun i j => -p.eps2 * m5 w.bihar (G.g.at2 i j) + m5 w.lapRhs (G.g.at2 i j) -
      m5 w.lin (G.g.at2 i j)) m5 (by
      intro i j h
      have hb := Grid2.at2_bounds (h.pad hG.ok)
      refine ⟨?_, Or.inl hbr, fun _ => ⟨?_, Or.inl hlr, fun _ => ⟨?_, Or.inl hnr, fun _ =>
        ⟨?_, ⟨rfl, rfl⟩, trivial⟩⟩⟩⟩
      · rw [InB, hsb]; exact hb
      · rw [InB, hsl2]; exact hb
      · rw [InB, hsn]; exact hb
      · rw [InB, hsr]; exact hb) (by
      intro i j h; exact Mem.set_same _ _ _ _)
  have hc1 : m1 w.c = m0 w.c := f1.frame _ (by tauto)
  have hc2 : m2 w.c = m1 w.c := f2.frame _ (by tauto)
  have hc3 : m3 w.c = m2 w.c := f3.frame _ (by tauto)
  have hc4 : m4 w.c = m3 w.c := f4.frame _ (by tauto)
  have hc5 : m5 w.c = m4 w.c := f5.frame _ (by tauto)
  have hc6 : m6 w.c = m5 w.c := f6.frame _ (by tauto)
  have hc : m6 w.c = m0 w.c := by rw [hc6, hc5, hc4, hc3, hc2, hc1]
  refine ⟨m6, ?_, ?_, ?_, ?_, ?_, ?_, ?_⟩
  · exact det_append (det_append (det_append (det_append (det_append (det_append d0 d1) d2) d3) d4) d5) d6
  · intro i j h
    rw [f6.view i j h]
    rw [f5.frame _ hbr, f4.frame w.bihar (by tauto), f3.view i j h]
    rw [f5.frame _ hlr, f4.frame w.lapRhs (by tauto), f3.frame w.lapRhs (by tauto), f2.view i j h]
    rw [f5.frame _ hnr, f4.view i j h]
    rw [hc3, hc2, hc1]
    unfold chRhs2
    congr 1
    · congr 1
      · congr 1
        refine bih2_congr fun x y hx hy => ?_
        simp only [Grid2.view]
        rw [hc2, hc1]
        exact v0 _ _ (pad_of_int2_off h2 h hx hy)
      · refine lap2_congr fun x y hx hy => ?_
        have hp := pad_of_int2_off (w := 1) (by omega) h hx hy
        have hb := Grid2.at2_bounds hp
        simp only [Grid2.view]
        rw [f1.view _ hb.1 hb.2, v0 _ _ hp]
    · rw [v0 _ _ (h.pad hG.ok)]
  · intro i j h; rw [hc]; exact v0 i j h
  · intro n hn; rw [hc]; exact o0 n hn
  · intro n h0 h1 hn
    rw [f6.out n hn, f5.view n h0 h1]
  · intro n hn
    rw [f6.out n (fun i j h e => hn (by rw [← e]; exact Grid2.at2_bounds (h.pad hG.ok))), f5.out n hn,
      f4.frame w.r (by tauto), f3.frame w.r (by tauto), f2.frame w.r (by tauto), f1.frame w.r (by tauto),
      f0 w.r (by tauto)]
  · intro b hb
    simp only [List.mem_cons, not_or] at hb
    rw [f6.frame b (by tauto), f5.frame b (by tauto), f4.frame b (by tauto), f3.frame b (by tauto),
      f2.frame b (by tauto), f1.frame b (by tauto), f0 b (by tauto)]

end Madg
