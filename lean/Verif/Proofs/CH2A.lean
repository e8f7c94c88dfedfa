/-
The 2D Cahn–Hilliard right-hand side operation by operation, in any arithmetic.
-/
import Verif.Proofs.CH2
import Verif.Proofs.RKCH
import Verif.Proofs.RunEachRK
import Verif.Spec.RunFl2

set_option linter.unusedSectionVars false
set_option linter.unusedVariables false

namespace Madg
open Spec
variable {A K : Type} [DecidableEq A] [Arith K]

/-- The padded view of an array as a field on ℤ². -/
def Grid2.viewA (g : Grid2) (m : Mem A K) (a : A) (i j : Int) : K := m a (g.at2 i j)

def lapA2 (dx : K) (f : Int → Int → K) (i j : Int) : K := Geom2.lapExpr (fun x y => f (i + x) (j + y)) (dx * dx)

def bihA2 (dx : K) (f : Int → Int → K) (i j : Int) : K := Geom2.biharmExpr (fun x y => f (i + x) (j + y)) (dx * dx * dx * dx)

def chA2 (p : CHParams K) (dx : K) (u : Int → Int → K) (i j : Int) : K :=
  -p.eps2 * bihA2 dx u i j + lapA2 dx (fun x y => u x y ^ 3 - u x y) i j - p.sigma * (u i j - p.m)

theorem biharmExpr2_eqA (f : Int → Int → K) (dx : K) (i j : Int) :
    Geom2.biharmExpr (fun x y => if (x, y) ∈ Geom2.biharmOffsets then f (i + x) (j + y) else 0)
      (dx * dx * dx * dx) = bihA2 dx f i j := by
  have h : ∀ x y : Int, (x, y) ∈ Geom2.biharmOffsets →
      (if (x, y) ∈ Geom2.biharmOffsets then f (i + x) (j + y) else 0) = f (i + x) (j + y) :=
    fun x y h => if_pos h
  simp only [Geom2.biharmExpr]
  rw [h 0 0 (by decide), h 1 0 (by decide), h 0 1 (by decide), h (-1) 0 (by decide), h 0 (-1) (by decide),
    h 2 0 (by decide), h 0 2 (by decide), h (-2) 0 (by decide), h 0 (-2) (by decide),
    h (-1) (-1) (by decide), h (-1) 1 (by decide), h 1 (-1) (by decide), h 1 1 (by decide)]
  rfl

theorem lapExpr2_eqA (f : Int → Int → K) (dx : K) (i j : Int) :
    Geom2.lapExpr (fun x y => if (x, y) ∈ Geom2.lapOffsets then f (i + x) (j + y) else 0)
      (dx * dx) = lapA2 dx f i j := by
  have h : ∀ x y : Int, (x, y) ∈ Geom2.lapOffsets →
      (if (x, y) ∈ Geom2.lapOffsets then f (i + x) (j + y) else 0) = f (i + x) (j + y) :=
    fun x y h => if_pos h
  simp only [Geom2.lapExpr]
  rw [h 0 0 (by decide), h 1 0 (by decide), h 0 1 (by decide), h (-1) 0 (by decide), h 0 (-1) (by decide)]
  rfl

theorem laplacian2_detA {G : Geom2} (hG : G.Ok) {sz : A → Int} {s d : A} (hne : s ≠ d)
    (hs : sz s = G.g.size) (hd : sz d = G.g.size) (h1 : 1 ≤ G.g.nhalo) (dx : K) (m : Mem A K) :
    ∃ m', Det sz (G.laplacian dx s d) m m' ∧ Writes2 G.g d m m' (lapA2 dx (G.g.viewA m s)) := by
  refine interior2_det hG _ _ m ?_ ?_
  · intro i j h
    obtain ⟨e1, e2⟩ := Grid2.get_at2 (h.pad hG.ok)
    simp only [e1, e2]
    refine loadStencil2_foot ?_ fun f => ⟨?_, ⟨rfl, rfl⟩, trivial⟩
    · intro o ho
      obtain ⟨hx, hy⟩ := lapOffsets2_le o ho
      refine ⟨?_, Or.inl hne⟩
      rw [InB, hs]; exact Grid2.at2_bounds (pad_of_int2_off h1 h hx hy)
    · rw [InB, hd]; exact Grid2.at2_bounds (h.pad hG.ok)
  · intro i j h
    obtain ⟨e1, e2⟩ := Grid2.get_at2 (h.pad hG.ok)
    simp only [e1, e2]
    rw [loadStencil2_exec]
    refine (Mem.set_same _ _ _ _).trans ?_
    exact lapExpr2_eqA (G.g.viewA m s) dx i j

theorem biharmonic2_detA {G : Geom2} (hG : G.Ok) {sz : A → Int} {s d : A} (hne : s ≠ d)
    (hs : sz s = G.g.size) (hd : sz d = G.g.size) (h2 : 2 ≤ G.g.nhalo) (dx : K) (m : Mem A K) :
    ∃ m', Det sz (G.biharmonic dx s d) m m' ∧ Writes2 G.g d m m' (bihA2 dx (G.g.viewA m s)) := by
  refine interior2_det hG _ _ m ?_ ?_
  · intro i j h
    obtain ⟨e1, e2⟩ := Grid2.get_at2 (h.pad hG.ok)
    simp only [e1, e2]
    refine loadStencil2_foot ?_ fun f => ⟨?_, ⟨rfl, rfl⟩, trivial⟩
    · intro o ho
      obtain ⟨hx, hy⟩ := biharmOffsets2_le o ho
      refine ⟨?_, Or.inl hne⟩
      rw [InB, hs]; exact Grid2.at2_bounds (pad_of_int2_off h2 h hx hy)
    · rw [InB, hd]; exact Grid2.at2_bounds (h.pad hG.ok)
  · intro i j h
    obtain ⟨e1, e2⟩ := Grid2.get_at2 (h.pad hG.ok)
    simp only [e1, e2]
    rw [loadStencil2_exec]
    refine (Mem.set_same _ _ _ _).trans ?_
    exact biharmExpr2_eqA (G.g.viewA m s) dx i j

theorem lapA2_congr {dx : K} {u v : Int → Int → K} {i j : Int}
    (h : ∀ x y, (-1 ≤ x ∧ x ≤ 1) → (-1 ≤ y ∧ y ≤ 1) → u (i + x) (j + y) = v (i + x) (j + y)) :
    lapA2 dx u i j = lapA2 dx v i j := by
  unfold lapA2 Geom2.lapExpr
  dsimp only
  rw [h 0 0 (by decide) (by decide), h 1 0 (by decide) (by decide), h (-1) 0 (by decide) (by decide),
    h 0 1 (by decide) (by decide), h 0 (-1) (by decide) (by decide)]

theorem bihA2_congr {dx : K} {u v : Int → Int → K} {i j : Int}
    (h : ∀ x y, (-2 ≤ x ∧ x ≤ 2) → (-2 ≤ y ∧ y ≤ 2) → u (i + x) (j + y) = v (i + x) (j + y)) :
    bihA2 dx u i j = bihA2 dx v i j := by
  unfold bihA2 Geom2.biharmExpr
  dsimp only
  rw [h 0 0 (by decide) (by decide), h 1 0 (by decide) (by decide), h 0 1 (by decide) (by decide),
    h (-1) 0 (by decide) (by decide), h 0 (-1) (by decide) (by decide),
    h 2 0 (by decide) (by decide), h 0 2 (by decide) (by decide), h (-2) 0 (by decide) (by decide), h 0 (-2) (by decide) (by decide),
    h (-1) (-1) (by decide) (by decide), h (-1) 1 (by decide) (by decide), h 1 (-1) (by decide) (by decide),
    h 1 1 (by decide) (by decide)]

theorem evalRHS2_detA {G : Geom2} (hG : G.Ok) {sz : A → Int} {w : CHArr A}
    (hnd : [w.c, w.r, w.lapRhs, w.lapArg, w.bihar, w.lin].Nodup)
    (hsz : ∀ a ∈ [w.c, w.r, w.lapRhs, w.lapArg, w.bihar, w.lin], sz a = G.g.size)
    (h2 : 2 ≤ G.g.nhalo) (hle : G.g.nhalo ≤ G.g.ni) (p : CHParams K) (dx : K) (m : Mem A K) :
    ∃ m', Det sz (G.evalRHS p dx w) m m' ∧
      (∀ i j, G.g.Int2 i j → m' w.r (G.g.at2 i j) =
        chA2 p dx (fun x y => m w.c (G.g.at2 (wrapIdx G.g.ni x) (wrapIdx G.g.ni y))) i j) ∧
      (∀ i j, G.g.Pad i j → m' w.c (G.g.at2 i j) = m w.c (G.g.at2 (wrapIdx G.g.ni i) (wrapIdx G.g.ni j))) ∧
      (∀ n, ¬ (0 ≤ n ∧ n < G.g.size) → m' w.c n = m w.c n) ∧
      (∀ n, 0 ≤ n → n < G.g.size → (∀ i j, G.g.Int2 i j → G.g.at2 i j ≠ n) → m' w.r n = 0) ∧
      (∀ n, ¬ (0 ≤ n ∧ n < G.g.size) → m' w.r n = m w.r n) ∧
      (∀ b, b ∉ [w.c, w.r, w.lapRhs, w.lapArg, w.bihar, w.lin] → m' b = m b) := by
  simp only [List.nodup_cons, List.mem_cons, not_or, List.not_mem_nil, not_false_eq_true,
    List.nodup_nil, and_true] at hnd
  have hsc := hsz w.c (by simp); have hsr := hsz w.r (by simp); have hsl := hsz w.lapArg (by simp)
  have hsl2 := hsz w.lapRhs (by simp); have hsb := hsz w.bihar (by simp)
  have hsn := hsz w.lin (by simp)
  obtain ⟨m0, d0, v0, o0, f0⟩ := periodic2_det (K := K) hG hle hsc m
  obtain ⟨m1, d1, f1⟩ := forAll_det (K := K) (sz := sz) (r := w.lapArg) G.g.size
    (fun i => .load w.c i fun v => .store w.lapArg i (v ^ 3 - v) (.pure ()))
    (fun n => m0 w.c n ^ 3 - m0 w.c n) m0 (by
      intro i h0 h1
      refine ⟨?_, Or.inl (by tauto), fun v => ⟨?_, ⟨rfl, rfl⟩, trivial⟩⟩
      · rw [InB, hsc]; exact ⟨h0, h1⟩
      · rw [InB, hsl]; exact ⟨h0, h1⟩) (by
      intro i h0 h1; exact Mem.set_same _ _ _ _)
  obtain ⟨m2, d2, f2⟩ := laplacian2_detA hG (s := w.lapArg) (d := w.lapRhs) (by tauto) hsl hsl2 (by omega) dx m1
  obtain ⟨m3, d3, f3⟩ := biharmonic2_detA hG (s := w.c) (d := w.bihar) (by tauto) hsc hsb h2 dx m2
  have hcl : w.c ≠ w.lin := by tauto
  obtain ⟨m4, d4, f4⟩ := interior2_det (K := K) hG (sz := sz) (r := w.lin)
    (fun i => .load w.c i fun v => .store w.lin i (p.sigma * (v - p.m)) (.pure ()))
    (fun i j => p.sigma * (m3 w.c (G.g.at2 i j) - p.m)) m3 (by
      intro i j h
      refine ⟨?_, Or.inl hcl, fun v => ⟨?_, ⟨rfl, rfl⟩, trivial⟩⟩
      · rw [InB, hsc]; exact Grid2.at2_bounds (h.pad hG.ok)
      · rw [InB, hsn]; exact Grid2.at2_bounds (h.pad hG.ok)) (by
      intro i j h; exact Mem.set_same _ _ _ _)
  obtain ⟨m5, d5, f5⟩ := forAll_det (K := K) (sz := sz) (r := w.r) G.g.size
    (fun i => .store w.r i 0 (.pure ())) (fun _ => 0) m4 (by
      intro i h0 h1
      refine ⟨?_, ⟨rfl, rfl⟩, trivial⟩
      rw [InB, hsr]; exact ⟨h0, h1⟩) (by
      intro i h0 h1; exact Mem.set_same _ _ _ _)
  have hbr : w.bihar ≠ w.r := by tauto
  have hlr : w.lapRhs ≠ w.r := by tauto
  have hnr : w.lin ≠ w.r := by tauto
  have hcr : w.c ≠ w.r := by tauto
  obtain ⟨m6, d6, f6⟩ := interior2_det (K := K) hG (sz := sz) (r := w.r)
    (fun i => .load w.bihar i fun b => .load w.lapRhs i fun l => .load w.lin i fun s =>
      .store w.r i (-p.eps2 * b + l - s) (.pure ()))
    (fun i j => -p.eps2 * m5 w.bihar (G.g.at2 i j) + m5 w.lapRhs (G.g.at2 i j) -
      m5 w.lin (G.g.at2 i j)) m5 (by
      intro i j h
      have hb := Grid2.at2_bounds (h.pad hG.ok)
      refine ⟨?_, Or.inl hbr, fun _ => ⟨?_, Or.inl hlr, fun _ => ⟨?_, Or.inl hnr, fun _ =>
        ⟨?_, ⟨rfl, rfl⟩, trivial⟩⟩⟩⟩
      · rw [InB, hsb]; exact hb
      · rw [InB, hsl2]; exact hb
      · rw [InB, hsn]; exact hb
      · rw [InB, hsr]; exact hb) (by
      intro i j h; exact Mem.set_same _ _ _ _)
  have hc1 : m1 w.c = m0 w.c := f1.frame _ (by tauto)
  have hc2 : m2 w.c = m1 w.c := f2.frame _ (by tauto)
  have hc3 : m3 w.c = m2 w.c := f3.frame _ (by tauto)
  have hc4 : m4 w.c = m3 w.c := f4.frame _ (by tauto)
  have hc5 : m5 w.c = m4 w.c := f5.frame _ (by tauto)
  have hc6 : m6 w.c = m5 w.c := f6.frame _ (by tauto)
  have hc : m6 w.c = m0 w.c := by rw [hc6, hc5, hc4, hc3, hc2, hc1]
  refine ⟨m6, ?_, ?_, ?_, ?_, ?_, ?_, ?_⟩
  · exact det_append (det_append (det_append (det_append (det_append (det_append d0 d1) d2) d3) d4) d5) d6
  · intro i j h
    rw [f6.view i j h]
    rw [f5.frame _ hbr, f4.frame w.bihar (by tauto), f3.view i j h]
    rw [f5.frame _ hlr, f4.frame w.lapRhs (by tauto), f3.frame w.lapRhs (by tauto), f2.view i j h]
    rw [f5.frame _ hnr, f4.view i j h]
    rw [hc3, hc2, hc1]
    unfold chA2
    congr 1
    · congr 1
      · congr 1
        refine bihA2_congr fun x y hx hy => ?_
        simp only [Grid2.viewA]
        rw [hc2, hc1]
        exact v0 _ _ (pad_of_int2_off h2 h hx hy)
      · refine lapA2_congr fun x y hx hy => ?_
        have hp := pad_of_int2_off (w := 1) (by omega) h hx hy
        have hb := Grid2.at2_bounds hp
        simp only [Grid2.viewA]
        rw [f1.view _ hb.1 hb.2, v0 _ _ hp]
    · rw [v0 _ _ (h.pad hG.ok)]
  · intro i j h; rw [hc]; exact v0 i j h
  · intro n hn; rw [hc]; exact o0 n hn
  · intro n h0 h1 hn
    rw [f6.out n hn, f5.view n h0 h1]
  · intro n hn
    rw [f6.out n (fun i j h e => hn (by rw [← e]; exact Grid2.at2_bounds (h.pad hG.ok))), f5.out n hn,
      f4.frame w.r (by tauto), f3.frame w.r (by tauto), f2.frame w.r (by tauto), f1.frame w.r (by tauto),
      f0 w.r (by tauto)]
  · intro b hb
    simp only [List.mem_cons, not_or] at hb
    rw [f6.frame b (by tauto), f5.frame b (by tauto), f4.frame b (by tauto), f3.frame b (by tauto),
      f2.frame b (by tauto), f1.frame b (by tauto), f0 b (by tauto)]

/-- The right-hand side as the code computes it, as a map of interior fields. -/
def chFieldA2 (p : CHParams K) (dx : K) (n : Int) (_t : K) (u : Int × Int → K) : Int × Int → K :=
  fun c => chA2 p dx (ext2 n fun i j => u (i, j)) c.1 c.2

theorem chFieldA2_eq (p : CHParams K) (dx : K) (n : Int) (t : K) : chFieldA2 p dx n t = rhsOps2 p dx n t := by
  funext u c
  unfold chFieldA2 chA2 rhsOps2 bihA2 lapA2 Geom2.biharmExpr Geom2.lapExpr
  dsimp only
  rw [show c.1 + 0 = c.1 from Int.add_zero _, show c.2 + 0 = c.2 from Int.add_zero _]

theorem ch2_contractA {n : Int} (hn : 2 ≤ n) {G : Geom2} (hG : mkGeom2 n 2 = .ok G)
    {sz : A → Int} {l1 l2 l3 l4 : A} (hnd : [l1, l2, l3, l4].Nodup)
    (hsz : ∀ a ∈ [l1, l2, l3, l4], sz a = (n + 2 * 2) * (n + 2 * 2)) (p : CHParams K) (dx : K) :
    RhsOn (fun _ => True) sz ((n + 2 * 2) * (n + 2 * 2)) (· ∈ [l1, l2, l3, l4]) (In2 n)
      (fun c : Int × Int => G.g.at2 c.1 c.2) (chFieldA2 p dx n)
      (fun s r _ => G.evalRHS p dx ⟨s, r, l1, l2, l3, l4⟩) := by
  obtain ⟨hok, hg⟩ := Geom2.ok_of_mk (by omega) (by omega) hG
  have hni : G.g.ni = n := by rw [hg]
  have hnj : G.g.nj = n := by rw [hg]
  have hnh : G.g.nhalo = 2 := by rw [hg]
  have hsize : G.g.size = (n + 2 * 2) * (n + 2 * 2) := by rw [hg]; rfl
  have hint : ∀ c, In2 n c → G.g.Int2 c.1 c.2 := by
    intro c hc; unfold In2 at hc; unfold Grid2.Int2; omega
  refine ⟨fun c hc => by rw [← hsize]; exact Grid2.at2_bounds ((hint c hc).pad hok.ok), ?_, fun _ _ _ _ => trivial, ?_⟩
  · intro t u v' h c hc
    have : (ext2 n fun i j => u (i, j)) = ext2 n fun i j => v' (i, j) := by
      funext i j
      exact h _ ⟨wrapIdx_range i (by omega), wrapIdx_range j (by omega)⟩
    unfold chFieldA2; rw [this]
  · intro s r t m _ hne hs hr hzs hzr
    have hnd' : [s, r, l1, l2, l3, l4].Nodup := by
      rw [List.nodup_cons, List.nodup_cons]
      refine ⟨?_, hr, hnd⟩
      rw [List.mem_cons]
      rintro (h | h)
      · exact hne h
      · exact hs h
    have hsz' : ∀ a ∈ [s, r, l1, l2, l3, l4], sz a = G.g.size := by
      intro a ha
      rw [List.mem_cons, List.mem_cons] at ha
      rw [hsize]
      rcases ha with rfl | rfl | ha
      · exact hzs
      · exact hzr
      · exact hsz a ha
    obtain ⟨m', d, r', s', so, z, ro, f⟩ := evalRHS2_detA (K := K) hok (w := ⟨s, r, l1, l2, l3, l4⟩) hnd' hsz'
      (by omega) (by omega) p dx m
    refine ⟨m', d, ?_, ?_, ?_, ?_, trivial⟩
    · intro c hc
      have := r' _ _ (hint c hc)
      rw [hni] at this
      exact this
    · intro c hc
      have := s' _ _ ((hint c hc).pad hok.ok)
      rw [hni, wrapIdx_of_int (by unfold In2 at hc; omega) (by unfold In2 at hc; omega),
        wrapIdx_of_int (by unfold In2 at hc; omega) (by unfold In2 at hc; omega)] at this
      exact this
    · intro x hx
      by_cases hb : 0 ≤ x ∧ x < G.g.size
      · exact Or.inr (z x hb.1 hb.2 fun i j h => hx (i, j) (by unfold Grid2.Int2 at h; unfold In2; omega))
      · exact Or.inl (ro x hb)
    · intro b h1 h2 h3
      refine f b ?_
      rw [List.mem_cons, List.mem_cons, not_or, not_or]
      exact ⟨h1, h2, h3⟩

end Madg
