/-
Solution files: what the writer produces and what the reader makes of it.
-/
import Verif.Spec.VTK
import Verif.Proofs.Text
import Verif.Proofs.Single
import Verif.Proofs.Coords

set_option linter.unusedSectionVars false
set_option linter.unusedVariables false

namespace Madg
open Spec
variable {A K : Type} [DecidableEq A] [Arith K]

/-! ### Loops -/

theorem fold_append' {ι σ : Type} (f : σ → ι → Prog A K σ) (l l' : List ι) (s : σ) :
    Prog.fold f (l ++ l') s = (Prog.fold f l s).bind (Prog.fold f l') := by
  induction l generalizing s with
  | nil => rfl
  | cons x l ih =>
    simp only [List.cons_append, Prog.fold, Prog.bind_assoc]
    congr 1; funext s'; exact ih s'

theorem fold_flatMap {ι κ σ : Type} (f : σ → κ → Prog A K σ) (g : ι → List κ) (l : List ι) (s : σ) :
    Prog.fold f (l.flatMap g) s = Prog.fold (fun s x => Prog.fold f (g x) s) l s := by
  induction l generalizing s with
  | nil => rfl
  | cons x l ih =>
    rw [List.flatMap_cons, fold_append', Prog.fold]
    congr 1; funext s'; exact ih s'

theorem fold_map' {ι κ σ : Type} (f : σ → κ → Prog A K σ) (g : ι → κ) (l : List ι) (s : σ) :
    Prog.fold f (l.map g) s = Prog.fold (fun s x => f s (g x)) l s := by
  induction l generalizing s with
  | nil => rfl
  | cons x l ih =>
    rw [List.map_cons, Prog.fold, Prog.fold]
    congr 1; funext s'; exact ih s'

theorem fold_box3 {σ : Type} (i0 i1 j0 j1 k0 k1 : Int) (f : σ → Int → Int → Int → Prog A K σ) (s : σ) :
    Prog.fold (fun s i => Prog.fold (fun s j => Prog.fold (fun s k => f s i j k) (irange k0 k1) s) (irange j0 j1) s) (irange i0 i1) s =
      Prog.fold (fun s c => f s c.1 c.2.1 c.2.2) (box3 i0 i1 j0 j1 k0 k1) s := by
  unfold box3
  rw [fold_flatMap]
  congr 1; funext s i
  rw [fold_flatMap]
  congr 1; funext s j
  rw [fold_map']

theorem fold_box2 {σ : Type} (i0 i1 j0 j1 : Int) (f : σ → Int → Int → Prog A K σ) (s : σ) :
    Prog.fold (fun s i => Prog.fold (fun s j => f s i j) (irange j0 j1) s) (irange i0 i1) s =
      Prog.fold (fun s c => f s c.1 c.2) (box2 i0 i1 j0 j1) s := by
  unfold box2
  rw [fold_flatMap]
  congr 1; funext s i
  rw [fold_map']

/-! ### Writing -/

/-- Text of the cell data element for values `vs`. -/
def cellsText (io : RealText K) (vs : List K) : Text :=
  "\n".toList ++ spaced (vs.map fun v => (io.full v, "\n".toList)) ++ "\n    ".toList

/-- The three words of a line of point data with their separators. -/
def triple (w : Text × Text × Text) : List (Text × Text) := [(w.1, " ".toList), (w.2.1, " ".toList), (w.2.2, "\n".toList)]

/-- Text of the points element. -/
def pointsText (ws : List (Text × Text × Text)) : Text := "\n".toList ++ spaced (ws.flatMap triple) ++ "        ".toList

theorem foldl_text {ι : Type} (F : ι → List (Text × Text)) (l : List ι) (s : Text) :
    l.foldl (fun t c => t ++ spaced (F c)) s = s ++ spaced (l.flatMap F) := by
  induction l generalizing s with
  | nil => simp [spaced]
  | cons x l ih => rw [List.foldl_cons, ih, List.flatMap_cons, spaced_append, List.append_assoc]

theorem spaced_one (w s : Text) : spaced [(w, s)] = w ++ s := by simp [spaced]

theorem spaced_triple (w : Text × Text × Text) :
    spaced (triple w) = w.1 ++ " ".toList ++ (w.2.1 ++ " ".toList) ++ (w.2.2 ++ "\n".toList) := by
  simp [spaced, triple]

theorem run_cells {C : Type} (io : RealText K) (c : A) (pos : C → Int) (cs : List C) {sz : A → Int}
    (hb : ∀ x ∈ cs, InB sz c (pos x)) (m : Mem A K) :
    (Prog.fold (fun t x => cellLine io c t (pos x)) cs "\n".toList).run sz m =
      .ok ("\n".toList ++ spaced (cs.map fun x => (io.full (m c (pos x)), "\n".toList)), m) := by
  rw [run_fold (fun t x => t ++ spaced [(io.full (m c (pos x)), "\n".toList)]) m, foldl_text, List.map_eq_flatMap]
  intro s x hx
  rw [spaced_one]
  simp only [cellLine, Prog.rd, Bind.bind, Pure.pure, Prog.bind, Prog.run, if_pos (hb x hx)]

theorem run_points {C : Type} (io : RealText K) (xv yv zv : A) (pos : C → Int) (cs : List C) {sz : A → Int}
    (hb : ∀ x ∈ cs, InB sz xv (pos x) ∧ InB sz yv (pos x) ∧ InB sz zv (pos x)) (m : Mem A K) :
    (Prog.fold (fun t x => ((do
        let x' ← Prog.rd xv (pos x)
        let y ← Prog.rd yv (pos x)
        let z ← Prog.rd zv (pos x)
        pure (t ++ (io.full x' ++ " ".toList ++ (io.full y ++ " ".toList) ++ (io.full z ++ "\n".toList)))) : Prog A K Text))
        cs "\n".toList).run sz m =
      .ok ("\n".toList ++ spaced ((cs.map fun x => (io.full (m xv (pos x)), io.full (m yv (pos x)), io.full (m zv (pos x)))).flatMap triple), m) := by
  rw [run_fold (fun t x => t ++ spaced (triple (io.full (m xv (pos x)), io.full (m yv (pos x)), io.full (m zv (pos x))))) m, foldl_text,
    List.flatMap_map]
  intro s x hx
  rw [spaced_triple]
  obtain ⟨h1, h2, h3⟩ := hb x hx
  simp only [Prog.rd, Bind.bind, Pure.pure, Prog.bind, Prog.run, if_pos h1, if_pos h2, if_pos h3]

theorem run_points2 {C : Type} (io : RealText K) (xv yv : A) (pos : C → Int) (cs : List C) {sz : A → Int}
    (hb : ∀ x ∈ cs, InB sz xv (pos x) ∧ InB sz yv (pos x)) (m : Mem A K) :
    (Prog.fold (fun t x => ((do
        let x' ← Prog.rd xv (pos x)
        let y ← Prog.rd yv (pos x)
        pure (t ++ (io.full x' ++ " ".toList ++ (io.full y ++ " ".toList) ++ ("0.0".toList ++ "\n".toList)))) : Prog A K Text))
        cs "\n".toList).run sz m =
      .ok ("\n".toList ++ spaced ((cs.map fun x => (io.full (m xv (pos x)), io.full (m yv (pos x)), "0.0".toList)).flatMap triple), m) := by
  rw [run_fold (fun t x => t ++ spaced (triple (io.full (m xv (pos x)), io.full (m yv (pos x)), "0.0".toList))) m, foldl_text,
    List.flatMap_map]
  intro s x hx
  rw [spaced_triple]
  obtain ⟨h1, h2⟩ := hb x hx
  simp only [Prog.rd, Bind.bind, Pure.pure, Prog.bind, Prog.run, if_pos h1, if_pos h2]

/-- Contents of a 3D file. -/
def file3 (io : RealText K) (g : Grid3) (xv yv zv c : A) (s : Status K) (m : Mem A K) : VtsFile where
  extent := extentText g.ni g.nj g.nk
  cells := cellsText io ((box3 0 g.nk 0 g.nj 0 g.ni).map fun x => m c (g.at3 x.2.2 x.2.1 x.1))
  points := pointsText ((box3 0 (g.nk + 1) 0 (g.nj + 1) 0 (g.ni + 1)).map fun x =>
    (io.full (m xv (g.vert.at3 x.2.2 x.2.1 x.1)), io.full (m yv (g.vert.at3 x.2.2 x.2.1 x.1)), io.full (m zv (g.vert.at3 x.2.2 x.2.1 x.1))))
  fields := statusFields io s

/-- Contents of a 2D file. -/
def file2 (io : RealText K) (g : Grid2) (xv yv c : A) (s : Status K) (m : Mem A K) : VtsFile where
  extent := extentText g.ni g.ni 0
  cells := cellsText io ((box2 0 g.ni 0 g.ni).map fun x => m c (g.at2 x.2 x.1))
  points := pointsText ((box2 0 (g.ni + 1) 0 (g.ni + 1)).map fun x =>
    (io.full (m xv (g.vert.at2 x.2 x.1)), io.full (m yv (g.vert.at2 x.2 x.1)), "0.0".toList))
  fields := statusFields io s

theorem vtkWrite3_run (io : RealText K) {g : Grid3} (hg : 0 ≤ g.nhalo) {sz : A → Int} {xv yv zv c : A} (hc : sz c = g.size)
    (hv : ∀ a ∈ [xv, yv, zv], sz a = g.vert.size) (s : Status K) (m : Mem A K) :
    (vtkWrite3 io g xv yv zv c s).run sz m = .ok (file3 io g xv yv zv c s m, m) := by
  have h1 := run_cells io c (fun x : Int × Int × Int => g.at3 x.2.2 x.2.1 x.1) (box3 0 g.nk 0 g.nj 0 g.ni) (sz := sz) (by
    intro x hx
    rw [mem_box3] at hx
    have := Grid3.at3_bounds (g := g) (i := x.2.2) (j := x.2.1) (k := x.1) ⟨by omega, by omega, by omega⟩
    exact ⟨this.1, by rw [hc]; exact this.2⟩) m
  have h2 := run_points io xv yv zv (fun x : Int × Int × Int => g.vert.at3 x.2.2 x.2.1 x.1)
    (box3 0 (g.nk + 1) 0 (g.nj + 1) 0 (g.ni + 1)) (sz := sz) (by
    intro x hx
    rw [mem_box3] at hx
    have := Grid3.at3_bounds (g := g.vert) (i := x.2.2) (j := x.2.1) (k := x.1) (Grid3.vert_pad.2 ⟨by omega, by omega, by omega⟩)
    exact ⟨⟨this.1, by rw [hv _ (by simp)]; exact this.2⟩, ⟨this.1, by rw [hv _ (by simp)]; exact this.2⟩,
      ⟨this.1, by rw [hv _ (by simp)]; exact this.2⟩⟩) m
  unfold vtkWrite3
  simp only [Bind.bind, Pure.pure] at h2 ⊢
  rw [fold_box3 0 g.nk 0 g.nj 0 g.ni (fun t k j i => cellLine io c t (g.at3 i j k)), run_bind_ok h1,
    fold_box3 0 (g.nk + 1) 0 (g.nj + 1) 0 (g.ni + 1) (fun t k j i => ((Prog.rd xv (g.vert.at3 i j k)).bind fun x =>
      (Prog.rd yv (g.vert.at3 i j k)).bind fun y => (Prog.rd zv (g.vert.at3 i j k)).bind fun z =>
        (Prog.pure (t ++ (io.full x ++ " ".toList ++ (io.full y ++ " ".toList) ++ (io.full z ++ "\n".toList))) : Prog A K Text))),
    run_bind_ok h2]
  simp only [Prog.run, file3, cellsText, pointsText, List.map_map, Function.comp_def]

theorem vtkWrite2_run (io : RealText K) {g : Grid2} (hsq : g.nj = g.ni) (hg : 0 ≤ g.nhalo) {sz : A → Int} {xv yv c : A} (hc : sz c = g.size)
    (hv : ∀ a ∈ [xv, yv], sz a = g.vert.size) (s : Status K) (m : Mem A K) :
    (vtkWrite2 io g xv yv c s).run sz m = .ok (file2 io g xv yv c s m, m) := by
  have h1 := run_cells io c (fun x : Int × Int => g.at2 x.2 x.1) (box2 0 g.ni 0 g.ni) (sz := sz) (by
    intro x hx
    rw [mem_box2] at hx
    have := Grid2.at2_bounds (g := g) (i := x.2) (j := x.1) ⟨by omega, by omega⟩
    exact ⟨this.1, by rw [hc]; exact this.2⟩) m
  have h2 := run_points2 io xv yv (fun x : Int × Int => g.vert.at2 x.2 x.1)
    (box2 0 (g.ni + 1) 0 (g.ni + 1)) (sz := sz) (by
    intro x hx
    rw [mem_box2] at hx
    have := Grid2.at2_bounds (g := g.vert) (i := x.2) (j := x.1) ((Grid2.vert_pad hsq).2 ⟨by omega, by omega⟩)
    exact ⟨⟨this.1, by rw [hv _ (by simp)]; exact this.2⟩, ⟨this.1, by rw [hv _ (by simp)]; exact this.2⟩⟩) m
  unfold vtkWrite2
  simp only [Bind.bind, Pure.pure] at h2 ⊢
  rw [fold_box2 0 g.ni 0 g.ni (fun t j i => cellLine io c t (g.at2 i j)), run_bind_ok h1,
    fold_box2 0 (g.ni + 1) 0 (g.ni + 1) (fun t j i => ((Prog.rd xv (g.vert.at2 i j)).bind fun x =>
      (Prog.rd yv (g.vert.at2 i j)).bind fun y =>
        (Prog.pure (t ++ (io.full x ++ " ".toList ++ (io.full y ++ " ".toList) ++ ("0.0".toList ++ "\n".toList))) : Prog A K Text))),
    run_bind_ok h2]
  simp only [Prog.run, file2, cellsText, pointsText, List.map_map, Function.comp_def]

/-! ### Reading -/

theorem tokens_cells (io : RealText K) {vs : List K} (hne : vs ≠ []) (h : ∀ v ∈ vs, Word isSpaceNl (io.full v)) :
    tokensOf (cellsText io vs) = vs.map io.full := by
  unfold tokensOf cellsText
  rw [words_spaced]
  · rw [List.map_map]; rfl
  · intro c hc; simp at hc; subst hc; rfl
  · simpa using hne
  · intro x hx
    obtain ⟨v, hv, rfl⟩ := List.mem_map.1 hx
    exact ⟨h v hv, by simp, by intro c hc; simp at hc; subst hc; rfl⟩
  · intro c hc
    simp at hc
    rcases hc with rfl | rfl <;> rfl

theorem tokens_points {ws : List (Text × Text × Text)} (hne : ws ≠ [])
    (h : ∀ w ∈ ws, Word isSpaceNl w.1 ∧ Word isSpaceNl w.2.1 ∧ Word isSpaceNl w.2.2) :
    tokensOf (pointsText ws) = ws.flatMap fun w => [w.1, w.2.1, w.2.2] := by
  unfold tokensOf pointsText
  rw [words_spaced]
  · rw [List.map_flatMap]; rfl
  · intro c hc; simp at hc; subst hc; rfl
  · obtain ⟨w, ws, rfl⟩ := List.exists_cons_of_ne_nil hne
    simp [triple]
  · intro x hx
    obtain ⟨w, hw, hx⟩ := List.mem_flatMap.1 hx
    obtain ⟨h1, h2, h3⟩ := h w hw
    simp only [triple, List.mem_cons, List.not_mem_nil, or_false] at hx
    rcases hx with rfl | rfl | rfl
    · exact ⟨h1, by simp, by intro c hc; simp at hc; subst hc; rfl⟩
    · exact ⟨h2, by simp, by intro c hc; simp at hc; subst hc; rfl⟩
    · exact ⟨h3, by simp, by intro c hc; simp at hc; subst hc; rfl⟩
  · intro c hc
    simp at hc
    subst hc; rfl

theorem tokens_extent (a b c : Int) : splitCompress isBlank (trimIf isBlank (extentText a b c)) =
    [showInt 0, showInt a, showInt 0, showInt b, showInt 0, showInt c] := by
  have hz : showInt 0 = ['0'] := by
    unfold showInt showNat; simp [digitsN, digitChar]
  have h := words_last (p := isBlank) [' '] (by intro c hc; simp at hc; subst hc; rfl)
    [(showInt 0, [' ']), (showInt a, [' ']), (showInt 0, [' ']), (showInt b, [' ']), (showInt 0, [' '])] (by
      intro x hx
      have hs : ∀ c ∈ ([' '] : Text), isBlank c = true := by intro c hc; simp at hc; subst hc; rfl
      simp only [List.mem_cons, List.not_mem_nil, or_false] at hx
      rcases hx with rfl | rfl | rfl | rfl | rfl <;> refine ⟨?_, by simp, hs⟩ <;> dsimp only <;> exact (word_showInt _).blank)
    (showInt c) (word_showInt c).blank [] (by simp)
  simp only [spaced, List.map_cons, List.map_nil, List.append_nil] at h
  unfold extentText
  rw [show (" 0 ".toList : Text) = [' '] ++ showInt 0 ++ [' '] by rw [hz]; rfl]
  simp only [List.append_assoc] at h ⊢
  exact h

theorem castIntAt_show {l : List Text} {n : Nat} {i : Int} (h : l[n]? = some (showInt i)) (h0 : 0 ≤ i) (h1 : i < 2147483648) :
    castIntAt l n = .ok i := by
  unfold castIntAt
  rw [h]
  dsimp only
  rw [readInt_showInt (by omega) h1]

theorem castReal_ok {io : RealText K} {t : Text} {v : K} (h : io.parse t = some v) : castReal io t = .ok v := by
  unfold castReal; rw [h]

theorem mapM_castReal {C : Type} (io : RealText K) (w : C → Text) (v : C → K) (cs : List C) (h : ∀ c ∈ cs, io.parse (w c) = some (v c)) :
    (cs.map w).mapM (castReal io) = .ok (cs.map v) := by
  induction cs with
  | nil => rfl
  | cons c cs ih =>
    rw [List.map_cons, List.mapM_cons, castReal_ok (h c (by simp)), ih fun c hc => h c (by simp [hc])]
    rfl

theorem readPoints_ok {C : Type} (io : RealText K) (wx wy wz : C → Text) (x y z : C → K) (cs : List C)
    (h : ∀ c ∈ cs, io.parse (wx c) = some (x c) ∧ io.parse (wy c) = some (y c) ∧ io.parse (wz c) = some (z c)) :
    readPoints io ((cs.map fun c => (wx c, wy c, wz c)).flatMap fun w => [w.1, w.2.1, w.2.2]) = .ok (cs.map fun c => (x c, y c, z c)) := by
  induction cs with
  | nil => rfl
  | cons c cs ih =>
    obtain ⟨h1, h2, h3⟩ := h c (by simp)
    rw [List.map_cons, List.flatMap_cons]
    simp only [List.cons_append, List.nil_append, readPoints, castReal_ok h1, castReal_ok h2, castReal_ok h3,
      ih fun c hc => h c (by simp [hc])]
    rfl

section
variable [LinearOrder K]

theorem foldl_min_spec (l : List K) (b : K) : (∀ y ∈ b :: l, l.foldl (fun b y => if y < b then y else b) b ≤ y) ∧
    l.foldl (fun b y => if y < b then y else b) b ∈ b :: l := by
  induction l generalizing b with
  | nil => simp
  | cons y l ih =>
    rw [List.foldl_cons]
    obtain ⟨h1, h2⟩ := ih (if y < b then y else b)
    have hb := h1 _ List.mem_cons_self
    constructor
    · intro z hz
      simp only [List.mem_cons] at hz
      rcases hz with rfl | rfl | hz
      · refine hb.trans ?_
        split
        · rename_i h; exact h.le
        · exact le_refl _
      · refine hb.trans ?_
        split
        · exact le_refl _
        · rename_i h; exact not_lt.1 h
      · exact h1 z (by simp [hz])
    · rcases List.mem_cons.1 h2 with h | h
      · rw [h]; split <;> simp
      · simp [h]

theorem minElem_of {l : List K} {v : K} (hv : v ∈ l) (h : ∀ y ∈ l, v ≤ y) : minElem l = .ok v := by
  cases l with
  | nil => simp at hv
  | cons x l =>
    obtain ⟨h1, h2⟩ := foldl_min_spec l x
    show Except.ok _ = Except.ok v
    congr 1
    exact le_antisymm (h1 v hv) (h _ h2)

theorem foldl_max_spec (l : List K) (b : K) : (∀ y ∈ b :: l, y ≤ l.foldl (fun b y => if b < y then y else b) b) ∧
    l.foldl (fun b y => if b < y then y else b) b ∈ b :: l := by
  induction l generalizing b with
  | nil => simp
  | cons y l ih =>
    rw [List.foldl_cons]
    obtain ⟨h1, h2⟩ := ih (if b < y then y else b)
    have hb := h1 _ List.mem_cons_self
    constructor
    · intro z hz
      simp only [List.mem_cons] at hz
      rcases hz with rfl | rfl | hz
      · refine le_trans ?_ hb
        split
        · rename_i h; exact h.le
        · exact le_refl _
      · refine le_trans ?_ hb
        split
        · exact le_refl _
        · rename_i h; exact not_lt.1 h
      · exact h1 z (by simp [hz])
    · rcases List.mem_cons.1 h2 with h | h
      · rw [h]; split <;> simp
      · simp [h]

theorem maxElem_of {l : List K} {v : K} (hv : v ∈ l) (h : ∀ y ∈ l, y ≤ v) : maxElem l = .ok v := by
  cases l with
  | nil => simp at hv
  | cons x l =>
    obtain ⟨h1, h2⟩ := foldl_max_spec l x
    show Except.ok _ = Except.ok v
    congr 1
    exact le_antisymm (h _ h2) (h1 v hv)

theorem fatalAssert_true {b : Bool} (h : b = true) : fatalAssert b = .ok () := by
  unfold fatalAssert; rw [if_pos h]

/-- Reading the domain of a file with well-formed extent and points. -/
theorem getCartesianDomain_ok {C : Type} (io : RealText K) (f : VtsFile) {nx ny nz : Int} (hx : 0 ≤ nx ∧ nx < 2147483648)
    (hy : 0 ≤ ny ∧ ny < 2147483648) (hz : 0 ≤ nz ∧ nz < 2147483648) (he : f.extent = extentText nx ny nz)
    (cs : List C) (wx wy wz : C → Text) (x y z : C → K) (hp : f.points = pointsText (cs.map fun c => (wx c, wy c, wz c)))
    (hlen : (cs.length : Int) = (nx + 1) * (ny + 1) * (nz + 1))
    (hw : ∀ c ∈ cs, Word isSpaceNl (wx c) ∧ Word isSpaceNl (wy c) ∧ Word isSpaceNl (wz c))
    (hr : ∀ c ∈ cs, io.parse (wx c) = some (x c) ∧ io.parse (wy c) = some (y c) ∧ io.parse (wz c) = some (z c))
    {xb xe yb zb : K} (hxb : (∃ c ∈ cs, x c = xb) ∧ ∀ c ∈ cs, xb ≤ x c) (hxe : (∃ c ∈ cs, x c = xe) ∧ ∀ c ∈ cs, x c ≤ xe)
    (hyb : (∃ c ∈ cs, y c = yb) ∧ ∀ c ∈ cs, yb ≤ y c) (hzb : (∃ c ∈ cs, z c = zb) ∧ ∀ c ∈ cs, zb ≤ z c) :
    getCartesianDomain io f = .ok ⟨nx, ny, nz, xb, xe, yb, zb⟩ := by
  have hne : cs ≠ [] := by rintro rfl; obtain ⟨⟨c, hc, -⟩, -⟩ := hxb; simp at hc
  unfold getCartesianDomain
  rw [he, hp, tokens_extent, tokens_points (by simpa using hne) (by
    intro w hw'
    obtain ⟨c, hc, rfl⟩ := List.mem_map.1 hw'
    exact hw c hc)]
  dsimp only
  rw [castIntAt_show (i := 0) rfl (by decide) (by decide), castIntAt_show (i := nx) rfl hx.1 hx.2,
    castIntAt_show (i := 0) rfl (by decide) (by decide), castIntAt_show (i := ny) rfl hy.1 hy.2,
    castIntAt_show (i := 0) rfl (by decide) (by decide), castIntAt_show (i := nz) rfl hz.1 hz.2, readPoints_ok io wx wy wz x y z cs hr]
  have hl : ∀ l : List (Text × Text × Text), (l.flatMap fun w => [w.1, w.2.1, w.2.2]).length = 3 * l.length := by
    intro l
    induction l with
    | nil => rfl
    | cons w l ih => rw [List.flatMap_cons, List.length_append, ih]; simp; ring
  rw [hl, List.length_map, Nat.mul_div_cancel_left _ (by decide : 0 < 3)]
  have e1 : minElem ((cs.map fun c => (x c, y c, z c)).map (·.1)) = .ok xb := by
    rw [List.map_map]
    exact minElem_of (by obtain ⟨⟨c, hc, e⟩, -⟩ := hxb; exact List.mem_map.2 ⟨c, hc, e⟩)
      (by intro v hv; obtain ⟨c, hc, rfl⟩ := List.mem_map.1 hv; exact hxb.2 c hc)
  have e2 : maxElem ((cs.map fun c => (x c, y c, z c)).map (·.1)) = .ok xe := by
    rw [List.map_map]
    exact maxElem_of (by obtain ⟨⟨c, hc, e⟩, -⟩ := hxe; exact List.mem_map.2 ⟨c, hc, e⟩)
      (by intro v hv; obtain ⟨c, hc, rfl⟩ := List.mem_map.1 hv; exact hxe.2 c hc)
  have e3 : minElem ((cs.map fun c => (x c, y c, z c)).map (·.2.1)) = .ok yb := by
    rw [List.map_map]
    exact minElem_of (by obtain ⟨⟨c, hc, e⟩, -⟩ := hyb; exact List.mem_map.2 ⟨c, hc, e⟩)
      (by intro v hv; obtain ⟨c, hc, rfl⟩ := List.mem_map.1 hv; exact hyb.2 c hc)
  have e4 : minElem ((cs.map fun c => (x c, y c, z c)).map (·.2.2)) = .ok zb := by
    rw [List.map_map]
    exact minElem_of (by obtain ⟨⟨c, hc, e⟩, -⟩ := hzb; exact List.mem_map.2 ⟨c, hc, e⟩)
      (by intro v hv; obtain ⟨c, hc, rfl⟩ := List.mem_map.1 hv; exact hzb.2 c hc)
  have e5 : (if nz = 0 then fatalAssert (decide ((cs.length : Int) = (nx + 1) * (ny + 1)))
      else fatalAssert (decide ((cs.length : Int) = (nx + 1) * (ny + 1) * (nz + 1)))) = .ok () := by
    split
    · rename_i h0
      exact fatalAssert_true (by rw [hlen, h0]; simp)
    · exact fatalAssert_true (by rw [hlen]; simp)
  have e6 : (if nz = 0 then 0 else nz) = nz := by split <;> omega
  simp only [bind, Except.bind, pure, Except.pure]
  rw [fatalAssert_true (b := decide True) (by decide)]
  dsimp only
  rw [e1, e2, e3, e4, e6]
  split <;> rename_i h0
  · rw [if_pos h0] at e5; rw [e5]
  · rw [if_neg h0] at e5; rw [e5]

theorem foldl_set_miss {C : Type} (d : A) (pos : C → Int) (v : C → K) (cs : List C) (m : Mem A K) {a : A} {n : Int}
    (h : ∀ c ∈ cs, ¬ (a = d ∧ n = pos c)) : cs.foldl (fun m c => m.set d (pos c) (v c)) m a n = m a n := by
  induction cs generalizing m with
  | nil => rfl
  | cons c cs ih =>
    rw [List.foldl_cons, ih _ fun c hc => h c (by simp [hc])]
    exact Mem.set_of_ne _ _ (h c (by simp))

theorem foldl_set_hit {C : Type} (d : A) (pos : C → Int) (v : C → K) (cs : List C) (m : Mem A K)
    (inj : ∀ c ∈ cs, ∀ c' ∈ cs, pos c = pos c' → v c = v c') {c : C} (hc : c ∈ cs) :
    cs.foldl (fun m c => m.set d (pos c) (v c)) m d (pos c) = v c := by
  induction cs generalizing m c with
  | nil => simp at hc
  | cons y cs ih =>
    rw [List.foldl_cons]
    by_cases h : ∃ z ∈ cs, pos z = pos c
    · obtain ⟨z, hz, e⟩ := h
      rw [← e, ih _ (fun a ha b hb => inj a (by simp [ha]) b (by simp [hb])) hz]
      exact inj z (by simp [hz]) c hc e
    · have hcy : c = y := by
        rcases List.mem_cons.1 hc with e | e
        · exact e
        · exact absurd ⟨c, e, rfl⟩ h
      subst hcy
      rw [foldl_set_miss _ _ _ _ _ fun z hz e => h ⟨z, hz, e.2.symm⟩]
      exact Mem.set_same _ _ _ _

theorem run_putNext {C : Type} (sol : List K) (d : A) (pos : C → Int) (v : C → K) (cs : List C) {sz : A → Int}
    (hb : ∀ c ∈ cs, InB sz d (pos c)) (m : Mem A K) (pre : List K) (hs : sol = pre ++ cs.map v) :
    (Prog.fold (fun s c => putNext sol d s (pos c)) cs pre.length).run sz m =
      .ok (pre.length + cs.length, cs.foldl (fun m c => m.set d (pos c) (v c)) m) := by
  induction cs generalizing m pre with
  | nil => rfl
  | cons c cs ih =>
    have e1 : (putNext sol d pre.length (pos c) : Prog A K Nat).run sz m = .ok (pre.length + 1, m.set d (pos c) (v c)) := by
      unfold putNext
      have : sol[pre.length]? = some (v c) := by rw [hs]; simp
      rw [this]
      simp only [Prog.wr, Prog.bind, Prog.run, if_pos (hb c (by simp))]
    rw [Prog.fold, run_bind_ok e1]
    have := ih (fun c hc => hb c (by simp [hc])) (m.set d (pos c) (v c)) (pre ++ [v c]) (by rw [hs]; simp)
    rw [List.length_append, List.length_singleton] at this
    rw [this, List.foldl_cons, List.length_cons]
    congr 2; omega

theorem setSolution3_ok (io : RealText K) (f : VtsFile) {g : Grid3} (hh : 0 ≤ g.nhalo) (hn : 1 ≤ g.ni ∧ 1 ≤ g.nj ∧ 1 ≤ g.nk) {xb xe yb zb : K}
    (hd : getCartesianDomain io f = .ok ⟨g.ni, g.nj, g.nk, xb, xe, yb, zb⟩) (v : Int → Int → Int → K)
    (hf : f.cells = cellsText io ((box3 0 g.nk 0 g.nj 0 g.ni).map fun x => v x.2.2 x.2.1 x.1))
    (hv : ∀ i j k, g.Int3 i j k → Exact io (v i j k)) {sz : A → Int} {d : A} (hs : sz d = g.size) (m : Mem A K) :
    ∃ m', (setSolution io f (.d3 g d)).run sz m = .ok ((), m') ∧ (∀ i j k, g.Int3 i j k → m' d (g.at3 i j k) = v i j k) ∧
      (∀ n, (∀ i j k, g.Int3 i j k → n ≠ g.at3 i j k) → m' d n = m d n) ∧ ∀ b, b ≠ d → m' b = m b := by
  have hmem : ∀ x ∈ box3 0 g.nk 0 g.nj 0 g.ni, g.Int3 x.2.2 x.2.1 x.1 := by
    intro x hx; rw [mem_box3] at hx; exact ⟨hx.2.2, hx.2.1, hx.1⟩
  have hpad : ∀ {i j k}, g.Int3 i j k → g.Pad i j k := by
    intro i j k h; obtain ⟨h1, h2, h3⟩ := h; exact ⟨by omega, by omega, by omega⟩
  have hne : box3 0 g.nk 0 g.nj 0 g.ni ≠ [] := by
    intro h
    have : ((0 : Int), (0 : Int), (0 : Int)) ∈ box3 0 g.nk 0 g.nj 0 g.ni := mem_box3.2 ⟨by dsimp only; omega, by dsimp only; omega, by dsimp only; omega⟩
    rw [h] at this; simp at this
  have htok : (tokensOf f.cells).mapM (castReal io) = .ok ((box3 0 g.nk 0 g.nj 0 g.ni).map fun x => v x.2.2 x.2.1 x.1) := by
    rw [hf, tokens_cells io (by simpa using hne) (by
      intro w hw
      obtain ⟨x, hx, rfl⟩ := List.mem_map.1 hw
      exact (hv _ _ _ (hmem x hx)).1), List.map_map]
    exact mapM_castReal io _ _ _ fun x hx => (hv _ _ _ (hmem x hx)).2
  have hrun := run_putNext ((box3 0 g.nk 0 g.nj 0 g.ni).map fun x => v x.2.2 x.2.1 x.1) d
    (fun x : Int × Int × Int => g.at3 x.2.2 x.2.1 x.1) (fun x => v x.2.2 x.2.1 x.1) (box3 0 g.nk 0 g.nj 0 g.ni) (sz := sz) (by
      intro x hx
      have := Grid3.at3_bounds (hpad (hmem x hx))
      exact ⟨this.1, by rw [hs]; exact this.2⟩) m [] rfl
  rw [List.length_nil] at hrun
  refine ⟨(box3 0 g.nk 0 g.nj 0 g.ni).foldl (fun m x => m.set d (g.at3 x.2.2 x.2.1 x.1) (v x.2.2 x.2.1 x.1)) m, ?_, ?_, ?_, ?_⟩
  · unfold setSolution
    rw [htok]
    dsimp only
    rw [hd]
    dsimp only
    rw [if_neg (by omega), fold_box3 0 g.nk 0 g.nj 0 g.ni (fun s k j i => putNext _ d s (g.at3 i j k)), run_bind_ok hrun]
    rfl
  · intro i j k h
    exact foldl_set_hit d (fun x : Int × Int × Int => g.at3 x.2.2 x.2.1 x.1) (fun x => v x.2.2 x.2.1 x.1) _ m (by
      intro x hx y hy e
      obtain ⟨e1, e2, e3⟩ := Grid3.at3_inj (hpad (hmem x hx)) (hpad (hmem y hy)) e
      simp only [e1, e2, e3]) (c := (k, j, i)) (mem_box3.2 ⟨h.2.2, h.2.1, h.1⟩)
  · intro n hn
    exact foldl_set_miss _ _ _ _ _ fun x hx e => hn _ _ _ (hmem x hx) e.2
  · intro b hb
    funext n
    exact foldl_set_miss _ _ _ _ _ fun x hx e => hb e.1

theorem setSolution2_ok (io : RealText K) (f : VtsFile) {g : Grid2} (hsq : g.nj = g.ni) (hh : 0 ≤ g.nhalo) (hn : 1 ≤ g.ni) {xb xe yb zb : K}
    (hd : getCartesianDomain io f = .ok ⟨g.ni, g.ni, 0, xb, xe, yb, zb⟩) (v : Int → Int → K)
    (hf : f.cells = cellsText io ((box2 0 g.ni 0 g.ni).map fun x => v x.2 x.1))
    (hv : ∀ i j, g.Int2 i j → Exact io (v i j)) {sz : A → Int} {d : A} (hs : sz d = g.size) (m : Mem A K) :
    ∃ m', (setSolution io f (.d2 g d)).run sz m = .ok ((), m') ∧ (∀ i j, g.Int2 i j → m' d (g.at2 i j) = v i j) ∧
      (∀ n, (∀ i j, g.Int2 i j → n ≠ g.at2 i j) → m' d n = m d n) ∧ ∀ b, b ≠ d → m' b = m b := by
  have hmem : ∀ x ∈ box2 0 g.ni 0 g.ni, g.Int2 x.2 x.1 := by
    intro x hx; rw [mem_box2] at hx; exact ⟨hx.2, by rw [hsq]; exact hx.1⟩
  have hpad : ∀ {i j}, g.Int2 i j → g.Pad i j := by
    intro i j h; obtain ⟨h1, h2⟩ := h; exact ⟨by omega, by omega⟩
  have hne : box2 0 g.ni 0 g.ni ≠ [] := by
    intro h
    have : ((0 : Int), (0 : Int)) ∈ box2 0 g.ni 0 g.ni := mem_box2.2 ⟨by dsimp only; omega, by dsimp only; omega⟩
    rw [h] at this; simp at this
  have htok : (tokensOf f.cells).mapM (castReal io) = .ok ((box2 0 g.ni 0 g.ni).map fun x => v x.2 x.1) := by
    rw [hf, tokens_cells io (by simpa using hne) (by
      intro w hw
      obtain ⟨x, hx, rfl⟩ := List.mem_map.1 hw
      exact (hv _ _ (hmem x hx)).1), List.map_map]
    exact mapM_castReal io _ _ _ fun x hx => (hv _ _ (hmem x hx)).2
  have hrun := run_putNext ((box2 0 g.ni 0 g.ni).map fun x => v x.2 x.1) d
    (fun x : Int × Int => g.at2 x.2 x.1) (fun x => v x.2 x.1) (box2 0 g.ni 0 g.ni) (sz := sz) (by
      intro x hx
      have := Grid2.at2_bounds (hpad (hmem x hx))
      exact ⟨this.1, by rw [hs]; exact this.2⟩) m [] rfl
  rw [List.length_nil] at hrun
  refine ⟨(box2 0 g.ni 0 g.ni).foldl (fun m x => m.set d (g.at2 x.2 x.1) (v x.2 x.1)) m, ?_, ?_, ?_, ?_⟩
  · unfold setSolution
    rw [htok]
    dsimp only
    rw [hd]
    dsimp only
    rw [if_pos rfl, fold_box2 0 g.ni 0 g.ni (fun s j i => putNext _ d s (g.at2 i j)), run_bind_ok hrun]
    rfl
  · intro i j h
    exact foldl_set_hit d (fun x : Int × Int => g.at2 x.2 x.1) (fun x => v x.2 x.1) _ m (by
      intro x hx y hy e
      obtain ⟨e1, e2⟩ := Grid2.at2_inj (hpad (hmem x hx)) (hpad (hmem y hy)) e
      simp only [e1, e2]) (c := (j, i)) (mem_box2.2 ⟨by rw [← hsq]; exact h.2, h.1⟩)
  · intro n hn
    exact foldl_set_miss _ _ _ _ _ fun x hx e => hn _ _ (hmem x hx) e.2
  · intro b hb
    funext n
    exact foldl_set_miss _ _ _ _ _ fun x hx e => hb e.1

end

/-! ### Status fields -/

theorem tokens_field {w : Text} (hw : Word isSpaceNl w) : tokensOf ("\n".toList ++ w ++ "\n     ".toList) = [w] := by
  have h := words_last (p := isSpaceNl) "\n".toList (by intro c hc; simp at hc; subst hc; rfl) [] (by simp) w hw "\n     ".toList (by
    intro c hc
    simp at hc
    rcases hc with rfl | rfl <;> rfl)
  simpa [spaced, tokensOf] using h

theorem setInitialTimeStep_ok (io : RealText K) (f : VtsFile) (s : Status K) (o : TimeOpts K) {t dt : K} (hf : f.fields = statusFields io s)
    (hw : Word isSpaceNl (io.short s.time) ∧ Word isSpaceNl (io.short s.dt)) (ht : io.parse (io.short s.time) = some t)
    (hdt : io.parse (io.short s.dt) = some dt) (hi : -2147483648 ≤ s.iter ∧ s.iter < 2147483648) :
    setInitialTimeStep io f o = .ok { o with t0 := t, initialStep := s.iter, dt0 := dt } := by
  unfold setInitialTimeStep
  rw [hf]
  unfold statusFields
  simp only [List.foldlM_cons, List.foldlM_nil, readField, tokens_field hw.1, tokens_field hw.2, tokens_field (word_showInt s.iter),
    castReal_ok ht, castReal_ok hdt, readInt_showInt hi.1 hi.2]
  rfl

end Madg
