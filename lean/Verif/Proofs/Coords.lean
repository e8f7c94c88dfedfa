/-
Coordinates: closed form of the arrays.
-/
import Verif.Model.Coords
import Verif.Proofs.Kern3
import Verif.Proofs.Grid2

set_option linter.unusedSectionVars false
set_option linter.unusedVariables false

namespace Madg
open Spec
variable {A K : Type} [DecidableEq A]

/-- A sequential loop in which each iteration writes one location of its own. -/
theorem det_seq {C : Type} {sz : A → Int} {cs : List C} {body : C → Prog A K Unit} (hnd : cs.Nodup)
    (loc : C → A × Int) (f : C → K) (m : Mem A K)
    (inj : ∀ c ∈ cs, ∀ c' ∈ cs, loc c = loc c' → c = c')
    (hfoot : ∀ c ∈ cs, (body c).Foot sz (fun a n => ∀ c' ∈ cs, c' ≠ c → loc c' ≠ (a, n)) (fun a n => loc c = (a, n)))
    (hval : ∀ c ∈ cs, (body c).exec m (loc c).1 (loc c).2 = f c) :
    Det sz [[Prog.forEach cs body]] m (m.upd loc (· ∈ cs) f) := by
  have h := det_cells_nested (sz := sz) (ts := [()]) (us := fun _ => cs) (body := fun _ c => body c) (by simp) (fun _ _ => hnd)
    (fun x => loc x.2) (fun x => f x.2) m
    (fun c _ hc c' _ hc' e => Prod.ext rfl (inj c.2 hc c'.2 hc' e))
    (fun c _ hc => (hfoot c.2 hc).mono (fun a n h c' _ hc' hne => h c'.2 hc' fun e => hne (Prod.ext rfl e)) fun a n h => h)
    (fun c _ hc => hval c.2 hc)
  have e : m.upd (fun x : Unit × C => loc x.2) (fun c => c.1 ∈ [()] ∧ c.2 ∈ cs) (fun x => f x.2) = m.upd loc (· ∈ cs) f := by
    funext b n
    by_cases hb : ∃ c ∈ cs, loc c = (b, n)
    · obtain ⟨c, hc, hl⟩ := hb
      rw [Mem.upd_hit (c := c) (fun c' hc' e => inj c' hc' c hc e) hc hl,
        Mem.upd_hit (loc := fun x : Unit × C => loc x.2) (f := fun x => f x.2) (c := ((), c))
          (fun c' hc' e => Prod.ext rfl (inj c'.2 hc'.2 c hc e)) ⟨by simp, hc⟩ hl]
    · rw [Mem.upd_miss fun c hc hl => hb ⟨c, hc, hl⟩, Mem.upd_miss fun c hc hl => hb ⟨c.2, hc.2, hl⟩]
  rw [← e]
  exact h

variable [Arith K]

/-- Nested loops over a box as one loop. -/
theorem forEach_box3 (i0 i1 j0 j1 k0 k1 : Int) (f : Int → Int → Int → Prog A K Unit) :
    (Prog.forEach (irange i0 i1) fun i => Prog.forEach (irange j0 j1) fun j => Prog.forEach (irange k0 k1) fun k => f i j k) =
      Prog.forEach (box3 i0 i1 j0 j1 k0 k1) fun c => f c.1 c.2.1 c.2.2 := by
  unfold box3
  rw [forEach_flatMap]
  congr 1; funext i
  rw [forEach_flatMap]
  congr 1; funext j
  rw [forEach_map]

theorem forEach_box2 (i0 i1 j0 j1 : Int) (f : Int → Int → Prog A K Unit) :
    (Prog.forEach (irange i0 i1) fun i => Prog.forEach (irange j0 j1) fun j => f i j) =
      Prog.forEach (box2 i0 i1 j0 j1) fun c => f c.1 c.2 := by
  unfold box2
  rw [forEach_flatMap]
  congr 1; funext i
  rw [forEach_map]

/-- Pairs of a cell and an axis. -/
def axes {C : Type} (n : Nat) (cs : List C) : List (C × Nat) := cs.flatMap fun c => (List.range n).map fun t => (c, t)

theorem mem_axes {C : Type} {n : Nat} {cs : List C} {x : C × Nat} : x ∈ axes n cs ↔ x.1 ∈ cs ∧ x.2 < n := by
  obtain ⟨c, t⟩ := x
  simp [axes]

theorem nodup_axes {C : Type} {n : Nat} {cs : List C} (h : cs.Nodup) : (axes n cs).Nodup := by
  refine nodup_flatMap_disj Prod.fst h ?_ ?_
  · intro c _
    refine List.Nodup.map ?_ List.nodup_range
    intro a b e
    exact (Prod.mk.inj e).2
  · intro c _ x hx
    obtain ⟨t, _, rfl⟩ := List.mem_map.1 hx
    rfl

/-- A loop whose iterations write one cell of each of `n` different arrays. -/
theorem det_seq_axes {C : Type} {sz : A → Int} {cs : List C} (n : Nat) {body : C × Nat → Prog A K Unit} (hnd : cs.Nodup)
    (arr : Nat → A) (harr : ∀ s t, s < n → t < n → arr s = arr t → s = t) (at' : C → Int)
    (inj : ∀ c ∈ cs, ∀ c' ∈ cs, at' c = at' c' → c = c') (f : Nat → C → K) (m : Mem A K)
    (hfoot : ∀ c ∈ cs, ∀ t < n, (body (c, t)).Foot sz (fun a _ => ∀ s < n, a ≠ arr s) (fun a k => a = arr t ∧ k = at' c))
    (hval : ∀ c ∈ cs, ∀ t < n, (body (c, t)).exec m (arr t) (at' c) = f t c) :
    ∃ m', Det sz [[Prog.forEach cs fun c => Prog.forEach (List.range n) fun t => body (c, t)]] m m' ∧
      (∀ t < n, ∀ c ∈ cs, m' (arr t) (at' c) = f t c) ∧
      (∀ t < n, ∀ k, (∀ c ∈ cs, at' c ≠ k) → m' (arr t) k = m (arr t) k) ∧
      (∀ b, (∀ t < n, b ≠ arr t) → m' b = m b) := by
  have e : (Prog.forEach cs fun c => Prog.forEach (List.range n) fun t => body (c, t)) = Prog.forEach (axes n cs) body := by
    unfold axes
    rw [forEach_flatMap]
    congr 1; funext c
    rw [forEach_map]
  have inj' : ∀ x ∈ axes n cs, ∀ y ∈ axes n cs, (arr x.2, at' x.1) = (arr y.2, at' y.1) → x = y := by
    intro x hx y hy e
    rw [mem_axes] at hx hy
    obtain ⟨e1, e2⟩ := Prod.mk.inj e
    exact Prod.ext (inj _ hx.1 _ hy.1 e2) (harr _ _ hx.2 hy.2 e1)
  rw [e]
  refine ⟨_, det_seq (nodup_axes hnd) (fun x => (arr x.2, at' x.1)) (fun x => f x.2 x.1) m inj' ?_ ?_, ?_, ?_, ?_⟩
  · intro x hx
    rw [mem_axes] at hx
    refine (hfoot x.1 hx.1 x.2 hx.2).mono ?_ ?_
    · intro a k h y hy _ e
      rw [mem_axes] at hy
      exact h y.2 hy.2 (Prod.mk.inj e).1.symm
    · rintro a k ⟨rfl, rfl⟩; rfl
  · intro x hx
    rw [mem_axes] at hx
    exact hval x.1 hx.1 x.2 hx.2
  · intro t ht c hc
    have hx : (c, t) ∈ axes n cs := mem_axes.2 ⟨hc, ht⟩
    exact Mem.upd_hit (loc := fun x : C × Nat => (arr x.2, at' x.1)) (f := fun x => f x.2 x.1) (c := (c, t))
      (fun y hy e => inj' y hy _ hx e) hx rfl
  · intro t ht k hk
    exact Mem.upd_miss fun x hx e => hk x.1 (mem_axes.1 hx).1 (Prod.mk.inj e).2
  · intro b hb
    exact Mem.upd_ne fun x hx e => hb x.2 (mem_axes.1 hx).2 e.symm

/-- Distinct coordinate arrays of the right sizes. -/
structure CoordArr.Ok (w : CoordArr A) (sz : A → Int) (g : Grid3) : Prop where
  nodup : [w.x, w.y, w.z, w.xv, w.yv, w.zv].Nodup
  size : ∀ a ∈ [w.x, w.y, w.z], sz a = g.size
  sizev : ∀ a ∈ [w.xv, w.yv, w.zv], sz a = g.vert.size

def pick (a b c : A) : Nat → A
  | 0 => a
  | 1 => b
  | _ => c

theorem pick_inj {a b c : A} (h : [a, b, c].Nodup) : ∀ s t, s < 3 → t < 3 → pick a b c s = pick a b c t → s = t := by
  simp only [List.nodup_cons, List.mem_cons, List.not_mem_nil, or_false, not_or, List.nodup_nil, and_true, not_false_eq_true] at h
  obtain ⟨⟨h1, h2⟩, h3⟩ := h
  intro s t hs ht e
  match s, t, hs, ht with
  | 0, 0, _, _ => rfl
  | 1, 1, _, _ => rfl
  | 2, 2, _, _ => rfl
  | 0, 1, _, _ => exact absurd e h1
  | 0, 2, _, _ => exact absurd e h2
  | 1, 0, _, _ => exact absurd e.symm h1
  | 1, 2, _, _ => exact absurd e h3
  | 2, 0, _, _ => exact absurd e.symm h2
  | 2, 1, _, _ => exact absurd e.symm h3

theorem pick_mem {a b c : A} {t : Nat} : pick a b c t ∈ [a, b, c] := by
  match t with
  | 0 => simp [pick]
  | 1 => simp [pick]
  | (n + 2) => simp [pick]

theorem Grid3.vert_pad {g : Grid3} {i j k : Int} : g.vert.Pad i j k ↔
    (-g.nhalo ≤ i ∧ i < g.ni + g.nhalo + 1) ∧ (-g.nhalo ≤ j ∧ j < g.nj + g.nhalo + 1) ∧ (-g.nhalo ≤ k ∧ k < g.nk + g.nhalo + 1) := by
  unfold Grid3.Pad Grid3.vert
  simp only
  constructor <;> intro h <;> omega

theorem coords3_det {g : Grid3} {sz : A → Int} {w : CoordArr A} (hw : w.Ok sz g) (b : Box K) (m : Mem A K) :
    ∃ m', Det sz (g.fillCoords b w) m m' ∧
      (∀ i j k, g.vert.Pad i j k → m' w.xv (g.vert.at3 i j k) = b.xbeg + b.dx g.ni * (i : K) ∧
        m' w.yv (g.vert.at3 i j k) = b.ybeg + b.dx g.ni * (j : K) ∧
        m' w.zv (g.vert.at3 i j k) = b.zbeg + b.dx g.ni * (k : K)) ∧
      (∀ i j k, g.Pad i j k →
        m' w.x (g.at3 i j k) = 1 / 2 * ((b.xbeg + b.dx g.ni * (i : K)) + (b.xbeg + b.dx g.ni * ((i + 1 : Int) : K))) ∧
        m' w.y (g.at3 i j k) = 1 / 2 * ((b.ybeg + b.dx g.ni * (j : K)) + (b.ybeg + b.dx g.ni * ((j + 1 : Int) : K))) ∧
        m' w.z (g.at3 i j k) = 1 / 2 * ((b.zbeg + b.dx g.ni * (k : K)) + (b.zbeg + b.dx g.ni * ((k + 1 : Int) : K)))) ∧
      (∀ a, a ∉ [w.x, w.y, w.z, w.xv, w.yv, w.zv] → m' a = m a) := by
  obtain ⟨hnd, hs, hsv⟩ := hw
  have hnd' : [w.x, w.y, w.z] ++ [w.xv, w.yv, w.zv] = [w.x, w.y, w.z, w.xv, w.yv, w.zv] := rfl
  rw [← hnd'] at hnd
  obtain ⟨nd1, nd2, nd3⟩ := List.nodup_append.1 hnd
  obtain ⟨m1, d1, v1, -, f1⟩ := det_seq_axes (sz := sz) (cs := box3 (-g.nhalo) (g.ni + g.nhalo + 1) (-g.nhalo) (g.nj + g.nhalo + 1) (-g.nhalo) (g.nk + g.nhalo + 1)) 3
    (body := fun x => (Prog.wr (pick w.xv w.yv w.zv x.2) (g.vert.at3 x.1.1 x.1.2.1 x.1.2.2)
      (pick (b.xbeg + b.dx g.ni * (x.1.1 : K)) (b.ybeg + b.dx g.ni * (x.1.2.1 : K)) (b.zbeg + b.dx g.ni * (x.1.2.2 : K)) x.2) : Prog A K Unit))
    (nodup_box3 _ _ _ _ _ _) (pick w.xv w.yv w.zv) (pick_inj nd2) (fun c => g.vert.at3 c.1 c.2.1 c.2.2)
    (by
      intro c hc c' hc' e
      rw [mem_box3] at hc hc'
      obtain ⟨e1, e2, e3⟩ := Grid3.at3_inj (Grid3.vert_pad.2 hc) (Grid3.vert_pad.2 hc') e
      exact Prod.ext e1 (Prod.ext e2 e3))
    (fun t c => pick (b.xbeg + b.dx g.ni * (c.1 : K)) (b.ybeg + b.dx g.ni * (c.2.1 : K)) (b.zbeg + b.dx g.ni * (c.2.2 : K)) t) m
    (by
      intro c hc t ht
      rw [mem_box3] at hc
      have hb := Grid3.at3_bounds (Grid3.vert_pad.2 hc)
      exact ⟨⟨hb.1, by rw [hsv _ pick_mem]; exact hb.2⟩, ⟨rfl, rfl⟩, trivial⟩)
    (by intro c hc t ht; exact Mem.set_same _ _ _ _)
  have vv : ∀ i j k, g.vert.Pad i j k → m1 w.xv (g.vert.at3 i j k) = b.xbeg + b.dx g.ni * (i : K) ∧
        m1 w.yv (g.vert.at3 i j k) = b.ybeg + b.dx g.ni * (j : K) ∧
        m1 w.zv (g.vert.at3 i j k) = b.zbeg + b.dx g.ni * (k : K) := by
    intro i j k h
    have hc : (i, j, k) ∈ box3 (-g.nhalo) (g.ni + g.nhalo + 1) (-g.nhalo) (g.nj + g.nhalo + 1) (-g.nhalo) (g.nk + g.nhalo + 1) :=
      mem_box3.2 (Grid3.vert_pad.1 h)
    exact ⟨v1 0 (by omega) _ hc, v1 1 (by omega) _ hc, v1 2 (by omega) _ hc⟩
  have e1 : g.vertexLoop b w = Prog.forEach (box3 (-g.nhalo) (g.ni + g.nhalo + 1) (-g.nhalo) (g.nj + g.nhalo + 1) (-g.nhalo) (g.nk + g.nhalo + 1))
      (fun c => Prog.forEach (List.range 3) fun t => (Prog.wr (pick w.xv w.yv w.zv t) (g.vert.at3 c.1 c.2.1 c.2.2)
      (pick (b.xbeg + b.dx g.ni * (c.1 : K)) (b.ybeg + b.dx g.ni * (c.2.1 : K)) (b.zbeg + b.dx g.ni * (c.2.2 : K)) t) : Prog A K Unit)) := by
    unfold Grid3.vertexLoop
    rw [forEach_box3]
    rfl
  have pv : ∀ i j k, g.Pad i j k → g.vert.Pad i j k ∧ g.vert.Pad (i + 1) j k ∧ g.vert.Pad i (j + 1) k ∧ g.vert.Pad i j (k + 1) := by
    intro i j k h
    unfold Grid3.Pad at h
    refine ⟨?_, ?_, ?_, ?_⟩ <;> rw [Grid3.vert_pad] <;> omega
  have hdis : ∀ a ∈ [w.xv, w.yv, w.zv], ∀ s : Nat, s < 3 → a ≠ pick w.x w.y w.z s := fun a ha s _ e =>
    nd3 _ pick_mem a ha e.symm
  have bx : ∀ c ∈ box3 (-g.nhalo) (g.ni + g.nhalo) (-g.nhalo) (g.nj + g.nhalo) (-g.nhalo) (g.nk + g.nhalo), g.Pad c.1 c.2.1 c.2.2 := by
    intro c hc; rw [mem_box3] at hc; exact hc
  obtain ⟨m2, d2, v2, -, f2⟩ := det_seq_axes (sz := sz) (cs := box3 (-g.nhalo) (g.ni + g.nhalo) (-g.nhalo) (g.nj + g.nhalo) (-g.nhalo) (g.nk + g.nhalo)) 3
    (body := fun x => ((Prog.rd (pick w.xv w.yv w.zv x.2) (g.vert.at3 x.1.1 x.1.2.1 x.1.2.2)).bind fun a =>
      (Prog.rd (pick w.xv w.yv w.zv x.2) (pick (g.vert.at3 (x.1.1 + 1) x.1.2.1 x.1.2.2) (g.vert.at3 x.1.1 (x.1.2.1 + 1) x.1.2.2)
        (g.vert.at3 x.1.1 x.1.2.1 (x.1.2.2 + 1)) x.2)).bind fun c =>
      Prog.wr (pick w.x w.y w.z x.2) (g.at3 x.1.1 x.1.2.1 x.1.2.2) (1 / 2 * (a + c)) : Prog A K Unit))
    (nodup_box3 _ _ _ _ _ _) (pick w.x w.y w.z) (pick_inj nd1) (fun c => g.at3 c.1 c.2.1 c.2.2)
    (by
      intro c hc c' hc' e
      obtain ⟨e1, e2, e3⟩ := Grid3.at3_inj (bx c hc) (bx c' hc') e
      exact Prod.ext e1 (Prod.ext e2 e3))
    (fun t c => pick (1 / 2 * ((b.xbeg + b.dx g.ni * (c.1 : K)) + (b.xbeg + b.dx g.ni * ((c.1 + 1 : Int) : K))))
      (1 / 2 * ((b.ybeg + b.dx g.ni * (c.2.1 : K)) + (b.ybeg + b.dx g.ni * ((c.2.1 + 1 : Int) : K))))
      (1 / 2 * ((b.zbeg + b.dx g.ni * (c.2.2 : K)) + (b.zbeg + b.dx g.ni * ((c.2.2 + 1 : Int) : K)))) t) m1
    (by
      intro c hc t ht
      obtain ⟨p0, p1, p2, p3⟩ := pv _ _ _ (bx c hc)
      have b0 := Grid3.at3_bounds p0
      have b1 := Grid3.at3_bounds p1
      have b2 := Grid3.at3_bounds p2
      have b3 := Grid3.at3_bounds p3
      have bc := Grid3.at3_bounds (bx c hc)
      refine ⟨⟨b0.1, by rw [hsv _ pick_mem]; exact b0.2⟩, hdis _ pick_mem, fun _ => ⟨?_, hdis _ pick_mem, fun _ =>
        ⟨⟨bc.1, by rw [hs _ pick_mem]; exact bc.2⟩, ⟨rfl, rfl⟩, trivial⟩⟩⟩
      unfold InB
      rw [hsv _ pick_mem]
      match t with
      | 0 => exact b1
      | 1 => exact b2
      | (n + 2) => exact b3)
    (by
      intro c hc t ht
      obtain ⟨p0, p1, p2, p3⟩ := pv _ _ _ (bx c hc)
      refine (Mem.set_same _ _ _ _).trans ?_
      match t, ht with
      | 0, _ => simp only [pick]; rw [(vv _ _ _ p0).1, (vv _ _ _ p1).1]
      | 1, _ => simp only [pick]; rw [(vv _ _ _ p0).2.1, (vv _ _ _ p2).2.1]
      | 2, _ => simp only [pick]; rw [(vv _ _ _ p0).2.2, (vv _ _ _ p3).2.2])
  have e2 : g.centreLoop w = Prog.forEach (box3 (-g.nhalo) (g.ni + g.nhalo) (-g.nhalo) (g.nj + g.nhalo) (-g.nhalo) (g.nk + g.nhalo))
      (fun x => Prog.forEach (List.range 3) fun t => ((Prog.rd (pick w.xv w.yv w.zv t) (g.vert.at3 x.1 x.2.1 x.2.2)).bind fun a =>
      (Prog.rd (pick w.xv w.yv w.zv t) (pick (g.vert.at3 (x.1 + 1) x.2.1 x.2.2) (g.vert.at3 x.1 (x.2.1 + 1) x.2.2)
        (g.vert.at3 x.1 x.2.1 (x.2.2 + 1)) t)).bind fun c =>
      Prog.wr (pick w.x w.y w.z t) (g.at3 x.1 x.2.1 x.2.2) (1 / 2 * (a + c)) : Prog A K Unit)) := by
    unfold Grid3.centreLoop
    rw [forEach_box3]
    rfl
  refine ⟨m2, ?_, ?_, ?_, ?_⟩
  · unfold Grid3.fillCoords
    rw [e1, e2]
    exact det_append d1 d2
  · intro i j k h
    rw [f2 w.xv fun t ht => hdis _ (by simp) t ht, f2 w.yv fun t ht => hdis _ (by simp) t ht, f2 w.zv fun t ht => hdis _ (by simp) t ht]
    exact vv i j k h
  · intro i j k h
    have hc : (i, j, k) ∈ box3 (-g.nhalo) (g.ni + g.nhalo) (-g.nhalo) (g.nj + g.nhalo) (-g.nhalo) (g.nk + g.nhalo) := mem_box3.2 h
    exact ⟨v2 0 (by omega) _ hc, v2 1 (by omega) _ hc, v2 2 (by omega) _ hc⟩
  · intro a ha
    rw [← hnd', List.mem_append, not_or] at ha
    rw [f2 a fun t _ e => ha.1 (e ▸ pick_mem), f1 a fun t _ e => ha.2 (e ▸ pick_mem)]

/-! ### 2D -/

def pick2 (a b : A) : Nat → A
  | 0 => a
  | _ => b

theorem pick2_inj {a b : A} (h : a ≠ b) : ∀ s t, s < 2 → t < 2 → pick2 a b s = pick2 a b t → s = t := by
  intro s t hs ht e
  match s, t, hs, ht with
  | 0, 0, _, _ => rfl
  | 1, 1, _, _ => rfl
  | 0, 1, _, _ => exact absurd e h
  | 1, 0, _, _ => exact absurd e.symm h

theorem pick2_mem {a b : A} {t : Nat} : pick2 a b t ∈ [a, b] := by
  match t with
  | 0 => simp [pick2]
  | (n + 1) => simp [pick2]

theorem Grid2.vert_pad {g : Grid2} (hsq : g.nj = g.ni) {i j : Int} : g.vert.Pad i j ↔
    (-g.nhalo ≤ i ∧ i < g.ni + g.nhalo + 1) ∧ (-g.nhalo ≤ j ∧ j < g.ni + g.nhalo + 1) := by
  unfold Grid2.Pad Grid2.vert
  simp only
  constructor <;> intro h <;> omega

theorem coords2_det {g : Grid2} (hsq : g.nj = g.ni) {sz : A → Int} {w : CoordArr A} (hnd : [w.x, w.y, w.xv, w.yv].Nodup)
    (hs : ∀ a ∈ [w.x, w.y], sz a = g.size) (hsv : ∀ a ∈ [w.xv, w.yv], sz a = g.vert.size) (b : Box K) (m : Mem A K) :
    ∃ m', Det sz (g.fillCoords b w) m m' ∧
      (∀ i j, g.vert.Pad i j → m' w.xv (g.vert.at2 i j) = b.xbeg + b.dx g.ni * (i : K) ∧
        m' w.yv (g.vert.at2 i j) = b.ybeg + b.dx g.ni * (j : K)) ∧
      (∀ i j, g.Pad i j →
        m' w.x (g.at2 i j) = 1 / 2 * ((b.xbeg + b.dx g.ni * (i : K)) + (b.xbeg + b.dx g.ni * ((i + 1 : Int) : K))) ∧
        m' w.y (g.at2 i j) = 1 / 2 * ((b.ybeg + b.dx g.ni * (j : K)) + (b.ybeg + b.dx g.ni * ((j + 1 : Int) : K)))) ∧
      (∀ a, a ∉ [w.x, w.y, w.xv, w.yv] → m' a = m a) := by
  have hnd' : [w.x, w.y] ++ [w.xv, w.yv] = [w.x, w.y, w.xv, w.yv] := rfl
  rw [← hnd'] at hnd
  obtain ⟨nd1, nd2, nd3⟩ := List.nodup_append.1 hnd
  have nd1' : w.x ≠ w.y := by simpa using nd1
  have nd2' : w.xv ≠ w.yv := by simpa using nd2
  obtain ⟨m1, d1, v1, -, f1⟩ := det_seq_axes (sz := sz) (cs := box2 (-g.nhalo) (g.ni + g.nhalo + 1) (-g.nhalo) (g.ni + g.nhalo + 1)) 2
    (body := fun x => (Prog.wr (pick2 w.xv w.yv x.2) (g.vert.at2 x.1.1 x.1.2)
      (pick2 (b.xbeg + b.dx g.ni * (x.1.1 : K)) (b.ybeg + b.dx g.ni * (x.1.2 : K)) x.2) : Prog A K Unit))
    (nodup_box2 _ _ _ _) (pick2 w.xv w.yv) (pick2_inj nd2') (fun c => g.vert.at2 c.1 c.2)
    (by
      intro c hc c' hc' e
      rw [mem_box2] at hc hc'
      obtain ⟨e1, e2⟩ := Grid2.at2_inj ((Grid2.vert_pad hsq).2 hc) ((Grid2.vert_pad hsq).2 hc') e
      exact Prod.ext e1 e2)
    (fun t c => pick2 (b.xbeg + b.dx g.ni * (c.1 : K)) (b.ybeg + b.dx g.ni * (c.2 : K)) t) m
    (by
      intro c hc t ht
      rw [mem_box2] at hc
      have hb := Grid2.at2_bounds ((Grid2.vert_pad hsq).2 hc)
      exact ⟨⟨hb.1, by rw [hsv _ pick2_mem]; exact hb.2⟩, ⟨rfl, rfl⟩, trivial⟩)
    (by intro c hc t ht; exact Mem.set_same _ _ _ _)
  have vv : ∀ i j, g.vert.Pad i j → m1 w.xv (g.vert.at2 i j) = b.xbeg + b.dx g.ni * (i : K) ∧
        m1 w.yv (g.vert.at2 i j) = b.ybeg + b.dx g.ni * (j : K) := by
    intro i j h
    have hc : (i, j) ∈ box2 (-g.nhalo) (g.ni + g.nhalo + 1) (-g.nhalo) (g.ni + g.nhalo + 1) :=
      mem_box2.2 ((Grid2.vert_pad hsq).1 h)
    exact ⟨v1 0 (by omega) _ hc, v1 1 (by omega) _ hc⟩
  have e1 : g.vertexLoop b w = Prog.forEach (box2 (-g.nhalo) (g.ni + g.nhalo + 1) (-g.nhalo) (g.ni + g.nhalo + 1))
      (fun c => Prog.forEach (List.range 2) fun t => (Prog.wr (pick2 w.xv w.yv t) (g.vert.at2 c.1 c.2)
      (pick2 (b.xbeg + b.dx g.ni * (c.1 : K)) (b.ybeg + b.dx g.ni * (c.2 : K)) t) : Prog A K Unit)) := by
    unfold Grid2.vertexLoop
    rw [forEach_box2]
    rfl
  have pv : ∀ i j, g.Pad i j → g.vert.Pad i j ∧ g.vert.Pad (i + 1) j ∧ g.vert.Pad i (j + 1) := by
    intro i j h
    unfold Grid2.Pad at h
    refine ⟨?_, ?_, ?_⟩ <;> rw [Grid2.vert_pad hsq] <;> omega
  have hdis : ∀ a ∈ [w.xv, w.yv], ∀ s : Nat, s < 2 → a ≠ pick2 w.x w.y s := fun a ha s _ e =>
    nd3 _ pick2_mem a ha e.symm
  have bx : ∀ c ∈ box2 (-g.nhalo) (g.ni + g.nhalo) (-g.nhalo) (g.ni + g.nhalo), g.Pad c.1 c.2 := by
    intro c hc; rw [mem_box2] at hc; unfold Grid2.Pad; omega
  obtain ⟨m2, d2, v2, -, f2⟩ := det_seq_axes (sz := sz) (cs := box2 (-g.nhalo) (g.ni + g.nhalo) (-g.nhalo) (g.ni + g.nhalo)) 2
    (body := fun x => ((Prog.rd (pick2 w.xv w.yv x.2) (g.vert.at2 x.1.1 x.1.2)).bind fun a =>
      (Prog.rd (pick2 w.xv w.yv x.2) (pick2 (g.vert.at2 (x.1.1 + 1) x.1.2) (g.vert.at2 x.1.1 (x.1.2 + 1)) x.2)).bind fun c =>
      Prog.wr (pick2 w.x w.y x.2) (g.at2 x.1.1 x.1.2) (1 / 2 * (a + c)) : Prog A K Unit))
    (nodup_box2 _ _ _ _) (pick2 w.x w.y) (pick2_inj nd1') (fun c => g.at2 c.1 c.2)
    (by
      intro c hc c' hc' e
      obtain ⟨e1, e2⟩ := Grid2.at2_inj (bx c hc) (bx c' hc') e
      exact Prod.ext e1 e2)
    (fun t c => pick2 (1 / 2 * ((b.xbeg + b.dx g.ni * (c.1 : K)) + (b.xbeg + b.dx g.ni * ((c.1 + 1 : Int) : K))))
      (1 / 2 * ((b.ybeg + b.dx g.ni * (c.2 : K)) + (b.ybeg + b.dx g.ni * ((c.2 + 1 : Int) : K)))) t) m1
    (by
      intro c hc t ht
      obtain ⟨p0, p1, p2⟩ := pv _ _ (bx c hc)
      have b0 := Grid2.at2_bounds p0
      have b1 := Grid2.at2_bounds p1
      have b2 := Grid2.at2_bounds p2
      have bc := Grid2.at2_bounds (bx c hc)
      refine ⟨⟨b0.1, by rw [hsv _ pick2_mem]; exact b0.2⟩, hdis _ pick2_mem, fun _ => ⟨?_, hdis _ pick2_mem, fun _ =>
        ⟨⟨bc.1, by rw [hs _ pick2_mem]; exact bc.2⟩, ⟨rfl, rfl⟩, trivial⟩⟩⟩
      unfold InB
      rw [hsv _ pick2_mem]
      match t with
      | 0 => exact b1
      | (n + 1) => exact b2)
    (by
      intro c hc t ht
      obtain ⟨p0, p1, p2⟩ := pv _ _ (bx c hc)
      refine (Mem.set_same _ _ _ _).trans ?_
      match t, ht with
      | 0, _ => simp only [pick2]; rw [(vv _ _ p0).1, (vv _ _ p1).1]
      | 1, _ => simp only [pick2]; rw [(vv _ _ p0).2, (vv _ _ p2).2])
  have e2 : g.centreLoop w = Prog.forEach (box2 (-g.nhalo) (g.ni + g.nhalo) (-g.nhalo) (g.ni + g.nhalo))
      (fun x => Prog.forEach (List.range 2) fun t => ((Prog.rd (pick2 w.xv w.yv t) (g.vert.at2 x.1 x.2)).bind fun a =>
      (Prog.rd (pick2 w.xv w.yv t) (pick2 (g.vert.at2 (x.1 + 1) x.2) (g.vert.at2 x.1 (x.2 + 1)) t)).bind fun c =>
      Prog.wr (pick2 w.x w.y t) (g.at2 x.1 x.2) (1 / 2 * (a + c)) : Prog A K Unit)) := by
    unfold Grid2.centreLoop
    rw [forEach_box2]
    rfl
  refine ⟨m2, ?_, ?_, ?_, ?_⟩
  · unfold Grid2.fillCoords
    rw [e1, e2]
    exact det_append d1 d2
  · intro i j h
    rw [f2 w.xv fun t ht => hdis _ (by simp) t ht, f2 w.yv fun t ht => hdis _ (by simp) t ht]
    exact vv i j h
  · intro i j h
    have hc : (i, j) ∈ box2 (-g.nhalo) (g.ni + g.nhalo) (-g.nhalo) (g.ni + g.nhalo) := by
      rw [mem_box2]; unfold Grid2.Pad at h; simp only; omega
    exact ⟨v2 0 (by omega) _ hc, v2 1 (by omega) _ hc⟩
  · intro a ha
    rw [← hnd', List.mem_append, not_or] at ha
    rw [f2 a fun t _ e => ha.1 (e ▸ pick2_mem), f1 a fun t _ e => ha.2 (e ▸ pick2_mem)]

end Madg
