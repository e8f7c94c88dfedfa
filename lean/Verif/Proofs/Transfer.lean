/-
Closed forms of restriction and prolongation.
-/
import Verif.Model.Transfer
import Verif.Spec.Transfer
import Verif.Proofs.CH3
import Verif.Proofs.Sums

set_option linter.unusedSectionVars false
set_option linter.unusedVariables false

namespace Madg
open Spec
variable {A K : Type} [DecidableEq A]

/-! ### Lists of stores -/

theorem exec_wr_miss {ι : Type} (l : List ι) (pos : ι → Int) (v : ι → K) (r : A) (m : Mem A K) {n : Int}
    (h : ∀ x ∈ l, pos x ≠ n) : (Prog.forEach l fun x => Prog.wr r (pos x) (v x)).exec m r n = m r n := by
  induction l generalizing m with
  | nil => rfl
  | cons y l ih =>
    refine (ih (m.set r (pos y) (v y)) fun x hx => h x (by simp [hx])).trans ?_
    exact Mem.set_of_ne _ _ fun e => h y (by simp) e.2.symm

theorem exec_wr_hit {ι : Type} (l : List ι) (pos : ι → Int) (v : ι → K) (r : A) (m : Mem A K)
    (inj : ∀ x ∈ l, ∀ y ∈ l, pos x = pos y → v x = v y) {x : ι} (hx : x ∈ l) :
    (Prog.forEach l fun x => Prog.wr r (pos x) (v x)).exec m r (pos x) = v x := by
  induction l generalizing m x with
  | nil => simp at hx
  | cons y l ih =>
    by_cases h : ∃ z ∈ l, pos z = pos x
    · obtain ⟨z, hz, e⟩ := h
      have e1 := ih (m.set r (pos y) (v y)) (fun a ha b hb => inj a (by simp [ha]) b (by simp [hb])) hz
      rw [← e]
      exact e1.trans (inj z (by simp [hz]) x hx e)
    · have hxy : x = y := by
        rcases List.mem_cons.1 hx with e | e
        · exact e
        · exact absurd ⟨x, e, rfl⟩ h
      subst hxy
      refine (exec_wr_miss l pos v r (m.set r (pos x) (v x)) fun z hz e => h ⟨z, hz, e⟩).trans ?_
      exact Mem.set_same _ _ _ _

/-- A pool of iterations each storing several elements of one array. -/
theorem det_multi {T U : Type} {sz : A → Int} {ts : List T} {us : T → List U} {body : T → U → Prog A K Unit} {r : A}
    (W : T → U → Int → Prop) (hnd : ts.Nodup) (hndu : ∀ t ∈ ts, (us t).Nodup)
    (hfoot : ∀ t ∈ ts, ∀ u ∈ us t, (body t u).Foot sz (fun a _ => a ≠ r) (fun a n => a = r ∧ W t u n))
    (hdisj : ∀ t ∈ ts, ∀ u ∈ us t, ∀ t' ∈ ts, ∀ u' ∈ us t', ∀ n, W t u n → W t' u' n → t = t' ∧ u = u') (m : Mem A K) :
    ∃ m', Det sz [ts.map fun t => Prog.forEach (us t) (body t)] m m' ∧
      (∀ t ∈ ts, ∀ u ∈ us t, ∀ n, W t u n → m' r n = (body t u).exec m r n) ∧
      (∀ n, (∀ t ∈ ts, ∀ u ∈ us t, ¬ W t u n) → m' r n = m r n) ∧ (∀ b, b ≠ r → m' b = m b) := by
  classical
  let m' : Mem A K := fun a n => if h : a = r ∧ ∃ p : T × U, p.1 ∈ ts ∧ p.2 ∈ us p.1 ∧ W p.1 p.2 n then
    (body h.2.choose.1 h.2.choose.2).exec m a n else m a n
  have hW : ∀ t ∈ ts, ∀ u ∈ us t, ∀ n, W t u n → m' r n = (body t u).exec m r n := by
    intro t ht u hu n hw
    have h : r = r ∧ ∃ p : T × U, p.1 ∈ ts ∧ p.2 ∈ us p.1 ∧ W p.1 p.2 n := ⟨rfl, (t, u), ht, hu, hw⟩
    have hs := h.2.choose_spec
    obtain ⟨e1, e2⟩ := hdisj _ hs.1 _ hs.2.1 t ht u hu n hs.2.2 hw
    simp only [m', dif_pos h]
    rw [e1, e2]
  have hU : ∀ a n, (∀ t ∈ ts, ∀ u ∈ us t, ¬ (a = r ∧ W t u n)) → m' a n = m a n := by
    intro a n hno
    simp only [m']
    rw [dif_neg]
    rintro ⟨e, ⟨t, u⟩, ht, hu, hw⟩
    exact hno t ht u hu ⟨e, hw⟩
  refine ⟨m', det_pool_nested (fun _ _ a _ => a ≠ r) (fun t u a n => a = r ∧ W t u n) hnd hndu hfoot ?_ ?_ hU, hW, ?_, ?_⟩
  · rintro t ht u hu t' ht' u' hu' hne a i ⟨rfl, hw⟩
    exact ⟨fun h => h rfl, fun h => hne (hdisj t ht u hu t' ht' u' hu' i hw h.2)⟩
  · rintro t ht u hu a i ⟨rfl, hw⟩
    exact hW t ht u hu i hw
  · intro n hno
    exact hU r n fun t ht u hu h => hno t ht u hu h.2
  · intro b hb
    funext n
    exact hU b n fun t ht u hu h => hb h.1

/-! ### Restriction -/

variable [Field K]

/-- Fine extents are twice the coarse ones. -/
structure Fine (gc gf : Grid3) : Prop where
  i : gf.ni = 2 * gc.ni
  j : gf.nj = 2 * gc.nj
  k : gf.nk = 2 * gc.nk
  h : gf.nhalo = gc.nhalo

theorem Fine.ok {gc gf : Grid3} (h : Fine gc gf) (hc : gc.Ok) : gf.Ok := by
  obtain ⟨hi, hj, hk, hh⟩ := hc
  obtain ⟨ei, ej, ek, eh⟩ := h
  exact ⟨by omega, by omega, by omega, by omega⟩

theorem Fine.int {gc gf : Grid3} (h : Fine gc gf) {i j k : Int} (hc : gc.Int3 i j k) {o : Int × Int × Int} (ho : o ∈ children) :
    gf.Int3 (2 * i + o.1) (2 * j + o.2.1) (2 * k + o.2.2) := by
  obtain ⟨ei, ej, ek, eh⟩ := h
  have hb : ∀ o ∈ children, (0 ≤ o.1 ∧ o.1 ≤ 1) ∧ (0 ≤ o.2.1 ∧ o.2.1 ≤ 1) ∧ (0 ≤ o.2.2 ∧ o.2.2 ≤ 1) := by decide
  have := hb o ho
  unfold Grid3.Int3 at *
  omega

theorem restrict_det {Gc : Geom3} (hG : Gc.Ok) {gf : Grid3} (hf : Fine Gc.g gf) {sz : A → Int} {f c : A} (hne : f ≠ c)
    (hs : sz f = gf.size) (hc : sz c = Gc.g.size) (m : Mem A K) :
    ∃ m', Det sz (Gc.restrict gf f c) m m' ∧ Writes Gc.g c m m' (avg8 (gf.view m f)) := by
  refine interior_det hG _ _ m ?_ ?_
  · intro i j k h
    obtain ⟨e1, e2, e3⟩ := Grid3.get_at3 (h.pad hG.ok)
    simp only [e1, e2, e3]
    refine loadStencil_foot ?_ fun v => ⟨?_, ⟨rfl, rfl⟩, trivial⟩
    · intro o ho
      refine ⟨?_, Or.inl hne⟩
      rw [InB, hs]; exact Grid3.at3_bounds ((hf.int h ho).pad (hf.ok hG.ok))
    · rw [InB, hc]; exact Grid3.at3_bounds (h.pad hG.ok)
  · intro i j k h
    obtain ⟨e1, e2, e3⟩ := Grid3.get_at3 (h.pad hG.ok)
    simp only [e1, e2, e3]
    rw [loadStencil_exec]
    refine (Mem.set_same _ _ _ _).trans ?_
    have hm : ∀ x y z : Int, (x, y, z) ∈ children → (if (x, y, z) ∈ children then m f (gf.at3 (2 * i + x) (2 * j + y) (2 * k + z)) else 0) =
        gf.view m f (2 * i + x) (2 * j + y) (2 * k + z) := fun x y z h => if_pos h
    beta_reduce
    rw [hm 0 0 0 (by decide), hm 1 0 0 (by decide), hm 1 1 0 (by decide), hm 0 1 0 (by decide), hm 0 0 1 (by decide),
      hm 1 0 1 (by decide), hm 1 1 1 (by decide), hm 0 1 1 (by decide)]
    simp only [avg8, Int.add_zero]
    ring

/-! ### Nearest -/

theorem nearest_det {Gc : Geom3} (hG : Gc.Ok) {gf : Grid3} (hf : Fine Gc.g gf) {sz : A → Int} {f c : A} (hne : f ≠ c)
    (hs : sz f = gf.size) (hc : sz c = Gc.g.size) (m : Mem A K) :
    ∃ m', Det sz (Gc.prolongNearest gf c f) m m' ∧
      Writes gf f m m' fun x y z => Gc.g.view m c (x / 2) (y / 2) (z / 2) := by
  have hok := hG.ok
  have hin : ∀ t ∈ box3 0 Gc.g.ni 0 Gc.g.nj 0 Gc.g.nk, Gc.g.Int3 t.1 t.2.1 t.2.2 := fun t ht => Grid3.mem_interior_box.1 ht
  have e : (Gc.prolongNearest gf c f : Host A K) = [(box3 0 Gc.g.ni 0 Gc.g.nj 0 Gc.g.nk).map fun t =>
      Prog.forEach [()] fun _ => ((Prog.rd c (Gc.g.at3 t.1 t.2.1 t.2.2)).bind fun v =>
        Prog.forEach children fun o => Prog.wr f (gf.at3 (2 * t.1 + o.1) (2 * t.2.1 + o.2.1) (2 * t.2.2 + o.2.2)) v)] := by
    unfold Geom3.prolongNearest
    rw [forIdx_eq_map, hG.int, Grid3.interiorVals_eq, List.map_map]
    congr 1
    refine List.map_congr_left fun t ht => ?_
    obtain ⟨e1, e2, e3⟩ := Grid3.get_at3 ((hin t ht).pad hok)
    simp only [Function.comp, e1, e2, e3, Prog.forEach, Prog.bind_pure_unit]
    rfl
  rw [e]
  obtain ⟨m', d, hW, hU, hF⟩ := det_multi (sz := sz) (r := f) (ts := box3 0 Gc.g.ni 0 Gc.g.nj 0 Gc.g.nk) (us := fun _ => [()])
    (body := fun t _ => ((Prog.rd c (Gc.g.at3 t.1 t.2.1 t.2.2)).bind fun v =>
        Prog.forEach children fun o => Prog.wr f (gf.at3 (2 * t.1 + o.1) (2 * t.2.1 + o.2.1) (2 * t.2.2 + o.2.2)) v : Prog A K Unit))
    (fun t _ n => ∃ o ∈ children, gf.at3 (2 * t.1 + o.1) (2 * t.2.1 + o.2.1) (2 * t.2.2 + o.2.2) = n)
    (nodup_box3 _ _ _ _ _ _) (fun _ _ => by simp)
    (by
      intro t ht _ _
      refine ⟨?_, hne.symm, fun v => Prog.Foot.forEach fun o ho => ⟨?_, ⟨rfl, o, ho, rfl⟩, trivial⟩⟩
      · rw [InB, hc]; exact Grid3.at3_bounds ((hin t ht).pad hok)
      · rw [InB, hs]; exact Grid3.at3_bounds ((hf.int (hin t ht) ho).pad (hf.ok hok)))
    (by
      rintro t ht _ _ t' ht' _ _ n ⟨o, ho, e⟩ ⟨o', ho', e'⟩
      obtain ⟨e1, e2, e3⟩ := Grid3.at3_inj ((hf.int (hin t ht) ho).pad (hf.ok hok)) ((hf.int (hin t' ht') ho').pad (hf.ok hok)) (e.trans e'.symm)
      have hb : ∀ o ∈ children, (0 ≤ o.1 ∧ o.1 ≤ 1) ∧ (0 ≤ o.2.1 ∧ o.2.1 ≤ 1) ∧ (0 ≤ o.2.2 ∧ o.2.2 ≤ 1) := by decide
      have b1 := hb o ho
      have b2 := hb o' ho'
      exact ⟨Prod.ext (by omega) (Prod.ext (by omega) (by omega)), rfl⟩) m
  have hcell : ∀ x y z, gf.Int3 x y z → ∃ t ∈ box3 0 Gc.g.ni 0 Gc.g.nj 0 Gc.g.nk, t = (x / 2, y / 2, z / 2) ∧
      ∃ o ∈ children, (2 * t.1 + o.1, 2 * t.2.1 + o.2.1, 2 * t.2.2 + o.2.2) = (x, y, z) := by
    intro x y z h
    refine ⟨(x / 2, y / 2, z / 2), ?_, rfl, (x % 2, y % 2, z % 2), ?_, ?_⟩
    · rw [mem_box3]; obtain ⟨ei, ej, ek, eh⟩ := hf; unfold Grid3.Int3 at h; simp only; omega
    · rcases Int.emod_two_eq x with e1 | e1 <;> rcases Int.emod_two_eq y with e2 | e2 <;> rcases Int.emod_two_eq z with e3 | e3 <;>
        rw [e1, e2, e3] <;> decide
    · simp only [Prod.mk.injEq]; omega
  refine ⟨m', d, ?_, ?_, hF⟩
  · intro x y z h
    obtain ⟨t, ht, et, o, ho, eo⟩ := hcell x y z h
    obtain ⟨o1, o2⟩ := Prod.mk.inj eo
    obtain ⟨o2, o3⟩ := Prod.mk.inj o2
    rw [hW t ht () (by simp) _ ⟨o, ho, by rw [o1, o2, o3]⟩, ← o1, ← o2, ← o3]
    refine (exec_wr_hit children (fun o => gf.at3 (2 * t.1 + o.1) (2 * t.2.1 + o.2.1) (2 * t.2.2 + o.2.2)) (fun _ => m c (Gc.g.at3 t.1 t.2.1 t.2.2)) f m
      (fun _ _ _ _ _ => rfl) ho).trans ?_
    rw [o1, o2, o3]
    subst et
    rfl
  · intro n hn
    refine hU n ?_
    rintro t ht _ _ ⟨o, ho, e⟩
    exact hn _ _ _ (hf.int (hin t ht) ho) e

/-! ### Linear -/

theorem linTable_off : ∀ t ∈ linTable, (0 ≤ t.1.1 ∧ t.1.1 ≤ 1) ∧ (0 ≤ t.1.2.1 ∧ t.1.2.1 ≤ 1) ∧ (0 ≤ t.1.2.2 ∧ t.1.2.2 ≤ 1) := by decide

theorem linTable_inj : ∀ t ∈ linTable, ∀ t' ∈ linTable, t.1 = t'.1 → t = t' := by decide

theorem corners_off : ∀ o ∈ corners, (0 ≤ o.1 ∧ o.1 ≤ 1) ∧ (0 ≤ o.2.1 ∧ o.2.1 ≤ 1) ∧ (0 ≤ o.2.2 ∧ o.2.2 ≤ 1) := by decide

/-- Fine cell written for table entry `t` of loop indices `(i, j, k)`. -/
def linPos (gf : Grid3) (i j k : Int) (t : (Int × Int × Int) × LinW) : Int :=
  gf.at3 (2 * i + 1 + t.1.1) (2 * j + 1 + t.1.2.1) (2 * k + 1 + t.1.2.2)

section
variable {gc gf : Grid3} (hf : Fine gc gf) (h1 : 1 ≤ gc.nhalo) {i j k : Int}
  (hi : -1 ≤ i ∧ i < gc.ni) (hj : -1 ≤ j ∧ j < gc.nj) (hk : -1 ≤ k ∧ k < gc.nk)
include hf h1 hi hj hk

theorem lin_pad {t : (Int × Int × Int) × LinW} (ht : t ∈ linTable) :
    gf.Pad (2 * i + 1 + t.1.1) (2 * j + 1 + t.1.2.1) (2 * k + 1 + t.1.2.2) := by
  have := linTable_off t ht
  obtain ⟨ei, ej, ek, eh⟩ := hf
  unfold Grid3.Pad
  omega

theorem corner_pad {o : Int × Int × Int} (ho : o ∈ corners) : gc.Pad (i + o.1) (j + o.2.1) (k + o.2.2) := by
  have := corners_off o ho
  unfold Grid3.Pad
  omega

theorem linBody_foot {sz : A → Int} {f c : A} (hne : f ≠ c) (hs : sz f = gf.size) (hc : sz c = gc.size) :
    (linBody gc gf c f i j k : Prog A K Unit).Foot sz (fun a _ => a ≠ f) (fun a n => a = f ∧ ∃ t ∈ linTable, linPos gf i j k t = n) := by
  refine loadStencil_foot ?_ fun v => Prog.Foot.forEach fun t ht => ⟨?_, ⟨rfl, t, ht, rfl⟩, trivial⟩
  · intro o ho
    refine ⟨?_, hne.symm⟩
    rw [InB, hc]; exact Grid3.at3_bounds (corner_pad hf h1 hi hj hk ho)
  · rw [InB, hs]; exact Grid3.at3_bounds (lin_pad hf h1 hi hj hk ht)

theorem linBody_exec {f c : A} (m : Mem A K) {t : (Int × Int × Int) × LinW} (ht : t ∈ linTable) :
    (linBody gc gf c f i j k : Prog A K Unit).exec m f (linPos gf i j k t) =
      t.2.comb fun x y z => gc.view m c (i + x) (j + y) (k + z) := by
  unfold linBody
  rw [loadStencil_exec]
  refine (exec_wr_hit linTable (linPos gf i j k) _ f m ?_ ht).trans ?_
  · intro x hx y hy e
    obtain ⟨e1, e2, e3⟩ := Grid3.at3_inj (lin_pad hf h1 hi hj hk hx) (lin_pad hf h1 hi hj hk hy) e
    rw [linTable_inj x hx y hy (Prod.ext (by omega) (Prod.ext (by omega) (by omega)))]
  · have hm : ∀ x y z : Int, (x, y, z) ∈ corners → (if (x, y, z) ∈ corners then m c (gc.at3 (i + x) (j + y) (k + z)) else 0) =
        gc.view m c (i + x) (j + y) (k + z) := fun x y z h => if_pos h
    simp only [LinW.comb]
    rw [hm 0 0 0 (by decide), hm 1 0 0 (by decide), hm 1 1 0 (by decide), hm 0 1 0 (by decide), hm 0 0 1 (by decide),
      hm 1 0 1 (by decide), hm 1 1 1 (by decide), hm 0 1 1 (by decide)]

end

theorem prolongLinear_eq (Gc : Geom3) (gf : Grid3) (c f : A) : (Gc.prolongLinear gf c f : Host A K) =
    [(irange (-1) Gc.g.ni).map fun i => Prog.forEach (box2 (-1) Gc.g.nj (-1) Gc.g.nk) fun u => linBody Gc.g gf c f i u.1 u.2] := by
  unfold Geom3.prolongLinear forAll
  congr 1
  refine List.map_congr_left fun i _ => ?_
  unfold box2
  rw [forEach_flatMap]
  congr 1; funext j
  rw [forEach_map]

theorem linear_det {Gc : Geom3} {gf : Grid3} (hf : Fine Gc.g gf) (h1 : 1 ≤ Gc.g.nhalo) {sz : A → Int} {f c : A} (hne : f ≠ c)
    (hs : sz f = gf.size) (hc : sz c = Gc.g.size) (m : Mem A K) :
    ∃ m', Det sz (Gc.prolongLinear gf c f) m m' ∧
      (∀ i j k, (-1 ≤ i ∧ i < Gc.g.ni) → (-1 ≤ j ∧ j < Gc.g.nj) → (-1 ≤ k ∧ k < Gc.g.nk) → ∀ t ∈ linTable,
        m' f (linPos gf i j k t) = t.2.comb fun x y z => Gc.g.view m c (i + x) (j + y) (k + z)) ∧
      (∀ n, (∀ x y z, (-1 ≤ x ∧ x ≤ gf.ni) → (-1 ≤ y ∧ y ≤ gf.nj) → (-1 ≤ z ∧ z ≤ gf.nk) → gf.at3 x y z ≠ n) → m' f n = m f n) ∧
      (∀ b, b ≠ f → m' b = m b) := by
  rw [prolongLinear_eq]
  have hj : ∀ u ∈ box2 (-1) Gc.g.nj (-1) Gc.g.nk, (-1 ≤ u.1 ∧ u.1 < Gc.g.nj) ∧ (-1 ≤ u.2 ∧ u.2 < Gc.g.nk) := fun u hu => mem_box2.1 hu
  obtain ⟨m', d, hW, hU, hF⟩ := det_multi (sz := sz) (r := f) (ts := irange (-1) Gc.g.ni) (us := fun _ => box2 (-1) Gc.g.nj (-1) Gc.g.nk)
    (body := fun i u => (linBody Gc.g gf c f i u.1 u.2 : Prog A K Unit)) (fun i u n => ∃ t ∈ linTable, linPos gf i u.1 u.2 t = n)
    (nodup_irange _ _) (fun _ _ => nodup_box2 _ _ _ _)
    (fun i hi u hu => linBody_foot hf h1 (mem_irange.1 hi) (hj u hu).1 (hj u hu).2 hne hs hc)
    (by
      rintro i hi u hu i' hi' u' hu' n ⟨t, ht, e⟩ ⟨t', ht', e'⟩
      obtain ⟨e1, e2, e3⟩ := Grid3.at3_inj (lin_pad hf h1 (mem_irange.1 hi) (hj u hu).1 (hj u hu).2 ht)
        (lin_pad hf h1 (mem_irange.1 hi') (hj u' hu').1 (hj u' hu').2 ht') (e.trans e'.symm)
      have b1 := linTable_off t ht
      have b2 := linTable_off t' ht'
      exact ⟨by omega, Prod.ext (by omega) (by omega)⟩) m
  refine ⟨m', d, ?_, ?_, hF⟩
  · intro i j k hi hj hk t ht
    rw [hW i (mem_irange.2 hi) (j, k) (mem_box2.2 ⟨hj, hk⟩) _ ⟨t, ht, rfl⟩]
    exact linBody_exec hf h1 hi hj hk m ht
  · intro n hn
    refine hU n ?_
    rintro i hi u hu ⟨t, ht, e⟩
    have b1 := linTable_off t ht
    have hi := mem_irange.1 hi
    have hu := hj u hu
    obtain ⟨ei, ej, ek, eh⟩ := hf
    exact hn _ _ _ (by omega) (by omega) (by omega) e

/-- The table entry for a fine cell. -/
theorem lin_entry (p q r : Int) (hp : p = 0 ∨ p = 1) (hq : q = 0 ∨ q = 1) (hr : r = 0 ∨ r = 1) :
    ∃ t ∈ linTable, t.1 = (p, q, r) := by
  rcases hp with rfl | rfl <;> rcases hq with rfl | rfl <;> rcases hr with rfl | rfl <;> decide

/-- Every assignment computes the interpolation with exchanged neighbours. -/
theorem comb_eq [CharZero K] {t : (Int × Int × Int) × LinW} (ht : t ∈ linTable) (u : Int → Int → Int → K) (i j k : Int) :
    (t.2.comb fun x y z => u (i + x) (j + y) (k + z)) =
      trilinSwapped u (2 * i + 1 + t.1.1) (2 * j + 1 + t.1.2.1) (2 * k + 1 + t.1.2.2) := by
  have d0 : ∀ i : Int, (2 * i + 1 - 1) / 2 = i ∧ (2 * i + 1 - 1) % 2 = 0 := by intro i; omega
  have d1 : ∀ i : Int, (2 * i + 1 + 1 - 1) / 2 = i ∧ (2 * i + 1 + 1 - 1) % 2 = 1 := by intro i; omega
  have hj : ∀ j : Int, ¬ (j + 1 = j) := by intro j; omega
  simp only [linTable, List.mem_cons, List.not_mem_nil, or_false] at ht
  rcases ht with rfl | rfl | rfl | rfl | rfl | rfl | rfl | rfl <;>
    simp only [LinW.comb, trilinSwapped, lin1, lin1r, (d0 _).1, (d0 _).2, (d1 _).1, (d1 _).2, hj, if_true, if_false, one_ne_zero,
      Int.add_zero] <;> push_cast <;> ring

theorem linear_det' [CharZero K] {Gc : Geom3} {gf : Grid3} (hf : Fine Gc.g gf) (h1 : 1 ≤ Gc.g.nhalo) {sz : A → Int} {f c : A} (hne : f ≠ c)
    (hs : sz f = gf.size) (hc : sz c = Gc.g.size) (m : Mem A K) :
    ∃ m', Det sz (Gc.prolongLinear gf c f) m m' ∧
      (∀ x y z, (-1 ≤ x ∧ x ≤ gf.ni) → (-1 ≤ y ∧ y ≤ gf.nj) → (-1 ≤ z ∧ z ≤ gf.nk) →
        m' f (gf.at3 x y z) = trilinSwapped (Gc.g.view m c) x y z) ∧
      (∀ n, (∀ x y z, (-1 ≤ x ∧ x ≤ gf.ni) → (-1 ≤ y ∧ y ≤ gf.nj) → (-1 ≤ z ∧ z ≤ gf.nk) → gf.at3 x y z ≠ n) → m' f n = m f n) ∧
      (∀ b, b ≠ f → m' b = m b) := by
  obtain ⟨m', d, hv, hn, hF⟩ := linear_det (K := K) hf h1 hne hs hc m
  refine ⟨m', d, ?_, hn, hF⟩
  intro x y z hx hy hz
  obtain ⟨t, ht, et⟩ := lin_entry ((x - 1) % 2) ((y - 1) % 2) ((z - 1) % 2) (by omega) (by omega) (by omega)
  obtain ⟨ei, ej, ek, eh⟩ := hf
  have h := hv ((x - 1) / 2) ((y - 1) / 2) ((z - 1) / 2) (by omega) (by omega) (by omega) t ht
  rw [comb_eq ht, linPos, et] at h
  have ex : 2 * ((x - 1) / 2) + 1 + (x - 1) % 2 = x := by omega
  have ey : 2 * ((y - 1) / 2) + 1 + (y - 1) % 2 = y := by omega
  have ez : 2 * ((z - 1) / 2) + 1 + (z - 1) % 2 = z := by omega
  rw [ex, ey, ez] at h
  exact h

/-! ### Stores performed -/

/-- Locations stored by a program run alone, in order. -/
def Prog.stores {α : Type} : Prog A K α → Mem A K → List (A × Int)
  | .pure _, _ => []
  | .load a i k, m => (k (m a i)).stores m
  | .store a i v k, m => (a, i) :: k.stores (m.set a i v)
  | .fail _, _ => []

theorem stores_bind {p : Prog A K Unit} {sz : A → Int} {R W : A → Int → Prop} (hp : p.Foot sz R W) (f : Unit → Prog A K Unit) (m : Mem A K) :
    (p.bind f).stores m = p.stores m ++ (f ()).stores (p.exec m) := by
  induction p generalizing m with
  | pure x => rfl
  | load a i k ih => exact ih _ (hp.2.2 _) m
  | store a i v k ih => exact congrArg _ (ih hp.2.2 _)
  | fail e => exact hp.elim

theorem stores_forEach {ι : Type} {l : List ι} {f : ι → Prog A K Unit} {sz : A → Int} {R W : ι → A → Int → Prop} {s : ι → List (A × Int)}
    (hfoot : ∀ x ∈ l, (f x).Foot sz (R x) (W x)) (hs : ∀ x ∈ l, ∀ m, (f x).stores m = s x) (m : Mem A K) :
    (Prog.forEach l f).stores m = l.flatMap s := by
  induction l generalizing m with
  | nil => rfl
  | cons x l ih =>
    rw [Prog.forEach, stores_bind (hfoot x (by simp)), hs x (by simp), List.flatMap_cons,
      ih (fun y hy => hfoot y (by simp [hy])) (fun y hy => hs y (by simp [hy]))]

theorem stores_loadStencil (g : Grid3) (a : A) (i j k : Int) (os : List (Int × Int × Int)) (cont : (Int → Int → Int → K) → Prog A K Unit)
    (s : List (A × Int)) (m : Mem A K) (hs : ∀ f, (cont f).stores m = s) : (Geom3.loadStencil g a i j k os cont).stores m = s := by
  induction os generalizing cont with
  | nil => exact hs _
  | cons o os ih =>
    obtain ⟨x, y, z⟩ := o
    exact ih _ fun f => hs _

theorem stores_wr {ι : Type} (l : List ι) (r : A) (pos : ι → Int) (v : ι → K) (m : Mem A K) :
    (Prog.forEach l fun x => Prog.wr r (pos x) (v x)).stores m = l.map fun x => (r, pos x) := by
  induction l generalizing m with
  | nil => rfl
  | cons x l ih => exact congrArg _ (ih _)

/-- Stores of the whole linear transfer. -/
theorem linear_stores {Gc : Geom3} {gf : Grid3} (hf : Fine Gc.g gf) (h1 : 1 ≤ Gc.g.nhalo) {f c : A} (hne : f ≠ c)
    (hc : Gc.g.Ok) (m : Mem A K) (ps : Pool A K) (hps : ps ∈ (Gc.prolongLinear gf c f : Host A K)) :
    (ps.flatMap fun p => p.stores m).Nodup ∧ ∀ a n, (a, n) ∈ (ps.flatMap fun p => p.stores m) ↔ a = f ∧ ∃ x y z,
      (-1 ≤ x ∧ x ≤ gf.ni) ∧ (-1 ≤ y ∧ y ≤ gf.nj) ∧ (-1 ≤ z ∧ z ≤ gf.nk) ∧ gf.at3 x y z = n := by
  rw [prolongLinear_eq, List.mem_singleton] at hps
  subst hps
  have hj : ∀ u ∈ box2 (-1) Gc.g.nj (-1) Gc.g.nk, (-1 ≤ u.1 ∧ u.1 < Gc.g.nj) ∧ (-1 ≤ u.2 ∧ u.2 < Gc.g.nk) := fun u hu => mem_box2.1 hu
  have hbody : ∀ i (u : Int × Int) (m : Mem A K), (linBody Gc.g gf c f i u.1 u.2 : Prog A K Unit).stores m = linTable.map fun t => (f, linPos gf i u.1 u.2 t) := by
    intro i u m
    exact stores_loadStencil _ _ _ _ _ _ _ _ m fun v => stores_wr linTable f (linPos gf i u.1 u.2) _ m
  obtain ⟨sz, hsf, hsc⟩ : ∃ sz : A → Int, sz f = gf.size ∧ sz c = Gc.g.size :=
    ⟨fun a => if a = f then gf.size else Gc.g.size, if_pos rfl, if_neg hne.symm⟩
  have hfoot : ∀ i ∈ irange (-1) Gc.g.ni, ∀ u ∈ box2 (-1) Gc.g.nj (-1) Gc.g.nk, (linBody Gc.g gf c f i u.1 u.2 : Prog A K Unit).Foot sz
      (fun a _ => a ≠ f) (fun a n => a = f ∧ ∃ t ∈ linTable, linPos gf i u.1 u.2 t = n) := fun i hi u hu =>
    linBody_foot hf h1 (mem_irange.1 hi) (hj u hu).1 (hj u hu).2 hne hsf hsc
  have hrow : ∀ i ∈ irange (-1) Gc.g.ni, (Prog.forEach (box2 (-1) Gc.g.nj (-1) Gc.g.nk) fun u => (linBody Gc.g gf c f i u.1 u.2 : Prog A K Unit)).stores m =
      (box2 (-1) Gc.g.nj (-1) Gc.g.nk).flatMap fun u => linTable.map fun t => (f, linPos gf i u.1 u.2 t) := fun i hi =>
    stores_forEach (l := box2 (-1) Gc.g.nj (-1) Gc.g.nk) (f := fun u => (linBody Gc.g gf c f i u.1 u.2 : Prog A K Unit)) (sz := sz)
      (R := fun _ a _ => a ≠ f) (W := fun u a n => a = f ∧ ∃ t ∈ linTable, linPos gf i u.1 u.2 t = n)
      (s := fun u => linTable.map fun t => (f, linPos gf i u.1 u.2 t)) (hfoot i hi) (fun u _ m => hbody i u m) m
  have hall : ((irange (-1) Gc.g.ni).map fun i => Prog.forEach (box2 (-1) Gc.g.nj (-1) Gc.g.nk) fun u => (linBody Gc.g gf c f i u.1 u.2 : Prog A K Unit)).flatMap
      (fun p => p.stores m) = (irange (-1) Gc.g.ni).flatMap fun i => (box2 (-1) Gc.g.nj (-1) Gc.g.nk).flatMap fun u => linTable.map fun t => (f, linPos gf i u.1 u.2 t) := by
    rw [List.flatMap_map]
    refine List.flatMap_congr fun i hi => ?_
    exact hrow i hi
  rw [hall]
  have hcell : ∀ i ∈ irange (-1) Gc.g.ni, ∀ u ∈ box2 (-1) Gc.g.nj (-1) Gc.g.nk, ∀ t ∈ linTable,
      gf.getI (linPos gf i u.1 u.2 t) = 2 * i + 1 + t.1.1 ∧ gf.getJ (linPos gf i u.1 u.2 t) = 2 * u.1 + 1 + t.1.2.1 ∧
      gf.getK (linPos gf i u.1 u.2 t) = 2 * u.2 + 1 + t.1.2.2 := fun i hi u hu t ht =>
    Grid3.get_at3 (lin_pad hf h1 (mem_irange.1 hi) (hj u hu).1 (hj u hu).2 ht)
  constructor
  · refine nodup_flatMap_disj (fun b => (gf.getI b.2 - 1) / 2) (nodup_irange _ _) ?_ ?_
    · intro i hi
      refine nodup_flatMap_disj (fun b => ((gf.getJ b.2 - 1) / 2, (gf.getK b.2 - 1) / 2)) (nodup_box2 _ _ _ _) ?_ ?_
      · intro u hu
        refine (List.nodup_map_iff_inj_on (by decide)).2 ?_
        intro t ht t' ht' e
        have e := (Prod.mk.inj e).2
        have c1 := hcell i hi u hu t ht
        have c2 := hcell i hi u hu t' ht'
        rw [e] at c1
        exact linTable_inj t ht t' ht' (Prod.ext (by omega) (Prod.ext (by omega) (by omega)))
      · intro u hu b hb
        obtain ⟨t, ht, rfl⟩ := List.mem_map.1 hb
        obtain ⟨-, c2, c3⟩ := hcell i hi u hu t ht
        have b1 := linTable_off t ht
        simp only [c2, c3]
        exact Prod.ext (by simp only; omega) (by simp only; omega)
    · intro i hi b hb
      obtain ⟨u, hu, hb⟩ := List.mem_flatMap.1 hb
      obtain ⟨t, ht, rfl⟩ := List.mem_map.1 hb
      obtain ⟨c1, -, -⟩ := hcell i hi u hu t ht
      have b1 := linTable_off t ht
      simp only [c1]
      omega
  · intro a n
    simp only [List.mem_flatMap, List.mem_map, Prod.mk.injEq]
    constructor
    · rintro ⟨i, hi, u, hu, t, ht, rfl, rfl⟩
      have b1 := linTable_off t ht
      have hi := mem_irange.1 hi
      have hu := hj u hu
      obtain ⟨ei, ej, ek, eh⟩ := hf
      exact ⟨rfl, _, _, _, by omega, by omega, by omega, rfl⟩
    · rintro ⟨rfl, x, y, z, hx, hy, hz, rfl⟩
      obtain ⟨t, ht, et⟩ := lin_entry ((x - 1) % 2) ((y - 1) % 2) ((z - 1) % 2) (by omega) (by omega) (by omega)
      obtain ⟨ei, ej, ek, eh⟩ := hf
      refine ⟨(x - 1) / 2, mem_irange.2 (by omega), ((y - 1) / 2, (z - 1) / 2), mem_box2.2 (by simp only; omega), t, ht, rfl, ?_⟩
      rw [linPos, et]
      have ex : 2 * ((x - 1) / 2) + 1 + (x - 1) % 2 = x := by omega
      have ey : 2 * ((y - 1) / 2) + 1 + (y - 1) % 2 = y := by omega
      have ez : 2 * ((z - 1) / 2) + 1 + (z - 1) % 2 = z := by omega
      simp only [ex, ey, ez]

end Madg
