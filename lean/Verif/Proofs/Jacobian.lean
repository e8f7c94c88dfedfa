/-
Sparsity pattern and entries of the sparse Jacobian.
-/
import Verif.Model.Jacobian
import Verif.Proofs.LDU
import Verif.Proofs.Grid3
import Verif.Proofs.Kern3
import Verif.Proofs.BC3
import Mathlib.Data.List.Perm.Subperm
import Mathlib.Data.List.Sort
import Mathlib.Data.List.Count

set_option linter.unusedSectionVars false
set_option linter.unusedVariables false

namespace Madg
open Spec Finset

/-! ### Sorting and removing duplicates -/

theorem mem_uniq {x : Int} {l : List Int} : x ∈ uniq l ↔ x ∈ l := by
  induction l with
  | nil => simp [uniq]
  | cons a l ih =>
    unfold uniq
    cases h : uniq l with
    | nil =>
      rw [h] at ih
      have hx : x ∉ l := fun hx => by simpa using ih.2 hx
      simp [hx]
    | cons y ys =>
      rw [h] at ih
      simp only
      split
      · rename_i e
        subst e
        rw [ih]
        simp only [List.mem_cons]
        constructor
        · intro hx; exact Or.inr hx
        · rintro (rfl | hx)
          · rw [← ih]; simp
          · exact hx
      · rw [List.mem_cons, ih, List.mem_cons]

theorem uniq_sorted {l : List Int} (h : l.Pairwise (· ≤ ·)) : (uniq l).Pairwise (· < ·) := by
  induction l with
  | nil => simp [uniq]
  | cons a l ih =>
    rw [List.pairwise_cons] at h
    have ih' := ih h.2
    unfold uniq
    cases hu : uniq l with
    | nil => simp
    | cons y ys =>
      rw [hu] at ih'
      simp only
      split
      · exact ih'
      · rename_i hne
        have hay : a ≤ y := h.1 y (by rw [← mem_uniq, hu]; simp)
        rw [List.pairwise_cons]
        refine ⟨fun z hz => ?_, ih'⟩
        rcases List.mem_cons.1 hz with rfl | hz
        · omega
        · have := (List.pairwise_cons.1 ih').1 z hz
          omega

/-- Images of the stencil of a cell. -/
def Grid3.images (g : Grid3) (c : Int × Int × Int) : List Int :=
  jacOffsets.map fun o => g.periodicIdx (c.1 + o.1) (c.2.1 + o.2.1) (c.2.2 + o.2.2)

theorem rowCols_sorted (g : Grid3) (c : Int × Int × Int) : (g.rowCols c).Pairwise (· < ·) := by
  unfold Grid3.rowCols
  apply uniq_sorted
  have := List.pairwise_mergeSort (le := fun a b : Int => decide (a ≤ b)) (by intro a b c; simp; omega) (by intro a b; simp; omega)
    (g.images c)
  exact this.imp (by intro a b; simp)

theorem mem_rowCols (g : Grid3) (c : Int × Int × Int) {x : Int} : x ∈ g.rowCols c ↔ x ∈ g.images c := by
  unfold Grid3.rowCols
  rw [mem_uniq, List.mem_mergeSort]
  rfl

theorem rowCols_nodup (g : Grid3) (c : Int × Int × Int) : (g.rowCols c).Nodup :=
  (rowCols_sorted g c).imp fun h => ne_of_lt h

theorem length_images (g : Grid3) (c : Int × Int × Int) : (g.images c).length = 25 := by
  simp [Grid3.images, jacOffsets]

theorem rowCols_perm (g : Grid3) (c : Int × Int × Int) (h : (g.images c).Nodup) : (g.rowCols c).Perm (g.images c) :=
  (List.perm_ext_iff_of_nodup (rowCols_nodup g c) h).2 fun x => mem_rowCols g c

theorem rowCols_short (g : Grid3) (c : Int × Int × Int) (h : ¬ (g.images c).Nodup) : (g.rowCols c).length < 25 := by
  have hsp : (g.rowCols c).Subperm (g.images c) :=
    List.subperm_of_subset (rowCols_nodup g c) fun x hx => (mem_rowCols g c).1 hx
  have hle := hsp.length_le
  rw [length_images] at hle
  rcases lt_or_eq_of_le hle with h1 | h1
  · exact h1
  · exact absurd ((hsp.perm_of_length_le (by rw [length_images, h1])).nodup_iff.1 (rowCols_nodup g c)) h

/-! ### Distinctness of the images -/

/-- All extents at least five. -/
structure Grid3.Wide (g : Grid3) : Prop where
  hi : 5 ≤ g.ni
  hj : 5 ≤ g.nj
  hk : 5 ≤ g.nk

theorem shift1_inj {n i a b : Int} (hn : 5 ≤ n) (h0 : 0 ≤ i) (h1 : i < n) (ha : -2 ≤ a ∧ a ≤ 2) (hb : -2 ≤ b ∧ b ≤ 2)
    (h : shift1 n (i + a) = shift1 n (i + b)) : a = b := by
  unfold shift1 at h
  simp only at h
  split at h <;> split at h <;> split at h <;> split at h <;> omega

theorem shift1_range {n i a : Int} (hn : 2 ≤ n) (h0 : 0 ≤ i) (h1 : i < n) (ha : -2 ≤ a ∧ a ≤ 2) :
    0 ≤ shift1 n (i + a) ∧ shift1 n (i + a) < n := by
  unfold shift1
  simp only
  split <;> split <;> omega

theorem shift1_mod {n i a : Int} (hn : 2 ≤ n) (h0 : 0 ≤ i) (h1 : i < n) (ha : -2 ≤ a ∧ a ≤ 2) :
    shift1 n (i + a) = wrapIdx n (i + a) := by
  unfold wrapIdx
  have hr := shift1_range hn h0 h1 ha
  have : ∃ q : Int, i + a = shift1 n (i + a) + n * q := by
    unfold shift1
    simp only
    split
    · split
      · exact ⟨0, by ring⟩
      · exact ⟨-1, by ring⟩
    · split
      · exact ⟨1, by ring⟩
      · exact ⟨0, by ring⟩
  obtain ⟨q, hq⟩ := this
  conv_rhs => rw [hq]
  rw [Int.add_mul_emod_self_left, Int.emod_eq_of_lt hr.1 hr.2]

theorem jac_range : ∀ o ∈ jacOffsets, (-2 ≤ o.1 ∧ o.1 ≤ 2) ∧ (-2 ≤ o.2.1 ∧ o.2.1 ≤ 2) ∧ (-2 ≤ o.2.2 ∧ o.2.2 ≤ 2) := by
  decide

theorem jac_nodup : jacOffsets.Nodup := by decide

/-- The grid without halo, on which rows are numbered. -/
def Grid3.bare (g : Grid3) : Grid3 := ⟨g.ni, g.nj, g.nk, 0⟩

theorem periodicIdx_bare (g : Grid3) (i j k : Int) :
    g.periodicIdx i j k = g.bare.at3 (shift1 g.ni i) (shift1 g.nj j) (shift1 g.nk k) := by
  unfold Grid3.periodicIdx Grid3.bare Grid3.at3 Grid3.njh Grid3.nkh
  simp

theorem images_inj {g : Grid3} (hw : g.Wide) {i j k : Int} (h : g.Int3 i j k) {o o' : Int × Int × Int}
    (ho : o ∈ jacOffsets) (ho' : o' ∈ jacOffsets)
    (e : g.periodicIdx (i + o.1) (j + o.2.1) (k + o.2.2) = g.periodicIdx (i + o'.1) (j + o'.2.1) (k + o'.2.2)) : o = o' := by
  obtain ⟨r1, r2, r3⟩ := jac_range o ho
  obtain ⟨r1', r2', r3'⟩ := jac_range o' ho'
  have := hw.hi; have := hw.hj; have := hw.hk
  obtain ⟨⟨h0, h1⟩, ⟨h2, h3⟩, h4, h5⟩ := h
  rw [periodicIdx_bare, periodicIdx_bare] at e
  have pad : ∀ {a b c : Int}, (0 ≤ a ∧ a < g.ni) → (0 ≤ b ∧ b < g.nj) → (0 ≤ c ∧ c < g.nk) → g.bare.Pad a b c := by
    intro a b c ha hb hc
    unfold Grid3.Pad Grid3.bare
    simp only
    omega
  obtain ⟨e1, e2, e3⟩ := Grid3.at3_inj (pad (shift1_range (by omega) h0 h1 r1) (shift1_range (by omega) h2 h3 r2)
    (shift1_range (by omega) h4 h5 r3)) (pad (shift1_range (by omega) h0 h1 r1') (shift1_range (by omega) h2 h3 r2')
    (shift1_range (by omega) h4 h5 r3')) e
  have a1 := shift1_inj hw.hi h0 h1 r1 r1' e1
  have a2 := shift1_inj hw.hj h2 h3 r2 r2' e2
  have a3 := shift1_inj hw.hk h4 h5 r3 r3' e3
  exact Prod.ext a1 (Prod.ext a2 a3)

theorem images_nodup {g : Grid3} (hw : g.Wide) {c : Int × Int × Int} (h : g.Int3 c.1 c.2.1 c.2.2) : (g.images c).Nodup := by
  unfold Grid3.images
  rw [List.nodup_map_iff_inj_on jac_nodup]
  intro o ho o' ho' e
  exact images_inj hw h ho ho' e

/-- In a narrow direction two offsets of one axis have the same image. -/
theorem shift1_collide {n i : Int} (hn0 : 1 ≤ n) (hn : n < 5) (h0 : 0 ≤ i) (h1 : i < n) :
    ∃ a ∈ ([0, 2, -1, -2, 1] : List Int), ∃ b ∈ ([0, 2, -1, -2, 1] : List Int), a ≠ b ∧ shift1 n (i + a) = shift1 n (i + b) := by
  have : n = 1 ∨ n = 2 ∨ n = 3 ∨ n = 4 := by omega
  rcases this with rfl | rfl | rfl | rfl
  · refine ⟨0, by simp, 1, by simp, by decide, ?_⟩
    unfold shift1; simp only; split <;> split <;> split <;> split <;> omega
  · refine ⟨0, by simp, 2, by simp, by decide, ?_⟩
    unfold shift1; simp only; split <;> split <;> split <;> split <;> omega
  · refine ⟨2, by simp, -1, by simp, by decide, ?_⟩
    unfold shift1; simp only; split <;> split <;> split <;> split <;> omega
  · refine ⟨2, by simp, -2, by simp, by decide, ?_⟩
    unfold shift1; simp only; split <;> split <;> split <;> split <;> omega

theorem images_not_nodup {g : Grid3} (hg : g.Ok) (hn : g.ni < 5 ∨ g.nj < 5 ∨ g.nk < 5) {c : Int × Int × Int}
    (h : g.Int3 c.1 c.2.1 c.2.2) : ¬ (g.images c).Nodup := by
  unfold Grid3.images
  rw [List.nodup_map_iff_inj_on jac_nodup]
  intro hinj
  obtain ⟨⟨h0, h1⟩, ⟨h2, h3⟩, h4, h5⟩ := h
  have := hg.hi; have := hg.hj; have := hg.hk
  have mx : ∀ a ∈ ([0, 2, -1, -2, 1] : List Int), ((a, 0, 0) : Int × Int × Int) ∈ jacOffsets := by decide
  have my : ∀ a ∈ ([0, 2, -1, -2, 1] : List Int), ((0, a, 0) : Int × Int × Int) ∈ jacOffsets := by decide
  have mz : ∀ a ∈ ([0, 2, -1, -2, 1] : List Int), ((0, 0, a) : Int × Int × Int) ∈ jacOffsets := by decide
  rcases hn with hn | hn | hn
  · obtain ⟨a, ha, b, hb, hab, e⟩ := shift1_collide (by omega) hn h0 h1
    have := hinj _ (mx a ha) _ (mx b hb) (by unfold Grid3.periodicIdx; simp only [e])
    exact hab (congrArg Prod.fst this)
  · obtain ⟨a, ha, b, hb, hab, e⟩ := shift1_collide (by omega) hn h2 h3
    have := hinj _ (my a ha) _ (my b hb) (by unfold Grid3.periodicIdx; simp only [e])
    exact hab (congrArg (fun o => o.2.1) this)
  · obtain ⟨a, ha, b, hb, hab, e⟩ := shift1_collide (by omega) hn h4 h5
    have := hinj _ (mz a ha) _ (mz b hb) (by unfold Grid3.periodicIdx; simp only [e])
    exact hab (congrArg (fun o => o.2.2) this)

/-! ### Rows in order -/

theorem irange_mul_block (a : Nat) (b : Int) (hb : 0 ≤ b) :
    irange 0 (((a : Int) + 1) * b) = irange 0 ((a : Int) * b) ++ (irange 0 b).map fun j => (a : Int) * b + j := by
  have h0 : 0 ≤ (a : Int) * b := Int.mul_nonneg (by omega) hb
  unfold irange
  have e : ((((a : Int) + 1) * b) - 0).toNat = (((a : Int) * b) - 0).toNat + (b - 0).toNat := by
    have : ((a : Int) + 1) * b = (a : Int) * b + b := by ring
    omega
  rw [e, List.range_add, List.map_append, List.map_map, List.map_map]
  congr 1
  refine List.map_congr_left fun t _ => ?_
  simp only [Function.comp]
  push_cast
  omega

theorem flatMap_enc {α : Type} (f : Int → α) (a : Nat) (b : Int) (hb : 0 ≤ b) :
    ((irange 0 (a : Int)).flatMap fun i => (irange 0 b).map fun j => f (i * b + j)) = (irange 0 ((a : Int) * b)).map f := by
  induction a with
  | zero => simp [irange]
  | succ a ih =>
    push_cast
    rw [irange_succ, List.flatMap_append, ih, irange_mul_block a b hb, List.map_append, List.map_map]
    congr 1
    simp [List.flatMap_cons]

/-- Cell of a row number. -/
def Grid3.cellOf (g : Grid3) (n : Int) : Int × Int × Int := (n.tdiv (g.nj * g.nk), (n.tdiv g.nk).tmod g.nj, n.tmod g.nk)

theorem cellOf_bare (g : Grid3) (n : Int) : g.cellOf n = (g.bare.getI n, g.bare.getJ n, g.bare.getK n) := by
  unfold Grid3.cellOf Grid3.bare Grid3.getI Grid3.getJ Grid3.getK Grid3.njh Grid3.nkh
  simp

theorem bare_ok {g : Grid3} (hg : g.Ok) : g.bare.Ok := ⟨hg.hi, hg.hj, hg.hk, le_refl 0⟩

theorem bare_size (g : Grid3) : g.bare.size = g.ni * g.nj * g.nk := by
  unfold Grid3.size Grid3.bare; simp

theorem bare_pad_iff (g : Grid3) (i j k : Int) : g.bare.Pad i j k ↔ g.Int3 i j k := by
  unfold Grid3.Pad Grid3.Int3 Grid3.bare
  simp

theorem cellOf_int {g : Grid3} (hg : g.Ok) {n : Int} (h0 : 0 ≤ n) (h1 : n < g.ni * g.nj * g.nk) :
    g.Int3 (g.cellOf n).1 (g.cellOf n).2.1 (g.cellOf n).2.2 := by
  rw [cellOf_bare, ← bare_pad_iff]
  exact Grid3.pad_get (bare_ok hg) h0 (by rw [bare_size]; exact h1)

theorem row_cellOf {g : Grid3} (hg : g.Ok) {n : Int} (h0 : 0 ≤ n) :
    g.bare.at3 (g.cellOf n).1 (g.cellOf n).2.1 (g.cellOf n).2.2 = n := by
  rw [cellOf_bare]; exact Grid3.at3_get (bare_ok hg) h0

theorem cellOf_row {g : Grid3} {i j k : Int} (h : g.Int3 i j k) : g.cellOf (g.bare.at3 i j k) = (i, j, k) := by
  have h' := (bare_pad_iff g i j k).2 h
  rw [cellOf_bare, Grid3.getI_at3 h', Grid3.getJ_at3 h', Grid3.getK_at3 h']

theorem row_bounds {g : Grid3} {i j k : Int} (h : g.Int3 i j k) :
    0 ≤ g.bare.at3 i j k ∧ g.bare.at3 i j k < g.ni * g.nj * g.nk := by
  have := Grid3.at3_bounds ((bare_pad_iff g i j k).2 h)
  rwa [bare_size] at this

theorem cells_eq {g : Grid3} (hg : g.Ok) : g.cells = (irange 0 (g.ni * g.nj * g.nk)).map g.cellOf := by
  have hi := hg.hi; have hj := hg.hj; have hk := hg.hk
  obtain ⟨a, ha⟩ := Int.eq_ofNat_of_zero_le (by omega : 0 ≤ g.ni)
  obtain ⟨b, hb⟩ := Int.eq_ofNat_of_zero_le (by omega : 0 ≤ g.nj)
  have hjk : 0 ≤ g.nj * g.nk := Int.mul_nonneg (by omega) (by omega)
  have step : g.cells = (irange 0 g.ni).flatMap fun i => (irange 0 (g.nj * g.nk)).map fun q => g.cellOf (i * (g.nj * g.nk) + q) := by
    unfold Grid3.cells
    refine List.flatMap_congr fun i hi' => ?_
    rw [mem_irange] at hi'
    have e1 := flatMap_enc (fun q => g.cellOf (i * (g.nj * g.nk) + q)) b g.nk (by omega)
    rw [← hb] at e1
    rw [← e1]
    refine List.flatMap_congr fun j hj' => ?_
    rw [mem_irange] at hj'
    refine List.map_congr_left fun k hk' => ?_
    rw [mem_irange] at hk'
    have hrow : i * (g.nj * g.nk) + (j * g.nk + k) = g.bare.at3 i j k := by
      unfold Grid3.at3 get1DindexFrom3D Grid3.bare Grid3.njh Grid3.nkh
      simp; ring
    rw [hrow, cellOf_row (by unfold Grid3.Int3; omega)]
  rw [step, ha, flatMap_enc g.cellOf a _ hjk, mul_assoc]

theorem collect_ok {α β : Type} {f : α → Except Err β} {h : α → β} {l : List α} (hf : ∀ a ∈ l, f a = .ok (h a)) :
    collect f l = .ok (l.map h) := by
  induction l with
  | nil => rfl
  | cons a l ih =>
    rw [collect, hf a List.mem_cons_self, ih fun x hx => hf x (List.mem_cons_of_mem _ hx)]
    rfl

theorem cells_int {g : Grid3} {c : Int × Int × Int} (h : c ∈ g.cells) : g.Int3 c.1 c.2.1 c.2.2 := by
  unfold Grid3.cells at h
  simp only [List.mem_flatMap, List.mem_map, mem_irange] at h
  obtain ⟨i, hi, j, hj, k, hk, rfl⟩ := h
  exact ⟨hi, hj, hk⟩

/-- The pattern on a wide grid. -/
theorem createSparse_ok {A : Type} {g : Grid3} (hg : g.Ok) (hw : g.Wide) (vals : A) :
    g.createSparse vals = .ok ⟨g.ni * g.nj * g.nk, g.ni * g.nj * g.nk,
      (irange 0 (g.ni * g.nj * g.nk + 1)).map (fun irow => 25 * irow),
      ((irange 0 (g.ni * g.nj * g.nk)).map fun n => g.rowCols (g.cellOf n)).flatten, vals⟩ := by
  unfold Grid3.createSparse
  have hlen : ∀ c ∈ g.cells, (g.rowCols c).length = 25 := fun c hc => by
    rw [(rowCols_perm g c (images_nodup hw (cells_int hc))).length_eq, length_images]
  rw [collect_ok (h := g.rowCols)]
  · simp only [cells_eq hg, List.map_map]
    rfl
  · intro c hc
    unfold Grid3.copyRow
    simp only
    rw [if_neg (by rw [hlen c hc]; omega), List.take_of_length_le (hlen c hc).le]

theorem createSparse_fails {A : Type} {g : Grid3} (hg : g.Ok) (hn : g.ni < 5 ∨ g.nj < 5 ∨ g.nk < 5) (vals : A) :
    g.createSparse vals = .error .outOfBounds := by
  have hpos : 0 < g.ni * g.nj * g.nk :=
    Int.mul_pos (Int.mul_pos (by have := hg.hi; omega) (by have := hg.hj; omega)) (by have := hg.hk; omega)
  have hc : ∃ c cs, g.cells = c :: cs := by
    cases h : g.cells with
    | nil =>
      rw [cells_eq hg] at h
      have := congrArg List.length h
      rw [List.length_map, length_irange, List.length_nil] at this
      omega
    | cons c cs => exact ⟨c, cs, rfl⟩
  obtain ⟨c, cs, hcs⟩ := hc
  have hmem : c ∈ g.cells := by rw [hcs]; simp
  have : g.copyRow c = .error .outOfBounds := by
    unfold Grid3.copyRow
    simp only
    rw [if_pos (rowCols_short g c (images_not_nodup hg hn (cells_int hmem)))]
  unfold Grid3.createSparse
  rw [hcs, collect, this]


/-! ### The matrix as a CSR structure -/

/-- The matrix of a wide grid. -/
def Grid3.jacMat {A : Type} (g : Grid3) (vals : A) : CSR A :=
  ⟨g.ni * g.nj * g.nk, g.ni * g.nj * g.nk,
    (irange 0 (g.ni * g.nj * g.nk + 1)).map (fun irow => 25 * irow),
    ((irange 0 (g.ni * g.nj * g.nk)).map fun n => g.rowCols (g.cellOf n)).flatten, vals⟩

theorem length_flatten_const {α : Type} {L : List (List α)} {c : Nat} (h : ∀ l ∈ L, l.length = c) :
    L.flatten.length = c * L.length := by
  induction L with
  | nil => simp
  | cons l L ih =>
    rw [List.flatten_cons, List.length_append, h l List.mem_cons_self, ih fun x hx => h x (List.mem_cons_of_mem _ hx),
      List.length_cons]
    ring

theorem getD_flatten_const {α : Type} (d : α) {L : List (List α)} {c : Nat} (h : ∀ l ∈ L, l.length = c) {n t : Nat}
    (hn : n < L.length) (ht : t < c) : L.flatten.getD (c * n + t) d = (L.getD n []).getD t d := by
  induction L generalizing n with
  | nil => simp at hn
  | cons l L ih =>
    have hl := h l List.mem_cons_self
    rw [List.flatten_cons]
    cases n with
    | zero =>
      simp only [Nat.mul_zero, Nat.zero_add, List.getD_cons_zero]
      rw [List.getD_eq_getElem?_getD, List.getD_eq_getElem?_getD, List.getElem?_append_left (by omega)]
    | succ n =>
      have e : c * (n + 1) + t = l.length + (c * n + t) := by rw [hl]; ring
      rw [e, List.getD_eq_getElem?_getD, List.getElem?_append_right (by omega), List.getD_cons_succ, Nat.add_sub_cancel_left,
        ← List.getD_eq_getElem?_getD]
      exact ih (fun x hx => h x (List.mem_cons_of_mem _ hx)) (by simpa using hn)

section
variable {A : Type} {g : Grid3} (hg : g.Ok) (hw : g.Wide) (vals : A)
include hg hw

theorem cells_pos : 0 < g.ni * g.nj * g.nk :=
  Int.mul_pos (Int.mul_pos (by have := hg.hi; omega) (by have := hg.hj; omega)) (by have := hg.hk; omega)

theorem rowCols_length {n : Int} (h0 : 0 ≤ n) (h1 : n < g.ni * g.nj * g.nk) : (g.rowCols (g.cellOf n)).length = 25 := by
  rw [(rowCols_perm g _ (images_nodup hw (cellOf_int hg h0 h1))).length_eq, length_images]

theorem rowBlocks_length : ∀ l ∈ (irange 0 (g.ni * g.nj * g.nk)).map (fun n => g.rowCols (g.cellOf n)), l.length = 25 := by
  intro l hl
  obtain ⟨n, hn, rfl⟩ := List.mem_map.1 hl
  rw [mem_irange] at hn
  exact rowCols_length hg hw hn.1 hn.2

theorem jac_colIdx_length : ((g.jacMat vals).colIdx.length : Int) = 25 * (g.ni * g.nj * g.nk) := by
  have hp := cells_pos hg hw
  unfold Grid3.jacMat
  rw [length_flatten_const (rowBlocks_length hg hw), List.length_map, length_irange]
  push_cast
  omega

omit hw in
theorem jac_rowPtr {n : Int} (h0 : 0 ≤ n) (h1 : n ≤ g.ni * g.nj * g.nk) : rowPtr (g.jacMat vals) n = 25 * n := by
  unfold rowPtr Grid3.jacMat
  rw [List.getD_eq_getElem?_getD, getElem?_irange_map (g.ni * g.nj * g.nk + 1) _ h0 (by omega)]
  rfl

theorem jac_colOf {n t : Int} (h0 : 0 ≤ n) (h1 : n < g.ni * g.nj * g.nk) (t0 : 0 ≤ t) (t1 : t < 25) :
    colOf (g.jacMat vals) (25 * n + t) = (g.rowCols (g.cellOf n)).getD t.toNat 0 := by
  unfold colOf Grid3.jacMat
  have e : (25 * n + t).toNat = 25 * n.toNat + t.toNat := by omega
  rw [e, getD_flatten_const 0 (rowBlocks_length hg hw) (by rw [List.length_map, length_irange]; omega) (by omega)]
  congr 1
  rw [List.getD_eq_getElem?_getD, getElem?_irange_map _ _ h0 h1]
  rfl

theorem jac_row_cols {n : Int} (h0 : 0 ≤ n) (h1 : n < g.ni * g.nj * g.nk) :
    (irange (25 * n) (25 * n + 25)).map (colOf (g.jacMat vals)) = g.rowCols (g.cellOf n) := by
  have hl := rowCols_length hg hw h0 h1
  apply List.ext_getElem
  · rw [List.length_map, length_irange, hl]; omega
  · intro t ht1 ht2
    rw [List.length_map, length_irange] at ht1
    have hidx : (irange (25 * n) (25 * n + 25))[t]'(by rw [length_irange]; exact ht1) = 25 * n + (t : Int) := by
      simp [irange]
    rw [List.getElem_map, hidx, jac_colOf hg hw vals h0 h1 (by omega) (by omega)]
    simp [List.getD_eq_getElem?_getD, List.getElem?_eq_getElem ht2]

theorem jac_wf {sz : A → Int} (hs : sz vals = 25 * (g.ni * g.nj * g.nk)) : CSRWf sz (g.jacMat vals) where
  rows := (cells_pos hg hw).le
  len := by
    have hp := cells_pos hg hw
    unfold Grid3.jacMat
    rw [List.length_map, length_irange]
    simp only
    omega
  lo := fun i h0 h1 => by rw [jac_rowPtr hg vals h0 h1]; omega
  hi := fun i h0 h1 => by
    rw [jac_rowPtr hg vals h0 h1, jac_colIdx_length hg hw]
    exact Int.mul_le_mul_of_nonneg_left h1 (by omega)
  col := by
    intro c hc
    unfold Grid3.jacMat at hc ⊢
    simp only [List.mem_flatten, List.mem_map] at hc
    obtain ⟨l, ⟨n, hn, rfl⟩, hc⟩ := hc
    rw [mem_irange] at hn
    have hin := cellOf_int hg hn.1 hn.2
    rw [mem_rowCols] at hc
    unfold Grid3.images at hc
    obtain ⟨o, ho, rfl⟩ := List.mem_map.1 hc
    obtain ⟨r1, r2, r3⟩ := jac_range o ho
    have := hw.hi; have := hw.hj; have := hw.hk
    rw [periodicIdx_bare]
    exact row_bounds ⟨shift1_range (by omega) hin.1.1 hin.1.2 r1, shift1_range (by omega) hin.2.1.1 hin.2.1.2 r2,
      shift1_range (by omega) hin.2.2.1 hin.2.2.2 r3⟩
  vals := by rw [jac_colIdx_length hg hw]; exact hs

end

/-! ### The assembly loop -/

section
variable {A K : Type} [DecidableEq A] [Field K]

/-- `q` adds `x` to the entry `pos` of `vals` in every memory whose array `c` holds `cv`, touching nothing else. -/
structure Adds (sz : A → Int) (c vals : A) (pos : Int) (cv : Int → K) (q : Prog A K Unit) (x : K) : Prop where
  foot : q.Foot sz (fun a n => a = c ∨ (a = vals ∧ n = pos)) (fun a n => a = vals ∧ n = pos)
  exec : ∀ m : Mem A K, m c = cv → q.exec m = m.set vals pos (m vals pos + x)

variable {sz : A → Int} {c vals : A} {pos : Int} {cv : Int → K}

theorem Mem.set_self (m : Mem A K) (a : A) (i : Int) : m.set a i (m a i) = m := by
  funext b n
  by_cases h : b = a ∧ n = i
  · rw [h.1, h.2, Mem.set_same]
  · rw [Mem.set_of_ne _ _ h]

theorem Mem.set_set (m : Mem A K) (a : A) (i : Int) (v w : K) : (m.set a i v).set a i w = m.set a i w := by
  funext b n
  by_cases h : b = a ∧ n = i
  · rw [h.1, h.2, Mem.set_same, Mem.set_same]
  · rw [Mem.set_of_ne _ _ h, Mem.set_of_ne _ _ h, Mem.set_of_ne _ _ h]

theorem Mem.set_other (m : Mem A K) {a b : A} (i : Int) (v : K) (h : b ≠ a) : m.set a i v b = m b := by
  funext n
  exact Mem.set_of_ne _ _ fun e => h e.1

theorem Adds.pure : Adds sz c vals pos cv (.pure ()) 0 :=
  ⟨trivial, fun m _ => by rw [add_zero, Mem.set_self]; rfl⟩

theorem Adds.addTo (hp : InB sz vals pos) (x : K) : Adds sz c vals pos cv (Prog.addTo vals pos x) x :=
  ⟨⟨hp, Or.inr ⟨rfl, rfl⟩, fun _ => ⟨hp, ⟨rfl, rfl⟩, trivial⟩⟩, fun m _ => rfl⟩

theorem Adds.seq (hne : c ≠ vals) {q q' : Prog A K Unit} {x y : K} (h : Adds sz c vals pos cv q x) (h' : Adds sz c vals pos cv q' y) :
    Adds sz c vals pos cv (q.bind fun _ => q') (x + y) :=
  ⟨h.foot.bind fun _ => h'.foot, fun m hm => by
    rw [Prog.exec_bind h.foot, h.exec m hm, h'.exec _ (by rw [Mem.set_other _ _ _ hne]; exact hm), Mem.set_same, Mem.set_set,
      add_assoc]⟩

theorem Adds.rd {n : Int} (hn : InB sz c n) {f : K → Prog A K Unit} {x : K} (hf : (∀ v, (f v).Foot sz (fun a n => a = c ∨ (a = vals ∧ n = pos))
    (fun a n => a = vals ∧ n = pos))) (h : Adds sz c vals pos cv (f (cv n)) x) : Adds sz c vals pos cv ((Prog.rd c n).bind f) x :=
  ⟨⟨hn, Or.inl rfl, hf⟩, fun m hm => by
    show (f (m c n)).exec m = _
    rw [hm]; exact h.exec m hm⟩

theorem Adds.ite {P : Prop} [Decidable P] {q : Prog A K Unit} {x : K} (h : Adds sz c vals pos cv q x) :
    Adds sz c vals pos cv (if P then q else .pure ()) (if P then x else 0) := by
  split
  · exact h
  · exact Adds.pure

theorem Adds.forEach (hne : c ≠ vals) {ι : Type} {xs : List ι} {f : ι → Prog A K Unit} {x : ι → K}
    (h : ∀ o ∈ xs, Adds sz c vals pos cv (f o) (x o)) : Adds sz c vals pos cv (Prog.forEach xs f) (xs.map x).sum := by
  induction xs with
  | nil =>
    rw [List.map_nil, List.sum_nil]
    exact Adds.pure
  | cons o xs ih =>
    rw [List.map_cons, List.sum_cons]
    exact Adds.seq hne (h o List.mem_cons_self) (ih fun o ho => h o (List.mem_cons_of_mem _ ho))

/-- Value the assembly loop gives to the entry of cell `(i, j, k)` in column `icol`, for the field `u`. -/
def jacEntry (g : Grid3) (p : CHParams K) (dx : K) (u : Int → Int → Int → K) (irow i j k icol : Int) : K :=
  let dx2 := dx * dx
  let dx4 := dx2 * dx2
  let img := fun o : Int × Int × Int => g.periodicIdx (i + o.1) (j + o.2.1) (k + o.2.2)
  (if icol = irow then -p.sigma + (-p.eps2 * 42 / dx4 + -6 * (3 * u i j k ^ 2 - 1) / dx2) else 0) +
  ((jacNear.map fun o => if icol = img o then
      (3 * u (i + o.1) (j + o.2.1) (k + o.2.2) ^ 2 - 1) / dx2 + 12 * p.eps2 / dx4 else 0).sum +
  ((if ∃ o ∈ jacFar, icol = img o then -p.eps2 / dx4 else 0) +
   (if ∃ o ∈ jacDiag, icol = img o then -p.eps2 * 2 / dx4 else 0)))

theorem jacNear_le : ∀ o ∈ jacNear, (-1 ≤ o.1 ∧ o.1 ≤ 1) ∧ (-1 ≤ o.2.1 ∧ o.2.1 ≤ 1) ∧ (-1 ≤ o.2.2 ∧ o.2.2 ≤ 1) := by decide

theorem jacBody_adds {g : Grid3} (hh : 1 ≤ g.nhalo) (hs : sz c = g.size) (hne : c ≠ vals) (hp : InB sz vals pos)
    (p : CHParams K) (dx : K) {irow i j k icol : Int} (hint : g.Int3 i j k) :
    Adds sz c vals pos cv (jacBody g p dx c vals irow i j k pos icol)
      (jacEntry g p dx (fun x y z => cv (g.at3 x y z)) irow i j k icol) := by
  have inb : ∀ x y z : Int, -1 ≤ x → x ≤ 1 → -1 ≤ y → y ≤ 1 → -1 ≤ z → z ≤ 1 → InB sz c (g.at3 (i + x) (j + y) (k + z)) := by
    intro x y z h1 h2 h3 h4 h5 h6
    have hpad : g.Pad (i + x) (j + y) (k + z) := by
      obtain ⟨⟨a0, a1⟩, ⟨a2, a3⟩, a4, a5⟩ := hint
      unfold Grid3.Pad
      omega
    have := Grid3.at3_bounds hpad
    exact ⟨this.1, by rw [hs]; exact this.2⟩
  have inb0 : InB sz c (g.at3 i j k) := by simpa using inb 0 0 0 (by omega) (by omega) (by omega) (by omega) (by omega) (by omega)
  have ad : ∀ x : K, Adds sz c vals pos cv (Prog.addTo vals pos x) x := fun x => Adds.addTo hp x
  unfold jacBody jacEntry
  refine Adds.seq hne (Adds.ite ?_) (Adds.seq hne (Adds.forEach hne fun o ho => Adds.ite ?_) (Adds.seq hne (Adds.ite (ad _)) (Adds.ite (ad _))))
  · exact Adds.seq hne (ad _) (Adds.seq hne (ad _) (Adds.rd inb0 (fun v => (ad _).foot) (ad _)))
  · obtain ⟨r1, r2, r3⟩ := jacNear_le o ho
    refine Adds.rd (inb _ _ _ r1.1 r1.2 r2.1 r2.2 r3.1 r3.2) (fun v => ?_) ?_
    · exact (Adds.seq hne (ad _) (ad _)).foot
    · exact Adds.seq hne (ad _) (ad _)

theorem fold_unit_forEach {ι : Type} (f : Unit → ι → Prog A K Unit) (xs : List ι) (s : Unit) :
    Prog.fold f xs s = Prog.forEach xs (f ()) := by
  induction xs with
  | nil => rfl
  | cons x xs ih =>
    show ((f s x).bind fun s => Prog.fold f xs s) = (f () x).bind fun _ => Prog.forEach xs (f ())
    congr 1
    funext u
    rw [← ih]

/-- The assembly is deterministic and in bounds, and stores `jacEntry` at each entry. -/
theorem evalJacobian_det {g : Grid3} (hg : g.Ok) (hw : g.Wide) (hh : 1 ≤ g.nhalo) (hs : sz c = g.size)
    (hsv : sz vals = 25 * (g.ni * g.nj * g.nk)) (hne : c ≠ vals) (p : CHParams K) (dx : K) (m : Mem A K) :
    ∃ m', Det sz (evalJacobian g p dx c (g.jacMat vals)) m m' ∧ (∀ b, b ≠ vals → m' b = m b) ∧
      ∀ n, 0 ≤ n → n < g.ni * g.nj * g.nk → ∀ q, 25 * n ≤ q → q < 25 * n + 25 →
        m' vals q = jacEntry g p dx (fun x y z => m c (g.at3 x y z)) n (g.cellOf n).1 (g.cellOf n).2.1 (g.cellOf n).2.2
          (colOf (g.jacMat vals) q) := by
  have hM := jac_wf hg hw vals hsv
  have hN := cells_pos hg hw
  have hlen := jac_colIdx_length hg hw vals
  obtain ⟨m1, d1, w1⟩ := forAll_det (sz := sz) (r := vals) ((g.jacMat vals).colIdx.length : Int)
    (fun i => (Prog.wr vals i 0 : Prog A K Unit)) (fun _ => 0) m
    (fun i h0 h1 => ⟨⟨h0, by rw [hsv, ← hlen]; exact h1⟩, ⟨rfl, rfl⟩, trivial⟩) (fun i h0 h1 => Mem.set_same _ _ _ _)
  have hc1 : m1 c = m c := w1.frame c hne
  have hrl : (((g.jacMat vals).rowIdx.length : Int) - 1) = g.ni * g.nj * g.nk := by
    have := hM.len
    show ((g.jacMat vals).rowIdx.length : Int) - 1 = (g.jacMat vals).rows
    omega
  have hadd : ∀ n, 0 ≤ n → n < g.ni * g.nj * g.nk → ∀ q, 25 * n ≤ q → q < 25 * n + 25 →
      Adds sz c vals q (m c) ((do
        let icol ← Prog.idxAt (g.jacMat vals).colIdx q
        jacBody g p dx c vals n (g.cellOf n).1 (g.cellOf n).2.1 (g.cellOf n).2.2 q icol : Prog A K Unit))
        (jacEntry g p dx (fun x y z => m c (g.at3 x y z)) n (g.cellOf n).1 (g.cellOf n).2.1 (g.cellOf n).2.2
          (colOf (g.jacMat vals) q)) := by
    intro n h0 h1 q q0 q1
    simp only [Prog.monad_bind]
    rw [hM.col_idx (by omega) (by rw [hlen]; omega)]
    simp only [Prog.pure_bind']
    exact jacBody_adds hh hs hne ⟨by omega, by rw [hsv]; omega⟩ p dx (cellOf_int hg h0 h1)
  have pool : evalJacobian g p dx c (g.jacMat vals) = [forAll 0 ((g.jacMat vals).colIdx.length : Int) fun i => (Prog.wr vals i 0 : Prog A K Unit)] ++
      [(irange 0 (g.ni * g.nj * g.nk)).map fun n => Prog.forEach (irange (25 * n) (25 * n + 25)) fun q => (do
        let icol ← Prog.idxAt (g.jacMat vals).colIdx q
        jacBody g p dx c vals n (g.cellOf n).1 (g.cellOf n).2.1 (g.cellOf n).2.2 q icol : Prog A K Unit)] := by
    unfold evalJacobian
    rw [hrl]
    refine congrArg₂ _ rfl ?_
    unfold forAll
    congr 1
    refine List.map_congr_left fun n hn => ?_
    rw [mem_irange] at hn
    simp only
    rw [hM.rowLoop_eq hn.1 hn.2, fold_unit_forEach, jac_rowPtr hg vals hn.1 hn.2.le, jac_rowPtr hg vals (by omega) (by omega),
      mul_add, mul_one]
    rfl
  have inj : ∀ n n' q q' : Int, 25 * n ≤ q → q < 25 * n + 25 → 25 * n' ≤ q' → q' < 25 * n' + 25 → q = q' → n = n' := by
    intros; omega
  have d2 := det_cells_nested (sz := sz) (ts := irange 0 (g.ni * g.nj * g.nk)) (us := fun n => irange (25 * n) (25 * n + 25))
    (body := fun n q => (do
        let icol ← Prog.idxAt (g.jacMat vals).colIdx q
        jacBody g p dx c vals n (g.cellOf n).1 (g.cellOf n).2.1 (g.cellOf n).2.2 q icol : Prog A K Unit))
    (nodup_irange _ _) (fun _ _ => nodup_irange _ _) (fun x => (vals, x.2))
    (fun x => jacEntry g p dx (fun a b d => m c (g.at3 a b d)) x.1 (g.cellOf x.1).1 (g.cellOf x.1).2.1 (g.cellOf x.1).2.2
          (colOf (g.jacMat vals) x.2)) m1
    (by
      intro x hx hx2 y hy hy2 e
      rw [mem_irange] at hx hx2 hy hy2
      have e2 : x.2 = y.2 := (Prod.mk.inj e).2
      exact Prod.ext (inj _ _ _ _ hx2.1 hx2.2 hy2.1 hy2.2 e2) e2)
    (by
      intro x hx hx2
      rw [mem_irange] at hx hx2
      refine (hadd x.1 hx.1 hx.2 x.2 hx2.1 hx2.2).foot.mono ?_ ?_
      · rintro a n (rfl | ⟨rfl, rfl⟩) y hy hy2 hyx e
        · exact hne (Prod.mk.inj e).1.symm
        · rw [mem_irange] at hy hy2
          have e2 : y.2 = x.2 := (Prod.mk.inj e).2
          exact hyx (Prod.ext (inj _ _ _ _ hy2.1 hy2.2 hx2.1 hx2.2 e2) e2)
      · rintro a n ⟨rfl, rfl⟩; rfl)
    (by
      intro x hx hx2
      rw [mem_irange] at hx hx2
      rw [(hadd x.1 hx.1 hx.2 x.2 hx2.1 hx2.2).exec m1 hc1, Mem.set_same, w1.view x.2 (by omega) (by rw [hlen]; omega), zero_add])
  refine ⟨_, by rw [pool]; exact det_append d1 d2, ?_, ?_⟩
  · intro b hb
    rw [Mem.upd_ne (fun x _ => fun h => hb h.symm)]
    exact w1.frame b hb
  · intro n h0 h1 q q0 q1
    rw [Mem.upd_hit (c := ((n, q) : Int × Int))]
    · rintro ⟨n', q'⟩ ⟨a, b⟩ e
      rw [mem_irange] at b
      have e2 : q' = q := (Prod.mk.inj e).2
      simp only at b
      exact Prod.ext (by show n' = n; omega) e2
    · exact ⟨mem_irange.2 ⟨h0, h1⟩, mem_irange.2 ⟨q0, q1⟩⟩
    · rfl

end

end Madg
