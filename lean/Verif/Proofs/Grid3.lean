import Verif.Model.Grid3
import Verif.Proofs.Loop
import Mathlib.Tactic.NormNum
import Mathlib.Tactic.Positivity
import Mathlib.Tactic.LinearCombination

namespace Madg

/-! ### Mixed-radix encoding of pairs -/

theorem enc_bounds {a b m n : Int} (ha : 0 ≤ a) (ha' : a < m) (hb : 0 ≤ b) (hb' : b < n) :
    0 ≤ a * n + b ∧ a * n + b < m * n := by
  have hn : 0 < n := by omega
  constructor
  · have := Int.mul_nonneg ha hn.le; omega
  · have : (a + 1) * n ≤ m * n := Int.mul_le_mul_of_nonneg_right (by omega) hn.le
    have e : (a + 1) * n = a * n + n := by ring
    omega

theorem enc_div {a b n : Int} (hb : 0 ≤ b) (hb' : b < n) : (a * n + b) / n = a := by
  have hn : n ≠ 0 := by omega
  rw [Int.add_comm, Int.add_mul_ediv_right _ _ hn, Int.ediv_eq_zero_of_lt hb hb', Int.zero_add]

theorem enc_mod {a b n : Int} (hb : 0 ≤ b) (hb' : b < n) : (a * n + b) % n = b := by
  rw [Int.add_comm, Int.add_mul_emod_self_right, Int.emod_eq_of_lt hb hb']

namespace Grid3

/-- All extents positive and the halo width non-negative. -/
structure Ok (g : Grid3) : Prop where
  hi : 1 ≤ g.ni
  hj : 1 ≤ g.nj
  hk : 1 ≤ g.nk
  hh : 0 ≤ g.nhalo

/-- `(i,j,k)` lies in the padded box. -/
def Pad (g : Grid3) (i j k : Int) : Prop :=
  (-g.nhalo ≤ i ∧ i < g.ni + g.nhalo) ∧ (-g.nhalo ≤ j ∧ j < g.nj + g.nhalo) ∧
    (-g.nhalo ≤ k ∧ k < g.nk + g.nhalo)

/-- `(i,j,k)` is an interior cell. -/
def Int3 (g : Grid3) (i j k : Int) : Prop :=
  (0 ≤ i ∧ i < g.ni) ∧ (0 ≤ j ∧ j < g.nj) ∧ (0 ≤ k ∧ k < g.nk)

variable {g : Grid3}

theorem Int3.pad (hg : g.Ok) {i j k : Int} (h : g.Int3 i j k) : g.Pad i j k := by
  have := hg.hh; unfold Int3 at h; unfold Pad; omega

theorem at3_eq (i j k : Int) :
    g.at3 i j k = (i + g.nhalo) * (g.njh * g.nkh) + ((j + g.nhalo) * g.nkh + (k + g.nhalo)) := by
  unfold at3 get1DindexFrom3D; ring

theorem at3_eq' (i j k : Int) :
    g.at3 i j k = ((i + g.nhalo) * g.njh + (j + g.nhalo)) * g.nkh + (k + g.nhalo) := by
  unfold at3 get1DindexFrom3D; ring

theorem size_eq : g.size = g.nih * (g.njh * g.nkh) := by
  unfold size nih njh nkh; ring

theorem size_eq' : g.size = (g.nih * g.njh) * g.nkh := by
  unfold size nih njh nkh; ring

theorem at3_bounds {i j k : Int} (h : g.Pad i j k) : 0 ≤ g.at3 i j k ∧ g.at3 i j k < g.size := by
  obtain ⟨h1, h2, h3⟩ := h
  have hjk := enc_bounds (a := j + g.nhalo) (b := k + g.nhalo) (m := g.njh) (n := g.nkh)
    (by omega) (by unfold njh; omega) (by omega) (by unfold nkh; omega)
  rw [at3_eq, size_eq]
  exact enc_bounds (by omega) (by unfold nih; omega) hjk.1 hjk.2

theorem getI_at3 {i j k : Int} (h : g.Pad i j k) : g.getI (g.at3 i j k) = i := by
  have hb := at3_bounds h
  obtain ⟨h1, h2, h3⟩ := h
  have hjk := enc_bounds (a := j + g.nhalo) (b := k + g.nhalo) (m := g.njh) (n := g.nkh)
    (by omega) (by unfold njh; omega) (by omega) (by unfold nkh; omega)
  unfold getI
  rw [Int.tdiv_eq_ediv_of_nonneg hb.1, at3_eq, enc_div hjk.1 hjk.2]; omega

theorem getJ_at3 {i j k : Int} (h : g.Pad i j k) : g.getJ (g.at3 i j k) = j := by
  have hb := at3_bounds h
  obtain ⟨h1, h2, h3⟩ := h
  have hij := enc_bounds (a := i + g.nhalo) (b := j + g.nhalo) (m := g.nih) (n := g.njh)
    (by omega) (by unfold nih; omega) (by omega) (by unfold njh; omega)
  unfold getJ
  rw [Int.tdiv_eq_ediv_of_nonneg hb.1, at3_eq', enc_div (by omega) (by unfold nkh; omega),
    Int.tmod_eq_emod_of_nonneg hij.1, enc_mod (by omega) (by unfold njh; omega)]; omega

theorem getK_at3 {i j k : Int} (h : g.Pad i j k) : g.getK (g.at3 i j k) = k := by
  have hb := at3_bounds h
  obtain ⟨h1, h2, h3⟩ := h
  unfold getK
  rw [Int.tmod_eq_emod_of_nonneg hb.1, at3_eq', enc_mod (by omega) (by unfold nkh; omega)]; omega

theorem at3_inj {i j k i' j' k' : Int} (h : g.Pad i j k) (h' : g.Pad i' j' k')
    (e : g.at3 i j k = g.at3 i' j' k') : i = i' ∧ j = j' ∧ k = k' := by
  refine ⟨?_, ?_, ?_⟩
  · rw [← getI_at3 h, e, getI_at3 h']
  · rw [← getJ_at3 h, e, getJ_at3 h']
  · rw [← getK_at3 h, e, getK_at3 h']

theorem pad_get (hg : g.Ok) {n : Int} (h0 : 0 ≤ n) (h1 : n < g.size) :
    g.Pad (g.getI n) (g.getJ n) (g.getK n) := by
  have hjp : 0 < g.njh := by have := hg.hj; have := hg.hh; unfold njh; omega
  have hkp : 0 < g.nkh := by have := hg.hk; have := hg.hh; unfold nkh; omega
  have hp : 0 < g.njh * g.nkh := Int.mul_pos hjp hkp
  have hdiv : 0 ≤ n / g.nkh := Int.ediv_nonneg h0 hkp.le
  unfold getI getJ getK
  rw [Int.tdiv_eq_ediv_of_nonneg h0, Int.tdiv_eq_ediv_of_nonneg h0, Int.tmod_eq_emod_of_nonneg hdiv,
    Int.tmod_eq_emod_of_nonneg h0]
  have a1 : 0 ≤ n / (g.njh * g.nkh) := Int.ediv_nonneg h0 hp.le
  have a2 : n / (g.njh * g.nkh) < g.nih := by
    apply Int.ediv_lt_of_lt_mul hp; rwa [← size_eq]
  have b1 := Int.emod_nonneg (n / g.nkh) hjp.ne'
  have b2 := Int.emod_lt_of_pos (n / g.nkh) hjp
  have c1 := Int.emod_nonneg n hkp.ne'
  have c2 := Int.emod_lt_of_pos n hkp
  unfold Pad nih njh nkh at *
  omega

theorem at3_get (hg : g.Ok) {n : Int} (h0 : 0 ≤ n) :
    g.at3 (g.getI n) (g.getJ n) (g.getK n) = n := by
  have hjp : 0 < g.njh := by have := hg.hj; have := hg.hh; unfold njh; omega
  have hkp : 0 < g.nkh := by have := hg.hk; have := hg.hh; unfold nkh; omega
  have hdiv : 0 ≤ n / g.nkh := Int.ediv_nonneg h0 hkp.le
  unfold getI getJ getK
  rw [Int.tdiv_eq_ediv_of_nonneg h0, Int.tdiv_eq_ediv_of_nonneg h0, Int.tmod_eq_emod_of_nonneg hdiv,
    Int.tmod_eq_emod_of_nonneg h0, at3_eq']
  have e1 : n / (g.njh * g.nkh) = n / g.nkh / g.njh := by
    rw [Int.mul_comm, Int.ediv_ediv_of_nonneg hkp.le]
  have e2 := Int.mul_ediv_add_emod (n / g.nkh) g.njh
  have e3 := Int.mul_ediv_add_emod n g.nkh
  rw [e1]
  calc (((n / g.nkh / g.njh - g.nhalo + g.nhalo) * g.njh + (n / g.nkh % g.njh - g.nhalo + g.nhalo)) * g.nkh
        + (n % g.nkh - g.nhalo + g.nhalo))
      = (g.njh * (n / g.nkh / g.njh) + n / g.nkh % g.njh) * g.nkh + n % g.nkh := by ring
    _ = n := by rw [e2, Int.mul_comm]; exact e3

theorem interiorVals_eq (g : Grid3) :
    g.interiorVals = (box3 0 g.ni 0 g.nj 0 g.nk).map fun c => g.at3 c.1 c.2.1 c.2.2 := by
  simp only [interiorVals, box3, List.map_flatMap, List.map_map]; rfl

theorem mem_interior_box {c : Int × Int × Int} :
    c ∈ box3 0 g.ni 0 g.nj 0 g.nk ↔ g.Int3 c.1 c.2.1 c.2.2 := by simp [Int3]

theorem mem_haloCells {c : Int × Int × Int} :
    c ∈ g.haloCells ↔ g.Pad c.1 c.2.1 c.2.2 ∧ ¬ g.Int3 c.1 c.2.1 c.2.2 := by
  obtain ⟨i, j, k⟩ := c
  simp only [haloCells, List.mem_flatMap, List.mem_filterMap, mem_irange, Pad, Int3]
  constructor
  · rintro ⟨a, ha, b, hb, d, hd, h⟩
    split at h
    · next hc =>
      simp only [Option.some.injEq, Prod.mk.injEq] at h
      obtain ⟨rfl, rfl, rfl⟩ := h
      simp only [isHalo, Bool.or_eq_true, decide_eq_true_eq] at hc
      omega
    · simp at h
  · rintro ⟨⟨ha, hb, hc⟩, hn⟩
    refine ⟨i, ha, j, hb, k, hc, ?_⟩
    rw [if_pos]
    simp only [isHalo, Bool.or_eq_true, decide_eq_true_eq]
    omega

theorem nodup_haloCells (g : Grid3) : g.haloCells.Nodup := by
  refine nodup_flatMap_disj Prod.fst (nodup_irange _ _) ?_ ?_
  · intro i _
    refine nodup_flatMap_disj (fun c => c.2.1) (nodup_irange _ _) ?_ ?_
    · intro j _
      refine (nodup_irange _ _).filterMap ?_
      intro a b c h1 h2
      split at h1 <;> split at h2 <;> simp_all
      have := h1.trans h2.symm
      simpa using this
    · intro j _ b hb
      simp only [List.mem_filterMap] at hb
      obtain ⟨k, _, h⟩ := hb
      split at h <;> simp at h
      rw [← h]
  · intro i _ b hb
    simp only [List.mem_flatMap, List.mem_filterMap] at hb
    obtain ⟨j, _, k, _, h⟩ := hb
    split at h <;> simp at h
    rw [← h]

theorem perm_halo (hg : g.Ok) :
    (box3 0 g.ni 0 g.nj 0 g.nk ++ g.haloCells).Perm
      (box3 (-g.nhalo) (g.ni + g.nhalo) (-g.nhalo) (g.nj + g.nhalo) (-g.nhalo) (g.nk + g.nhalo)) := by
  rw [List.perm_ext_iff_of_nodup]
  · intro c
    rw [List.mem_append, mem_interior_box, mem_haloCells, mem_box3]
    constructor
    · rintro (h | h)
      · exact h.pad hg
      · exact h.1
    · intro h
      by_cases hi : g.Int3 c.1 c.2.1 c.2.2
      · exact .inl hi
      · exact .inr ⟨h, hi⟩
  · rw [List.nodup_append]
    refine ⟨nodup_box3 _ _ _ _ _ _, nodup_haloCells g, ?_⟩
    rintro a ha b hb rfl
    exact (mem_haloCells.1 hb).2 (mem_interior_box.1 ha)
  · exact nodup_box3 _ _ _ _ _ _

theorem length_interiorVals (hg : g.Ok) : (g.interiorVals.length : Int) = g.ni * g.nj * g.nk := by
  have := hg.hi; have := hg.hj; have := hg.hk
  rw [interiorVals_eq, List.length_map, length_box3]
  push_cast
  rw [Int.toNat_of_nonneg (by omega), Int.toNat_of_nonneg (by omega), Int.toNat_of_nonneg (by omega)]
  ring

theorem length_haloCells (hg : g.Ok) :
    (g.haloCells.length : Int) = g.nih * g.njh * g.nkh - g.ni * g.nj * g.nk := by
  have := hg.hi; have := hg.hj; have := hg.hk; have := hg.hh
  have h := (perm_halo hg).length_eq
  rw [List.length_append, length_box3, length_box3] at h
  have h' := congrArg (fun n : Nat => (n : Int)) h
  push_cast at h'
  rw [Int.toNat_of_nonneg (by omega), Int.toNat_of_nonneg (by omega), Int.toNat_of_nonneg (by omega),
    Int.toNat_of_nonneg (by omega), Int.toNat_of_nonneg (by omega), Int.toNat_of_nonneg (by omega)] at h'
  unfold nih njh nkh
  linear_combination h'

end Grid3

/-- The constructor succeeds and its lists are exactly the written values. -/
theorem mkGeom3_ok {g : Grid3} (hg : g.Ok) (xbc ybc zbc : BCType) :
    mkGeom3 g xbc ybc zbc = .ok
      { g := g, xbc := xbc, ybc := ybc, zbc := zbc, interior := g.interiorVals, donor := g.donorVals,
        receiver := g.receiverVals } := by
  unfold mkGeom3
  rw [fillList_exact (Grid3.length_interiorVals hg),
    fillList_exact (vs := g.receiverVals) (by
      rw [Grid3.receiverVals, List.length_map]; exact Grid3.length_haloCells hg),
    fillList_exact (vs := g.donorVals) (by
      rw [Grid3.donorVals, List.length_map]; exact Grid3.length_haloCells hg)]
  rfl

end Madg
