/-
Grid transfer (C49, C50).
-/
import Verif.Proofs.Transfer
import Verif.Proofs.TransferSum
import Verif.Spec.Ext

set_option linter.unusedVariables false

namespace Madg
open Spec
variable {A K : Type} [DecidableEq A] [Field K]

/-! ### C49 -/

/-- Coarsening halves even extents and keeps the halo width; any odd extent aborts. -/
theorem C49_coarsen (g : Grid3) (hi : 1 ≤ g.ni) (hj : 1 ≤ g.nj) (hk : 1 ≤ g.nk) :
    ((2 ∣ g.ni ∧ 2 ∣ g.nj ∧ 2 ∣ g.nk) → ∃ gc, g.coarsen = .ok gc ∧ g.ni = 2 * gc.ni ∧ g.nj = 2 * gc.nj ∧ g.nk = 2 * gc.nk ∧
      gc.nhalo = g.nhalo ∧ 1 ≤ gc.ni ∧ 1 ≤ gc.nj ∧ 1 ≤ gc.nk) ∧
    (¬ (2 ∣ g.ni ∧ 2 ∣ g.nj ∧ 2 ∣ g.nk) → g.coarsen = .error .abort) := by
  have ei : g.ni.tmod 2 = g.ni % 2 := Int.tmod_eq_emod_of_nonneg (by omega)
  have ej : g.nj.tmod 2 = g.nj % 2 := Int.tmod_eq_emod_of_nonneg (by omega)
  have ek : g.nk.tmod 2 = g.nk % 2 := Int.tmod_eq_emod_of_nonneg (by omega)
  have fi : g.ni.tdiv 2 = g.ni / 2 := Int.tdiv_eq_ediv_of_nonneg (by omega)
  have fj : g.nj.tdiv 2 = g.nj / 2 := Int.tdiv_eq_ediv_of_nonneg (by omega)
  have fk : g.nk.tdiv 2 = g.nk / 2 := Int.tdiv_eq_ediv_of_nonneg (by omega)
  unfold Grid3.coarsen
  rw [ei, ej, ek, fi, fj, fk]
  constructor
  · intro h
    rw [if_neg (by omega)]
    exact ⟨_, rfl, by simp only; omega, by simp only; omega, by simp only; omega, rfl, by simp only; omega, by simp only; omega, by simp only; omega⟩
  · intro h
    rw [if_pos (by omega)]

example : ∃ gc, (⟨4, 6, 2, 2⟩ : Grid3).coarsen = .ok gc ∧ gc = ⟨2, 3, 1, 2⟩ := ⟨_, rfl, rfl⟩
example : (⟨4, 5, 2, 2⟩ : Grid3).coarsen = .error .abort := rfl

theorem fine_of_coarsen {g gc : Grid3} (hi : 1 ≤ g.ni) (hj : 1 ≤ g.nj) (hk : 1 ≤ g.nk) (hh : 0 ≤ g.nhalo) (hc : g.coarsen = .ok gc) :
    gc.Ok ∧ Fine gc g := by
  obtain ⟨h1, h2⟩ := C49_coarsen g hi hj hk
  by_cases h : 2 ∣ g.ni ∧ 2 ∣ g.nj ∧ 2 ∣ g.nk
  · obtain ⟨gc', e, a, b, c, d, x, y, z⟩ := h1 h
    rw [e] at hc
    cases hc
    exact ⟨⟨x, y, z, by omega⟩, ⟨a, b, c, d.symm⟩⟩
  · rw [h2 h] at hc; cases hc

section
variable (g gc : Grid3) (hi : 1 ≤ g.ni) (hj : 1 ≤ g.nj) (hk : 1 ≤ g.nk) (hh : 0 ≤ g.nhalo) (hc : g.coarsen = .ok gc)
  (xbc ybc zbc : BCType) (G : Geom3) (hG : mkGeom3 gc xbc ybc zbc = .ok G)
  (sz : A → Int) (f c : A) (hfc : f ≠ c) (hf : sz f = g.size) (hs : sz c = gc.size)
include hi hj hk hh hc hG hfc hf hs

/-- Fine-to-coarse transfer: every schedule terminates in range with each coarse interior cell the average of its eight
children; coarse halos and all other arrays are unchanged. -/
theorem C49_restriction (m : Mem A K) :
    ∃ m', Det sz (G.restrict g f c) m m' ∧
      (∀ i j k, (0 ≤ i ∧ i < gc.ni) → (0 ≤ j ∧ j < gc.nj) → (0 ≤ k ∧ k < gc.nk) →
        m' c (gc.at3 i j k) = avg8 (fun x y z => m f (g.at3 x y z)) i j k) ∧
      (∀ n, (∀ i j k, (0 ≤ i ∧ i < gc.ni) → (0 ≤ j ∧ j < gc.nj) → (0 ≤ k ∧ k < gc.nk) → gc.at3 i j k ≠ n) → m' c n = m c n) ∧
      (∀ b, b ≠ c → m' b = m b) := by
  obtain ⟨hgc, hfine⟩ := fine_of_coarsen hi hj hk hh hc
  obtain ⟨hGo, rfl, -, -, -⟩ := Geom3.ok_of_mk hgc hG
  obtain ⟨m', d, w⟩ := restrict_det (K := K) hGo hfine hfc hf hs m
  exact ⟨m', d, fun i j k h1 h2 h3 => w.view i j k ⟨h1, h2, h3⟩,
    fun n hn => w.out n fun i j k h => hn i j k h.1 h.2.1 h.2.2, w.frame⟩

/-- The mean over the coarse interior equals the mean over the fine interior. -/
theorem C49_mean_preserved [CharZero K] (m : Mem A K) :
    ∃ m', Det sz (G.restrict g f c) m m' ∧
      sum3 gc.ni gc.nj gc.nk (fun i j k => m' c (gc.at3 i j k)) / (gc.ni * gc.nj * gc.nk : Int) =
        sum3 g.ni g.nj g.nk (fun i j k => m f (g.at3 i j k)) / (g.ni * g.nj * g.nk : Int) := by
  obtain ⟨m', d, hv, -, -⟩ := C49_restriction g gc hi hj hk hh hc xbc ybc zbc G hG sz f c hfc hf hs m
  obtain ⟨⟨a, b, e, -⟩, ⟨fi, fj, fk, -⟩⟩ := fine_of_coarsen hi hj hk hh hc
  refine ⟨m', d, ?_⟩
  rw [sum3_congr hv, sum3_pairs (by omega) (by omega) (by omega), fi, fj, fk]
  push_cast
  rw [div_div]
  congr 1
  ring

/-- Restricted values lie between any bounds on the eight children. -/
theorem C49_between_children [LinearOrder K] [IsStrictOrderedRing K] (m : Mem A K) :
    ∃ m', Det sz (G.restrict g f c) m m' ∧
      ∀ i j k, (0 ≤ i ∧ i < gc.ni) → (0 ≤ j ∧ j < gc.nj) → (0 ≤ k ∧ k < gc.nk) → ∀ lo up,
        (∀ x y z, (0 ≤ x ∧ x ≤ 1) → (0 ≤ y ∧ y ≤ 1) → (0 ≤ z ∧ z ≤ 1) →
          lo ≤ m f (g.at3 (2 * i + x) (2 * j + y) (2 * k + z)) ∧ m f (g.at3 (2 * i + x) (2 * j + y) (2 * k + z)) ≤ up) →
        lo ≤ m' c (gc.at3 i j k) ∧ m' c (gc.at3 i j k) ≤ up := by
  obtain ⟨m', d, hv, -, -⟩ := C49_restriction g gc hi hj hk hh hc xbc ybc zbc G hG sz f c hfc hf hs m
  refine ⟨m', d, fun i j k h1 h2 h3 lo up h => ?_⟩
  rw [hv i j k h1 h2 h3]
  have a := h 0 0 0 (by omega) (by omega) (by omega)
  have b := h 0 0 1 (by omega) (by omega) (by omega)
  have c := h 0 1 0 (by omega) (by omega) (by omega)
  have d := h 0 1 1 (by omega) (by omega) (by omega)
  have e := h 1 0 0 (by omega) (by omega) (by omega)
  have p := h 1 0 1 (by omega) (by omega) (by omega)
  have q := h 1 1 0 (by omega) (by omega) (by omega)
  have r := h 1 1 1 (by omega) (by omega) (by omega)
  simp only [Int.add_zero] at a b c d e p q r
  unfold avg8
  constructor
  · rw [le_div_iff₀ (by norm_num)]; linarith [a.1, b.1, c.1, d.1, e.1, p.1, q.1, r.1]
  · rw [div_le_iff₀ (by norm_num)]; linarith [a.2, b.2, c.2, d.2, e.2, p.2, q.2, r.2]

/-- Constants are mapped to constants. -/
theorem C49_constants [CharZero K] (m : Mem A K) (a : K)
    (hm : ∀ i j k, (0 ≤ i ∧ i < g.ni) → (0 ≤ j ∧ j < g.nj) → (0 ≤ k ∧ k < g.nk) → m f (g.at3 i j k) = a) :
    ∃ m', Det sz (G.restrict g f c) m m' ∧
      ∀ i j k, (0 ≤ i ∧ i < gc.ni) → (0 ≤ j ∧ j < gc.nj) → (0 ≤ k ∧ k < gc.nk) → m' c (gc.at3 i j k) = a := by
  obtain ⟨m', d, hv, -, -⟩ := C49_restriction g gc hi hj hk hh hc xbc ybc zbc G hG sz f c hfc hf hs m
  obtain ⟨-, ⟨fi, fj, fk, -⟩⟩ := fine_of_coarsen hi hj hk hh hc
  refine ⟨m', d, fun i j k h1 h2 h3 => ?_⟩
  rw [hv i j k h1 h2 h3]
  unfold avg8
  simp only
  rw [hm _ _ _ (by omega) (by omega) (by omega), hm _ _ _ (by omega) (by omega) (by omega), hm _ _ _ (by omega) (by omega) (by omega),
    hm _ _ _ (by omega) (by omega) (by omega), hm _ _ _ (by omega) (by omega) (by omega), hm _ _ _ (by omega) (by omega) (by omega),
    hm _ _ _ (by omega) (by omega) (by omega), hm _ _ _ (by omega) (by omega) (by omega)]
  ring

/-- `"nearest"` coarse-to-fine transfer copies each coarse value to its eight children, in range under every schedule. -/
theorem C49_nearest (m : Mem A K) :
    ∃ m', Det sz (G.prolong g "nearest" c f) m m' ∧
      (∀ x y z, (0 ≤ x ∧ x < g.ni) → (0 ≤ y ∧ y < g.nj) → (0 ≤ z ∧ z < g.nk) →
        m' f (g.at3 x y z) = m c (gc.at3 (x / 2) (y / 2) (z / 2))) ∧
      (∀ n, (∀ i j k, (0 ≤ i ∧ i < g.ni) → (0 ≤ j ∧ j < g.nj) → (0 ≤ k ∧ k < g.nk) → g.at3 i j k ≠ n) → m' f n = m f n) ∧
      (∀ b, b ≠ f → m' b = m b) := by
  obtain ⟨hgc, hfine⟩ := fine_of_coarsen hi hj hk hh hc
  obtain ⟨hGo, rfl, -, -, -⟩ := Geom3.ok_of_mk hgc hG
  obtain ⟨m', d, w⟩ := nearest_det (K := K) hGo hfine hfc hf hs m
  rw [Geom3.prolong, if_pos rfl]
  exact ⟨m', d, fun i j k h1 h2 h3 => w.view i j k ⟨h1, h2, h3⟩,
    fun n hn => w.out n fun i j k h => hn i j k h.1 h.2.1 h.2.2, w.frame⟩

/-- Restriction undoes nearest prolongation: the whole coarse array is what it was. -/
theorem C49_restrict_after_nearest [CharZero K] (m : Mem A K) :
    ∃ m', Det sz (G.prolong g "nearest" c f ++ G.restrict g f c) m m' ∧ m' c = m c := by
  obtain ⟨m1, d1, v1, -, f1⟩ := C49_nearest g gc hi hj hk hh hc xbc ybc zbc G hG sz f c hfc hf hs m
  obtain ⟨m2, d2, v2, o2, -⟩ := C49_restriction g gc hi hj hk hh hc xbc ybc zbc G hG sz f c hfc hf hs m1
  obtain ⟨-, ⟨fi, fj, fk, -⟩⟩ := fine_of_coarsen hi hj hk hh hc
  refine ⟨m2, det_append d1 d2, funext fun n => ?_⟩
  by_cases h : ∃ i j k, (0 ≤ i ∧ i < gc.ni) ∧ (0 ≤ j ∧ j < gc.nj) ∧ (0 ≤ k ∧ k < gc.nk) ∧ gc.at3 i j k = n
  · obtain ⟨i, j, k, h1, h2, h3, rfl⟩ := h
    rw [v2 i j k h1 h2 h3]
    have e0 : ∀ i : Int, 2 * i / 2 = i := by intro i; omega
    have e1 : ∀ i : Int, (2 * i + 1) / 2 = i := by intro i; omega
    unfold avg8
    simp only
    rw [v1 _ _ _ (by omega) (by omega) (by omega), v1 _ _ _ (by omega) (by omega) (by omega), v1 _ _ _ (by omega) (by omega) (by omega),
      v1 _ _ _ (by omega) (by omega) (by omega), v1 _ _ _ (by omega) (by omega) (by omega), v1 _ _ _ (by omega) (by omega) (by omega),
      v1 _ _ _ (by omega) (by omega) (by omega), v1 _ _ _ (by omega) (by omega) (by omega)]
    simp only [e0, e1]
    ring
  · rw [o2 n fun i j k h1 h2 h3 e => h ⟨i, j, k, h1, h2, h3, e⟩, f1 c hfc.symm]

end

/-- Any other interpolation name aborts. -/
theorem C49_unknown_mode_aborts (G : Geom3) (gf : Grid3) (mode : String) (h1 : mode ≠ "nearest") (h2 : mode ≠ "linear") (c f : A)
    (sz : A → Int) (m : Mem A K) : HostOut sz (G.prolong gf mode c f) m (.fault .abort) := by
  rw [Geom3.prolong, if_neg h1, if_neg h2]
  exact Or.inr ⟨_, .fault _ m Relation.ReflTransGen.refl _ List.mem_cons_self _ rfl, rfl⟩

/-- The hypotheses of the theorems above can be met, also with odd coarse extents and unequal directions. -/
example : ∃ (sz : Bool → Int) (G : Geom3), (⟨6, 4, 2, 2⟩ : Grid3).coarsen = .ok ⟨3, 2, 1, 2⟩ ∧
    mkGeom3 ⟨3, 2, 1, 2⟩ .periodic .neumann .periodic = .ok G ∧ true ≠ false ∧
    sz true = (⟨6, 4, 2, 2⟩ : Grid3).size ∧ sz false = (⟨3, 2, 1, 2⟩ : Grid3).size :=
  ⟨fun b => if b then (⟨6, 4, 2, 2⟩ : Grid3).size else (⟨3, 2, 1, 2⟩ : Grid3).size, _, rfl,
    mkGeom3_ok ⟨by decide, by decide, by decide, by decide⟩ _ _ _, by decide, rfl, rfl⟩

/-! ### C50 -/

section
variable (g gc : Grid3) (hi : 1 ≤ g.ni) (hj : 1 ≤ g.nj) (hk : 1 ≤ g.nk) (hh : 1 ≤ g.nhalo) (hc : g.coarsen = .ok gc)
  (xbc ybc zbc : BCType) (G : Geom3) (hG : mkGeom3 gc xbc ybc zbc = .ok G)
  (sz : A → Int) (f c : A) (hfc : f ≠ c) (hf : sz f = g.size) (hs : sz c = gc.size)
include hi hj hk hh hc hG hfc hf hs

/-- Linear coarse-to-fine transfer: with at least one halo layer every schedule stays in range and ends in the same state.
Fine cells of the interior and one halo layer receive the interpolation with exchanged neighbours, everything else is
unchanged. -/
theorem C50_linear [CharZero K] (m : Mem A K) :
    ∃ m', Det sz (G.prolong g "linear" c f) m m' ∧
      (∀ x y z, (-1 ≤ x ∧ x ≤ g.ni) → (-1 ≤ y ∧ y ≤ g.nj) → (-1 ≤ z ∧ z ≤ g.nk) →
        m' f (g.at3 x y z) = trilinSwapped (fun x y z => m c (gc.at3 x y z)) x y z) ∧
      (∀ n, (∀ x y z, (-1 ≤ x ∧ x ≤ g.ni) → (-1 ≤ y ∧ y ≤ g.nj) → (-1 ≤ z ∧ z ≤ g.nk) → g.at3 x y z ≠ n) → m' f n = m f n) ∧
      (∀ b, b ≠ f → m' b = m b) := by
  obtain ⟨hgc, hfine⟩ := fine_of_coarsen hi hj hk (by omega) hc
  obtain ⟨hGo, rfl, -, -, -⟩ := Geom3.ok_of_mk hgc hG
  rw [Geom3.prolong, if_neg (by decide), if_pos rfl]
  exact linear_det' (K := K) hfine (by rw [← hfine.h]; exact hh) hfc hf hs m

omit hf in
/-- Each of these fine cells is stored exactly once and nothing else is stored. -/
theorem C50_writes_once (m : Mem A K) (ps : Pool A K) (hps : ps ∈ (G.prolong g "linear" c f : Host A K)) :
    (ps.flatMap fun p => p.stores m).Nodup ∧ ∀ a n, (a, n) ∈ (ps.flatMap fun p => p.stores m) ↔ a = f ∧ ∃ x y z,
      (-1 ≤ x ∧ x ≤ g.ni) ∧ (-1 ≤ y ∧ y ≤ g.nj) ∧ (-1 ≤ z ∧ z ≤ g.nk) ∧ g.at3 x y z = n := by
  obtain ⟨hgc, hfine⟩ := fine_of_coarsen hi hj hk (by omega) hc
  obtain ⟨hGo, rfl, -, -, -⟩ := Geom3.ok_of_mk hgc hG
  rw [Geom3.prolong, if_neg (by decide), if_pos rfl] at hps
  exact linear_stores (K := K) hfine (by rw [← hfine.h]; exact hh) hfc hgc m ps hps

/-- Affine functions of `y` and `z` (constants included) are reproduced, at fine cells whose eight coarse neighbours hold
samples of the function; positions are in units of the fine spacing, fine centre `x` at `x`, coarse centre `i` at
`2 i + 1/2`. Missing for the full claim: affine dependence on `x`, which `C50_affine_x_wrong` refutes. -/
theorem C50_affine_partial [CharZero K] (a b e : K) (m : Mem A K) :
    ∃ m', Det sz (G.prolong g "linear" c f) m m' ∧
      ∀ x y z, (-1 ≤ x ∧ x ≤ g.ni) → (-1 ≤ y ∧ y ≤ g.nj) → (-1 ≤ z ∧ z ≤ g.nk) →
        (∀ p q r, (0 ≤ p ∧ p ≤ 1) → (0 ≤ q ∧ q ≤ 1) → (0 ≤ r ∧ r ≤ 1) →
          m c (gc.at3 ((x - 1) / 2 + p) ((y - 1) / 2 + q) ((z - 1) / 2 + r)) =
            a + b * (2 * ((y - 1) / 2 + q : Int) + 1 / 2) + e * (2 * ((z - 1) / 2 + r : Int) + 1 / 2)) →
        m' f (g.at3 x y z) = a + b * (y : K) + e * (z : K) := by
  obtain ⟨m', d, hv, -, -⟩ := C50_linear (K := K) g gc hi hj hk hh hc xbc ybc zbc G hG sz f c hfc hf hs m
  refine ⟨m', d, fun x y z hx hy hz h => ?_⟩
  rw [hv x y z hx hy hz]
  have ey : y = 2 * ((y - 1) / 2) + 1 + (y - 1) % 2 := by omega
  have ez : z = 2 * ((z - 1) / 2) + 1 + (z - 1) % 2 := by omega
  have h000 := h 0 0 0 (by omega) (by omega) (by omega)
  have h001 := h 0 0 1 (by omega) (by omega) (by omega)
  have h010 := h 0 1 0 (by omega) (by omega) (by omega)
  have h011 := h 0 1 1 (by omega) (by omega) (by omega)
  have h100 := h 1 0 0 (by omega) (by omega) (by omega)
  have h101 := h 1 0 1 (by omega) (by omega) (by omega)
  have h110 := h 1 1 0 (by omega) (by omega) (by omega)
  have h111 := h 1 1 1 (by omega) (by omega) (by omega)
  have hne : ¬ ((y - 1) / 2 + 1 = (y - 1) / 2) := by omega
  simp only [Int.add_zero] at h000 h001 h010 h011 h100 h101 h110 h111
  have ey' : (y : K) = 2 * (((y - 1) / 2 : Int) : K) + 1 + (((y - 1) % 2 : Int) : K) := by
    conv_lhs => rw [ey]
    push_cast; rfl
  have ez' : (z : K) = 2 * (((z - 1) / 2 : Int) : K) + 1 + (((z - 1) % 2 : Int) : K) := by
    conv_lhs => rw [ez]
    push_cast; rfl
  rw [ey', ez']
  unfold trilinSwapped lin1 lin1r
  simp only [if_true, hne, if_false, h000, h001, h010, h011, h100, h101, h110, h111]
  push_cast
  rcases Int.emod_two_eq (x - 1) with hx2 | hx2 <;> rcases Int.emod_two_eq (y - 1) with hy2 | hy2 <;>
    rcases Int.emod_two_eq (z - 1) with hz2 | hz2 <;>
    simp only [hx2, hy2, hz2, if_true, one_ne_zero, if_false, Int.cast_zero, Int.cast_one] <;> ring

/-- For every coarse field: the distance of the result from trilinear interpolation. It is the difference of the two `i` neighbours
in the upper `j` plane, interpolated along `z`, times half the weight of that plane, with a sign alternating along `x`. So the
result is trilinear interpolation exactly where that difference vanishes. -/
theorem C50_difference [CharZero K] (m : Mem A K) :
    ∃ m', Det sz (G.prolong g "linear" c f) m m' ∧
      ∀ x y z, (-1 ≤ x ∧ x ≤ g.ni) → (-1 ≤ y ∧ y ≤ g.nj) → (-1 ≤ z ∧ z ≤ g.nk) →
        m' f (g.at3 x y z) = trilin (fun x y z => m c (gc.at3 x y z)) x y z +
          (if (x - 1) % 2 = 0 then 1 else -1) * (if (y - 1) % 2 = 0 then 1 / 8 else 3 / 8) *
            lin1 (fun k => m c (gc.at3 ((x - 1) / 2 + 1) ((y - 1) / 2 + 1) k) - m c (gc.at3 ((x - 1) / 2) ((y - 1) / 2 + 1) k)) z := by
  obtain ⟨m', d, hv, -, -⟩ := C50_linear (K := K) g gc hi hj hk hh hc xbc ybc zbc G hG sz f c hfc hf hs m
  refine ⟨m', d, fun x y z hx hy hz => ?_⟩
  rw [hv x y z hx hy hz]
  have hne : ¬ ((y - 1) / 2 + 1 = (y - 1) / 2) := by omega
  unfold trilinSwapped trilin lin1 lin1r
  simp only [if_true, hne, if_false]
  rcases Int.emod_two_eq (x - 1) with hx2 | hx2 <;> rcases Int.emod_two_eq (y - 1) with hy2 | hy2 <;>
    rcases Int.emod_two_eq (z - 1) with hz2 | hz2 <;>
    simp only [hx2, hy2, hz2, if_true, one_ne_zero, if_false] <;> ring

/-- For every affine function: the error is its slope in `x` times a quarter or three quarters of the fine spacing, of
alternating sign; the slopes in `y` and `z` do not matter. -/
theorem C50_affine_error [CharZero K] (a s b e : K) (m : Mem A K) :
    ∃ m', Det sz (G.prolong g "linear" c f) m m' ∧
      ∀ x y z, (-1 ≤ x ∧ x ≤ g.ni) → (-1 ≤ y ∧ y ≤ g.nj) → (-1 ≤ z ∧ z ≤ g.nk) →
        (∀ p q r, (0 ≤ p ∧ p ≤ 1) → (0 ≤ q ∧ q ≤ 1) → (0 ≤ r ∧ r ≤ 1) →
          m c (gc.at3 ((x - 1) / 2 + p) ((y - 1) / 2 + q) ((z - 1) / 2 + r)) =
            a + s * (2 * ((x - 1) / 2 + p : Int) + 1 / 2) + b * (2 * ((y - 1) / 2 + q : Int) + 1 / 2) +
              e * (2 * ((z - 1) / 2 + r : Int) + 1 / 2)) →
        m' f (g.at3 x y z) = a + s * (x : K) + b * (y : K) + e * (z : K) +
          (if (x - 1) % 2 = 0 then 1 else -1) * (if (y - 1) % 2 = 0 then 1 / 4 else 3 / 4) * s := by
  obtain ⟨m', d, hv, -, -⟩ := C50_linear (K := K) g gc hi hj hk hh hc xbc ybc zbc G hG sz f c hfc hf hs m
  refine ⟨m', d, fun x y z hx hy hz h => ?_⟩
  rw [hv x y z hx hy hz]
  have h000 := h 0 0 0 (by omega) (by omega) (by omega)
  have h001 := h 0 0 1 (by omega) (by omega) (by omega)
  have h010 := h 0 1 0 (by omega) (by omega) (by omega)
  have h011 := h 0 1 1 (by omega) (by omega) (by omega)
  have h100 := h 1 0 0 (by omega) (by omega) (by omega)
  have h101 := h 1 0 1 (by omega) (by omega) (by omega)
  have h110 := h 1 1 0 (by omega) (by omega) (by omega)
  have h111 := h 1 1 1 (by omega) (by omega) (by omega)
  have hne : ¬ ((y - 1) / 2 + 1 = (y - 1) / 2) := by omega
  simp only [Int.add_zero] at h000 h001 h010 h011 h100 h101 h110 h111
  have e' : ∀ t : Int, (t : K) = 2 * (((t - 1) / 2 : Int) : K) + 1 + (((t - 1) % 2 : Int) : K) := fun t => by
    have et : t = 2 * ((t - 1) / 2) + 1 + (t - 1) % 2 := by omega
    conv_lhs => rw [et]
    push_cast; rfl
  rw [e' x, e' y, e' z]
  unfold trilinSwapped lin1 lin1r
  simp only [if_true, hne, if_false, h000, h001, h010, h011, h100, h101, h110, h111]
  push_cast
  rcases Int.emod_two_eq (x - 1) with hx2 | hx2 <;> rcases Int.emod_two_eq (y - 1) with hy2 | hy2 <;>
    rcases Int.emod_two_eq (z - 1) with hz2 | hz2 <;>
    simp only [hx2, hy2, hz2, if_true, one_ne_zero, if_false, Int.cast_zero, Int.cast_one] <;> ring

/-- No new extrema: each fine value lies between any bounds on its eight coarse neighbours. -/
theorem C50_between_neighbours [LinearOrder K] [IsStrictOrderedRing K] (m : Mem A K) :
    ∃ m', Det sz (G.prolong g "linear" c f) m m' ∧
      ∀ x y z, (-1 ≤ x ∧ x ≤ g.ni) → (-1 ≤ y ∧ y ≤ g.nj) → (-1 ≤ z ∧ z ≤ g.nk) → ∀ lo up,
        (∀ p q r, (0 ≤ p ∧ p ≤ 1) → (0 ≤ q ∧ q ≤ 1) → (0 ≤ r ∧ r ≤ 1) →
          lo ≤ m c (gc.at3 ((x - 1) / 2 + p) ((y - 1) / 2 + q) ((z - 1) / 2 + r)) ∧
            m c (gc.at3 ((x - 1) / 2 + p) ((y - 1) / 2 + q) ((z - 1) / 2 + r)) ≤ up) →
        lo ≤ m' f (g.at3 x y z) ∧ m' f (g.at3 x y z) ≤ up := by
  obtain ⟨m', d, hv, -, -⟩ := C50_linear (K := K) g gc hi hj hk hh hc xbc ybc zbc G hG sz f c hfc hf hs m
  refine ⟨m', d, fun x y z hx hy hz lo up h => ?_⟩
  rw [hv x y z hx hy hz]
  exact swapped_mem h

/-- With periodically filled coarse halos the mean over the interior is preserved. -/
theorem C50_mean_preserved [CharZero K] (m : Mem A K)
    (hp : ∀ i j k, (-1 ≤ i ∧ i ≤ gc.ni) → (-1 ≤ j ∧ j ≤ gc.nj) → (-1 ≤ k ∧ k ≤ gc.nk) →
      m c (gc.at3 i j k) = m c (gc.at3 (i % gc.ni) (j % gc.nj) (k % gc.nk))) :
    ∃ m', Det sz (G.prolong g "linear" c f) m m' ∧
      sum3 g.ni g.nj g.nk (fun i j k => m' f (g.at3 i j k)) / (g.ni * g.nj * g.nk : Int) =
        sum3 gc.ni gc.nj gc.nk (fun i j k => m c (gc.at3 i j k)) / (gc.ni * gc.nj * gc.nk : Int) := by
  obtain ⟨m', d, hv, -, -⟩ := C50_linear (K := K) g gc hi hj hk hh hc xbc ybc zbc G hG sz f c hfc hf hs m
  obtain ⟨⟨a, b, e, -⟩, ⟨fi, fj, fk, -⟩⟩ := fine_of_coarsen hi hj hk (by omega) hc
  refine ⟨m', d, ?_⟩
  have key : ∀ x y z, (0 ≤ x ∧ x < g.ni) → (0 ≤ y ∧ y < g.nj) → (0 ≤ z ∧ z < g.nk) → m' f (g.at3 x y z) =
      trilinSwapped (fun i j k => m c (gc.at3 (i % gc.ni) (j % gc.nj) (k % gc.nk))) x y z := by
    intro x y z hx hy hz
    rw [hv x y z (by omega) (by omega) (by omega)]
    have hp' : ∀ p q r, (0 ≤ p ∧ p ≤ 1) → (0 ≤ q ∧ q ≤ 1) → (0 ≤ r ∧ r ≤ 1) →
        m c (gc.at3 ((x - 1) / 2 + p) ((y - 1) / 2 + q) ((z - 1) / 2 + r)) = _ := fun p q r h1 h2 h3 =>
      hp ((x - 1) / 2 + p) ((y - 1) / 2 + q) ((z - 1) / 2 + r) (by omega) (by omega) (by omega)
    have h000 := hp' 0 0 0 (by omega) (by omega) (by omega)
    have h001 := hp' 0 0 1 (by omega) (by omega) (by omega)
    have h010 := hp' 0 1 0 (by omega) (by omega) (by omega)
    have h011 := hp' 0 1 1 (by omega) (by omega) (by omega)
    have h100 := hp' 1 0 0 (by omega) (by omega) (by omega)
    have h101 := hp' 1 0 1 (by omega) (by omega) (by omega)
    have h110 := hp' 1 1 0 (by omega) (by omega) (by omega)
    have h111 := hp' 1 1 1 (by omega) (by omega) (by omega)
    simp only [Int.add_zero] at h000 h001 h010 h011 h100 h101 h110 h111
    unfold trilinSwapped lin1 lin1r
    simp only [h000, h001, h010, h011, h100, h101, h110, h111]
  have e1 : sum3 g.ni g.nj g.nk (fun i j k => m' f (g.at3 i j k)) = _ := sum3_congr key
  have e2 := swapped_sum (K := K) (ni := gc.ni) (nj := gc.nj) (nk := gc.nk) (by omega) (by omega) (by omega)
    (fun i j k => m c (gc.at3 (i % gc.ni) (j % gc.nj) (k % gc.nk)))
    (fun _ _ _ => by simp only [Int.add_emod_right]) (fun _ _ _ => by simp only [Int.add_emod_right])
    (fun _ _ _ => by simp only [Int.add_emod_right])
  have e3 : sum3 gc.ni gc.nj gc.nk (fun i j k => m c (gc.at3 (i % gc.ni) (j % gc.nj) (k % gc.nk))) =
      sum3 gc.ni gc.nj gc.nk (fun i j k => m c (gc.at3 i j k)) := sum3_congr fun i j k h1 h2 h3 => by
    rw [Int.emod_eq_of_lt h1.1 h1.2, Int.emod_eq_of_lt h2.1 h2.2, Int.emod_eq_of_lt h3.1 h3.2]
  have h8 : (8 : K) ≠ 0 := by exact_mod_cast (by decide : (8 : ℕ) ≠ 0)
  rw [e1, fi, fj, fk, e2, e3]
  have : (((2 * gc.ni) * (2 * gc.nj) * (2 * gc.nk) : Int) : K) = 8 * ((gc.ni * gc.nj * gc.nk : Int) : K) := by push_cast; ring
  rw [this, mul_div_mul_left _ _ h8]

/-- The result differs from trilinear interpolation already for the affine function `x`, at every odd fine cell: it is off by
a quarter of the fine spacing. -/
theorem C50_affine_x_wrong [CharZero K] (m : Mem A K)
    (hm : ∀ i j k, (-1 ≤ i ∧ i ≤ gc.ni) → (-1 ≤ j ∧ j ≤ gc.nj) → (-1 ≤ k ∧ k ≤ gc.nk) → m c (gc.at3 i j k) = 2 * (i : K) + 1 / 2) :
    ∃ m', Det sz (G.prolong g "linear" c f) m m' ∧
      trilin (fun i j k => 2 * (i : K) + 1 / 2) 1 1 1 = 1 ∧ m' f (g.at3 1 1 1) = 1 + 1 / 4 ∧ m' f (g.at3 1 1 1) ≠ 1 := by
  obtain ⟨m', d, hv, -, -⟩ := C50_linear (K := K) g gc hi hj hk hh hc xbc ybc zbc G hG sz f c hfc hf hs m
  obtain ⟨⟨a, b, e, -⟩, ⟨fi, fj, fk, -⟩⟩ := fine_of_coarsen hi hj hk (by omega) hc
  have h : m' f (g.at3 1 1 1) = 1 + 1 / 4 := by
    rw [hv 1 1 1 (by omega) (by omega) (by omega)]
    unfold trilinSwapped lin1 lin1r
    simp only [sub_self, Int.zero_emod, if_true, Int.zero_ediv, zero_add, one_ne_zero, if_false]
    rw [hm 0 0 0 (by omega) (by omega) (by omega), hm 0 0 1 (by omega) (by omega) (by omega), hm 0 1 0 (by omega) (by omega) (by omega),
      hm 0 1 1 (by omega) (by omega) (by omega), hm 1 0 0 (by omega) (by omega) (by omega), hm 1 0 1 (by omega) (by omega) (by omega),
      hm 1 1 0 (by omega) (by omega) (by omega), hm 1 1 1 (by omega) (by omega) (by omega)]
    push_cast
    ring
  refine ⟨m', d, ?_, h, ?_⟩
  · unfold trilin lin1
    simp only [sub_self, Int.zero_emod, if_true, Int.zero_ediv, zero_add]
    push_cast
    ring
  · rw [h]
    intro h1
    have : (1 / 4 : K) = 0 := by linear_combination h1
    exact absurd this (one_div_ne_zero (by exact_mod_cast (by decide : (4 : ℕ) ≠ 0)))

end

/-- The hypotheses of `C50_affine_x_wrong` and of the other theorems can be met. -/
example : ∃ (sz : Bool → Int) (G : Geom3) (m : Mem Bool ℚ), (⟨6, 4, 2, 2⟩ : Grid3).coarsen = .ok ⟨3, 2, 1, 2⟩ ∧
    mkGeom3 ⟨3, 2, 1, 2⟩ .periodic .neumann .periodic = .ok G ∧
    sz true = (⟨6, 4, 2, 2⟩ : Grid3).size ∧ sz false = (⟨3, 2, 1, 2⟩ : Grid3).size ∧
    ∀ i j k, (-1 ≤ i ∧ i ≤ 3) → (-1 ≤ j ∧ j ≤ 2) → (-1 ≤ k ∧ k ≤ 1) →
      m false ((⟨3, 2, 1, 2⟩ : Grid3).at3 i j k) = 2 * (i : ℚ) + 1 / 2 := by
  refine ⟨fun b => if b then (⟨6, 4, 2, 2⟩ : Grid3).size else (⟨3, 2, 1, 2⟩ : Grid3).size, _,
    fun _ n => 2 * ((⟨3, 2, 1, 2⟩ : Grid3).getI n : ℚ) + 1 / 2, rfl,
    mkGeom3_ok ⟨by decide, by decide, by decide, by decide⟩ _ _ _, rfl, rfl, ?_⟩
  intro i j k h1 h2 h3
  have hp : (⟨3, 2, 1, 2⟩ : Grid3).Pad i j k := by unfold Grid3.Pad; simp only; omega
  simp only [(Grid3.get_at3 hp).1]

/-- Periodic coarse halos are available: `hp` of `C50_mean_preserved` is what the periodic fill establishes. -/
example : ∃ (m : Mem Bool ℚ), (∃ n, m false n ≠ m false 0) ∧
    ∀ i j k, (-1 ≤ i ∧ i ≤ 3) → (-1 ≤ j ∧ j ≤ 2) → (-1 ≤ k ∧ k ≤ 1) →
      m false ((⟨3, 2, 1, 2⟩ : Grid3).at3 i j k) = m false ((⟨3, 2, 1, 2⟩ : Grid3).at3 (i % 3) (j % 2) (k % 1)) := by
  refine ⟨fun _ n => (((⟨3, 2, 1, 2⟩ : Grid3).getI n % 3 : Int) : ℚ), ⟨(⟨3, 2, 1, 2⟩ : Grid3).at3 0 0 0, ?_⟩, ?_⟩
  · decide
  · intro i j k h1 h2 h3
    have hp : (⟨3, 2, 1, 2⟩ : Grid3).Pad i j k := by unfold Grid3.Pad; simp only; omega
    have hq : (⟨3, 2, 1, 2⟩ : Grid3).Pad (i % 3) (j % 2) (k % 1) := by unfold Grid3.Pad; simp only; omega
    simp only [(Grid3.get_at3 hp).1, (Grid3.get_at3 hq).1, Int.emod_emod]

/-- Without a halo layer the transfer reads outside its arrays. -/
theorem C50_needs_halo (g gc : Grid3) (hi : 1 ≤ g.ni) (hj : 1 ≤ g.nj) (hk : 1 ≤ g.nk) (hh : g.nhalo = 0) (hc : g.coarsen = .ok gc)
    (xbc ybc zbc : BCType) (G : Geom3) (hG : mkGeom3 gc xbc ybc zbc = .ok G) (sz : A → Int) (f c : A) (hs : sz c = gc.size) (m : Mem A K) :
    HostOut sz (G.prolong g "linear" c f) m (.fault .outOfBounds) := by
  obtain ⟨hgc, hfine⟩ := fine_of_coarsen hi hj hk (by omega) hc
  obtain ⟨hGo, rfl, -, -, -⟩ := Geom3.ok_of_mk hgc hG
  obtain ⟨a, b, e, -⟩ := hgc
  rw [Geom3.prolong, if_neg (by decide), if_pos rfl, prolongLinear_eq]
  have hcons : ∀ n : Int, 1 ≤ n → irange (-1) n = -1 :: irange 0 n := by
    intro n hn
    unfold irange
    rw [show (n - -1).toNat = (n - 0).toNat + 1 by omega, List.range_succ_eq_map, List.map_cons, List.map_map]
    congr 1
    refine List.map_congr_left fun x _ => ?_
    simp only [Function.comp, Nat.cast_succ]
    omega
  have hb : box2 (-1) G.g.nj (-1) G.g.nk = (-1, -1) :: ((irange 0 G.g.nk).map (fun k => (-1, k)) ++
      (irange 0 G.g.nj).flatMap fun j => (irange (-1) G.g.nk).map fun k => (j, k)) := by
    unfold box2
    rw [hcons _ b, List.flatMap_cons, hcons _ e]
    rfl
  rw [hcons _ a, hb]
  have h0 : G.g.nhalo = 0 := by rw [← hfine.h]; exact hh
  refine Or.inr ⟨_, .fault _ m Relation.ReflTransGen.refl _ List.mem_cons_self _ (show ¬ InB sz c _ ∧ _ from ⟨?_, rfl⟩), rfl⟩
  rw [InB]
  show ¬ (0 ≤ G.g.at3 (-1 + 0) (-1 + 0) (-1 + 0) ∧ _)
  have : G.g.at3 (-1 + 0) (-1 + 0) (-1 + 0) < 0 := by
    unfold Grid3.at3 get1DindexFrom3D Grid3.njh Grid3.nkh
    rw [h0]
    nlinarith
  omega

example : ∃ (sz : Bool → Int) (G : Geom3), (⟨6, 4, 2, 0⟩ : Grid3).coarsen = .ok ⟨3, 2, 1, 0⟩ ∧
    mkGeom3 ⟨3, 2, 1, 0⟩ .periodic .neumann .periodic = .ok G ∧ sz false = (⟨3, 2, 1, 0⟩ : Grid3).size :=
  ⟨fun b => (⟨3, 2, 1, 0⟩ : Grid3).size, _, rfl, mkGeom3_ok ⟨by decide, by decide, by decide, by decide⟩ _ _ _, rfl⟩

end Madg
