/-
C100: the random initial field in floating-point arithmetic has the prescribed mean up to an error that does not grow with the grid.
-/
import Verif.Proofs.KahanFl
import Verif.Proofs.InitCond
import Verif.Props.Round
import Verif.Props.Resume

set_option linter.unusedSectionVars false

namespace Madg
open Spec

section
variable {K : Type} [Field K] [LinearOrder K] [IsStrictOrderedRing K] {rnd : K → K} {u τ : K}

/-- C100. Compensated summation: the computed sum of `n` numbers of size at most `M` differs from the exact one by at most
`9 n u M`, while plain summation can lose `n` times as much. -/
theorem C100_compensated_sum (hr : Rounds rnd u τ) (xs : List (Fl rnd)) (M : K) (hM : τ ≤ M) (hnu : (xs.length : K) * u ≤ 1 / 16)
    (hx : ∀ x ∈ xs, |x.val| ≤ M) : |(kahan xs).val - (xs.map Fl.val).sum| ≤ 9 * (xs.length * (u * M)) :=
  kahan_error hr hM hnu hx

theorem sum_close {α : Type} (L : List α) (f g : α → K) (e : K) (h : ∀ i ∈ L, |f i - g i| ≤ e) :
    |(L.map f).sum - (L.map g).sum| ≤ L.length * e := by
  induction L with
  | nil => simp
  | cons a L ih =>
    have h1 := h a (by simp)
    have h2 := ih fun i hi => h i (by simp [hi])
    rw [List.map_cons, List.map_cons, List.sum_cons, List.sum_cons, List.length_cons]
    have e1 : f a + (L.map f).sum - (g a + (L.map g).sum) = (f a - g a) + ((L.map f).sum - (L.map g).sum) := by ring
    rw [e1]
    have := abs_add_le (f a - g a) ((L.map f).sum - (L.map g).sum)
    push_cast
    linarith

/-- The value of a cell after renormalisation, `X` the mean of the values and `S` its computed sum divided by their number. -/
theorem renorm_error (hr : Rounds rnd u τ) {M x X S mm : K} (hM : τ ≤ M) (hu : u ≤ 1 / 16) (hx : |x| ≤ M) (hX : |X| ≤ M) (hm : |mm| ≤ M)
    (hS : |S - X| ≤ 9 * (u * M)) : |rnd (x - rnd (rnd S - mm)) - (x - X + mm)| ≤ 274 / 16 * (u * M) := by
  have u0 := hr.unit.1
  have M0 : 0 ≤ M := hr.tiny.1.trans hM
  have huM0 : 0 ≤ u * M := mul_nonneg u0 M0
  have huM16 : u * M ≤ 1 / 16 * M := mul_le_mul_of_nonneg_right hu M0
  have eu : ∀ q : K, u * (q * M) = q * (u * M) := fun q => by ring
  have hS2 : |S| ≤ 25 / 16 * M := by
    have := abs_add_le (S - X) X
    rw [sub_add_cancel] at this
    linarith
  have e1 := hr.errM hS2 (by linarith) le_rfl
  rw [eu] at e1
  have e2 : |rnd S - X| ≤ 169 / 16 * (u * M) := by
    have := abs_add_le (rnd S - S) (S - X)
    have e : rnd S - S + (S - X) = rnd S - X := by ring
    rw [e] at this
    linarith
  have h2 : |rnd S - mm| ≤ 43 / 16 * M := by
    have a1 := abs_add_le (rnd S - X) X
    rw [sub_add_cancel] at a1
    have a2 := abs_sub (rnd S) mm
    linarith
  have e3 := hr.errM h2 (by linarith) le_rfl
  rw [eu] at e3
  have h3 : |x - rnd (rnd S - mm)| ≤ 62 / 16 * M := by
    have a1 := abs_add_le (rnd (rnd S - mm) - (rnd S - mm)) (rnd S - mm)
    rw [sub_add_cancel] at a1
    have a2 := abs_sub x (rnd (rnd S - mm))
    linarith
  have e4 := hr.errM h3 (by linarith) le_rfl
  rw [eu] at e4
  have e : rnd (x - rnd (rnd S - mm)) - (x - X + mm) =
      (rnd (x - rnd (rnd S - mm)) - (x - rnd (rnd S - mm))) - (rnd (rnd S - mm) - (rnd S - mm)) - (rnd S - X) := by ring
  rw [e]
  have b1 := abs_sub (rnd (x - rnd (rnd S - mm)) - (x - rnd (rnd S - mm)) - (rnd (rnd S - mm) - (rnd S - mm))) (rnd S - X)
  have b2 := abs_sub (rnd (x - rnd (rnd S - mm)) - (x - rnd (rnd S - mm))) (rnd (rnd S - mm) - (rnd S - mm))
  linarith

variable {A : Type} [DecidableEq A]

/-- C100. The random initial condition in rounded arithmetic: on every grid of `n` cells with `16 n u ≤ 1` the stored value of each
cell differs from `mean + draw - (mean of the draws)` by at most `21 u B`, and the exact mean of the stored values from the
prescribed mean by at most `19 u B`, where `B` bounds `|mean| + |draw|`. Neither bound depends on the number of cells. The other
entries and arrays are left alone. -/
theorem C100_initial (hr : Rounds rnd u τ) (sz : A → Int) (l : List Int) (hl : l.Nodup) (hne : l ≠ []) (c : A) (hs : ∀ n ∈ l, InB sz c n)
    (mm : Fl rnd) (draw : Nat → Fl rnd) (B : K) (hB : τ ≤ B) (hb : ∀ ii, ii < l.length → |mm.val| + |(draw ii).val| ≤ B)
    (hlen : rnd (l.length : K) = l.length) (hnu : (l.length : K) * u ≤ 1 / 16) (m : Mem A (Fl rnd)) :
    ∃ m', Det sz (icRandom l c mm draw) m m' ∧
      (∀ ii, ii < l.length → |(m' c (l.getD ii 0)).val -
        (mm.val + (draw ii).val - ((List.range l.length).map fun ii => (draw ii).val).sum / l.length)| ≤ 21 * (u * B)) ∧
      |(l.map fun n => (m' c n).val).sum / l.length - mm.val| ≤ 19 * (u * B) ∧
      (∀ n, n ∉ l → m' c n = m c n) ∧ ∀ b, b ≠ c → m' b = m b := by
  obtain ⟨m', d, v, f1, f2⟩ := icRandom_detA l hl c hs mm draw m
  obtain ⟨n, hn⟩ : ∃ n, n = l.length := ⟨_, rfl⟩
  have hn1 : 1 ≤ n := hn ▸ List.length_pos_iff.2 hne
  rw [← hn] at v hlen hnu hb
  have hnK : (1 : K) ≤ n := by exact_mod_cast hn1
  have hn0 : (0 : K) < n := by linarith
  have u0 := hr.unit.1
  have B0 : 0 ≤ B := hr.tiny.1.trans hB
  have hu16 : u ≤ 1 / 16 := by nlinarith
  obtain ⟨U, hU⟩ : ∃ U, U = u * B := ⟨_, rfl⟩
  have U0 : 0 ≤ U := hU ▸ mul_nonneg u0 B0
  have hU16 : U ≤ 1 / 16 * B := hU ▸ mul_le_mul_of_nonneg_right hu16 B0
  obtain ⟨M, hM⟩ : ∃ M, M = 17 / 16 * B := ⟨_, rfl⟩
  have huM : u * M = 17 / 16 * U := by rw [hM, hU]; ring
  have hτM : τ ≤ M := by linarith
  -- the first values
  obtain ⟨x, hxd⟩ : ∃ x : Nat → K, x = fun ii => rnd (mm.val + (draw ii).val) := ⟨_, rfl⟩
  have hxe : ∀ ii, ii < n → |x ii - (mm.val + (draw ii).val)| ≤ U := by
    intro ii hi
    rw [hxd, hU]
    exact hr.errM ((abs_add_le _ _).trans (hb ii hi)) hB le_rfl
  have hx : ∀ ii, ii < n → |x ii| ≤ M := by
    intro ii hi
    have h1 := hxe ii hi
    have h2 := (abs_add_le mm.val (draw ii).val).trans (hb ii hi)
    have h3 := abs_add_le (x ii - (mm.val + (draw ii).val)) (mm.val + (draw ii).val)
    rw [sub_add_cancel] at h3
    linarith
  have hmm : |mm.val| ≤ M := by
    have := hb 0 (by omega)
    have := abs_nonneg (draw 0).val
    linarith
  obtain ⟨X, hX⟩ : ∃ X, X = ((List.range n).map x).sum := ⟨_, rfl⟩
  have hXM : |X / n| ≤ M := by
    have := sum_close (List.range n) x (fun _ => 0) M (fun i hi => by rw [sub_zero]; exact hx i (List.mem_range.1 hi))
    simp only [List.map_const', List.sum_replicate, smul_zero, sub_zero, List.length_range] at this
    rw [← hX] at this
    rw [abs_div, abs_of_pos hn0, div_le_iff₀ hn0]
    linarith
  have hval : (((List.range n).map fun ii => mm + draw ii).map Fl.val).sum = X := by
    rw [List.map_map, hX, hxd]
    rfl
  obtain ⟨S, hS⟩ : ∃ S, S = (kahan ((List.range n).map fun ii => mm + draw ii)).val := ⟨_, rfl⟩
  have hSX : |S / n - X / n| ≤ 9 * (u * M) := by
    have h1 := kahan_error (rnd := rnd) hr (xs := (List.range n).map fun ii => mm + draw ii) hτM (by simpa using hnu)
      (by
        intro y hy
        obtain ⟨ii, hi, rfl⟩ := List.mem_map.1 hy
        have := hx ii (List.mem_range.1 hi)
        rw [hxd] at this
        exact this)
    rw [hval, List.length_map, List.length_range, ← hS] at h1
    rw [← sub_div, abs_div, abs_of_pos hn0, div_le_iff₀ hn0]
    linarith
  have hv : ∀ ii, ii < n → |(m' c (l.getD ii 0)).val - (x ii - X / n + mm.val)| ≤ 274 / 16 * (u * M) := by
    intro ii hi
    rw [v ii hi]
    have h1 := renorm_error hr hτM hu16 (hx ii hi) hXM hmm hSX
    have h2 : (mm + draw ii - (kahan ((List.range n).map fun ii => mm + draw ii) / (n : Fl rnd) - mm)).val =
        rnd (x ii - rnd (rnd (S / n) - mm.val)) := by
      rw [hxd, hS]
      show rnd (rnd (mm.val + (draw ii).val) - rnd (rnd (_ / rnd (n : K)) - mm.val)) = _
      rw [hlen]
    rw [h2]
    exact h1
  rw [huM] at hv
  refine ⟨m', d, ?_, ?_, f1, f2⟩
  · intro ii hi
    rw [← hn] at hi ⊢
    have h1 := hv ii hi
    have h2 := hxe ii hi
    have h3 : |X / n - (mm.val + ((List.range n).map fun ii => (draw ii).val).sum / n)| ≤ U := by
      have := sum_close (List.range n) x (fun ii => mm.val + (draw ii).val) U (fun i hi => hxe i (List.mem_range.1 hi))
      rw [← hX, List.sum_map_add, List.length_range] at this
      simp only [List.map_const', List.sum_replicate, List.length_range, nsmul_eq_mul] at this
      have e : X / n - (mm.val + ((List.range n).map fun ii => (draw ii).val).sum / n) =
          (X - (n * mm.val + ((List.range n).map fun ii => (draw ii).val).sum)) / n := by
        field_simp
      rw [e, abs_div, abs_of_pos hn0, div_le_iff₀ hn0]
      linarith
    rw [← hU]
    generalize ((List.range n).map fun ii => (draw ii).val).sum / (n : K) = avg at *
    generalize X / (n : K) = Y at *
    have e : (m' c (l.getD ii 0)).val - (mm.val + (draw ii).val - avg) =
        ((m' c (l.getD ii 0)).val - (x ii - Y + mm.val)) + (x ii - (mm.val + (draw ii).val)) - (Y - (mm.val + avg)) := by ring
    rw [e]
    have b1 := abs_sub ((m' c (l.getD ii 0)).val - (x ii - Y + mm.val) + (x ii - (mm.val + (draw ii).val))) (Y - (mm.val + avg))
    have b2 := abs_add_le ((m' c (l.getD ii 0)).val - (x ii - Y + mm.val)) (x ii - (mm.val + (draw ii).val))
    linarith
  · have e1 : (l.map fun n => (m' c n).val) = (List.range n).map fun ii => (m' c (l.getD ii 0)).val := by
      refine List.ext_getElem (by simp [hn]) fun i h1 h2 => ?_
      rw [List.getElem_map, List.getElem_map, List.getElem_range, List.getD_eq_getElem?_getD,
        List.getElem?_eq_getElem (by simpa using h1), Option.getD_some]
    have h := sum_close (List.range n) (fun ii => (m' c (l.getD ii 0)).val) (fun ii => x ii + (mm.val - X / n)) (274 / 16 * (17 / 16 * U))
      (fun i hi => by
        have := hv i (List.mem_range.1 hi)
        rwa [show x i - X / n + mm.val = x i + (mm.val - X / n) by ring] at this)
    rw [← e1, List.length_range, List.sum_map_add, ← hX] at h
    simp only [List.map_const', List.sum_replicate, List.length_range, nsmul_eq_mul] at h
    rw [mul_sub, mul_div_cancel₀ _ hn0.ne', add_sub_cancel] at h
    rw [← hn, ← hU]
    have e2 : (l.map fun n => (m' c n).val).sum / (n : K) - mm.val = ((l.map fun n => (m' c n).val).sum - n * mm.val) / n := by
      field_simp
    rw [e2, abs_div, abs_of_pos hn0, div_le_iff₀ hn0]
    nlinarith

/-! ### Runs -/

/-- C100. The initial state of a 3D run, cell by cell: each value and the mean are as prescribed up to `21 u B` and `19 u B`. -/
theorem C100_initial3 (hr : Rounds rnd u τ) {nx ny nz : Int} (hn : 2 ≤ nx ∧ 2 ≤ ny ∧ 2 ≤ nz) (mean : Fl rnd) (draw : Nat → Fl rnd) {B : K}
    (hB : τ ≤ B) (hb : ∀ i, i < (nx * ny * nz).toNat → |mean.val| + |(draw i).val| ≤ B)
    (hlen : rnd ((nx * ny * nz : Int) : K) = ((nx * ny * nz : Int) : K)) (hnu : ((nx * ny * nz : Int) : K) * u ≤ 1 / 16) :
    (∀ c, In3 nx ny nz c → |(initialAny3 draw mean nx ny nz c).val - (mean.val + (draw ((c.1 * ny + c.2.1) * nz + c.2.2).toNat).val -
      ((List.range (nx * ny * nz).toNat).map fun i => (draw i).val).sum / ((nx * ny * nz : Int) : K))| ≤ 21 * (u * B)) ∧
    |sum3 nx ny nz (fun i j k => (initialAny3 draw mean nx ny nz (i, j, k)).val) / ((nx * ny * nz : Int) : K) - mean.val| ≤
      19 * (u * B) := by
  have e := mkGeom3_ok (g := ⟨nx, ny, nz, 2⟩) ⟨by dsimp only; omega, by dsimp only; omega, by dsimp only; omega, by dsimp only; omega⟩
    .periodic .periodic .periodic
  obtain ⟨G, hG⟩ : ∃ G, mkGeom3 ⟨nx, ny, nz, 2⟩ .periodic .periodic .periodic = .ok G := ⟨_, e⟩
  obtain ⟨hGo, hg, -⟩ := Geom3.ok_of_mk (g := ⟨nx, ny, nz, 2⟩)
    ⟨by dsimp only; omega, by dsimp only; omega, by dsimp only; omega, by dsimp only; omega⟩ hG
  have hl := hGo.length_int
  rw [hg] at hl
  dsimp only at hl
  have hN : (nx * ny * nz).toNat = G.interior.length := by omega
  have hK : ((G.interior.length : Nat) : K) = ((nx * ny * nz : Int) : K) := by rw [← hl]; push_cast; rfl
  rw [← hK] at hlen hnu ⊢
  rw [hN] at hb
  obtain ⟨m', d, h1, h2, -⟩ := C100_initial hr (fun _ : Nat => G.g.size) G.interior hGo.nodup_int hGo.int_ne 0
    (fun n hn => hGo.int_inB rfl hn) mean draw B hB hb hlen hnu (fun _ _ => 0)
  have hv : ∀ c, In3 nx ny nz c → m' 0 (G.g.at3 c.1 c.2.1 c.2.2) = initialAny3 draw mean nx ny nz c := by
    intro c hc
    obtain ⟨m1, d', v, -⟩ := icRandom_detA G.interior hGo.nodup_int 0 (fun n hn => hGo.int_inB (sz := fun _ : Nat => G.g.size) rfl hn) mean draw (fun _ _ => 0)
    obtain rfl := d.unique d'
    have hlt : ((c.1 * ny + c.2.1) * nz + c.2.2).toNat < G.interior.length := by
      rw [← hN]
      have := idx3_lt (by omega : (((nx * ny * nz).toNat : Nat) : Int) = nx * ny * nz) hc.1 hc.2.1 hc.2.2
      exact this
    have := v _ hlt
    have e := interior3_getD hGo (i := c.1) (j := c.2.1) (k := c.2.2) (by rw [hg]; exact hc)
    rw [hg] at e
    dsimp only at e
    rw [e] at this
    rw [hg, this]
    unfold initialAny3
    rw [hN]
  refine ⟨fun c hc => ?_, ?_⟩
  · have hlt : ((c.1 * ny + c.2.1) * nz + c.2.2).toNat < G.interior.length := by
      rw [← hN]
      exact idx3_lt (by omega : (((nx * ny * nz).toNat : Nat) : Int) = nx * ny * nz) hc.1 hc.2.1 hc.2.2
    have := h1 _ hlt
    have e := interior3_getD hGo (i := c.1) (j := c.2.1) (k := c.2.2) (by rw [hg]; exact hc)
    rw [hg] at e
    dsimp only at e
    have hvc := hv c hc
    rw [hg] at hvc
    rw [e, hvc] at this
    rw [hN]
    exact this
  · rw [hGo.int_sum, hg] at h2
    dsimp only at h2
    rw [sum3_congr (g := fun i j k => (initialAny3 draw mean nx ny nz (i, j, k)).val) (fun i j k hi hj hk => by
      have := hv (i, j, k) ⟨hi, hj, hk⟩
      rw [hg] at this
      rw [← this])] at h2
    exact h2

/-- C100. Periodic 3D runs with the explicit integrator `rk3ssp` in rounded arithmetic, with or without the nonlocal term: as long as
the states stay below `M / 2` the mean of the state after `n` steps differs from the prescribed mean by at most `19 u B` from the
initial field plus `27/4 ((1+u)^34 - 1) M` for each step. -/
theorem C100_run_mean (hr : Rounds rnd u τ) {nx ny nz : Int} (hn : 2 ≤ nx ∧ 2 ≤ ny ∧ 2 ≤ nz) (v : Int) (hv : v = 0 ∨ v = 1 ∨ v = 2)
    (par : CHParams (Fl rnd)) (dx : Fl rnd) (hdx : Spacing τ dx.val) (draw : Nat → Fl rnd) (B : K) (hB : τ ≤ B)
    (hb : ∀ i, i < (nx * ny * nz).toNat → |par.m.val| + |(draw i).val| ≤ B)
    (hlen : rnd ((nx * ny * nz : Int) : K) = ((nx * ny * nz : Int) : K)) (hnu : ((nx * ny * nz : Int) : K) * u ≤ 1 / 16)
    (M T : K) (hM : 2 ≤ M) (h34 : (1 + u) ^ 34 ≤ 5 / 4) (hT : T * rhsSize (valuesOf par) dx.val M ≤ M / 4) (h0 : 0 ≤ par.sigma.val)
    (t d : Nat → Fl rnd) (s : Nat → Int × Int × Int → Fl rnd)
    (hs : s = iterates (ssprk3Step (rhsOps3 v par dx .periodic .periodic .periodic nx ny nz)) t d (initialAny3 draw par.m nx ny nz))
    (n : Nat) (hd : ∀ i < n, 2 * τ ≤ (d i).val ∧ (d i).val ≤ T ∧ par.sigma.val * (d i).val ≤ 1)
    (hbd : ∀ i < n, ∀ c, In3 nx ny nz c → |(s i c).val| ≤ M / 2) :
    |sum3 nx ny nz (fun i j k => (s n (i, j, k)).val) / ((nx * ny * nz : Int) : K) - par.m.val| ≤
      19 * (u * B) + n * (27 / 4 * (((1 + u) ^ 34 - 1) * M)) := by
  have hok : (⟨nx, ny, nz, 2⟩ : Grid3).Ok := ⟨by dsimp only; omega, by dsimp only; omega, by dsimp only; omega, by dsimp only; omega⟩
  obtain ⟨G, hG⟩ : ∃ G, mkGeom3 ⟨nx, ny, nz, 2⟩ .periodic .periodic .periodic = .ok G := ⟨_, mkGeom3_ok hok .periodic .periodic .periodic⟩
  obtain ⟨sz, hsz⟩ : ∃ sz : Nat → Int, ∀ a, sz a = (⟨nx, ny, nz, 2⟩ : Grid3).size := ⟨fun _ => _, fun _ => rfl⟩
  obtain ⟨w, hw⟩ : ∃ w : RKArr Nat, w = ⟨0, 1, 2, 3, 4, 5, 6⟩ := ⟨_, rfl⟩
  have hl : ([7, 8, 9, 10] : List Nat).Nodup := by decide
  have hnd : [w.sol, w.res, w.k1, w.k2, w.k3, w.k4, w.stage].Nodup := by rw [hw]; decide
  have hfr : ∀ a ∈ [w.sol, w.res, w.k1, w.k2, w.k3, w.k4, w.stage], a ∉ [7, 8, 9, 10] := by rw [hw]; decide
  have hc := ch3_contractA (g := ⟨nx, ny, nz, 2⟩) hn rfl hG hv hl (fun a _ => hsz a) par dx
  have hW : w.Ok sz (⟨nx, ny, nz, 2⟩ : Grid3).size (· ∈ [7, 8, 9, 10]) := ⟨hnd, fun a _ => hsz a, hfr⟩
  choose Φ hΦ hval hfrm using fun t dt m => rk3_any hc hW t dt m trivial
  obtain ⟨hGo, hg, -⟩ := Geom3.ok_of_mk hok hG
  obtain ⟨m0, hm0⟩ : ∃ m0 : Mem Nat (Fl rnd), ∀ c, In3 nx ny nz c →
      m0 w.sol ((⟨nx, ny, nz, 2⟩ : Grid3).at3 c.1 c.2.1 c.2.2) = initialAny3 draw par.m nx ny nz c := by
    refine ⟨fun _ q => initialAny3 draw par.m nx ny nz ((⟨nx, ny, nz, 2⟩ : Grid3).getI q, (⟨nx, ny, nz, 2⟩ : Grid3).getJ q,
      (⟨nx, ny, nz, 2⟩ : Grid3).getK q), fun c hc => ?_⟩
    have hp : (⟨nx, ny, nz, 2⟩ : Grid3).Pad c.1 c.2.1 c.2.2 := by unfold In3 at hc; unfold Grid3.Pad; dsimp only; omega
    dsimp only
    rw [Grid3.getI_at3 hp, Grid3.getJ_at3 hp, Grid3.getK_at3 hp]
  obtain ⟨ms, ms0, mss⟩ : ∃ ms : Nat → Mem Nat (Fl rnd), ms 0 = m0 ∧ ∀ i, ms (i + 1) = Φ (t i) (d i) (ms i) :=
    ⟨fun i => Nat.rec m0 (fun i m => Φ (t i) (d i) m) i, rfl, fun _ => rfl⟩
  have hst : ∀ i c, In3 nx ny nz c → ms i w.sol ((⟨nx, ny, nz, 2⟩ : Grid3).at3 c.1 c.2.1 c.2.2) = s i c := by
    intro i
    induction i with
    | zero => intro c hc'; rw [ms0, hs]; exact hm0 c hc'
    | succ i ih =>
      intro c hc'
      rw [mss]
      refine (hval (t i) (d i) (ms i) c hc').trans ((ssprk3Step_congr hc (t i) (d i) (v := s i) ih c hc').trans ?_)
      rw [chFieldA_eq, hs]
      rfl
  have hN : (0 : K) < ((nx * ny * nz : Int) : K) := by
    have : 0 < nx * ny * nz := by have := hn.1; have := hn.2.1; have := hn.2.2; positivity
    exact_mod_cast this
  have hsum : ∀ i, sum3 nx ny nz (fun a b c => (ms i w.sol ((⟨nx, ny, nz, 2⟩ : Grid3).at3 a b c)).val) =
      sum3 nx ny nz (fun a b c => (s i (a, b, c)).val) := fun i =>
    sum3_congr fun a b c h1 h2 h3 => by rw [← hst i (a, b, c) ⟨h1, h2, h3⟩]
  have run := C96_rk3_run hr ⟨nx, ny, nz, 2⟩ hn rfl G hG v hv sz 7 8 9 10 hl (fun a _ => hsz a) w hnd (fun a _ => hsz a) hfr par dx hdx M
    (by linarith) n t d T (fun i hi => ⟨(hd i hi).1, (hd i hi).2.1⟩) h0 (fun i hi => (hd i hi).2.2) ms
    (fun i hi => by rw [mss]; exact hΦ (t i) (d i) (ms i))
    (by
      intro i hi
      obtain ⟨m1, d1, q, -⟩ := rk3_onA hc hW (t i) (d i) (ms i) trivial
      rw [← (hΦ (t i) (d i) (ms i)).unique d1, ← mss] at q
      have t0 := hr.tiny.1
      have hR := rhsSize_ge hr (by omega) (by omega) (by omega) (show 1 ≤ M by linarith) hdx (ni := nx) (nj := ny) (nk := nz) (p := par)
      have hda : |(d i).val| = (d i).val := abs_of_nonneg (by have := hd i hi; linarith)
      obtain ⟨x, y, z⟩ := rk3_stages hr (by dsimp only; omega) (by dsimp only; omega) (by dsimp only; omega) (show 1 ≤ M by linarith) hdx h34 hM
        (by rw [hda]; exact (hd i hi).1)
        (by rw [hda]; exact (mul_le_mul_of_nonneg_right (hd i hi).2.1 (by linarith)).trans hT) q
        (fun c hc => by rw [hst i c hc]; exact hbd i hi c hc)
      exact fun a b c ha hb hc => ⟨x (a, b, c) ⟨ha, hb, hc⟩, y (a, b, c) ⟨ha, hb, hc⟩, z (a, b, c) ⟨ha, hb, hc⟩⟩)
  dsimp only at run
  rw [hsum, hsum] at run
  have h1 := (C100_initial3 hr hn par.m draw hB hb hlen hnu).2
  have e0 : s 0 = initialAny3 draw par.m nx ny nz := by rw [hs]; rfl
  rw [e0] at run
  have ρ := sub_nonneg.2 (Near.one_le hr.unit.1 34)
  have h2 : ((1 + u) ^ 34 - 1) * (2 * M + T * rhsSize (valuesOf par) dx.val M) ≤ 9 / 4 * (((1 + u) ^ 34 - 1) * M) := by
    calc _ ≤ ((1 + u) ^ 34 - 1) * (2 * M + M / 4) := by gcongr
      _ = _ := by ring
  have q : ∀ S : K, S / ((nx * ny * nz : Int) : K) - par.m.val = (S - ((nx * ny * nz : Int) : K) * par.m.val) / ((nx * ny * nz : Int) : K) := by
    intro S
    field_simp
  rw [q, abs_div, abs_of_pos hN, div_le_iff₀ hN] at h1 ⊢
  have h3 := mul_le_mul_of_nonneg_left h2 (mul_nonneg (Nat.cast_nonneg (α := K) n) hN.le)
  nlinarith

end

/-! ### Double precision -/

/-- Whole numbers of this size are not rounded. -/
theorem round_int64 {n : Int} (h0 : 0 ≤ n) (h : n ≤ 2 ^ 49) : binary64.round (n : ℚ) = n := by
  refine FloatFmt.round_float _ ⟨n, 0, ?_, by decide, by norm_num⟩
  rw [abs_of_nonneg h0]
  exact lt_of_le_of_lt h (by decide)

section
variable {A : Type} [DecidableEq A] [Pow (Fl binary64.round) (Fl binary64.round)] (sz : A → Int) (E : Env (Fl binary64.round))
  (o : RunOpts (Fl binary64.round)) (w : ProgArr A)

/-- C100. Periodic 3D runs with the explicit integrator `rk3ssp` in double precision. Every execution leaves the states of the method
in its files, and as long as those states stay below `L / 2` the mean of the values after `n` steps differs from the prescribed mean
by at most `(19 B + 230 n L) / 2^53`. -/
theorem C100_double (heq : o.sel.equation = "cahn-hilliard") (hint : o.sel.integrator = "rk3ssp")
    (hcfl : o.useCfl = false) (hlf : o.logFreq ≠ 0) (hms : 0 < o.maxSteps) (hM : o.maxSteps < 2147483648) (hrt : o.relTol = 0)
    (hat : o.absTol = 0) (hbx : o.sel.bcx = "periodic") (hby : o.sel.bcy = "periodic") (hbz : o.sel.bcz = "periodic")
    (hdim : o.sel.dimension = 3) (hv : o.variant = 0 ∨ o.variant = 1 ∨ o.variant = 2)
    (hn : 2 ≤ o.nx ∧ 2 ≤ o.ny ∧ 2 ≤ o.nz) (hsize : o.nx * o.ny * o.nz ≤ 2 ^ 49) (hw : Arrays3 sz w o.nx o.ny o.nz)
    (t d p : Nat → Fl binary64.round) (hm : Marching o.tfinal o.t0 o.dt0 t d p) (hp : ∀ k, p (k + 1) = d k)
    (dx : Fl binary64.round) (hdx : dx = (o.box.xend - o.box.xbeg) / (o.nx : Fl binary64.round))
    (hsp : 1 / 2 ^ 255 ≤ dx.val ∧ dx.val ≤ 2 ^ 255) (s : Nat → Int × Int × Int → Fl binary64.round)
    (hs : s = iterates (ssprk3Step (rhsOps3 o.variant o.par dx .periodic .periodic .periodic o.nx o.ny o.nz)) t d
      (initialAny3 E.draw o.par.m o.nx o.ny o.nz)) (W : Nat) (hW : W = max (Nat.log 10 o.maxSteps + 1) 4)
    (B : ℚ) (hB : 1 / 1024 ≤ B) (hb : ∀ i, i < (o.nx * o.ny * o.nz).toNat → |o.par.m.val| + |(E.draw i).val| ≤ B)
    (L T : ℚ) (hL : 2 ≤ L) (hT : T * rhsSize (valuesOf o.par) dx.val L ≤ L / 4) (h0 : 0 ≤ o.par.sigma.val) :
    (∀ m, RunsAny sz (program E o none w) m ⟨o.t0, o.tfinal, o.dt0, false, o.maxSteps, 0, 0, 0⟩ o.logFreq.natAbs o.saveEvery.natAbs t d p
      (fun k => Range3 E.big E.tiny o.nx o.ny o.nz (s (k + 1))) (stepName o.base W) (stepName (finalBase o.base) W)
      (fun k => vts3 E.io o.box.xbeg o.box.ybeg o.box.zbeg dx o.nx o.ny o.nz (s (k + 1)))) ∧
    ∀ n, (∀ i < n, 1 / 2 ^ 1021 ≤ (d i).val ∧ (d i).val ≤ T ∧ o.par.sigma.val * (d i).val ≤ 1) →
      (∀ i < n, ∀ c, In3 o.nx o.ny o.nz c → |(s i c).val| ≤ L / 2) →
      |sum3 o.nx o.ny o.nz (fun i j k => (s n (i, j, k)).val) / ((o.nx * o.ny * o.nz : Int) : ℚ) - o.par.m.val| ≤
        (19 * B + 230 * n * L) / 2 ^ 53 := by
  refine ⟨fun m => C99_run3 sz E o w heq hint hcfl hlf hms hM hrt hat (by rw [hbx]; simp) (by rw [hby]; simp) (by rw [hbz]; simp) hdim hv hn
    hw t d p hm hp dx hdx s hs W hW m, fun n hd hbd => ?_⟩
  obtain ⟨u, τ, hr, hu, c34, c34', ctau, csp, cd⟩ : ∃ u τ : ℚ, Rounds binary64.round u τ ∧ u = 1 / 2 ^ 53 ∧ (1 + u) ^ 34 ≤ 5 / 4 ∧
      27 / 4 * ((1 + u) ^ 34 - 1) ≤ 230 * u ∧ τ ≤ 1 / 1024 ∧ Spacing τ dx.val ∧ 2 * τ = 1 / 2 ^ 1021 :=
    ⟨_, _, binary64_rounds, rfl, by norm_num, by norm_num, tiny64.2, spacing64 hsp, by
      rw [show (2 : ℚ) ^ 1022 = 2 ^ 1021 * 2 from pow_succ _ _]; field_simp⟩
  have hN0 : 0 ≤ o.nx * o.ny * o.nz := by have := hn.1; have := hn.2.1; have := hn.2.2; positivity
  have key := C100_run_mean hr hn o.variant hv o.par dx csp E.draw B (ctau.trans hB) hb (round_int64 hN0 hsize)
    (by
      have : ((o.nx * o.ny * o.nz : Int) : ℚ) ≤ 2 ^ 49 := by exact_mod_cast hsize
      rw [hu]
      linarith)
    L T hL c34 hT h0 t d s hs n (fun i hi => by rw [cd]; exact hd i hi) hbd
  refine key.trans ?_
  have h1 : (n : ℚ) * (27 / 4 * (((1 + u) ^ 34 - 1) * L)) ≤ n * (230 * u * L) := by
    rw [← mul_assoc (27 / 4 : ℚ)]
    gcongr
  rw [hu] at h1 ⊢
  linarith

end

/-- A thousand doubles: the compensated sum is that of the exact numbers up to less than `10^-12`. -/
example (x : Fl binary64.round) (hx : |x.val| ≤ 1) : |(kahan (List.replicate 1000 x)).val - 1000 * x.val| ≤ 1 / 10 ^ 12 := by
  have := C100_compensated_sum binary64_rounds (List.replicate 1000 x) 1 (tiny64.2.trans (by norm_num)) (by norm_num)
    (fun y hy => by rw [List.eq_of_mem_replicate hy]; exact hx)
  rw [List.map_replicate, List.sum_replicate, List.length_replicate, nsmul_eq_mul] at this
  refine this.trans ?_
  norm_num

/-- Three cells. -/
example (draw : Nat → Fl binary64.round) (h : ∀ i, |(draw i).val| ≤ 1 / 100) (m : Mem Nat (Fl binary64.round)) :
    ∃ m', Det (fun _ => 5) (icRandom [1, 2, 4] 7 (dbl (3 / 10)) draw) m m' ∧
      |((m' 7 1).val + ((m' 7 2).val + ((m' 7 4).val + 0))) / 3 - (dbl (3 / 10)).val| ≤ 1 / 10 ^ 14 := by
  have h3 : |(dbl (3 / 10)).val| ≤ 31 / 100 := by decide +kernel
  obtain ⟨m', d, -, h2, -⟩ := C100_initial binary64_rounds (fun _ : Nat => 5) [1, 2, 4] (by decide) (by decide) 7 (fun n hn => by
      simp only [List.mem_cons, List.not_mem_nil, or_false] at hn; show 0 ≤ n ∧ n < 5; omega) (dbl (3 / 10)) draw 1
    (tiny64.2.trans (by norm_num)) (fun i _ => by have := h i; linarith) (round_int64 (n := 3) (by decide) (by norm_num)) (by norm_num) m
  refine ⟨m', d, ?_⟩
  have e : (([1, 2, 4] : List Int).map fun n => (m' 7 n).val).sum = (m' 7 1).val + ((m' 7 2).val + ((m' 7 4).val + 0)) := rfl
  rw [e] at h2
  refine le_trans h2 ?_
  norm_num

/-- A periodic box of unit cells, steps of 1/512 (test data). -/
def boxOpts : RunOpts (Fl binary64.round) where
  sel := ⟨3, "periodic", "periodic", "periodic", "cahn-hilliard", "rk3ssp", false⟩
  nx := 2
  ny := 2
  nz := 3
  box := ⟨0, ⟨2⟩, 0, 0⟩
  variant := 1
  par := ⟨⟨1 / 1024⟩, ⟨1⟩, ⟨1 / 4⟩⟩
  t0 := 0
  tfinal := ⟨2⟩
  dt0 := ⟨1 / 1024⟩
  useCfl := false
  maxSteps := 100
  relTol := 0
  absTol := 0
  errTol := 1
  minStep := 0
  maxStep := 1
  logFreq := 1
  saveEvery := 1
  logFile := []
  solFile := ['s']
  mg := ⟨1, 1, 100, dbl (1 / 100), 1, 1, 1, "nearest"⟩

/-- The hypotheses are met: the mean after the first step of such a run. -/
example [Pow (Fl binary64.round) (Fl binary64.round)] (E : Env (Fl binary64.round)) (hE : ∀ i, |(E.draw i).val| ≤ 1 / 4) :
    ∃ (t d p : Nat → Fl binary64.round) (s : Nat → Int × Int × Int → Fl binary64.round),
      (∀ m, RunsAny (demoSize 392 252) (program E boxOpts none demoArr) m ⟨0, ⟨2⟩, ⟨1 / 1024⟩, false, 100, 0, 0, 0⟩ 1 1 t d p
        (fun k => Range3 E.big E.tiny 2 2 3 (s (k + 1))) (stepName boxOpts.base 4) (stepName (finalBase boxOpts.base) 4)
        (fun k => vts3 E.io 0 0 0 ⟨1⟩ 2 2 3 (s (k + 1)))) ∧
      |sum3 2 2 3 (fun i j k => (s 1 (i, j, k)).val) / 12 - 1 / 4| ≤ 1 / 10 ^ 12 := by
  obtain ⟨t, d, p, hm, hp⟩ := exists_marching boxOpts.tfinal boxOpts.t0 boxOpts.dt0
  obtain ⟨dx, hdx⟩ : ∃ dx : Fl binary64.round, dx = ⟨1⟩ := ⟨_, rfl⟩
  obtain ⟨s, hs⟩ : ∃ s, s = iterates (ssprk3Step (rhsOps3 boxOpts.variant boxOpts.par dx .periodic .periodic .periodic boxOpts.nx
    boxOpts.ny boxOpts.nz)) t d (initialAny3 E.draw boxOpts.par.m boxOpts.nx boxOpts.ny boxOpts.nz) := ⟨_, rfl⟩
  have hB : ∀ i : Nat, i < (boxOpts.nx * boxOpts.ny * boxOpts.nz).toNat → |boxOpts.par.m.val| + |(E.draw i).val| ≤ 1 := by
    intro i _
    have := hE i
    have e : |boxOpts.par.m.val| = 1 / 4 := by decide +kernel
    linarith
  obtain ⟨r, k⟩ := C100_double (demoSize 392 252) E boxOpts demoArr rfl rfl rfl (by decide) (by decide) (by decide) rfl rfl rfl rfl rfl rfl
    (by simp [boxOpts]) (by decide) (by decide) ⟨by simp [demoArr], by simp [demoArr, demoSize, boxOpts], by simp [demoArr, demoSize, boxOpts]⟩
    t d p hm hp dx (by rw [hdx]; decide +kernel) (by rw [hdx]; norm_num) s hs 4 (by simp only [boxOpts]; decide +kernel) 1 (by norm_num) hB 2
    (1 / 1024) le_rfl (by rw [hdx]; unfold rhsSize valuesOf boxOpts; norm_num) (by unfold boxOpts; norm_num)
  rw [hdx] at r
  refine ⟨t, d, p, s, r, ?_⟩
  have hd0 : d 0 = ⟨1 / 1024⟩ := hm.d_zero
  have := k 1 (fun i hi => by
      obtain rfl : i = 0 := by omega
      rw [hd0]
      refine ⟨?_, le_rfl, by unfold boxOpts; norm_num⟩
      exact one_div_le_one_div_of_le (by norm_num) (calc (1024 : ℚ) = 2 ^ 10 := by norm_num
        _ ≤ 2 ^ 1021 := pow_le_pow_right₀ (by norm_num) (by norm_num)))
    (fun i hi c hc => by
      obtain rfl : i = 0 := by omega
      have h1 := (C100_initial3 binary64_rounds (nx := 2) (ny := 2) (nz := 3) (by decide) boxOpts.par.m E.draw (B := 1)
        (tiny64.2.trans (by norm_num)) hB (round_int64 (by decide) (by norm_num)) (by norm_num)).1 c hc
      have e : s 0 c = initialAny3 E.draw boxOpts.par.m 2 2 3 c := by rw [hs]; rfl
      rw [e]
      have h2 := sum_close (List.range 12) (fun i => (E.draw i).val) (fun _ => 0) (1 / 4) (fun i _ => by rw [sub_zero]; exact hE i)
      simp only [List.map_const', List.sum_replicate, smul_zero, sub_zero, List.length_range] at h2
      have h3 := hE ((c.1 * 2 + c.2.1) * 3 + c.2.2).toNat
      have e1 : ((2 * 2 * 3 : Int)).toNat = 12 := rfl
      have e2 : ((2 * 2 * 3 : Int) : ℚ) = 12 := by norm_num
      have e3 : boxOpts.par.m.val = 1 / 4 := rfl
      rw [e1, e2, e3] at h1
      generalize ((List.range 12).map fun i => (E.draw i).val).sum = S at h1 h2
      rw [abs_le] at *
      norm_num at h1 h2 ⊢
      constructor <;> linarith)
  have e2 : ((boxOpts.nx * boxOpts.ny * boxOpts.nz : Int) : ℚ) = 12 := by
    show ((2 * 2 * 3 : Int) : ℚ) = 12
    norm_num
  rw [e2] at this
  refine le_trans this ?_
  norm_num

end Madg
