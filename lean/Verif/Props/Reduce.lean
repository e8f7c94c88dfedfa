/-
Reductions (C65) and the solution monitor (C48).
-/
import Verif.Proofs.Reduce
import Mathlib.Analysis.SpecialFunctions.Pow.Real

set_option linter.unusedVariables false
set_option linter.unusedSectionVars false

namespace Madg
open Spec
variable {A K : Type} [DecidableEq A]

/-! ### C65 -/

/-- Every way of combining the contributions of a sum gives the sum. -/
theorem C65_sum [Field K] (init : K) (xs : List K) (r : K) : Comb (· + ·) (init :: xs) r ↔ r = init + xs.sum := by
  rw [comb_iff add_assoc add_comm, foldl_add_sum]

/-- Every way of combining the contributions of a minimum gives the least of them and the initial value. -/
theorem C65_min [LinearOrder K] (init : K) (xs : List K) (r : K) : Comb min (init :: xs) r ↔ IsLeast {x | x = init ∨ x ∈ xs} r := by
  rw [comb_iff min_assoc min_comm]
  exact ⟨fun h => h ▸ foldl_min_least xs init, fun h => h.unique (foldl_min_least xs init)⟩

/-- Every way of combining the contributions of a maximum gives the greatest of them and the initial value. -/
theorem C65_max [LinearOrder K] (init : K) (xs : List K) (r : K) : Comb max (init :: xs) r ↔ IsGreatest {x | x = init ∨ x ∈ xs} r := by
  rw [comb_iff max_assoc max_comm]
  exact ⟨fun h => h ▸ foldl_max_greatest xs init, fun h => h.unique (foldl_max_greatest xs init)⟩

/-- Distributing the iterations over threads in any way, reducing each thread's share and then combining the partial results in
thread order is one of the possible combinations. -/
theorem C65_chunks_possible (op : K → K → K) (init : K) (xs : List K) (chunks : List (K × List K))
    (h : (chunks.flatMap fun c => c.1 :: c.2).Perm xs) :
    Comb op (init :: xs) ((chunks.map fun c => c.2.foldl op c.1).foldl op init) := by
  have key : ∀ (cs : List (K × List K)) (done : List K) (a : K), Comb op done a →
      ∀ ys, (done ++ cs.flatMap fun c => c.1 :: c.2).Perm ys → Comb op ys ((cs.map fun c => c.2.foldl op c.1).foldl op a) := by
    intro cs
    induction cs with
    | nil =>
      intro done a hd ys hp
      have hp' : done.Perm ys := by simpa using hp
      rw [List.map_nil, List.foldl_nil]
      cases hd with
      | leaf => rw [List.perm_singleton.1 hp'.symm]; exact .leaf a
      | node us vs _ a b hu hv hq => exact .node us vs ys a b hu hv (hq.trans hp')
    | cons c cs ih =>
      intro done a hd ys hp
      rw [List.map_cons, List.foldl_cons]
      refine ih (done ++ (c.1 :: c.2)) _ (.node done (c.1 :: c.2) _ a _ hd (comb_foldl op c.1 c.2) (List.Perm.refl _)) ys ?_
      rw [List.append_assoc]
      simpa using hp
  exact key chunks [init] init (.leaf init) _ (by simpa using h)

/-- Hence chunked parallel sums equal the sequential sum. -/
theorem C65_chunked_sum [Field K] (init : K) (xs : List K) (chunks : List (K × List K))
    (h : (chunks.flatMap fun c => c.1 :: c.2).Perm xs) :
    (chunks.map fun c => c.2.foldl (· + ·) c.1).foldl (· + ·) init = xs.foldl (· + ·) init := by
  have := (comb_iff add_assoc add_comm init xs _).1 (C65_chunks_possible (· + ·) init xs chunks h)
  exact this

example : (([(1, [4]), (3, []), (2, [5, 6])] : List (ℚ × List ℚ)).flatMap fun c => c.1 :: c.2).Perm [1, 2, 3, 4, 5, 6] := by
  decide

section
variable (g : Grid3) (hh : 0 ≤ g.nhalo) (hi : 1 ≤ g.ni) (hj : 1 ≤ g.nj) (hk : 1 ≤ g.nk)
  (xbc ybc zbc : BCType) (G : Geom3) (hG : mkGeom3 g xbc ybc zbc = .ok G)
  (sz : A → Int) (a : A) (hs : sz a = g.size)
include hh hi hj hk hG hs

/-- The residual norm is the root of the mean square over the interior cells, whatever the schedule; nothing is written. -/
theorem C65_residual_norm_3d [Field K] (rt : K → K) (m : Mem A K) :
    CDet sz (residNorm rt G.interior a) m
      (rt (sum3 g.ni g.nj g.nk (fun i j k => m a (g.at3 i j k) ^ 2) / ((g.ni : K) * g.nj * g.nk))) m := by
  obtain ⟨hGo, rfl, -, -, -⟩ := Geom3.ok_of_mk ⟨hi, hj, hk, hh⟩ hG
  have d := residNorm_det (K := K) (sz := sz) rt G.interior a (fun n h => hGo.int_inB hs h) m
  rwa [hGo.int_sum, hGo.length_int'] at d

/-- The residual norm is zero exactly if every interior residual is zero; halo values never count. -/
theorem C65_residual_zero_iff_3d (m : Mem A ℝ) :
    ∃ r, CDet sz (residNorm Real.sqrt G.interior a) m r m ∧ 0 ≤ r ∧
      (r = 0 ↔ ∀ i j k, (0 ≤ i ∧ i < g.ni) → (0 ≤ j ∧ j < g.nj) → (0 ≤ k ∧ k < g.nk) → m a (g.at3 i j k) = 0) := by
  refine ⟨_, C65_residual_norm_3d g hh hi hj hk xbc ybc zbc G hG sz a hs Real.sqrt m, Real.sqrt_nonneg _, ?_⟩
  have h1 : (0 : ℝ) < g.ni := by exact_mod_cast hi
  have h2 : (0 : ℝ) < g.nj := by exact_mod_cast hj
  have h3 : (0 : ℝ) < g.nk := by exact_mod_cast hk
  have hn : (0 : ℝ) < (g.ni : ℝ) * g.nj * g.nk := by positivity
  have nn : 0 ≤ sum3 g.ni g.nj g.nk fun i j k => m a (g.at3 i j k) ^ 2 :=
    Finset.sum_nonneg fun i _ => Finset.sum_nonneg fun j _ => Finset.sum_nonneg fun k _ => sq_nonneg _
  rw [Real.sqrt_eq_zero (by positivity), div_eq_zero_iff, or_iff_left hn.ne']
  unfold sum3
  rw [Finset.sum_eq_zero_iff_of_nonneg fun i _ => Finset.sum_nonneg fun j _ => Finset.sum_nonneg fun k _ => sq_nonneg _]
  constructor
  · intro h i j k a1 a2 a3
    have e1 := h i (Finset.mem_Ico.2 a1)
    rw [Finset.sum_eq_zero_iff_of_nonneg fun j _ => Finset.sum_nonneg fun k _ => sq_nonneg _] at e1
    have e2 := e1 j (Finset.mem_Ico.2 a2)
    rw [Finset.sum_eq_zero_iff_of_nonneg fun k _ => sq_nonneg _] at e2
    exact pow_eq_zero_iff two_ne_zero |>.1 (e2 k (Finset.mem_Ico.2 a3))
  · intro h i a1
    refine Finset.sum_eq_zero fun j a2 => Finset.sum_eq_zero fun k a3 => ?_
    rw [h i j k (Finset.mem_Ico.1 a1) (Finset.mem_Ico.1 a2) (Finset.mem_Ico.1 a3)]
    norm_num

/-- What the residual monitor reports after a step: the norm as `res_c`; and unless every residual seen so far in the process
was zero, the norm as `abs_res` and its ratio to the largest norm seen as `rel_res`. -/
theorem C65_residual_calculator_3d (maxRes : ℝ) (h0 : 0 ≤ maxRes) (m : Mem A ℝ) :
    ∃ r mons mx, CDet sz (residNorm Real.sqrt G.interior a) m r m ∧
      CDet sz (residualCalculator Real.sqrt maxRes G.interior a) m (mons, mx) m ∧ mx = max maxRes r ∧
      mons.lookup "res_c" = some r ∧
      (0 < mx → mons.lookup "abs_res" = some r ∧ ∃ q, mons.lookup "rel_res" = some q ∧ q * mx = r ∧ 0 ≤ q ∧ q ≤ 1) ∧
      (mx = 0 → mons.lookup "abs_res" = some 1 ∧ mons.lookup "rel_res" = some 1) := by
  obtain ⟨r, hr, hr0, -⟩ := C65_residual_zero_iff_3d g hh hi hj hk xbc ybc zbc G hG sz a hs m
  refine ⟨r, (residRecord maxRes r).1, max maxRes r, hr, ?_, rfl, ?_, ?_, ?_⟩
  · refine hr.bind ?_
    have e : (residRecord maxRes r) = ((residRecord maxRes r).1, max maxRes r) := by
      unfold residRecord; dsimp only; rw [stdMax_eq]; split <;> rfl
    rw [← e]
    exact CDet.ret _ _
  · unfold residRecord; dsimp only; split <;> rfl
  · intro hm
    unfold residRecord; dsimp only
    rw [stdMax_eq, if_pos hm.ne']
    exact ⟨rfl, _, rfl, div_mul_cancel₀ _ hm.ne', div_nonneg hr0 hm.le, (div_le_one hm).2 (le_max_right _ _)⟩
  · intro hm
    unfold residRecord; dsimp only
    rw [stdMax_eq, if_neg (by simpa using hm)]
    exact ⟨rfl, rfl⟩

end

/-- 2D residual norm: root of the mean square over the interior; zero exactly if every interior residual is zero. -/
theorem C65_residual_norm_2d (n nhalo : Int) (hn : 1 ≤ n) (hh : 0 ≤ nhalo) (G : Geom2) (hG : mkGeom2 n nhalo = .ok G)
    (sz : A → Int) (a : A) (hs : sz a = G.g.size) (m : Mem A ℝ) :
    ∃ r, CDet sz (residNorm Real.sqrt G.interior a) m r m ∧
      r = Real.sqrt (sum2 n n (fun i j => m a (G.g.at2 i j) ^ 2) / ((n : ℝ) * n)) ∧
      (r = 0 ↔ ∀ i j, (0 ≤ i ∧ i < n) → (0 ≤ j ∧ j < n) → m a (G.g.at2 i j) = 0) := by
  obtain ⟨hGo, hg⟩ := Geom2.ok_of_mk hn hh hG
  have e1 : G.g.ni = n := by rw [hg]
  have d := residNorm_det (K := ℝ) (sz := sz) Real.sqrt G.interior a (fun n h => hGo.int_inB hs h) m
  rw [hGo.int_sum, hGo.length_int', e1] at d
  refine ⟨_, d, rfl, ?_⟩
  have h1 : (0 : ℝ) < n := by exact_mod_cast hn
  have hn' : (0 : ℝ) < (n : ℝ) * n := by positivity
  have nn : 0 ≤ sum2 n n fun i j => m a (G.g.at2 i j) ^ 2 :=
    Finset.sum_nonneg fun i _ => Finset.sum_nonneg fun j _ => sq_nonneg _
  rw [Real.sqrt_eq_zero (by positivity), div_eq_zero_iff, or_iff_left hn'.ne']
  unfold sum2
  rw [Finset.sum_eq_zero_iff_of_nonneg fun i _ => Finset.sum_nonneg fun j _ => sq_nonneg _]
  constructor
  · intro h i j a1 a2
    have e1 := h i (Finset.mem_Ico.2 a1)
    rw [Finset.sum_eq_zero_iff_of_nonneg fun j _ => sq_nonneg _] at e1
    exact pow_eq_zero_iff two_ne_zero |>.1 (e1 j (Finset.mem_Ico.2 a2))
  · intro h i a1
    refine Finset.sum_eq_zero fun j a2 => ?_
    rw [h i j (Finset.mem_Ico.1 a1) (Finset.mem_Ico.1 a2)]
    norm_num

example : ∃ G, mkGeom3 ⟨3, 4, 5, 2⟩ .periodic .neumann .periodic = .ok G ∧ (fun _ : Bool => (⟨3, 4, 5, 2⟩ : Grid3).size) true = (⟨3, 4, 5, 2⟩ : Grid3).size :=
  ⟨_, mkGeom3_ok ⟨by decide, by decide, by decide, by decide⟩ _ _ _, rfl⟩

/-! ### C48 -/

section
variable (g : Grid3) (hh : 1 ≤ g.nhalo) (hi : 1 ≤ g.ni) (hj : 1 ≤ g.nj) (hk : 1 ≤ g.nk)
  (xbc ybc zbc : BCType) (G : Geom3) (hG : mkGeom3 g xbc ybc zbc = .ok G)
  (sz : A → Int) (f : A) (hs : sz f = g.size)
include hh hi hj hk hG hs

/-- What the 3D monitor reports, for every field and schedule: least and greatest of the interior values together with the
initial values of the reductions, and the gradient measure with all one-sided differences taken at cell `ni - 1`, scaled by
`dx²`. -/
theorem C48_report_3d [Field K] [LinearOrder K] (rt : K → K) (big tiny dx : K) (m : Mem A K) :
    ∃ mn mx gm, CDet sz (G.solMonitor rt big tiny dx f) m (mn, mx, gm) m ∧
      IsLeast (insert big {v | ∃ i j k, (0 ≤ i ∧ i < g.ni) ∧ (0 ≤ j ∧ j < g.nj) ∧ (0 ≤ k ∧ k < g.nk) ∧ m f (g.at3 i j k) = v}) mn ∧
      IsGreatest (insert tiny {v | ∃ i j k, (0 ≤ i ∧ i < g.ni) ∧ (0 ≤ j ∧ j < g.nj) ∧ (0 ≤ k ∧ k < g.nk) ∧ m f (g.at3 i j k) = v}) mx ∧
      gm = sum3 g.ni g.nj g.nk fun i j k => gradMag3 rt dx g.ni g.ni g.ni (fun i j k => m f (g.at3 i j k)) i j k * dx ^ 2 := by
  obtain ⟨hGo, rfl, -, -, -⟩ := Geom3.ok_of_mk ⟨hi, hj, hk, by omega⟩ hG
  have hset : ∀ s : K, {x | x = s ∨ x ∈ G.interior.map (m f)} =
      insert s {v | ∃ i j k, (0 ≤ i ∧ i < G.g.ni) ∧ (0 ≤ j ∧ j < G.g.nj) ∧ (0 ≤ k ∧ k < G.g.nk) ∧ m f (G.g.at3 i j k) = v} := by
    intro s
    ext x
    simp only [Set.mem_ofPred_eq, Set.mem_insert_iff, List.mem_map]
    refine or_congr_right ⟨?_, ?_⟩
    · rintro ⟨n, hn, rfl⟩
      obtain ⟨i, j, k, h, rfl⟩ := hGo.mem_int.1 hn
      exact ⟨i, j, k, h.1, h.2.1, h.2.2, rfl⟩
    · rintro ⟨i, j, k, h1, h2, h3, rfl⟩
      exact ⟨_, hGo.mem_int.2 ⟨i, j, k, ⟨h1, h2, h3⟩, rfl⟩, rfl⟩
  refine ⟨_, _, _, solMonitor3_det (K := K) hGo hh hs rt big tiny dx m, ?_, ?_, ?_⟩
  · rw [← hset]; exact foldl_min_least _ _
  · rw [← hset]; exact foldl_max_greatest _ _
  · refine sum3_congr fun i j k _ _ _ => ?_
    ring

/-- The reported minimum is the field minimum for every field below the largest number; the reported maximum is the field
maximum exactly if some value is at least the smallest positive number. -/
theorem C48_extrema_3d [Field K] [LinearOrder K] (rt : K → K) (big tiny dx : K) (m : Mem A K)
    (hbig : ∀ i j k, (0 ≤ i ∧ i < g.ni) → (0 ≤ j ∧ j < g.nj) → (0 ≤ k ∧ k < g.nk) → m f (g.at3 i j k) ≤ big) :
    ∃ mn mx gm, CDet sz (G.solMonitor rt big tiny dx f) m (mn, mx, gm) m ∧
      IsLeast {v | ∃ i j k, (0 ≤ i ∧ i < g.ni) ∧ (0 ≤ j ∧ j < g.nj) ∧ (0 ≤ k ∧ k < g.nk) ∧ m f (g.at3 i j k) = v} mn ∧
      (IsGreatest {v | ∃ i j k, (0 ≤ i ∧ i < g.ni) ∧ (0 ≤ j ∧ j < g.nj) ∧ (0 ≤ k ∧ k < g.nk) ∧ m f (g.at3 i j k) = v} mx ↔
        ∃ i j k, (0 ≤ i ∧ i < g.ni) ∧ (0 ≤ j ∧ j < g.nj) ∧ (0 ≤ k ∧ k < g.nk) ∧ tiny ≤ m f (g.at3 i j k)) := by
  obtain ⟨mn, mx, gm, d, h1, h2, -⟩ := C48_report_3d g hh hi hj hk xbc ybc zbc G hG sz f hs rt big tiny dx m
  refine ⟨mn, mx, gm, d, ⟨?_, fun v hv => h1.2 (Or.inr hv)⟩, ?_, ?_⟩
  · rcases h1.1 with e | e
    · have h000 := h1.2 (Or.inr ⟨0, 0, 0, by omega, by omega, by omega, rfl⟩)
      have := hbig 0 0 0 (by omega) (by omega) (by omega)
      refine ⟨0, 0, 0, by omega, by omega, by omega, le_antisymm ?_ h000⟩
      rw [e]; exact this
    · exact e
  · intro hg
    obtain ⟨i, j, k, a, b, c, e⟩ := hg.1
    exact ⟨i, j, k, a, b, c, by rw [e]; exact h2.2 (Or.inl rfl)⟩
  · rintro ⟨i, j, k, a, b, c, e⟩
    refine ⟨?_, fun v hv => h2.2 (Or.inr hv)⟩
    rcases h2.1 with e' | e'
    · refine ⟨i, j, k, a, b, c, le_antisymm (h2.2 (Or.inr ⟨i, j, k, a, b, c, rfl⟩)) ?_⟩
      rw [e']; exact e
    · exact e'

/-- A field that is everywhere below the smallest positive number (for instance everywhere negative) is reported with that
number as its maximum, a value no cell has. -/
theorem C48_max_wrong_3d [Field K] [LinearOrder K] (rt : K → K) (big tiny dx : K) (m : Mem A K)
    (hneg : ∀ i j k, (0 ≤ i ∧ i < g.ni) → (0 ≤ j ∧ j < g.nj) → (0 ≤ k ∧ k < g.nk) → m f (g.at3 i j k) < tiny) :
    ∃ mn gm, CDet sz (G.solMonitor rt big tiny dx f) m (mn, tiny, gm) m := by
  obtain ⟨mn, mx, gm, d, h1, h2, -⟩ := C48_report_3d g hh hi hj hk xbc ybc zbc G hG sz f hs rt big tiny dx m
  have : mx = tiny := by
    rcases h2.1 with e | ⟨i, j, k, a, b, c, e⟩
    · exact e
    · exact absurd (h2.2 (Or.inl rfl)) (not_le.2 (by rw [← e]; exact hneg i j k a b c))
  exact ⟨mn, gm, this ▸ d⟩

/-- On a cube with at least two cells per side the report depends on interior values only, and the third entry is the integral of
the gradient magnitude divided by `dx`: the integral is scaled with the 2D cell size. -/
theorem C48_cube [Field K] [LinearOrder K] (hij : g.nj = g.ni) (hik : g.nk = g.ni) (h2 : 2 ≤ g.ni) (rt : K → K) (big tiny dx : K)
    (hdx : dx ≠ 0) (m : Mem A K) :
    ∃ mn mx gm, (∀ m₂ : Mem A K, (∀ i j k, (0 ≤ i ∧ i < g.ni) → (0 ≤ j ∧ j < g.nj) → (0 ≤ k ∧ k < g.nk) →
        m₂ f (g.at3 i j k) = m f (g.at3 i j k)) → CDet sz (G.solMonitor rt big tiny dx f) m₂ (mn, mx, gm) m₂) ∧
      gm = gradInt3 rt dx g.ni g.nj g.nk (fun i j k => m f (g.at3 i j k)) / dx := by
  obtain ⟨hGo, rfl, -, -, -⟩ := Geom3.ok_of_mk ⟨hi, hj, hk, by omega⟩ hG
  refine ⟨(G.interior.map (m f)).foldl min big, (G.interior.map (m f)).foldl max tiny,
    sum3 G.g.ni G.g.nj G.g.nk fun i j k => gradMag3 rt dx G.g.ni G.g.ni G.g.ni (fun i j k => m f (G.g.at3 i j k)) i j k * dx * dx,
    fun m₂ hm => ?_, ?_⟩
  · have d := solMonitor3_det (K := K) hGo hh hs rt big tiny dx m₂
    have e1 : G.interior.map (m₂ f) = G.interior.map (m f) := by
      refine List.map_congr_left fun n hn => ?_
      obtain ⟨i, j, k, h, rfl⟩ := hGo.mem_int.1 hn
      exact hm i j k h.1 h.2.1 h.2.2
    have e2 : (sum3 G.g.ni G.g.nj G.g.nk fun i j k => gradMag3 rt dx G.g.ni G.g.ni G.g.ni (fun i j k => m₂ f (G.g.at3 i j k)) i j k * dx * dx) =
        sum3 G.g.ni G.g.nj G.g.nk fun i j k => gradMag3 rt dx G.g.ni G.g.ni G.g.ni (fun i j k => m f (G.g.at3 i j k)) i j k * dx * dx := by
      refine sum3_congr fun i j k a b c => ?_
      have D : ∀ (w w' : Int → K) (i : Int), (0 ≤ i ∧ i < G.g.ni) → (∀ x, 0 ≤ x → x < G.g.ni → w x = w' x) →
          diff1 G.g.ni w i dx = diff1 G.g.ni w' i dx := by
        intro w w' i hi' h
        unfold diff1
        split
        · rw [h 1 (by omega) (by omega), h 0 (by omega) (by omega)]
        · split
          · rw [h _ (by omega) (by omega), h _ (by omega) (by omega)]
          · rw [h _ (by omega) (by omega), h _ (by omega) (by omega)]
      unfold gradMag3
      rw [D _ (fun x => m f (G.g.at3 x j k)) i a fun x x0 x1 => hm x j k ⟨x0, x1⟩ b c,
        D _ (fun x => m f (G.g.at3 i x k)) j (by omega) fun x x0 x1 => hm i x k a ⟨x0, by omega⟩ c,
        D _ (fun x => m f (G.g.at3 i j x)) k (by omega) fun x x0 x1 => hm i j x a b ⟨x0, by omega⟩]
    rw [e1, e2] at d
    exact d
  · rw [eq_div_iff hdx, mul_comm, ← sum3_mul]
    unfold gradInt3
    rw [hij, hik]
    refine sum3_congr fun i j k _ _ _ => ?_
    ring

end

/-- On a grid with unequal extents in x and y the report depends on halo values: two fields equal on the interior are reported with
different measures. -/
theorem C48_reads_halo (g : Grid3) (hh : 1 ≤ g.nhalo) (hi : 1 ≤ g.ni) (hj : 2 ≤ g.nj) (hk : 1 ≤ g.nk) (hne : g.ni ≠ g.nj)
    (xbc ybc zbc : BCType) (G : Geom3) (hG : mkGeom3 g xbc ybc zbc = .ok G)
    (sz : A → Int) (f : A) (hs : sz f = g.size) (big tiny dx : ℝ) (hdx : 0 < dx) :
    ∃ (m₁ m₂ : Mem A ℝ) (mn mx g₁ g₂ : ℝ),
      (∀ i j k, (0 ≤ i ∧ i < g.ni) → (0 ≤ j ∧ j < g.nj) → (0 ≤ k ∧ k < g.nk) → m₁ f (g.at3 i j k) = m₂ f (g.at3 i j k)) ∧
      CDet sz (G.solMonitor Real.sqrt big tiny dx f) m₁ (mn, mx, g₁) m₁ ∧
      CDet sz (G.solMonitor Real.sqrt big tiny dx f) m₂ (mn, mx, g₂) m₂ ∧ g₁ = 0 ∧ 0 < g₂ := by
  obtain ⟨hGo, rfl, -, -, -⟩ := Geom3.ok_of_mk ⟨hi, by omega, hk, by omega⟩ hG
  let m₁ : Mem A ℝ := fun _ _ => 0
  let m₂ : Mem A ℝ := fun _ n => if n = G.g.at3 0 G.g.nj 0 then 1 else 0
  have hp0 : G.g.Pad 0 G.g.nj 0 := by unfold Grid3.Pad; omega
  have hagree : ∀ i j k, (0 ≤ i ∧ i < G.g.ni) → (0 ≤ j ∧ j < G.g.nj) → (0 ≤ k ∧ k < G.g.nk) → m₁ f (G.g.at3 i j k) = m₂ f (G.g.at3 i j k) := by
    intro i j k a b c
    simp only [m₁, m₂]
    rw [if_neg]
    intro e
    have := (Grid3.at3_inj (Grid3.Int3.pad hGo.ok (show G.g.Int3 i j k from ⟨a, b, c⟩)) hp0 e).2.1
    omega
  have e1 : G.interior.map (m₁ f) = G.interior.map (m₂ f) := by
    refine List.map_congr_left fun n hn => ?_
    obtain ⟨i, j, k, h, rfl⟩ := hGo.mem_int.1 hn
    exact hagree i j k h.1 h.2.1 h.2.2
  have d1 := solMonitor3_det (K := ℝ) hGo hh hs Real.sqrt big tiny dx m₁
  have d2 := solMonitor3_det (K := ℝ) hGo hh hs Real.sqrt big tiny dx m₂
  rw [← e1] at d2
  refine ⟨m₁, m₂, _, _, _, _, hagree, d1, d2, ?_, ?_⟩
  · have : (sum3 G.g.ni G.g.nj G.g.nk fun i j k =>
        gradMag3 Real.sqrt dx G.g.ni G.g.ni G.g.ni (fun i j k => m₁ f (G.g.at3 i j k)) i j k * dx * dx) =
        sum3 G.g.ni G.g.nj G.g.nk fun _ _ _ => 0 := by
      refine sum3_congr fun i j k _ _ _ => ?_
      simp [gradMag3, diff1, m₁]
    rw [this, sum3_const _ _ _ (by omega) (by omega) (by omega)]
    simp
  · have nn : ∀ i j k, 0 ≤ gradMag3 Real.sqrt dx G.g.ni G.g.ni G.g.ni (fun i j k => m₂ f (G.g.at3 i j k)) i j k * dx * dx :=
      fun i j k => mul_nonneg (mul_nonneg (Real.sqrt_nonneg _) hdx.le) hdx.le
    refine Finset.sum_pos' (fun i _ => Finset.sum_nonneg fun j _ => Finset.sum_nonneg fun k _ => nn i j k)
      ⟨0, Finset.mem_Ico.2 (by omega), Finset.sum_pos' (fun j _ => Finset.sum_nonneg fun k _ => nn 0 j k)
        ⟨G.g.nj - 1, Finset.mem_Ico.2 (by omega), Finset.sum_pos' (fun k _ => nn 0 _ k) ⟨0, Finset.mem_Ico.2 (by omega), ?_⟩⟩⟩
    refine mul_pos (mul_pos (Real.sqrt_pos.2 ?_) hdx) hdx
    have hd : diff1 G.g.ni (fun a => m₂ f (G.g.at3 0 a 0)) (G.g.nj - 1) dx = 1 / (2 * dx) := by
      unfold diff1
      rw [if_neg (by omega), if_neg (by omega)]
      simp only [m₂, Int.sub_add_cancel]
      rw [if_pos trivial, if_neg, sub_zero]
      intro e
      have := (Grid3.at3_inj (Grid3.Int3.pad hGo.ok (show G.g.Int3 0 (G.g.nj - 1 - 1) 0 from ⟨by omega, by omega, by omega⟩)) hp0 e).2.1
      omega
    simp only [hd]
    have : 0 < (1 / (2 * dx)) ^ 2 := by positivity
    have h1 := sq_nonneg (diff1 G.g.ni (fun a => m₂ f (G.g.at3 a (G.g.nj - 1) 0)) 0 dx)
    have h2 := sq_nonneg (diff1 G.g.ni (fun a => m₂ f (G.g.at3 0 (G.g.nj - 1) a)) 0 dx)
    linarith

example : ∃ G, mkGeom3 ⟨3, 4, 5, 2⟩ .periodic .neumann .periodic = .ok G ∧ (⟨3, 4, 5, 2⟩ : Grid3).ni ≠ (⟨3, 4, 5, 2⟩ : Grid3).nj :=
  ⟨_, mkGeom3_ok ⟨by decide, by decide, by decide, by decide⟩ _ _ _, by decide⟩

/-- The 2D monitor: extrema as in 3D; for two or more cells per side the measure is the integral of the gradient magnitude, and the
report depends on interior values only. -/
theorem C48_report_2d [Field K] [LinearOrder K] (n nhalo : Int) (hn : 2 ≤ n) (hh : 1 ≤ nhalo) (G : Geom2) (hG : mkGeom2 n nhalo = .ok G)
    (sz : A → Int) (f : A) (hs : sz f = G.g.size) (rt : K → K) (big tiny dx : K) (m : Mem A K) :
    ∃ mn mx gm, (∀ m₂ : Mem A K, (∀ i j, (0 ≤ i ∧ i < n) → (0 ≤ j ∧ j < n) → m₂ f (G.g.at2 i j) = m f (G.g.at2 i j)) →
        CDet sz (G.solMonitor rt big tiny dx f) m₂ (mn, mx, gm) m₂) ∧
      IsLeast (insert big {v | ∃ i j, (0 ≤ i ∧ i < n) ∧ (0 ≤ j ∧ j < n) ∧ m f (G.g.at2 i j) = v}) mn ∧
      IsGreatest (insert tiny {v | ∃ i j, (0 ≤ i ∧ i < n) ∧ (0 ≤ j ∧ j < n) ∧ m f (G.g.at2 i j) = v}) mx ∧
      gm = gradInt2 rt dx n (fun i j => m f (G.g.at2 i j)) := by
  obtain ⟨hGo, hg⟩ := Geom2.ok_of_mk (by omega) (by omega) hG
  have en : G.g.ni = n := by rw [hg]
  have en' : G.g.nj = n := by rw [hg]
  have eh : G.g.nhalo = nhalo := by rw [hg]
  have hset : ∀ s : K, {x | x = s ∨ x ∈ G.interior.map (m f)} =
      insert s {v | ∃ i j, (0 ≤ i ∧ i < n) ∧ (0 ≤ j ∧ j < n) ∧ m f (G.g.at2 i j) = v} := by
    intro s
    ext x
    simp only [Set.mem_ofPred_eq, Set.mem_insert_iff, List.mem_map]
    refine or_congr_right ⟨?_, ?_⟩
    · rintro ⟨x, hx, rfl⟩
      obtain ⟨i, j, h, rfl⟩ := hGo.mem_int.1 hx
      have h1 := h.1; have h2 := h.2
      exact ⟨i, j, by omega, by omega, rfl⟩
    · rintro ⟨i, j, h1, h2, rfl⟩
      exact ⟨_, hGo.mem_int.2 ⟨i, j, ⟨by omega, by omega⟩, rfl⟩, rfl⟩
  refine ⟨(G.interior.map (m f)).foldl min big, (G.interior.map (m f)).foldl max tiny,
    sum2 n n fun i j => gradMag2 rt dx n n (fun i j => m f (G.g.at2 i j)) i j * dx * dx, fun m₂ hm => ?_, ?_, ?_, ?_⟩
  · have d := solMonitor2_det (K := K) hGo (by omega) hs rt big tiny dx m₂
    rw [en] at d
    have e1 : G.interior.map (m₂ f) = G.interior.map (m f) := by
      refine List.map_congr_left fun x hx => ?_
      obtain ⟨i, j, h, rfl⟩ := hGo.mem_int.1 hx
      have h1 := h.1; have h2 := h.2
      exact hm i j (by omega) (by omega)
    have e2 : (sum2 n n fun i j => gradMag2 rt dx n n (fun i j => m₂ f (G.g.at2 i j)) i j * dx * dx) =
        sum2 n n fun i j => gradMag2 rt dx n n (fun i j => m f (G.g.at2 i j)) i j * dx * dx := by
      refine sum2_congr fun i j a b => ?_
      have D : ∀ (w w' : Int → K) (i : Int), (0 ≤ i ∧ i < n) → (∀ x, 0 ≤ x → x < n → w x = w' x) →
          diff1 n w i dx = diff1 n w' i dx := by
        intro w w' i hi' h
        unfold diff1
        split
        · rw [h 1 (by omega) (by omega), h 0 (by omega) (by omega)]
        · split
          · rw [h _ (by omega) (by omega), h _ (by omega) (by omega)]
          · rw [h _ (by omega) (by omega), h _ (by omega) (by omega)]
      unfold gradMag2
      rw [D _ (fun x => m f (G.g.at2 x j)) i a fun x x0 x1 => hm x j ⟨x0, x1⟩ b,
        D _ (fun x => m f (G.g.at2 i x)) j (by omega) fun x x0 x1 => hm i x a ⟨x0, by omega⟩]
    rw [e1, e2] at d
    exact d
  · rw [← hset]; exact foldl_min_least _ _
  · rw [← hset]; exact foldl_max_greatest _ _
  · refine sum2_congr fun i j _ _ => ?_
    ring

example : ∃ G, mkGeom2 6 2 = .ok G := let ⟨G, h, _⟩ := mkGeom2_ok (n := 6) (nhalo := 2) (by decide) (by decide); ⟨G, h⟩

end Madg
