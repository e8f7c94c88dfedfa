/-
Exactness on polynomials (C23).
-/
import Verif.Proofs.Poly2
import Verif.Proofs.CH2
import Verif.Props.Coords
import Verif.Proofs.CH3

set_option linter.unusedVariables false

namespace Madg
open Spec MvPolynomial
variable {A K : Type} [DecidableEq A] [Field K]

/-- The Laplacian kernel is exact at every interior cell around which the array holds samples of a polynomial of total
degree at most 3. -/
theorem C23_laplacian_exact (g : Grid3) (hi : 1 ≤ g.ni) (hj : 1 ≤ g.nj) (hk : 1 ≤ g.nk) (hh : 1 ≤ g.nhalo)
    (xbc ybc zbc : BCType) {G : Geom3} (hG : mkGeom3 g xbc ybc zbc = .ok G) {sz : A → Int} {s d : A} (hne : s ≠ d)
    (hs : sz s = g.size) (hd : sz d = g.size) {dx : K} (hdx : dx ≠ 0) (o : Fin 3 → K)
    (P : MvPolynomial (Fin 3) K) (hP : P.totalDegree ≤ 3) (m : Mem A K) :
    ∃ m', Det sz (G.laplacian dx s d) m m' ∧
      ∀ i j k, (0 ≤ i ∧ i < g.ni) → (0 ≤ j ∧ j < g.nj) → (0 ≤ k ∧ k < g.nk) →
        (∀ x y z, (-1 ≤ x ∧ x ≤ 1) → (-1 ≤ y ∧ y ≤ 1) → (-1 ≤ z ∧ z ≤ 1) →
          m s (g.at3 (i + x) (j + y) (k + z)) = eval (gridPt o dx (i + x) (j + y) (k + z)) P) →
        m' d (g.at3 i j k) = eval (gridPt o dx i j k) (polyLap P) := by
  obtain ⟨hGo, rfl, -, -, -⟩ := Geom3.ok_of_mk ⟨hi, hj, hk, by omega⟩ hG
  obtain ⟨m', hdet, hw⟩ := laplacian_det hGo hne hs hd hh dx m
  refine ⟨m', hdet, fun i j k h1 h2 h3 hv => ?_⟩
  rw [hw.view i j k ⟨h1, h2, h3⟩]
  exact (lap3_congr (v := sample P o dx) hv).trans (lap_poly hdx hP o i j k)

/-- The biharmonic kernel is exact at every interior cell around which the array holds samples of a polynomial of total
degree at most 5. -/
theorem C23_biharmonic_exact (g : Grid3) (hi : 1 ≤ g.ni) (hj : 1 ≤ g.nj) (hk : 1 ≤ g.nk) (hh : 2 ≤ g.nhalo)
    (xbc ybc zbc : BCType) {G : Geom3} (hG : mkGeom3 g xbc ybc zbc = .ok G) {sz : A → Int} {s d : A} (hne : s ≠ d)
    (hs : sz s = g.size) (hd : sz d = g.size) {dx : K} (hdx : dx ≠ 0) (o : Fin 3 → K)
    (P : MvPolynomial (Fin 3) K) (hP : P.totalDegree ≤ 5) (m : Mem A K) :
    ∃ m', Det sz (G.biharmonic dx s d) m m' ∧
      ∀ i j k, (0 ≤ i ∧ i < g.ni) → (0 ≤ j ∧ j < g.nj) → (0 ≤ k ∧ k < g.nk) →
        (∀ x y z, (-2 ≤ x ∧ x ≤ 2) → (-2 ≤ y ∧ y ≤ 2) → (-2 ≤ z ∧ z ≤ 2) →
          m s (g.at3 (i + x) (j + y) (k + z)) = eval (gridPt o dx (i + x) (j + y) (k + z)) P) →
        m' d (g.at3 i j k) = eval (gridPt o dx i j k) (polyLap (polyLap P)) := by
  obtain ⟨hGo, rfl, -, -, -⟩ := Geom3.ok_of_mk ⟨hi, hj, hk, by omega⟩ hG
  obtain ⟨m', hdet, hw⟩ := biharmonic_det hGo hne hs hd hh dx m
  refine ⟨m', hdet, fun i j k h1 h2 h3 hv => ?_⟩
  rw [hw.view i j k ⟨h1, h2, h3⟩]
  exact (bih3_congr (v := sample P o dx) hv).trans (bih_poly hdx hP o i j k)

/-- Exactness in two dimensions. -/
theorem C23_laplacian2_exact (n nhalo : Int) (hn : 1 ≤ n) (hh : 1 ≤ nhalo)
    {G : Geom2} (hG : mkGeom2 n nhalo = .ok G) {sz : A → Int} {s d : A} (hne : s ≠ d)
    (hs : sz s = (n + 2 * nhalo) * (n + 2 * nhalo)) (hd : sz d = (n + 2 * nhalo) * (n + 2 * nhalo)) {dx : K} (hdx : dx ≠ 0)
    (o : Fin 2 → K) (P : MvPolynomial (Fin 2) K) (hP : P.totalDegree ≤ 3) (m : Mem A K) :
    ∃ m', Det sz (G.laplacian dx s d) m m' ∧
      ∀ i j, (0 ≤ i ∧ i < n) → (0 ≤ j ∧ j < n) →
        (∀ x y, (-1 ≤ x ∧ x ≤ 1) → (-1 ≤ y ∧ y ≤ 1) →
          m s (G.g.at2 (i + x) (j + y)) = eval (gridPt2 o dx (i + x) (j + y)) P) →
        m' d (G.g.at2 i j) = eval (gridPt2 o dx i j) (polyLap2 P) := by
  obtain ⟨hGo, hg⟩ := Geom2.ok_of_mk hn (by omega) hG
  have hsz : G.g.size = (n + 2 * nhalo) * (n + 2 * nhalo) := by rw [hg]; rfl
  obtain ⟨m', hdet, hw⟩ := laplacian2_det hGo hne (hs.trans hsz.symm) (hd.trans hsz.symm) (by rw [hg]; exact hh) dx m
  refine ⟨m', hdet, fun i j h1 h2 hv => ?_⟩
  rw [hw.view i j (by rw [hg]; exact ⟨h1, h2⟩)]
  exact (lap2_congr (v := sample2 P o dx) hv).trans (lap2_poly hdx hP o i j)

theorem C23_biharmonic2_exact (n nhalo : Int) (hn : 1 ≤ n) (hh : 2 ≤ nhalo)
    {G : Geom2} (hG : mkGeom2 n nhalo = .ok G) {sz : A → Int} {s d : A} (hne : s ≠ d)
    (hs : sz s = (n + 2 * nhalo) * (n + 2 * nhalo)) (hd : sz d = (n + 2 * nhalo) * (n + 2 * nhalo)) {dx : K} (hdx : dx ≠ 0)
    (o : Fin 2 → K) (P : MvPolynomial (Fin 2) K) (hP : P.totalDegree ≤ 5) (m : Mem A K) :
    ∃ m', Det sz (G.biharmonic dx s d) m m' ∧
      ∀ i j, (0 ≤ i ∧ i < n) → (0 ≤ j ∧ j < n) →
        (∀ x y, (-2 ≤ x ∧ x ≤ 2) → (-2 ≤ y ∧ y ≤ 2) →
          m s (G.g.at2 (i + x) (j + y)) = eval (gridPt2 o dx (i + x) (j + y)) P) →
        m' d (G.g.at2 i j) = eval (gridPt2 o dx i j) (polyLap2 (polyLap2 P)) := by
  obtain ⟨hGo, hg⟩ := Geom2.ok_of_mk hn (by omega) hG
  have hsz : G.g.size = (n + 2 * nhalo) * (n + 2 * nhalo) := by rw [hg]; rfl
  obtain ⟨m', hdet, hw⟩ := biharmonic2_det hGo hne (hs.trans hsz.symm) (hd.trans hsz.symm) (by rw [hg]; exact hh) dx m
  refine ⟨m', hdet, fun i j h1 h2 hv => ?_⟩
  rw [hw.view i j (by rw [hg]; exact ⟨h1, h2⟩)]
  exact (bih2_congr (v := sample2 P o dx) hv).trans (bih2_poly hdx hP o i j)

/-- The Laplacian kernel on `x⁴`: the result exceeds the exact value `12 x²` by exactly `2 dx²`. -/
theorem C23_laplacian_error (g : Grid3) (hi : 1 ≤ g.ni) (hj : 1 ≤ g.nj) (hk : 1 ≤ g.nk) (hh : 1 ≤ g.nhalo)
    (xbc ybc zbc : BCType) {G : Geom3} (hG : mkGeom3 g xbc ybc zbc = .ok G) {sz : A → Int} {s d : A} (hne : s ≠ d)
    (hs : sz s = g.size) (hd : sz d = g.size) {dx : K} (hdx : dx ≠ 0) (x0 : K) (m : Mem A K)
    (hm : ∀ i j k, (-g.nhalo ≤ i ∧ i < g.ni + g.nhalo) → (-g.nhalo ≤ j ∧ j < g.nj + g.nhalo) → (-g.nhalo ≤ k ∧ k < g.nk + g.nhalo) →
      m s (g.at3 i j k) = (x0 + (i : K) * dx) ^ 4) :
    ∃ m', Det sz (G.laplacian dx s d) m m' ∧
      ∀ i j k, (0 ≤ i ∧ i < g.ni) → (0 ≤ j ∧ j < g.nj) → (0 ≤ k ∧ k < g.nk) →
        m' d (g.at3 i j k) = 12 * (x0 + (i : K) * dx) ^ 2 + 2 * dx ^ 2 := by
  obtain ⟨hGo, rfl, -, -, -⟩ := Geom3.ok_of_mk ⟨hi, hj, hk, by omega⟩ hG
  obtain ⟨m', hdet, hw⟩ := laplacian_det hGo hne hs hd hh dx m
  refine ⟨m', hdet, fun i j k h1 h2 h3 => ?_⟩
  rw [hw.view i j k ⟨h1, h2, h3⟩]
  rw [lap3_congr (v := fun i _ _ => (x0 + (i : K) * dx) ^ 4) fun x y z hx hy hz => hm _ _ _ (by omega) (by omega) (by omega)]
  simp only [lap3, d2x, d2y, d2z]
  push_cast
  field_simp
  ring

/-- The biharmonic kernel on `x⁶`: the result exceeds the exact value `360 x²` by exactly `120 dx²`. -/
theorem C23_biharmonic_error (g : Grid3) (hi : 1 ≤ g.ni) (hj : 1 ≤ g.nj) (hk : 1 ≤ g.nk) (hh : 2 ≤ g.nhalo)
    (xbc ybc zbc : BCType) {G : Geom3} (hG : mkGeom3 g xbc ybc zbc = .ok G) {sz : A → Int} {s d : A} (hne : s ≠ d)
    (hs : sz s = g.size) (hd : sz d = g.size) {dx : K} (hdx : dx ≠ 0) (x0 : K) (m : Mem A K)
    (hm : ∀ i j k, (-g.nhalo ≤ i ∧ i < g.ni + g.nhalo) → (-g.nhalo ≤ j ∧ j < g.nj + g.nhalo) → (-g.nhalo ≤ k ∧ k < g.nk + g.nhalo) →
      m s (g.at3 i j k) = (x0 + (i : K) * dx) ^ 6) :
    ∃ m', Det sz (G.biharmonic dx s d) m m' ∧
      ∀ i j k, (0 ≤ i ∧ i < g.ni) → (0 ≤ j ∧ j < g.nj) → (0 ≤ k ∧ k < g.nk) →
        m' d (g.at3 i j k) = 360 * (x0 + (i : K) * dx) ^ 2 + 120 * dx ^ 2 := by
  obtain ⟨hGo, rfl, -, -, -⟩ := Geom3.ok_of_mk ⟨hi, hj, hk, by omega⟩ hG
  obtain ⟨m', hdet, hw⟩ := biharmonic_det hGo hne hs hd hh dx m
  refine ⟨m', hdet, fun i j k h1 h2 h3 => ?_⟩
  rw [hw.view i j k ⟨h1, h2, h3⟩]
  rw [bih3_congr (v := fun i _ _ => (x0 + (i : K) * dx) ^ 6) fun x y z hx hy hz => hm _ _ _ (by omega) (by omega) (by omega), bih3]
  simp only [lap3, d2x, d2y, d2z]
  push_cast
  field_simp
  ring

/-- End to end: fill the coordinate arrays as the constructor does, store a polynomial of the centre coordinates in the
padded state, run the Laplacian with the constructor's `dx`; every interior cell holds the exact Laplacian at its centre. -/
theorem C23_on_constructor_coordinates [CharZero K] (g : Grid3) (hi : 1 ≤ g.ni) (hj : 1 ≤ g.nj) (hk : 1 ≤ g.nk) (hh : 1 ≤ g.nhalo)
    (xbc ybc zbc : BCType) {G : Geom3} (hG : mkGeom3 g xbc ybc zbc = .ok G) {sz : A → Int} {s d : A} (hne : s ≠ d)
    (hs : sz s = g.size) (hd : sz d = g.size) (xbeg xend ybeg zbeg : K) (hx : xend ≠ xbeg)
    (x y z xv yv zv : A) (hnd : [x, y, z, xv, yv, zv].Nodup)
    (hsc : ∀ a ∈ [x, y, z], sz a = (g.ni + 2 * g.nhalo) * (g.nj + 2 * g.nhalo) * (g.nk + 2 * g.nhalo))
    (hsv : ∀ a ∈ [xv, yv, zv], sz a = (g.ni + 1 + 2 * g.nhalo) * (g.nj + 1 + 2 * g.nhalo) * (g.nk + 1 + 2 * g.nhalo))
    (P : MvPolynomial (Fin 3) K) (hP : P.totalDegree ≤ 3) (m : Mem A K) :
    ∃ m0, Det sz (g.fillCoords ⟨xbeg, xend, ybeg, zbeg⟩ ⟨x, y, z, xv, yv, zv⟩) m m0 ∧
      ∀ m1 : Mem A K, (∀ n, 0 ≤ n → n < g.size → m1 s n = eval ![m0 x n, m0 y n, m0 z n] P) →
        ∃ m2, Det sz (G.laplacian ((xend - xbeg) / (g.ni : K)) s d) m1 m2 ∧
          ∀ i j k, (0 ≤ i ∧ i < g.ni) → (0 ≤ j ∧ j < g.nj) → (0 ≤ k ∧ k < g.nk) →
            m2 d (g.at3 i j k) = eval ![m0 x (g.at3 i j k), m0 y (g.at3 i j k), m0 z (g.at3 i j k)] (polyLap P) := by
  have hn : (g.ni : K) ≠ 0 := by
    have : g.ni ≠ 0 := by omega
    exact_mod_cast this
  obtain ⟨m0, d0, -, -, c0, -⟩ := C06_coordinates3 (K := K) g hi xbeg xend ybeg zbeg (sz := sz) x y z xv yv zv hnd hsc hsv m _ rfl
  refine ⟨m0, d0, fun m1 h1 => ?_⟩
  have hdx : (xend - xbeg) / (g.ni : K) ≠ 0 := div_ne_zero (sub_ne_zero.2 hx) hn
  have hpt : ∀ i j k, g.Pad i j k → ![m0 x (g.at3 i j k), m0 y (g.at3 i j k), m0 z (g.at3 i j k)] =
      gridPt (fun t => ![xbeg, ybeg, zbeg] t + (xend - xbeg) / (g.ni : K) / 2) ((xend - xbeg) / (g.ni : K)) i j k := by
    intro i j k h
    obtain ⟨⟨a1, a2⟩, ⟨a3, a4⟩, ⟨a5, a6⟩⟩ := h
    obtain ⟨e1, e2, e3⟩ := c0 i j k a1 a2 a3 a4 a5 a6
    funext t
    match t with
    | 0 => simp only [gridPt, Matrix.cons_val_zero]; rw [e1]; ring
    | 1 => simp only [gridPt, Matrix.cons_val_one, Matrix.cons_val_zero]; rw [e2]; ring
    | 2 => simp only [gridPt, Matrix.cons_val]; rw [e3]; ring
  obtain ⟨m2, d2, v2⟩ := C23_laplacian_exact g hi hj hk hh xbc ybc zbc hG hne hs hd hdx
    (fun t => ![xbeg, ybeg, zbeg] t + (xend - xbeg) / (g.ni : K) / 2) P hP m1
  refine ⟨m2, d2, fun i j k hi' hj' hk' => ?_⟩
  have hint : g.Int3 i j k := ⟨hi', hj', hk'⟩
  rw [v2 i j k hi' hj' hk' ?_, hpt i j k (hint.pad ⟨hi, hj, hk, by omega⟩)]
  intro x' y' z' hx' hy' hz'
  have hp := pad_of_int_off1 hh hint hx' hy' hz'
  have hb := Grid3.at3_bounds hp
  rw [h1 _ hb.1 hb.2, hpt _ _ _ hp]

/-- The hypotheses hold: `P = x²y + z³` on a 4×3×2 grid with one boundary layer. -/
example : (X 0 ^ 2 * X 1 + X 2 ^ 3 : MvPolynomial (Fin 3) ℚ).totalDegree ≤ 3 := by
  refine (totalDegree_add _ _).trans (max_le ((totalDegree_mul _ _).trans ?_) ?_)
  · have := totalDegree_pow (X 0 : MvPolynomial (Fin 3) ℚ) 2
    rw [totalDegree_X] at *
    omega
  · have := totalDegree_pow (X 2 : MvPolynomial (Fin 3) ℚ) 3
    rw [totalDegree_X] at *
    omega

example : ∃ G, mkGeom3 (Grid3.mk 4 3 2 2) .periodic .neumann .periodic = .ok G :=
  ⟨_, mkGeom3_ok ⟨by decide, by decide, by decide, by decide⟩ _ _ _⟩

/-- The exact Laplacian of `x²y + z³` is `2y + 6z`, so the statement is not about zero. -/
example : polyLap (X 0 ^ 2 * X 1 + X 2 ^ 3 : MvPolynomial (Fin 3) ℚ) = 2 * X 1 + 6 * X 2 := by
  unfold polyLap
  have h01 : (1 : Fin 3) ≠ 0 := by decide
  have h02 : (2 : Fin 3) ≠ 0 := by decide
  have h12 : (2 : Fin 3) ≠ 1 := by decide
  have e2 : pderiv 0 (2 : MvPolynomial (Fin 3) ℚ) = 0 := pderiv_C (R := ℚ) (a := 2)
  have e3 : pderiv 2 (3 : MvPolynomial (Fin 3) ℚ) = 0 := pderiv_C (R := ℚ) (a := 3)
  simp [Derivation.leibniz, Derivation.leibniz_pow, h01, h02, h12, h01.symm, h02.symm, h12.symm, e2, e3]
  ring

end Madg
