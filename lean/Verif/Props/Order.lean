/-
Accuracy in time of Cahn–Hilliard simulations on a fixed grid (C84).
-/
import Verif.Proofs.RKEst
import Verif.Spec.Flow
import Verif.Props.RK

set_option linter.unusedVariables false

namespace Madg
open Spec

section
variable (p : CHParams ℝ) (dx : ℝ) (bx bY bz : BCType)

/-- C84. On every 3D grid with every mix of boundary conditions and any parameters, the semi-discrete Cahn–Hilliard equation has, from
every initial field and up to every time, exactly one solution (on the interior cells). -/
theorem C84_solution_3d (ni nj nk : Int) (hi : 1 ≤ ni) (hj : 1 ≤ nj) (hk : 1 ≤ nk) (T : ℝ) (u0 : Int × Int × Int → ℝ) :
    (∃ y, y 0 = u0 ∧ SolvesOn (chField3 p dx bx bY bz ni nj nk 0) (In3 ni nj nk) T y) ∧
    ∀ y z, (∀ c, In3 ni nj nk c → y 0 c = z 0 c) → SolvesOn (chField3 p dx bx bY bz ni nj nk 0) (In3 ni nj nk) T y →
      SolvesOn (chField3 p dx bx bY bz ni nj nk 0) (In3 ni nj nk) T z →
      ∀ t, 0 ≤ t → t ≤ T → ∀ c, In3 ni nj nk c → y t c = z t c := by
  constructor
  · obtain ⟨y, y0, hy⟩ := cells_exists (cells3 ni nj nk) (chField3 p dx bx bY bz ni nj nk 0) _ _ _
      (chField3_cubic bx bY bz hi hj hk p dx 0) (lapR3_diss bx bY bz hi hj hk dx) T u0
    exact ⟨y, y0, fun t h0 h1 c hc => hy t ⟨h0, h1⟩ c ((mem_cells3 ni nj nk c).2 hc)⟩
  · intro y z h0 hy hz t t0 t1 c hc
    exact cells_unique (cells3 ni nj nk) (chField3 p dx bx bY bz ni nj nk 0) _ _ _ (chField3_cubic bx bY bz hi hj hk p dx 0)
      (fun t ht c hc => hy t ht.1 ht.2 c ((mem_cells3 ni nj nk c).1 hc)) (fun t ht c hc => hz t ht.1 ht.2 c ((mem_cells3 ni nj nk c).1 hc))
      (fun c hc => h0 c ((mem_cells3 ni nj nk c).1 hc)) t ⟨t0, t1⟩ c ((mem_cells3 ni nj nk c).2 hc)

/-- C84 in 2D: existence and uniqueness. -/
theorem C84_solution_2d (n : Int) (hn : 1 ≤ n) (T : ℝ) (u0 : Int × Int → ℝ) :
    (∃ y, y 0 = u0 ∧ SolvesOn (chField2 p dx n 0) (In2 n) T y) ∧
    ∀ y z, (∀ c, In2 n c → y 0 c = z 0 c) → SolvesOn (chField2 p dx n 0) (In2 n) T y → SolvesOn (chField2 p dx n 0) (In2 n) T z →
      ∀ t, 0 ≤ t → t ≤ T → ∀ c, In2 n c → y t c = z t c := by
  constructor
  · obtain ⟨y, y0, hy⟩ := cells_exists (cells2 n) (chField2 p dx n 0) _ _ _ (chField2_cubic hn p dx 0) (lapR2_diss hn dx) T u0
    exact ⟨y, y0, fun t h0 h1 c hc => hy t ⟨h0, h1⟩ c ((mem_cells2 n c).2 hc)⟩
  · intro y z h0 hy hz t t0 t1 c hc
    exact cells_unique (cells2 n) (chField2 p dx n 0) _ _ _ (chField2_cubic hn p dx 0)
      (fun t ht c hc => hy t ht.1 ht.2 c ((mem_cells2 n c).1 hc)) (fun t ht c hc => hz t ht.1 ht.2 c ((mem_cells2 n c).1 hc))
      (fun c hc => h0 c ((mem_cells2 n c).1 hc)) t ⟨t0, t1⟩ c ((mem_cells2 n c).2 hc)

/-- C84. Third order in time for rk3ssp: on every 3D grid with every mix of boundary conditions and every kernel variant, for the
solution of the semi-discrete equation there are a constant and a largest step such that every run with steps (possibly varying)
of at most `δ`, started within `a δ³` of the solution, whatever halos and scratch arrays contain and whatever the schedule, ends
without fault within the constant times `δ³` of the solution at every cell. -/
theorem C84_rk3_3d (g : Grid3) (hn : 2 ≤ g.ni ∧ 2 ≤ g.nj ∧ 2 ≤ g.nk) (hh : g.nhalo = 2) (G : Geom3) (hG : mkGeom3 g bx bY bz = .ok G)
    (v : Int) (hv : v = 0 ∨ v = 1 ∨ v = 2) (T : ℝ) (y : ℝ → Int × Int × Int → ℝ)
    (hy : SolvesOn (chField3 p dx bx bY bz g.ni g.nj g.nk 0) (In3 g.ni g.nj g.nk) T y) (a : ℝ) (ha : 0 ≤ a) :
    ∃ Cst δ0, 0 ≤ Cst ∧ 0 < δ0 ∧ ∀ (A : Type) [DecidableEq A] (sz : A → Int) (w : RKArr A) (l1 l2 l3 l4 : A)
      (hnd : [w.sol, w.res, w.k1, w.k2, w.k3, w.k4, w.stage, l1, l2, l3, l4].Nodup)
      (hsz : ∀ a ∈ [w.sol, w.res, w.k1, w.k2, w.k3, w.k4, w.stage, l1, l2, l3, l4], sz a = g.size)
      (δ : ℝ) (h0 : 0 ≤ δ) (hδ : δ ≤ δ0) (time : ℝ) (dts : List ℝ) (hdts : ∀ dt ∈ dts, 0 ≤ dt ∧ dt ≤ δ) (hsum : dts.sum ≤ T)
      (m : Mem A ℝ) (hm : ∀ i j k, (0 ≤ i ∧ i < g.ni) → (0 ≤ j ∧ j < g.nj) → (0 ≤ k ∧ k < g.nk) →
        |m w.sol (g.at3 i j k) - y 0 (i, j, k)| ≤ a * δ ^ 3),
      ∃ m', Det sz (rk3Run g.size (fun s r _ => G.evalRHS v p dx ⟨s, r, l1, l2, l3, l4⟩) w time dts) m m' ∧
        ∀ i j k, (0 ≤ i ∧ i < g.ni) → (0 ≤ j ∧ j < g.nj) → (0 ≤ k ∧ k < g.nk) →
          |m' w.sol (g.at3 i j k) - y dts.sum (i, j, k)| ≤ Cst * δ ^ 3 := by
  obtain ⟨Cst, δ0, c0, d0, H⟩ := cells_converges (cells3 g.ni g.nj g.nk) ssp3c (by simp only [ssp3c]; norm_num)
    (by simp only [ssp3c]; norm_num) (by simp only [ssp3c]; norm_num) (chField3 p dx bx bY bz g.ni g.nj g.nk 0) _ _ _
    (chField3_cubic bx bY bz (by omega) (by omega) (by omega) p dx 0)
    (fun t ht c hc => hy t ht.1 ht.2 c ((mem_cells3 _ _ _ c).1 hc)) a ha
  refine ⟨Cst, δ0, c0, d0, ?_⟩
  intro A _ sz w l1 l2 l3 l4 hnd hsz δ h0 hδ time dts hdts hsum m hm
  obtain ⟨m', d, e⟩ := C33_cahn_hilliard3 g hn hh bx bY bz G hG v hv sz w l1 l2 l3 l4 hnd hsz p dx time dts m
  refine ⟨m', d, fun i j k h1 h2 h3 => ?_⟩
  rw [e i j k h1 h2 h3, ssp3c_run _ (fun _ _ => rfl)]
  exact H δ h0 hδ dts hdts hsum (fun c => m w.sol (g.at3 c.1 c.2.1 c.2.2))
    (fun c hc => by
      have := (mem_cells3 _ _ _ c).1 hc
      exact hm _ _ _ this.1 this.2.1 this.2.2) (i, j, k) ((mem_cells3 _ _ _ _).2 ⟨h1, h2, h3⟩)

/-- C84 for ode23; every error estimate it reports on the way is at most the constant times `δ³` as well. -/
theorem C84_ode23_3d (g : Grid3) (hn : 2 ≤ g.ni ∧ 2 ≤ g.nj ∧ 2 ≤ g.nk) (hh : g.nhalo = 2) (G : Geom3) (hG : mkGeom3 g bx bY bz = .ok G)
    (v : Int) (hv : v = 0 ∨ v = 1 ∨ v = 2) (T : ℝ) (y : ℝ → Int × Int × Int → ℝ)
    (hy : SolvesOn (chField3 p dx bx bY bz g.ni g.nj g.nk 0) (In3 g.ni g.nj g.nk) T y) (a : ℝ) (ha : 0 ≤ a) :
    ∃ Cst δ0, 0 ≤ Cst ∧ 0 < δ0 ∧ ∀ (A : Type) [DecidableEq A] (sz : A → Int) (w : RKArr A) (l1 l2 l3 l4 : A)
      (hnd : [w.sol, w.res, w.k1, w.k2, w.k3, w.k4, w.stage, l1, l2, l3, l4].Nodup)
      (hsz : ∀ a ∈ [w.sol, w.res, w.k1, w.k2, w.k3, w.k4, w.stage, l1, l2, l3, l4], sz a = g.size)
      (δ : ℝ) (h0 : 0 ≤ δ) (hδ : δ ≤ δ0) (time : ℝ) (dts : List ℝ) (hdts : ∀ dt ∈ dts, 0 ≤ dt ∧ dt ≤ δ) (hsum : dts.sum ≤ T)
      (m : Mem A ℝ) (hm : ∀ i j k, (0 ≤ i ∧ i < g.ni) → (0 ≤ j ∧ j < g.nj) → (0 ≤ k ∧ k < g.nk) →
        |m w.sol (g.at3 i j k) - y 0 (i, j, k)| ≤ a * δ ^ 3)
      (hz : ∀ n, 0 ≤ n → n < g.size → (∀ i j k, (0 ≤ i ∧ i < g.ni) ∧ (0 ≤ j ∧ j < g.nj) ∧ (0 ≤ k ∧ k < g.nk) →
        g.at3 i j k ≠ n) → m w.k1 n = 0 ∧ m w.k2 n = 0 ∧ m w.k3 n = 0 ∧ m w.k4 n = 0),
      ∃ st es m', CDet sz (ode23Run g.size (fun s r _ => G.evalRHS v p dx ⟨s, r, l1, l2, l3, l4⟩) w ode23Init time dts) m
          (st, es) m' ∧ (∀ e ∈ es, 0 ≤ e ∧ e ≤ Cst * δ ^ 3) ∧
        ∀ i j k, (0 ≤ i ∧ i < g.ni) → (0 ≤ j ∧ j < g.nj) → (0 ≤ k ∧ k < g.nk) →
          |m' w.sol (g.at3 i j k) - y dts.sum (i, j, k)| ≤ Cst * δ ^ 3 := by
  have hy' : ∀ t ∈ Set.Icc 0 T, ∀ c ∈ cells3 g.ni g.nj g.nk, HasDerivWithinAt (fun t => y t c)
      (chField3 p dx bx bY bz g.ni g.nj g.nk 0 (y t) c) (Set.Icc 0 T) t :=
    fun t ht c hc => hy t ht.1 ht.2 c ((mem_cells3 _ _ _ c).1 hc)
  have hi : 1 ≤ g.ni := by omega
  have hj : 1 ≤ g.nj := by omega
  have hk : 1 ≤ g.nk := by omega
  obtain ⟨C1, δ1, c1, d1, H1⟩ := cells_converges (cells3 g.ni g.nj g.nk) bs3c (by simp only [bs3c]; norm_num)
    (by simp only [bs3c]; norm_num) (by simp only [bs3c]; norm_num) (chField3 p dx bx bY bz g.ni g.nj g.nk 0) _ _ _
    (chField3_cubic bx bY bz hi hj hk p dx 0) hy' a ha
  obtain ⟨C2, δ2, c2, d2, H2⟩ := cells_estimates (cells3 g.ni g.nj g.nk) (chField3 p dx bx bY bz g.ni g.nj g.nk) (fun _ _ => rfl)
    (In3 g.ni g.nj g.nk) (fun c hc => (mem_cells3 _ _ _ c).2 hc) _ _ _ (chField3_cubic bx bY bz hi hj hk p dx 0) hy' a ha
  refine ⟨max C1 C2, min δ1 δ2, le_max_of_le_left c1, lt_min d1 d2, ?_⟩
  intro A _ sz w l1 l2 l3 l4 hnd hsz δ h0 hδ time dts hdts hsum m hm hz
  have δ3 : 0 ≤ δ ^ 3 := by positivity
  have hm' : ∀ c ∈ cells3 g.ni g.nj g.nk, |m w.sol (g.at3 c.1 c.2.1 c.2.2) - y 0 c| ≤ a * δ ^ 3 := fun c hc => by
    have := (mem_cells3 _ _ _ c).1 hc
    exact hm _ _ _ this.1 this.2.1 this.2.2
  obtain ⟨st, es, m', d, e, r⟩ := C34_cahn_hilliard3 g hn hh bx bY bz G hG v hv sz w l1 l2 l3 l4 hnd hsz p dx time dts m hz
  refine ⟨st, es, m', d, fun x hx => ?_, fun i j k h1 h2 h3 => ?_⟩
  · obtain ⟨x0, x1⟩ := H2 δ h0 (hδ.trans (min_le_right _ _)) dts hdts hsum _ hm' time es r x hx
    exact ⟨x0, x1.trans (mul_le_mul_of_nonneg_right (le_max_right _ _) δ3)⟩
  · rw [e i j k h1 h2 h3, bs3c_run _ (fun _ _ => rfl)]
    exact (H1 δ h0 (hδ.trans (min_le_left _ _)) dts hdts hsum _ hm' (i, j, k) ((mem_cells3 _ _ _ _).2 ⟨h1, h2, h3⟩)).trans
      (mul_le_mul_of_nonneg_right (le_max_left _ _) δ3)

/-- C84 in 2D for rk3ssp. -/
theorem C84_rk3_2d (n : Int) (hn : 2 ≤ n) (G : Geom2) (hG : mkGeom2 n 2 = .ok G) (T : ℝ) (y : ℝ → Int × Int → ℝ)
    (hy : SolvesOn (chField2 p dx n 0) (In2 n) T y) (a : ℝ) (ha : 0 ≤ a) :
    ∃ Cst δ0, 0 ≤ Cst ∧ 0 < δ0 ∧ ∀ (A : Type) [DecidableEq A] (sz : A → Int) (w : RKArr A) (l1 l2 l3 l4 : A)
      (hnd : [w.sol, w.res, w.k1, w.k2, w.k3, w.k4, w.stage, l1, l2, l3, l4].Nodup)
      (hsz : ∀ a ∈ [w.sol, w.res, w.k1, w.k2, w.k3, w.k4, w.stage, l1, l2, l3, l4], sz a = (n + 2 * 2) * (n + 2 * 2))
      (δ : ℝ) (h0 : 0 ≤ δ) (hδ : δ ≤ δ0) (time : ℝ) (dts : List ℝ) (hdts : ∀ dt ∈ dts, 0 ≤ dt ∧ dt ≤ δ) (hsum : dts.sum ≤ T)
      (m : Mem A ℝ) (hm : ∀ i j, (0 ≤ i ∧ i < n) → (0 ≤ j ∧ j < n) → |m w.sol (G.g.at2 i j) - y 0 (i, j)| ≤ a * δ ^ 3),
      ∃ m', Det sz (rk3Run ((n + 2 * 2) * (n + 2 * 2)) (fun s r _ => G.evalRHS p dx ⟨s, r, l1, l2, l3, l4⟩) w time dts) m m' ∧
        ∀ i j, (0 ≤ i ∧ i < n) → (0 ≤ j ∧ j < n) → |m' w.sol (G.g.at2 i j) - y dts.sum (i, j)| ≤ Cst * δ ^ 3 := by
  obtain ⟨Cst, δ0, c0, d0, H⟩ := cells_converges (cells2 n) ssp3c (by simp only [ssp3c]; norm_num)
    (by simp only [ssp3c]; norm_num) (by simp only [ssp3c]; norm_num) (chField2 p dx n 0) _ _ _
    (chField2_cubic (by omega) p dx 0) (fun t ht c hc => hy t ht.1 ht.2 c ((mem_cells2 _ c).1 hc)) a ha
  refine ⟨Cst, δ0, c0, d0, ?_⟩
  intro A _ sz w l1 l2 l3 l4 hnd hsz δ h0 hδ time dts hdts hsum m hm
  obtain ⟨m', d, e⟩ := C33_cahn_hilliard2 n hn G hG sz w l1 l2 l3 l4 hnd hsz p dx time dts m
  refine ⟨m', d, fun i j h1 h2 => ?_⟩
  rw [e i j h1 h2, ssp3c_run _ (fun _ _ => rfl)]
  exact H δ h0 hδ dts hdts hsum (fun c => m w.sol (G.g.at2 c.1 c.2))
    (fun c hc => by
      have := (mem_cells2 _ c).1 hc
      exact hm _ _ this.1 this.2) (i, j) ((mem_cells2 _ _).2 ⟨h1, h2⟩)

/-- C84 in 2D for ode23. -/
theorem C84_ode23_2d (n : Int) (hn : 2 ≤ n) (G : Geom2) (hG : mkGeom2 n 2 = .ok G) (T : ℝ) (y : ℝ → Int × Int → ℝ)
    (hy : SolvesOn (chField2 p dx n 0) (In2 n) T y) (a : ℝ) (ha : 0 ≤ a) :
    ∃ Cst δ0, 0 ≤ Cst ∧ 0 < δ0 ∧ ∀ (A : Type) [DecidableEq A] (sz : A → Int) (w : RKArr A) (l1 l2 l3 l4 : A)
      (hnd : [w.sol, w.res, w.k1, w.k2, w.k3, w.k4, w.stage, l1, l2, l3, l4].Nodup)
      (hsz : ∀ a ∈ [w.sol, w.res, w.k1, w.k2, w.k3, w.k4, w.stage, l1, l2, l3, l4], sz a = (n + 2 * 2) * (n + 2 * 2))
      (δ : ℝ) (h0 : 0 ≤ δ) (hδ : δ ≤ δ0) (time : ℝ) (dts : List ℝ) (hdts : ∀ dt ∈ dts, 0 ≤ dt ∧ dt ≤ δ) (hsum : dts.sum ≤ T)
      (m : Mem A ℝ) (hm : ∀ i j, (0 ≤ i ∧ i < n) → (0 ≤ j ∧ j < n) → |m w.sol (G.g.at2 i j) - y 0 (i, j)| ≤ a * δ ^ 3)
      (hz : ∀ x, 0 ≤ x → x < (n + 2 * 2) * (n + 2 * 2) → (∀ i j, (0 ≤ i ∧ i < n) ∧ (0 ≤ j ∧ j < n) →
        G.g.at2 i j ≠ x) → m w.k1 x = 0 ∧ m w.k2 x = 0 ∧ m w.k3 x = 0 ∧ m w.k4 x = 0),
      ∃ st es m', CDet sz (ode23Run ((n + 2 * 2) * (n + 2 * 2)) (fun s r _ => G.evalRHS p dx ⟨s, r, l1, l2, l3, l4⟩) w
          ode23Init time dts) m (st, es) m' ∧ (∀ e ∈ es, 0 ≤ e ∧ e ≤ Cst * δ ^ 3) ∧
        ∀ i j, (0 ≤ i ∧ i < n) → (0 ≤ j ∧ j < n) → |m' w.sol (G.g.at2 i j) - y dts.sum (i, j)| ≤ Cst * δ ^ 3 := by
  have hy' : ∀ t ∈ Set.Icc 0 T, ∀ c ∈ cells2 n, HasDerivWithinAt (fun t => y t c) (chField2 p dx n 0 (y t) c) (Set.Icc 0 T) t :=
    fun t ht c hc => hy t ht.1 ht.2 c ((mem_cells2 _ c).1 hc)
  have hn1 : 1 ≤ n := by omega
  obtain ⟨C1, δ1, c1, d1, H1⟩ := cells_converges (cells2 n) bs3c (by simp only [bs3c]; norm_num)
    (by simp only [bs3c]; norm_num) (by simp only [bs3c]; norm_num) (chField2 p dx n 0) _ _ _ (chField2_cubic hn1 p dx 0) hy' a ha
  obtain ⟨C2, δ2, c2, d2, H2⟩ := cells_estimates (cells2 n) (chField2 p dx n) (fun _ _ => rfl)
    (In2 n) (fun c hc => (mem_cells2 _ c).2 hc) _ _ _ (chField2_cubic hn1 p dx 0) hy' a ha
  refine ⟨max C1 C2, min δ1 δ2, le_max_of_le_left c1, lt_min d1 d2, ?_⟩
  intro A _ sz w l1 l2 l3 l4 hnd hsz δ h0 hδ time dts hdts hsum m hm hz
  have δ3 : 0 ≤ δ ^ 3 := by positivity
  have hm' : ∀ c ∈ cells2 n, |m w.sol (G.g.at2 c.1 c.2) - y 0 c| ≤ a * δ ^ 3 := fun c hc => by
    have := (mem_cells2 _ c).1 hc
    exact hm _ _ this.1 this.2
  obtain ⟨st, es, m', d, e, r⟩ := C34_cahn_hilliard2 n hn G hG sz w l1 l2 l3 l4 hnd hsz p dx time dts m hz
  refine ⟨st, es, m', d, fun x hx => ?_, fun i j h1 h2 => ?_⟩
  · obtain ⟨x0, x1⟩ := H2 δ h0 (hδ.trans (min_le_right _ _)) dts hdts hsum _ hm' time es r x hx
    exact ⟨x0, x1.trans (mul_le_mul_of_nonneg_right (le_max_right _ _) δ3)⟩
  · rw [e i j h1 h2, bs3c_run _ (fun _ _ => rfl)]
    exact (H1 δ h0 (hδ.trans (min_le_left _ _)) dts hdts hsum _ hm' (i, j) ((mem_cells2 _ _).2 ⟨h1, h2⟩)).trans
      (mul_le_mul_of_nonneg_right (le_max_left _ _) δ3)

end

/-- The hypotheses are met: any grid with a Neumann axis, any initial field, exact initial data, and steps as small as wished that
fill the interval. -/
example (u0 : Int × Int × Int → ℝ) : ∃ (g : Grid3) (G : Geom3) (y : ℝ → Int × Int × Int → ℝ),
    (2 ≤ g.ni ∧ 2 ≤ g.nj ∧ 2 ≤ g.nk) ∧ g.nhalo = 2 ∧ mkGeom3 g .neumann .periodic .neumann = .ok G ∧ y 0 = u0 ∧
    SolvesOn (chField3 ⟨1, 1, 0⟩ 1 .neumann .periodic .neumann g.ni g.nj g.nk 0) (In3 g.ni g.nj g.nk) 1 y ∧
    ∀ δ0 : ℝ, 0 < δ0 → ∃ (δ : ℝ) (dts : List ℝ), 0 < δ ∧ δ ≤ δ0 ∧ dts.sum = 1 ∧ ∀ dt ∈ dts, 0 ≤ dt ∧ dt ≤ δ := by
  obtain ⟨⟨y, y0, hy⟩, -⟩ := C84_solution_3d ⟨1, 1, 0⟩ 1 .neumann .periodic .neumann 4 5 6 (by norm_num) (by norm_num) (by norm_num) 1 u0
  refine ⟨⟨4, 5, 6, 2⟩, _, y, by decide, rfl, mkGeom3_ok ⟨by decide, by decide, by decide, by decide⟩ _ _ _, y0, hy, fun δ0 h0 => ?_⟩
  obtain ⟨n, hn⟩ := exists_nat_gt (1 / δ0)
  have n0 : (0 : ℝ) < (n : ℝ) + 1 := by positivity
  refine ⟨1 / ((n : ℝ) + 1), List.replicate (n + 1) (1 / ((n : ℝ) + 1)), by positivity, ?_, ?_, fun dt h => ?_⟩
  · rw [div_le_iff₀ n0]
    rw [div_lt_iff₀ h0] at hn
    nlinarith
  · rw [List.sum_replicate, nsmul_eq_mul]
    push_cast
    field_simp
  · rw [List.eq_of_mem_replicate h]
    exact ⟨by positivity, le_rfl⟩

end Madg
