/-
The Cahn–Hilliard right-hand sides satisfy the contract of the integrators; consequences for whole runs.
-/
import Verif.Proofs.RK
import Verif.Proofs.CH3
import Verif.Proofs.CH2
import Verif.Proofs.Symm
import Verif.Spec.Semi
import Mathlib.Analysis.Convex.Basic

set_option linter.unusedSectionVars false
set_option linter.unusedVariables false

namespace Madg
local macro "ne!" : tactic => `(tactic| first | assumption | (apply Ne.symm; assumption))
open Spec
variable {A K C : Type} [DecidableEq A] [Field K]

theorem ch3_contract {g : Grid3} (hn : 2 ≤ g.ni ∧ 2 ≤ g.nj ∧ 2 ≤ g.nk) (hh : g.nhalo = 2) {xbc ybc zbc : BCType}
    {G : Geom3} (hG : mkGeom3 g xbc ybc zbc = .ok G) {v : Int} (hv : v = 0 ∨ v = 1 ∨ v = 2)
    {sz : A → Int} {l1 l2 l3 l4 : A} (hnd : [l1, l2, l3, l4].Nodup) (hsz : ∀ a ∈ [l1, l2, l3, l4], sz a = g.size)
    (p : CHParams K) (dx : K) :
    RhsContract sz g.size (· ∈ [l1, l2, l3, l4]) (In3 g.ni g.nj g.nk)
      (fun c : Int × Int × Int => g.at3 c.1 c.2.1 c.2.2)
      (chField3 p dx xbc ybc zbc g.ni g.nj g.nk)
      (fun s r _ => G.evalRHS v p dx ⟨s, r, l1, l2, l3, l4⟩) := by
  have hok : g.Ok := ⟨by omega, by omega, by omega, by omega⟩
  obtain ⟨hGok, rfl, rfl, rfl, rfl⟩ := Geom3.ok_of_mk hok hG
  have hv' : ctorCH3 v = .ok () := by unfold ctorCH3; rw [if_pos (by omega)]
  have hpad : ∀ c, In3 G.g.ni G.g.nj G.g.nk c → G.g.Pad c.1 c.2.1 c.2.2 := by
    intro c hc; unfold In3 at hc; unfold Grid3.Pad; omega
  refine ⟨fun c hc => Grid3.at3_bounds (hpad c hc), ?_, ?_⟩
  · intro t u v' h c hc
    have : (ext3 G.xbc G.ybc G.zbc G.g.ni G.g.nj G.g.nk fun i j k => u (i, j, k)) =
        ext3 G.xbc G.ybc G.zbc G.g.ni G.g.nj G.g.nk fun i j k => v' (i, j, k) := by
      funext i j k
      exact h _ ⟨extIdx_range i (by omega), extIdx_range j (by omega), extIdx_range k (by omega)⟩
    unfold chField3; rw [this]
  · intro s r t m hne hs hr hzs hzr
    have hnd' : [s, r, l1, l2, l3, l4].Nodup := by
      rw [List.nodup_cons, List.nodup_cons]
      refine ⟨?_, hr, hnd⟩
      rw [List.mem_cons]
      rintro (h | h)
      · exact hne h
      · exact hs h
    have hsz' : ∀ a ∈ [s, r, l1, l2, l3, l4], sz a = G.g.size := by
      intro a ha
      rw [List.mem_cons, List.mem_cons] at ha
      rcases ha with rfl | rfl | ha
      · exact hzs
      · exact hzr
      · exact hsz a ha
    obtain ⟨m', hd, hp, -, ho⟩ := evalRHS_det hGok (w := ⟨s, r, l1, l2, l3, l4⟩) ⟨hnd', hsz'⟩ (by omega) (by omega)
      (by omega) (by omega) hv' p dx m
    refine ⟨m', hd, ?_, ?_, ?_, ?_⟩
    · intro c hc; exact hp.rhs _ _ _ hc
    · intro c hc
      have h := hp.state _ _ _ (hpad c hc)
      exact h.trans (by
        unfold In3 at hc
        simp only [Geom3.extField, ext3, Grid3.view]
        rw [extIdx_of_int hc.1.1 hc.1.2, extIdx_of_int hc.2.1.1 hc.2.1.2, extIdx_of_int hc.2.2.1 hc.2.2.2])
    · intro n hn'
      exact ho n fun i j k h => hn' (i, j, k) h
    · intro b h1 h2 h3
      refine hp.frame b ?_
      rw [List.mem_cons, List.mem_cons, not_or, not_or]
      exact ⟨h1, h2, h3⟩

theorem ch2_contract {n : Int} (hn : 2 ≤ n) {G : Geom2} (hG : mkGeom2 n 2 = .ok G)
    {sz : A → Int} {l1 l2 l3 l4 : A} (hnd : [l1, l2, l3, l4].Nodup)
    (hsz : ∀ a ∈ [l1, l2, l3, l4], sz a = (n + 2 * 2) * (n + 2 * 2)) (p : CHParams K) (dx : K) :
    RhsContract sz ((n + 2 * 2) * (n + 2 * 2)) (· ∈ [l1, l2, l3, l4]) (In2 n)
      (fun c : Int × Int => G.g.at2 c.1 c.2) (chField2 p dx n)
      (fun s r _ => G.evalRHS p dx ⟨s, r, l1, l2, l3, l4⟩) := by
  obtain ⟨hok, hg⟩ := Geom2.ok_of_mk (by omega) (by omega) hG
  have hni : G.g.ni = n := by rw [hg]
  have hnj : G.g.nj = n := by rw [hg]
  have hnh : G.g.nhalo = 2 := by rw [hg]
  have hsize : G.g.size = (n + 2 * 2) * (n + 2 * 2) := by rw [hg]; rfl
  have hint : ∀ c, In2 n c → G.g.Int2 c.1 c.2 := by
    intro c hc; unfold In2 at hc; unfold Grid2.Int2; omega
  refine ⟨fun c hc => by rw [← hsize]; exact Grid2.at2_bounds ((hint c hc).pad hok.ok), ?_, ?_⟩
  · intro t u v' h c hc
    have : (ext2 n fun i j => u (i, j)) = ext2 n fun i j => v' (i, j) := by
      funext i j
      exact h _ ⟨wrapIdx_range i (by omega), wrapIdx_range j (by omega)⟩
    unfold chField2; rw [this]
  · intro s r t m hne hs hr hzs hzr
    have hnd' : [s, r, l1, l2, l3, l4].Nodup := by
      rw [List.nodup_cons, List.nodup_cons]
      refine ⟨?_, hr, hnd⟩
      rw [List.mem_cons]
      rintro (h | h)
      · exact hne h
      · exact hs h
    have hsz' : ∀ a ∈ [s, r, l1, l2, l3, l4], sz a = G.g.size := by
      intro a ha
      rw [List.mem_cons, List.mem_cons] at ha
      rw [hsize]
      rcases ha with rfl | rfl | ha
      · exact hzs
      · exact hzr
      · exact hsz a ha
    obtain ⟨m', d, r', s', so, z, ro, f⟩ := evalRHS2_det (K := K) hok (w := ⟨s, r, l1, l2, l3, l4⟩) hnd' hsz'
      (by omega) (by omega) p dx m
    refine ⟨m', d, ?_, ?_, ?_, ?_⟩
    · intro c hc
      have := r' _ _ (hint c hc)
      rw [hni] at this
      exact this
    · intro c hc
      have := s' _ _ ((hint c hc).pad hok.ok)
      rw [wrapIdx_of_int (by unfold In2 at hc; omega) (by unfold In2 at hc; omega),
        wrapIdx_of_int (by unfold In2 at hc; omega) (by unfold In2 at hc; omega)] at this
      exact this
    · intro x hx
      by_cases hb : 0 ≤ x ∧ x < G.g.size
      · exact Or.inr (z x hb.1 hb.2 fun i j h => hx (i, j) (by unfold Grid2.Int2 at h; unfold In2; omega))
      · exact Or.inl (ro x hb)
    · intro b h1 h2 h3
      refine f b ?_
      rw [List.mem_cons, List.mem_cons, not_or, not_or]
      exact ⟨h1, h2, h3⟩

/-! ### Runs of the textbook methods -/

section
variable {V : Type} [AddCommGroup V] [Module K V]

/-- A linear functional whose value on the slope vanishes at the state's value is preserved. -/
theorem stage_lin_zero (T : Tableau K) (F : K → V → V) (L : V →ₗ[K] K) (M σ : K)
    (hL : ∀ t u, L (F t u) = -σ * (L u - M)) (t dt : K) (y : V) (h : σ = 0 ∨ L y = M) (i : Nat) :
    L (T.stage F t dt y i) = 0 := by
  induction i using Nat.strong_induction_on with
  | _ i ih =>
    rw [Tableau.stage, hL, map_add, map_smul, map_sum]
    have : ∑ j : Fin i, L (T.a i j • T.stage F t dt y j) = 0 :=
      Finset.sum_eq_zero fun j _ => by rw [map_smul, ih j j.2, smul_zero]
    rw [this, smul_zero, add_zero]
    rcases h with h | h
    · rw [h]; simp
    · rw [h]; simp

theorem step_lin (T : Tableau K) (F : K → V → V) (L : V →ₗ[K] K) (M σ : K)
    (hL : ∀ t u, L (F t u) = -σ * (L u - M)) (t dt : K) (y : V) (h : σ = 0 ∨ L y = M) :
    L (T.step F t dt y) = L y := by
  rw [Tableau.step, Tableau.slope, map_add, map_smul, map_sum]
  have : ∑ j : Fin T.s, L (T.b j • T.stage F t dt y j) = 0 :=
    Finset.sum_eq_zero fun j _ => by rw [map_smul, stage_lin_zero T F L M σ hL t dt y h, smul_zero]
  rw [this, smul_zero, add_zero]

theorem run_lin (T : Tableau K) (F : K → V → V) (L : V →ₗ[K] K) (M σ : K)
    (hL : ∀ t u, L (F t u) = -σ * (L u - M)) (dts : List K) : ∀ (t : K) (y : V), (σ = 0 ∨ L y = M) →
    L (T.run F t dts y) = L y := by
  induction dts with
  | nil => intro t y h; rfl
  | cons dt dts ih =>
    intro t y h
    have hs := step_lin T F L M σ hL t dt y h
    refine (ih (t + dt) _ ?_).trans hs
    rcases h with h | h
    · exact Or.inl h
    · exact Or.inr (hs.trans h)

/-- Damping of a linear functional by one step of either third-order method. -/
theorem ssprk3_damp [CharZero K] (F : K → V → V) (L : V →ₗ[K] K) (M σ : K)
    (hL : ∀ t u, L (F t u) = -σ * (L u - M)) (t dt : K) (y : V) :
    L ((ssprk3 : Tableau K).step F t dt y) - M =
      (1 - σ * dt + (σ * dt) ^ 2 / 2 - (σ * dt) ^ 3 / 6) * (L y - M) := by
  rw [Tableau.step, ssprk3_slope, ssprk3_stage0, ssprk3_stage1, ssprk3_stage2]
  simp only [map_add, map_smul, hL, smul_eq_mul]
  field_simp
  ring

theorem bs23_damp [CharZero K] (F : K → V → V) (L : V →ₗ[K] K) (M σ : K)
    (hL : ∀ t u, L (F t u) = -σ * (L u - M)) (t dt : K) (y : V) :
    L ((bs23 : Tableau K).step F t dt y) - M =
      (1 - σ * dt + (σ * dt) ^ 2 / 2 - (σ * dt) ^ 3 / 6) * (L y - M) := by
  rw [Tableau.step, bs23_slope, bs23_stage0, bs23_stage1, bs23_stage2]
  simp only [map_add, map_smul, hL, smul_eq_mul]
  field_simp
  ring

end

/-- A state at which all slopes vanish stays forever. -/
theorem run_equilibrium (T : Tableau K) (P : C → Prop) (F : K → (C → K) → C → K) (a : C → K)
    (h0 : ∀ t u, (∀ c, P c → u c = a c) → ∀ c, P c → F t u c = 0) (dts : List K) :
    ∀ (t : K) (y : C → K), (∀ c, P c → y c = a c) → ∀ c, P c → T.run F t dts y c = a c := by
  have hst : ∀ (t dt : K) (y : C → K), (∀ c, P c → y c = a c) → ∀ i c, P c → T.stage F t dt y i c = 0 := by
    intro t dt y hy i
    induction i using Nat.strong_induction_on with
    | _ i ih =>
      intro c hc
      rw [Tableau.stage]
      refine h0 _ _ (fun c hc => ?_) c hc
      simp only [Pi.add_apply, Pi.smul_apply, Finset.sum_apply, smul_eq_mul]
      rw [Finset.sum_eq_zero fun j _ => by rw [ih j j.2 c hc, mul_zero], mul_zero, add_zero, hy c hc]
  induction dts with
  | nil => intro t y h; exact h
  | cons dt dts ih =>
    intro t y h c hc
    refine ih (t + dt) _ (fun c hc => ?_) c hc
    simp only [Tableau.step, Tableau.slope, Pi.add_apply, Pi.smul_apply, Finset.sum_apply, smul_eq_mul]
    rw [Finset.sum_eq_zero fun j _ => by rw [hst t dt y h j c hc, mul_zero], mul_zero, add_zero, h c hc]

/-- Total over the interior as a linear functional. -/
def total3 (ni nj nk : Int) : (Int × Int × Int → K) →ₗ[K] K where
  toFun u := sum3 ni nj nk fun i j k => u (i, j, k)
  map_add' u v := sum3_add _ _ _ _ _
  map_smul' a u := sum3_mul _ _ _ a _

def total2 (n : Int) : (Int × Int → K) →ₗ[K] K where
  toFun u := sum2 n n fun i j => u (i, j)
  map_add' u v := sum2_add _ _ _ _
  map_smul' a u := sum2_mul _ _ a _

theorem total3_rhs (p : CHParams K) (dx : K) {ni nj nk : Int} (hi : 1 ≤ ni) (hj : 1 ≤ nj) (hk : 1 ≤ nk) (t : K)
    (u : Int × Int × Int → K) :
    total3 ni nj nk (chField3 p dx .periodic .periodic .periodic ni nj nk t u) =
      -p.sigma * (total3 ni nj nk u - ((ni * nj * nk : Int) : K) * p.m) := by
  refine (chRhs3_sum p dx hi hj hk .periodic .periodic .periodic fun i j k => u (i, j, k)).trans ?_
  rw [bih3_sum_zero dx hi hj hk _ _ _ (by decide) (by decide) (by decide), mul_zero, zero_sub, neg_mul]
  have e : sum3 ni nj nk (fun i j k => ext3 .periodic .periodic .periodic ni nj nk
      (fun i j k => u (i, j, k)) i j k - p.m) = sum3 ni nj nk fun i j k => u (i, j, k) - p.m :=
    sum3_congr fun i j k h1 h2 h3 => by rw [ext3_of_int _ h1 h2 h3]
  rw [e, sum3_sub, sum3_const _ _ _ (by omega) (by omega) (by omega)]
  rfl

theorem sum2_const' {n : Int} (hn : 0 ≤ n) (a : K) : sum2 n n (fun _ _ => a) = ((n * n : Int) : K) * a := by
  unfold sum2
  simp only [Finset.sum_const, Int.card_Ico, sub_zero, nsmul_eq_mul]
  have : ((n.toNat : Nat) : K) = ((n : Int) : K) := by
    rw [← Int.cast_natCast, Int.toNat_of_nonneg hn]
  rw [this]; push_cast; ring

theorem total2_rhs (p : CHParams K) (dx : K) {n : Int} (hn : 1 ≤ n) (t : K) (u : Int × Int → K) :
    total2 n (chField2 p dx n t u) = -p.sigma * (total2 n u - ((n * n : Int) : K) * p.m) := by
  refine (chRhs2_sum p dx hn fun i j => u (i, j)).trans ?_
  have e : sum2 n n (fun i j => ext2 n (fun i j => u (i, j)) i j - p.m) = sum2 n n fun i j => u (i, j) - p.m :=
    sum2_congr fun i j h1 h2 => by rw [ext2_of_int _ h1 h2]
  rw [e, sum2_sub, sum2_const' (by omega)]
  rfl

theorem run_damp {V : Type} [AddCommGroup V] [Module K V] (T : Tableau K) (F : K → V → V) (L : V →ₗ[K] K) (M σ : K)
    (hs : ∀ t dt y, L (T.step F t dt y) - M =
      (1 - σ * dt + (σ * dt) ^ 2 / 2 - (σ * dt) ^ 3 / 6) * (L y - M)) (dts : List K) : ∀ (t : K) (y : V),
    L (T.run F t dts y) - M =
      (dts.map fun dt => 1 - σ * dt + (σ * dt) ^ 2 / 2 - (σ * dt) ^ 3 / 6).prod * (L y - M) := by
  induction dts with
  | nil => intro t y; simp [Tableau.run]
  | cons dt dts ih =>
    intro t y
    rw [Tableau.run, ih, hs, List.map_cons, List.prod_cons]; ring

theorem chField3_equilibrium (p : CHParams K) (dx : K) (bx bY bz : BCType) {ni nj nk : Int} (hi : 1 ≤ ni)
    (hj : 1 ≤ nj) (hk : 1 ≤ nk) (t : K) (u : Int × Int × Int → K) (h : ∀ c, In3 ni nj nk c → u c = p.m)
    (c : Int × Int × Int) (_ : In3 ni nj nk c) : chField3 p dx bx bY bz ni nj nk t u c = 0 := by
  have : (ext3 bx bY bz ni nj nk fun i j k => u (i, j, k)) = fun _ _ _ => p.m := by
    funext i j k
    exact h _ ⟨extIdx_range i (by omega), extIdx_range j (by omega), extIdx_range k (by omega)⟩
  unfold chField3
  rw [this]
  simp only [chRhs3, bih3, lap3, d2x, d2y, d2z]
  ring

theorem chField2_equilibrium (p : CHParams K) (dx : K) {n : Int} (hn : 1 ≤ n) (t : K) (u : Int × Int → K)
    (h : ∀ c, In2 n c → u c = p.m) (c : Int × Int) (_ : In2 n c) : chField2 p dx n t u c = 0 := by
  have : (ext2 n fun i j => u (i, j)) = fun _ _ => p.m := by
    funext i j
    exact h _ ⟨wrapIdx_range i (by omega), wrapIdx_range j (by omega)⟩
  unfold chField2
  rw [this]
  simp only [chRhs2, bih2, lap2]
  ring

/-! ### Strong stability -/

theorem shuOsher_convex {V : Type} [AddCommGroup V] [Module K V] [LinearOrder K] [IsStrictOrderedRing K]
    (F : K → V → V) (S : Set V) (hS : Convex K S) (dt : K) (hE : ∀ t, ∀ y ∈ S, euler F t dt y ∈ S) (t : K) (y : V)
    (hy : y ∈ S) : shuOsher3 F t dt y ∈ S := by
  unfold shuOsher3
  refine hS hy (hE _ _ (hS hy (hE _ _ (hE _ _ hy)) ?_ ?_ ?_)) ?_ ?_ ?_
  all_goals norm_num

/-! ### ode23 runs -/

theorem maxAbs_unique [LinearOrder K] [IsStrictOrderedRing K] {P : C → Prop} {d : C → K} {e e' : K}
    (h : IsMaxAbs P d e) (h' : IsMaxAbs P d e') : e = e' := by
  obtain ⟨p0, b, a⟩ := h
  obtain ⟨p0', b', a'⟩ := h'
  refine le_antisymm ?_ ?_
  · rcases a with rfl | ⟨c, hc, rfl⟩
    · exact p0'
    · exact b' c hc
  · rcases a' with rfl | ⟨c, hc, rfl⟩
    · exact p0
    · exact b c hc

section
variable [LinearOrder K] [IsStrictOrderedRing K]
variable {sz : A → Int} {N : Int} {scratch : A → Prop} {P : C → Prop} {loc : C → Int}
  {F : K → (C → K) → C → K} {rhs : A → A → K → Host A K} {I : Mem A K → Prop} (hR : RhsOn I sz N scratch P loc F rhs)
  {w : RKArr A} (hw : w.Ok sz N scratch)
include hR hw

theorem ode23Step_on (st : Ode23 K) (time dt : K) (m : Mem A K) (hI : I m)
    (hk4 : st.first = false → ∀ c, P c → m w.k4 (loc c) = F time (inner loc m w.sol) c)
    (hz : ∀ n, 0 ≤ n → n < N → (∀ c, P c → loc c ≠ n) →
      m w.k1 n = 0 ∧ m w.k2 n = 0 ∧ m w.k3 n = 0 ∧ m w.k4 n = 0) :
    ∃ E m', CDet sz (ode23Step N rhs w st time dt) m ⟨false, max 0 (dt * E)⟩ m' ∧
      IsMaxAbs P ((bs23 : Tableau K).slope F time dt (inner loc m w.sol) -
        (bs23 : Tableau K).slopeHat F time dt (inner loc m w.sol)) E ∧
      (∀ c, P c → m' w.sol (loc c) = (bs23 : Tableau K).step F time dt (inner loc m w.sol) c) ∧
      (∀ c, P c → m' w.k4 (loc c) = F (time + dt) (inner loc m' w.sol) c) ∧
      (∀ n, 0 ≤ n → n < N → (∀ c, P c → loc c ≠ n) →
        m' w.k1 n = 0 ∧ m' w.k2 n = 0 ∧ m' w.k3 n = 0 ∧ m' w.k4 n = 0) ∧
      (∀ c, P c → m' w.res (loc c) = (bs23 : Tableau K).slope F time dt (inner loc m w.sol) c) ∧
      (∀ b, b ∉ [w.sol, w.res, w.k1, w.k2, w.k3, w.k4, w.stage] → ¬ scratch b → m' b = m b) ∧ I m' := by
  obtain ⟨m', d, vs, v1, v2, v3, v4, vr, vz, vf, vI⟩ := ode23Host_on hR hw st.first time dt m hI hk4
  have hz' := vz hz
  set y := inner loc m w.sol
  have hdiff : ∀ n, 0 ≤ n → n < N → ∀ c, P c → loc c = n →
      m' w.res n - (7 / 24 * m' w.k1 n + 1 / 4 * m' w.k2 n + 1 / 3 * m' w.k3 n + 1 / 8 * m' w.k4 n) =
      ((bs23 : Tableau K).slope F time dt y - (bs23 : Tableau K).slopeHat F time dt y) c := by
    rintro n h0 h1 c hc rfl
    rw [vr _ h0 h1, v1 c hc, v2 c hc, v3 c hc, v4 c hc, Pi.sub_apply, bs23_slope, bs23_slopeHat]
    rfl
  refine ⟨((irange 0 N).map fun i => |m' w.res i - (7 / 24 * m' w.k1 i +
        1 / 4 * m' w.k2 i + 1 / 3 * m' w.k3 i + 1 / 8 * m' w.k4 i)|).foldl max 0, m', ?_, ?_, vs, ?_, hz', ?_, vf, vI⟩
  · refine CDet.bind (CDet.ofHost d) (CDet.bind (ode23Err_det hw m') (by rw [← stdMax_eq]; exact CDet.ret _ _))
  · refine ⟨le_foldl_max_init, ?_, ?_⟩
    · intro c hc
      have hr := hR.range c hc
      rw [← hdiff _ hr.1 hr.2 c hc rfl]
      exact le_foldl_max (List.mem_map.2 ⟨loc c, by rw [mem_irange]; exact hr, rfl⟩)
    · rcases foldl_max_mem (l := (irange 0 N).map fun i => |m' w.res i - (7 / 24 * m' w.k1 i +
        1 / 4 * m' w.k2 i + 1 / 3 * m' w.k3 i + 1 / 8 * m' w.k4 i)|) (a := 0) with h | h
      · exact Or.inl h
      · obtain ⟨n, hn, e⟩ := List.mem_map.1 h
        rw [mem_irange] at hn
        by_cases hc : ∃ c, P c ∧ loc c = n
        · obtain ⟨c, hc, hl⟩ := hc
          refine Or.inr ⟨c, hc, ?_⟩
          rw [← e, ← hdiff n hn.1 hn.2 c hc hl]
        · left
          have hno : ∀ c, P c → loc c ≠ n := fun c hc' hl => hc ⟨c, hc', hl⟩
          obtain ⟨z1, z2, z3, z4⟩ := hz' n hn.1 hn.2 hno
          rw [← e]
          rw [vr n hn.1 hn.2, z1, z2, z3, z4]
          simp
  · intro c hc
    rw [v4 c hc, bs23_stage3]
    exact hR.interior _ _ _ (fun c hc => (vs c hc).symm) c hc
  · intro c hc
    have hr := hR.range c hc
    rw [vr _ hr.1 hr.2, v1 c hc, v2 c hc, v3 c hc, bs23_slope]
    rfl

end

section
variable [LinearOrder K] [IsStrictOrderedRing K]
variable {sz : A → Int} {N : Int} {scratch : A → Prop} {P : C → Prop} {loc : C → Int}
  {F : K → (C → K) → C → K} {rhs : A → A → K → Host A K} (hR : RhsContract sz N scratch P loc F rhs)
  {w : RKArr A} (hw : w.Ok sz N scratch)
include hR hw

theorem isMaxAbs_unique {d : C → K} {e e' : K} (h : IsMaxAbs P d e) (h' : IsMaxAbs P d e') : e = e' :=
  maxAbs_unique h h'

theorem ode23Step_full (st : Ode23 K) (time dt : K) (m : Mem A K)
    (hk4 : st.first = false → ∀ c, P c → m w.k4 (loc c) = F time (inner loc m w.sol) c)
    (hz : ∀ n, 0 ≤ n → n < N → (∀ c, P c → loc c ≠ n) →
      m w.k1 n = 0 ∧ m w.k2 n = 0 ∧ m w.k3 n = 0 ∧ m w.k4 n = 0) :
    ∃ E m', CDet sz (ode23Step N rhs w st time dt) m ⟨false, max 0 (dt * E)⟩ m' ∧
      IsMaxAbs P ((bs23 : Tableau K).slope F time dt (inner loc m w.sol) -
        (bs23 : Tableau K).slopeHat F time dt (inner loc m w.sol)) E ∧
      (∀ c, P c → m' w.sol (loc c) = (bs23 : Tableau K).step F time dt (inner loc m w.sol) c) ∧
      (∀ c, P c → m' w.k4 (loc c) = F (time + dt) (inner loc m' w.sol) c) ∧
      (∀ n, 0 ≤ n → n < N → (∀ c, P c → loc c ≠ n) →
        m' w.k1 n = 0 ∧ m' w.k2 n = 0 ∧ m' w.k3 n = 0 ∧ m' w.k4 n = 0) ∧
      (∀ c, P c → m' w.res (loc c) = (bs23 : Tableau K).slope F time dt (inner loc m w.sol) c) ∧
      (∀ b, b ∉ [w.sol, w.res, w.k1, w.k2, w.k3, w.k4, w.stage] → ¬ scratch b → m' b = m b) :=
  let ⟨E, m', a, b, c, d, e, f, g, _⟩ := ode23Step_on hR.on hw st time dt m trivial hk4 hz
  ⟨E, m', a, b, c, d, e, f, g⟩

theorem ode23Step_det (st : Ode23 K) (time dt : K) (m : Mem A K)
    (hk4 : st.first = false → ∀ c, P c → m w.k4 (loc c) = F time (inner loc m w.sol) c)
    (hz : ∀ n, 0 ≤ n → n < N → (∀ c, P c → loc c ≠ n) →
      m w.k1 n = 0 ∧ m w.k2 n = 0 ∧ m w.k3 n = 0 ∧ m w.k4 n = 0) :
    ∃ E m', CDet sz (ode23Step N rhs w st time dt) m ⟨false, max 0 (dt * E)⟩ m' ∧
      IsMaxAbs P ((bs23 : Tableau K).slope F time dt (inner loc m w.sol) -
        (bs23 : Tableau K).slopeHat F time dt (inner loc m w.sol)) E ∧
      (∀ c, P c → m' w.sol (loc c) = (bs23 : Tableau K).step F time dt (inner loc m w.sol) c) ∧
      (∀ c, P c → m' w.k4 (loc c) = F (time + dt) (inner loc m' w.sol) c) ∧
      (∀ n, 0 ≤ n → n < N → (∀ c, P c → loc c ≠ n) →
        m' w.k1 n = 0 ∧ m' w.k2 n = 0 ∧ m' w.k3 n = 0 ∧ m' w.k4 n = 0) :=
  let ⟨E, m', h1, h2, h3, h4, h5, _⟩ := ode23Step_full hR hw st time dt m hk4 hz
  ⟨E, m', h1, h2, h3, h4, h5⟩

theorem RunErrs_congr (dts : List K) : ∀ (t : K) (u v : C → K) (es : List K), (∀ c, P c → u c = v c) →
    RunErrs bs23 F P t dts u es → RunErrs bs23 F P t dts v es := by
  induction dts with
  | nil => intro t u v es h hr; exact hr
  | cons dt dts ih =>
    rintro t u v es h ⟨E, es', ⟨a1, a2, a3⟩, he, hr⟩
    have hd : ∀ c, P c → ((bs23 : Tableau K).slope F t dt u - (bs23 : Tableau K).slopeHat F t dt u) c =
        ((bs23 : Tableau K).slope F t dt v - (bs23 : Tableau K).slopeHat F t dt v) c := by
      intro c hc
      simp only [Pi.sub_apply]
      rw [slope_congr hR hw _ t dt u v h c hc, slopeHat_congr hR hw _ t dt u v h c hc]
    refine ⟨E, es', ⟨a1, ?_, ?_⟩, he, ih _ _ _ _ (step_congr hR hw _ t dt u v h) hr⟩
    · intro c hc; rw [← hd c hc]; exact a2 c hc
    · rcases a3 with a3 | ⟨c, hc, a3⟩
      · exact Or.inl a3
      · exact Or.inr ⟨c, hc, by rw [← hd c hc]; exact a3⟩

theorem ode23Run_det (dts : List K) : ∀ (st : Ode23 K) (time : K) (m : Mem A K),
    (st.first = false → ∀ c, P c → m w.k4 (loc c) = F time (inner loc m w.sol) c) →
    (∀ n, 0 ≤ n → n < N → (∀ c, P c → loc c ≠ n) →
      m w.k1 n = 0 ∧ m w.k2 n = 0 ∧ m w.k3 n = 0 ∧ m w.k4 n = 0) →
    ∃ st' es m', CDet sz (ode23Run N rhs w st time dts) m (st', es) m' ∧
      (∀ c, P c → m' w.sol (loc c) = (bs23 : Tableau K).run F time dts (inner loc m w.sol) c) ∧
      RunErrs bs23 F P time dts (inner loc m w.sol) es := by
  induction dts with
  | nil =>
    intro st time m _ _
    exact ⟨st, [], m, CDet.ret _ _, fun c hc => rfl, rfl⟩
  | cons dt dts ih =>
    intro st time m hk hz
    obtain ⟨E, m1, d1, hE, v1, k1, z1⟩ := ode23Step_det hR hw st time dt m hk hz
    obtain ⟨st', es, m2, d2, v2, e2⟩ := ih ⟨false, max 0 (dt * E)⟩ (time + dt) m1 (fun _ => k1) z1
    refine ⟨st', max 0 (dt * E) :: es, m2, CDet.bind d1 (CDet.bind d2 (CDet.ret _ _)), ?_, ?_⟩
    · intro c hc
      rw [v2 c hc]
      exact run_congr hR hw _ dts _ _ _ v1 c hc
    · exact ⟨E, es, hE, rfl, RunErrs_congr hR hw dts _ _ _ _ v1 e2⟩

/-- Shape of a step that trusts the stored fourth slope. -/
theorem ode23Host_stale (time dt : K) (m : Mem A K) :
    ∃ (κ2 κ3 : C → K) (m' : Mem A K), Det sz (ode23Host N rhs w false time dt) m m' ∧
      κ2 = F (time + 1 / 2 * dt) (fun c => m w.sol (loc c) + dt * (1 / 2) * m w.k4 (loc c)) ∧
      (∀ c, P c → κ3 c = F (time + 3 / 4 * dt) (fun c => m w.sol (loc c) + dt * (3 / 4 * κ2 c)) c) ∧
      (∀ c, P c → m' w.sol (loc c) = m w.sol (loc c) +
        dt * (2 / 9 * m w.k4 (loc c) + 1 / 3 * κ2 c + 4 / 9 * κ3 c)) := by
  have hnd := hw.nodup
  simp only [List.nodup_cons, List.mem_cons, not_or, List.not_mem_nil, not_false_eq_true,
    List.nodup_nil, and_true] at hnd
  obtain ⟨⟨n1, n2, n3, n4, n5, n6⟩, ⟨n7, n8, n9, n10, n11⟩, ⟨n12, n13, n14, n15⟩, ⟨n16, n17, n18⟩, ⟨n19, n20⟩, n21⟩ := hnd
  obtain ⟨m1, d1, w1⟩ := fsal_det (K := K) hw m
  obtain ⟨κ2, κ3, m2, d2, q⟩ := rkCore_det hR hw (time + 1 / 2 * dt) (time + 3 / 4 * dt) dt (1 / 2) 0 (3 / 4)
      (2 / 9) (1 / 3) (4 / 9) m1
  obtain ⟨m3, d3, -, v3, -, -⟩ := hR.run w.sol w.k4 (time + 1 * dt) m2 (by ne!) (hw.fresh _ (by simp))
    (hw.fresh _ (by simp)) (hw.size _ (by simp)) (hw.size _ (by simp))
  have hs : m1 w.sol = m w.sol := w1.frame _ (by ne!)
  have hk : ∀ c, P c → m1 w.k1 (loc c) = m w.k4 (loc c) := fun c hc =>
    w1.view _ (hR.range c hc).1 (hR.range c hc).2
  refine ⟨F (time + 1 / 2 * dt) (fun c => m w.sol (loc c) + dt * (1 / 2) * m w.k4 (loc c)), κ3, m3, ?_, rfl, ?_, ?_⟩
  · rw [ode23Host_eq hR hw]
    exact det_append d1 (det_append d2 d3)
  · intro c hc
    rw [q.e3]
    refine hR.interior _ _ _ (fun c hc => ?_) c hc
    have : κ2 c = F (time + 1 / 2 * dt) (fun c => m w.sol (loc c) + dt * (1 / 2) * m w.k4 (loc c)) c := by
      rw [q.e2]
      refine hR.interior _ _ _ (fun c hc => ?_) c hc
      simp only [inner]; rw [hs, hk c hc]
    simp only [inner]; rw [hs, this]; ring
  · intro c hc
    have hr := hR.range c hc
    have : κ2 c = F (time + 1 / 2 * dt) (fun c => m w.sol (loc c) + dt * (1 / 2) * m w.k4 (loc c)) c := by
      rw [q.e2]
      refine hR.interior _ _ _ (fun c hc => ?_) c hc
      simp only [inner]; rw [hs, hk c hc]
    rw [v3 c hc, q.sol _ hr.1 hr.2, q.res _ hr.1 hr.2, q.k1, q.k2 c hc, q.k3 c hc, hs, hk c hc, this]

theorem ode23Step_stale (err : K) (time dt : K) (m : Mem A K) :
    ∃ (e : K) (κ2 κ3 : C → K) (m' : Mem A K), CDet sz (ode23Step N rhs w ⟨false, err⟩ time dt) m ⟨false, e⟩ m' ∧
      κ2 = F (time + 1 / 2 * dt) (fun c => m w.sol (loc c) + dt * (1 / 2) * m w.k4 (loc c)) ∧
      (∀ c, P c → κ3 c = F (time + 3 / 4 * dt) (fun c => m w.sol (loc c) + dt * (3 / 4 * κ2 c)) c) ∧
      (∀ c, P c → m' w.sol (loc c) = m w.sol (loc c) +
        dt * (2 / 9 * m w.k4 (loc c) + 1 / 3 * κ2 c + 4 / 9 * κ3 c)) := by
  obtain ⟨κ2, κ3, m', d, a, b, c⟩ := ode23Host_stale hR hw time dt m
  exact ⟨_, κ2, κ3, m', CDet.bind (CDet.ofHost d) (CDet.bind (ode23Err_det hw m') (CDet.ret _ _)), a, b, c⟩

end

end Madg
