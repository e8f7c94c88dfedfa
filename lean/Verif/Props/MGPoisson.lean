/-
The multigrid solver on the Poisson problem (C79–C81).
-/
import Verif.Proofs.MGGen
import Verif.Proofs.PoisFAS
import Verif.Proofs.PoisConv
import Verif.Proofs.PoisTrunc
import Verif.Props.Multigrid
import Mathlib.Analysis.Real.Sqrt

set_option linter.unusedSectionVars false
set_option linter.unusedVariables false

namespace Madg
open Spec

/-- Quadratic form of the negative discrete Laplacian with zero boundary values. -/
def Spec.poisEnergy {K : Type} [Field K] (dx : K) (ni nj nk : Int) (v : Int × Int × Int → K) : K :=
  -sum3 ni nj nk fun i j k => v (i, j, k) * lap3 dx (extDirichlet ni nj nk (fun _ _ _ => 0) fun i j k => v (i, j, k)) i j k

/-- `u` solves the discrete problem with boundary values and source from `e`. -/
def Spec.PoisSolves {K : Type} [Field K] (dx : K) (ni nj nk : Int) (e : Int → Int → Int → K) (u : Int × Int × Int → K) : Prop :=
  ∀ i j k, (0 ≤ i ∧ i < ni) → (0 ≤ j ∧ j < nj) → (0 ≤ k ∧ k < nk) → poisRhs dx ni nj nk e (fun i j k => u (i, j, k)) i j k = 0

section
variable {A K : Type} [DecidableEq A] [Field K] [LinearOrder K] [IsStrictOrderedRing K]
  {nlev : Nat} {g : Nat → Grid3} {bx bY bz : BCType} {G : Nat → Geom3} {mode : String}
  {arr : Nat → MGRole → A} {co : Nat → Fin 3 → A} {sz : A → Int}

variable (hH : PHierOk nlev g bx bY bz G mode arr co sz) (dx : Nat → K) (sn cs : K → K) (cfl rf rc : K) (un : Bool)
  (M : MG A K) (hMdef : M = poissonMG nlev G dx sn cs co arr mode cfl rf rc un) (m : Mem A K) (E : Nat → Int → Int → Int → K)
  (hE : ∀ ℓ i j k, E ℓ i j k = sn (m (co ℓ 0) ((g ℓ).at3 i j k)) * cs (m (co ℓ 1) ((g ℓ).at3 i j k)) * cs (m (co ℓ 2) ((g ℓ).at3 i j k)))
include hH hMdef hE

/-- C79. One cycle on the Poisson problem with at least one smoothing pass is one V-cycle of the full approximation scheme whose
boundary values and sources come from the coordinate arrays of the levels, whatever the other arrays hold and for every thread
schedule and reduction order. The coordinate arrays keep their contents. -/
theorem C79_cycle (hL : nlev ≤ 6) (n : Nat) (hn : 1 ≤ n) (cyc : List Int) (hcyc : getMGCycle nlev n = .ok cyc)
    (dt time : K) (hdt : un = true → dt ≠ 0) (dts : Nat → K) (u s old : Int × Int × Int → K)
    (hu : ∀ c, In3 (g 0).ni (g 0).nj (g 0).nk c → m (arr 0 .state) ((g 0).at3 c.1 c.2.1 c.2.2) = u c)
    (ho : ∀ c, In3 (g 0).ni (g 0).nj (g 0).nk c → m (arr 0 .old) ((g 0).at3 c.1 c.2.1 c.2.2) = old c)
    (us : (Int × Int × Int → K) × (Int × Int × Int → K))
    (hus : us = (poisFas g E dx mode cfl rf rc).cycle n dts (nlev - 1) 0
      (fun w c => poisRhs (dx 0) (g 0).ni (g 0).nj (g 0).nk (E 0) (fun i j k => w (i, j, k)) c.1 c.2.1 c.2.2 -
        if un then (w c - old c) / dt else 0) (u, s)) :
    ∃ dts' m', CDet sz (M.stages dt time cyc ⟨0, dts⟩) m ⟨0, dts'⟩ m' ∧
      (∀ c, In3 (g 0).ni (g 0).nj (g 0).nk c → m' (arr 0 .state) ((g 0).at3 c.1 c.2.1 c.2.2) = us.1 c ∧
        m' (arr 0 .dstate) ((g 0).at3 c.1 c.2.1 c.2.2) = us.2 c ∧
        m' (arr 0 .old) ((g 0).at3 c.1 c.2.1 c.2.2) = old c) ∧
      (∀ i j k, (g 0).Pad i j k → m' (arr 0 .state) ((g 0).at3 i j k) =
        extDirichlet (g 0).ni (g 0).nj (g 0).nk (E 0) (fun i j k => us.1 (i, j, k)) i j k) ∧
      (∀ ℓ, ℓ < nlev → dts' ℓ = cfl * dx ℓ ^ 2) ∧ (∀ ℓ x, m' (co ℓ x) = m (co ℓ x)) := by
  have hE' : E = coordE sn cs g co m := by funext ℓ i j k; exact hE ℓ i j k
  have hM := poissonMG_ok hH dx sn cs cfl rf rc un m
  have hS := poissonMG_implements hH dx sn cs cfl rf rc un m
  rw [← hMdef, ← hE'] at hM hS
  have hnl : M.nlev = nlev := by rw [hMdef]; rfl
  have ha : M.arr = arr := by rw [hMdef]; rfl
  have hun : M.unsteady = un := by rw [hMdef]; rfl
  have hp := hH.pos
  rw [getMGCycle_eq (by omega) (by omega) (by omega), show ((nlev : Int) - 1).toNat = nlev - 1 by omega] at hcyc
  cases hcyc
  rw [← ha] at hu ho ⊢
  obtain ⟨dts', m', d, hx, q, t, e⟩ := mg_cycle hM hS (d := nlev - 1) (by omega) n hn dt time dts dts (fun _ _ => rfl) m
    (coordFx_holds co m) (u, s) old hu ho us (by rw [hus, hun]; rfl)
  have hsz : M.size 0 = (g 0).size := by rw [hMdef]; exact congrArg Grid3.size (hH.levels 0 hp).2.2.1
  refine ⟨dts', m', d, q, fun i j k hp => ?_, fun ℓ hℓ => ?_, fun ℓ x => hx _ _ (coordFx_co co m ℓ x)⟩
  · obtain ⟨b0, b1⟩ := Grid3.at3_bounds hp
    obtain ⟨g1, g2, g3⟩ := Grid3.get_at3 hp
    rw [t _ b0 (by rw [hsz]; exact b1)]
    show fillP (g 0) (E 0) us.1 _ = _
    unfold fillP
    rw [g1, g2, g3]
  · rw [e ℓ (by omega), hMdef]; rfl

/-- C79. A state that solves the equation of the step is kept by the cycle, and the residual it leaves is zero. -/
theorem C79_solution_kept (hL : nlev ≤ 6) (n : Nat) (hn : 1 ≤ n) (cyc : List Int) (hcyc : getMGCycle nlev n = .ok cyc)
    (dt time : K) (hdt : un = true → dt ≠ 0) (dts : Nat → K) (u old : Int × Int × Int → K)
    (hu : ∀ c, In3 (g 0).ni (g 0).nj (g 0).nk c → m (arr 0 .state) ((g 0).at3 c.1 c.2.1 c.2.2) = u c)
    (ho : ∀ c, In3 (g 0).ni (g 0).nj (g 0).nk c → m (arr 0 .old) ((g 0).at3 c.1 c.2.1 c.2.2) = old c)
    (hsol : ∀ c, In3 (g 0).ni (g 0).nj (g 0).nk c →
      poisRhs (dx 0) (g 0).ni (g 0).nj (g 0).nk (E 0) (fun i j k => u (i, j, k)) c.1 c.2.1 c.2.2 = if un then (u c - old c) / dt else 0) :
    ∃ dts' m', CDet sz (M.stages dt time cyc ⟨0, dts⟩) m ⟨0, dts'⟩ m' ∧
      (∀ c, In3 (g 0).ni (g 0).nj (g 0).nk c → m' (arr 0 .state) ((g 0).at3 c.1 c.2.1 c.2.2) = u c ∧
        m' (arr 0 .dstate) ((g 0).at3 c.1 c.2.1 c.2.2) = 0) := by
  have hE' : E = coordE sn cs g co m := by funext ℓ i j k; exact hE ℓ i j k
  have hM := poissonMG_ok hH dx sn cs cfl rf rc un m
  rw [← hMdef, ← hE'] at hM
  have hnl : M.nlev = nlev := by rw [hMdef]; rfl
  have ha : M.arr = arr := by rw [hMdef]; rfl
  have hun : M.unsteady = un := by rw [hMdef]; rfl
  have hp := hH.pos
  rw [getMGCycle_eq (by omega) (by omega) (by omega), show ((nlev : Int) - 1).toNat = nlev - 1 by omega] at hcyc
  cases hcyc
  rw [← ha] at hu ho ⊢
  obtain ⟨dts', m', d, -, q⟩ := mg_fixed hM (d := nlev - 1) (by omega) n hn dt time dts m
    (coordFx_holds co m) u old hu ho (by rw [hun]; exact hsol)
  exact ⟨dts', m', d, fun c hc => ⟨(q c hc).1, (q c hc).2.2⟩⟩

/-- C79. A whole step of the multigrid integrator on the Poisson problem: V-cycles from the old state until the tested norm has
fallen by the tolerance or the cycles are used up. -/
theorem C79_time_step (hL : nlev ≤ 6) (n : Nat) (hn : 1 ≤ n) (cyc : List Int) (hcyc : getMGCycle nlev n = .ok cyc)
    (rt : K → K) (tol : K) (maxCycles : Int) (time dt : K) (hdt : un = true → dt ≠ 0) (dts : Nat → K)
    (u : Int × Int × Int → K)
    (hu : ∀ c, In3 (g 0).ni (g 0).nj (g 0).nk c → m (arr 0 .state) ((g 0).at3 c.1 c.2.1 c.2.2) = u c)
    (U : Nat → (Int × Int × Int → K) × (Int × Int × Int → K))
    (hU : U = (poisFas g E dx mode cfl rf rc).iterate n (nlev - 1) dts
      (fun w c => poisRhs (dx 0) (g 0).ni (g 0).nj (g 0).nk (E 0) (fun i j k => w (i, j, k)) c.1 c.2.1 c.2.2 -
        if un then (w c - u c) / dt else 0)
      (u, fun c => poisRhs (dx 0) (g 0).ni (g 0).nj (g 0).nk (E 0) (fun i j k => u (i, j, k)) c.1 c.2.1 c.2.2))
    (res : Nat → K) (hres : ∀ i, res i = rt (sum3 (g 0).ni (g 0).nj (g 0).nk (fun x y z => (U i).2 (x, y, z) ^ 2) /
      ((g 0).ni * (g 0).nj * (g 0).nk : K))) :
    ∃ (rep : MGReport K) (m' : Mem A K), CDet sz (M.doTimeStep cyc rt tol maxCycles time dt dts) m rep m' ∧
      (∀ ℓ x, m' (co ℓ x) = m (co ℓ x)) ∧
      (rep.cycles ≠ 0 ↔ ∃ k : Nat, (k : Int) < maxCycles ∧ res 0 ≠ 0 ∧ res (k + 1) / res 0 ≤ tol) ∧
      (rep.cycles ≠ 0 → rep.resN = res rep.cycles ∧ res rep.cycles / res 0 ≤ tol ∧
        (∀ i, i + 1 < rep.cycles → ¬ (res (i + 1) / res 0 ≤ tol)) ∧
        ∀ c, In3 (g 0).ni (g 0).nj (g 0).nk c → m' (arr 0 .state) ((g 0).at3 c.1 c.2.1 c.2.2) = (U rep.cycles).1 c) ∧
      (rep.cycles = 0 → rep.resN = res maxCycles.toNat ∧
        ∀ c, In3 (g 0).ni (g 0).nj (g 0).nk c → m' (arr 0 .state) ((g 0).at3 c.1 c.2.1 c.2.2) = (U maxCycles.toNat).1 c) ∧
      (1 ≤ maxCycles → ∀ ℓ, ℓ < nlev → rep.dts ℓ = cfl * dx ℓ ^ 2) ∧ (maxCycles ≤ 0 → rep.dts = dts) := by
  have hE' : E = coordE sn cs g co m := by funext ℓ i j k; exact hE ℓ i j k
  have hM := poissonMG_ok hH dx sn cs cfl rf rc un m
  have hS := poissonMG_implements hH dx sn cs cfl rf rc un m
  rw [← hMdef, ← hE'] at hM hS
  have hnl : M.nlev = nlev := by rw [hMdef]; rfl
  have ha : M.arr = arr := by rw [hMdef]; rfl
  have hun : M.unsteady = un := by rw [hMdef]; rfl
  have hp := hH.pos
  have hNrm : ∀ μ, M.norm rt μ = rt (sum3 (g 0).ni (g 0).nj (g 0).nk (fun i j k => μ (arr 0 .dstate) ((g 0).at3 i j k) ^ 2) /
      ((g 0).ni * (g 0).nj * (g 0).nk : K)) := by
    intro μ
    obtain ⟨-, o, e, -⟩ := hH.levels 0 hH.pos
    rw [hMdef]
    unfold MG.norm poissonMG
    dsimp only
    rw [o.int_sum, o.length_int', e]
  rw [getMGCycle_eq (by omega) (by omega) (by omega), show ((nlev : Int) - 1).toNat = nlev - 1 by omega] at hcyc
  cases hcyc
  obtain ⟨rep, m', d, hx, q⟩ := mg_time_step hM hS (d := nlev - 1) (by omega) n hn rt tol maxCycles time dt (by rw [hun]; exact hdt) dts dts
    (fun _ _ => rfl) m
    (coordFx_holds co m) u (by rw [ha]; exact hu) U (by rw [hU, hun]; rfl) res (fun μ i h => by
      rw [hNrm, hres]
      congr 2
      exact sum3_congr fun x y z hx hy hz => by
        have := h (x, y, z) ⟨hx, hy, hz⟩
        rw [ha] at this
        dsimp only at this
        rw [this])
  rw [ha, hnl] at q
  refine ⟨rep, m', d, fun ℓ x => hx _ _ (coordFx_co co m ℓ x), q.1, q.2.1, q.2.2.1, fun h ℓ hℓ => ?_, q.2.2.2.2.1⟩
  rw [q.2.2.2.1 h ℓ hℓ, hMdef]; rfl

end

section
variable {K : Type} [Field K] [LinearOrder K] [IsStrictOrderedRing K]

/-- C80. The discrete Poisson problem has exactly one solution, whatever boundary values and sources. -/
theorem C80_unique_solution (dx : K) (hdx : dx ≠ 0) (ni nj nk : Int) (hi : 1 ≤ ni) (hj : 1 ≤ nj) (hk : 1 ≤ nk)
    (e : Int → Int → Int → K) :
    ∃ u : Int × Int × Int → K, PoisSolves dx ni nj nk e u ∧
      ∀ v, PoisSolves dx ni nj nk e v → ∀ i j k, (0 ≤ i ∧ i < ni) → (0 ≤ j ∧ j < nj) → (0 ≤ k ∧ k < nk) → v (i, j, k) = u (i, j, k) := by
  obtain ⟨u, hu⟩ := pois_solution hdx hi hj hk e
  exact ⟨u, fun i j k a b c => hu (i, j, k) ⟨a, b, c⟩, fun v hv i j k a b c =>
    pois_unique hdx hi hj hk e v u (fun c hc => hv _ _ _ hc.1 hc.2.1 hc.2.2) hu (i, j, k) ⟨a, b, c⟩⟩

theorem pois_phi {dx : K} {ni nj nk : Int} {e : Int → Int → Int → K} {us : Int × Int × Int → K} (hus : PoisSolves dx ni nj nk e us)
    (w : Int × Int × Int → K) (c : Int × Int × Int) (hc : In3 ni nj nk c) :
    poisRhs dx ni nj nk e (fun i j k => w (i, j, k)) c.1 c.2.1 c.2.2 - (if false then (w c - w c) / 0 else 0) =
      lapL dx ni nj nk (w - us) c := by
  rw [← poisRhs_sub dx ni nj nk e w us c, hus _ _ _ hc.1 hc.2.1 hc.2.2]
  simp

/-- C80. After every cycle on the steady problem the error is bounded by the residual the solver reports, with a constant that
depends on the height of the domain only: for any number of levels, both prolongations, any relaxation and any earlier steps. -/
theorem C80_residual_bounds_error (g : Nat → Grid3) (e : Nat → Int → Int → Int → K) (dx : Nat → K) (mode : String) (cfl rf rc : K)
    (hdx : dx 0 ≠ 0) (hc : 0 < cfl) (hc1 : cfl ≤ 1 / 5) (hi : 1 ≤ (g 0).ni) (hj : 1 ≤ (g 0).nj) (hk : 1 ≤ (g 0).nk)
    (n : Nat) (hn : 1 ≤ n) (d : Nat) (dts : Nat → K) (us0 : (Int × Int × Int → K) × (Int × Int × Int → K))
    (U : Nat → (Int × Int × Int → K) × (Int × Int × Int → K))
    (hU : U = (poisFas g e dx mode cfl rf rc).iterate n d dts
      (fun w c => poisRhs (dx 0) (g 0).ni (g 0).nj (g 0).nk (e 0) (fun i j k => w (i, j, k)) c.1 c.2.1 c.2.2) us0)
    (us : Int × Int × Int → K) (hus : PoisSolves (dx 0) (g 0).ni (g 0).nj (g 0).nk (e 0) us) (i : Nat) :
    sum3 (g 0).ni (g 0).nj (g 0).nk (fun x y z => ((U (i + 1)).1 (x, y, z) - us (x, y, z)) ^ 2) ≤
      64 / 25 * (((g 0).nk : K) * dx 0) ^ 4 * sum3 (g 0).ni (g 0).nj (g 0).nk (fun x y z => (U (i + 1)).2 (x, y, z) ^ 2) := by
  have h := cycle_slope_bound (e := e) (mode := mode) (rf := rf) (rc := rc) hdx hc hc1 hi hj hk n hn
    (if i = 0 then dts else (poisFas g e dx mode cfl rf rc).dt) d
    (fun w c => poisRhs (dx 0) (g 0).ni (g 0).nj (g 0).nk (e 0) (fun i j k => w (i, j, k)) c.1 c.2.1 c.2.2) us
    (fun w c hc => by have := pois_phi hus w c hc; simpa using this) (U i) (U (i + 1)) (by rw [hU]; rfl)
  simp only [ipL_apply, Pi.sub_apply, ← sq] at h
  exact h

/-- C81. On the steady problem with piecewise constant prolongation every cycle after the first reduces the energy of the error
by at least the factor `(1 - cfl / (8 nk²)) ^ (2 n)`, with any number of levels; the energy bounds the error itself, and the residual
of the next cycle. -/
theorem C81_contraction (nlev : Nat) (hp : 1 ≤ nlev) (g : Nat → Grid3) (e : Nat → Int → Int → Int → K) (dx : Nat → K) (cfl rf rc : K)
    (hext : ∀ ℓ, ℓ < nlev → 1 ≤ (g ℓ).ni ∧ 1 ≤ (g ℓ).nj ∧ 1 ≤ (g ℓ).nk)
    (hfine : ∀ ℓ, ℓ + 1 < nlev → (g ℓ).ni = 2 * (g (ℓ + 1)).ni ∧ (g ℓ).nj = 2 * (g (ℓ + 1)).nj ∧ (g ℓ).nk = 2 * (g (ℓ + 1)).nk)
    (hdx : dx 0 ≠ 0) (hdx2 : ∀ ℓ, ℓ + 1 < nlev → dx (ℓ + 1) = 2 * dx ℓ) (hc : 0 < cfl) (hc1 : cfl ≤ 1 / 5)
    (hrf : 0 ≤ rf ∧ rf ≤ 1) (hrc : 2 < nlev → 0 ≤ rc ∧ rc ≤ 1 / 2)
    (n : Nat) (hn : 1 ≤ n) (dts : Nat → K) (us0 : (Int × Int × Int → K) × (Int × Int × Int → K))
    (U : Nat → (Int × Int × Int → K) × (Int × Int × Int → K))
    (hU : U = (poisFas g e dx "nearest" cfl rf rc).iterate n (nlev - 1) dts
      (fun w c => poisRhs (dx 0) (g 0).ni (g 0).nj (g 0).nk (e 0) (fun i j k => w (i, j, k)) c.1 c.2.1 c.2.2) us0)
    (us : Int × Int × Int → K) (hus : PoisSolves (dx 0) (g 0).ni (g 0).nj (g 0).nk (e 0) us)
    (En : Nat → K) (hEn : ∀ i, En i = poisEnergy (dx 0) (g 0).ni (g 0).nj (g 0).nk (fun c => (U i).1 c - us c)) (i : Nat) :
    En (i + 2) ≤ (1 - cfl / (8 * ((g 0).nk : K) ^ 2)) ^ (2 * n) * En (i + 1) ∧
    sum3 (g 0).ni (g 0).nj (g 0).nk (fun x y z => ((U i).1 (x, y, z) - us (x, y, z)) ^ 2) ≤ (((g 0).nk : K) * dx 0) ^ 2 * En i ∧
    sum3 (g 0).ni (g 0).nj (g 0).nk (fun x y z => (U (i + 2)).2 (x, y, z) ^ 2) ≤
      4 * ((g 0).nk : K) ^ 2 / (cfl ^ 2 * dx 0 ^ 2) * En (i + 1) := by
  obtain ⟨hi, hj, hk⟩ := hext 0 (by omega)
  have hd : ∀ ℓ, ℓ < nlev → dx ℓ ≠ 0 := by
    intro ℓ
    induction ℓ with
    | zero => exact fun _ => hdx
    | succ ℓ ih => intro h; rw [hdx2 ℓ h]; exact mul_ne_zero two_ne_zero (ih (by omega))
  have hen : ∀ i, En i = dirForm (g 0).ni (g 0).nj (g 0).nk ((U i).1 - us) ((U i).1 - us) / dx 0 ^ 2 := by
    intro i
    rw [hEn]
    have := congrArg Neg.neg (dir_green (dx 0) hi hj hk ((U i).1 - us) ((U i).1 - us))
    rw [neg_neg] at this
    exact this
  have hd2 : (0 : K) < dx 0 ^ 2 := by positivity
  have h := cycle_contract hext hfine hd hdx2 hc hc1 hrf e n hn (nlev - 1) (by omega) (fun h => hrc (by omega))
    (fun w c => poisRhs (dx 0) (g 0).ni (g 0).nj (g 0).nk (e 0) (fun i j k => w (i, j, k)) c.1 c.2.1 c.2.2) us
    (fun w c hc => by have := pois_phi hus w c hc; simpa using this) (U (i + 1)) (U (i + 2)) (by rw [hU]; rfl)
  refine ⟨?_, ?_, ?_⟩
  · rw [hen, hen, ← mul_div_assoc]
    exact div_le_div_of_nonneg_right h.1 hd2.le
  · have h2 := dir_poincare hi hj hk ((U i).1 - us)
    simp only [ipL_apply, Pi.sub_apply, ← sq] at h2
    rw [hen]
    refine h2.trans (le_of_eq ?_)
    field_simp
  · have h2 := h.2
    simp only [ipL_apply, ← sq] at h2
    rw [hen]
    have e2 : 4 * ((g 0).nk : K) ^ 2 / (cfl ^ 2 * dx 0 ^ 2) *
        (dirForm (g 0).ni (g 0).nj (g 0).nk ((U (i + 1)).1 - us) ((U (i + 1)).1 - us) / dx 0 ^ 2) =
        4 * ((g 0).nk : K) ^ 2 * dirForm (g 0).ni (g 0).nj (g 0).nk ((U (i + 1)).1 - us) ((U (i + 1)).1 - us) / (cfl * dx 0 ^ 2) ^ 2 := by
      field_simp
    rw [e2, le_div_iff₀ (by positivity), mul_comm]
    exact h2

end

/-- C82. On a uniform grid whose x and y lengths are multiples of `2π` the solution of the discrete problem differs from the exact
solution `sin x cos y cos z` by at most `5/16 (nk dx)² dx²`, in the root mean square: second order, with a constant that depends
on the height of the domain only. -/
theorem C82_discretization_error (dx xb yb zb : ℝ) (hdx : 0 < dx) (hdx1 : dx ≤ 1) (ni nj nk : Int) (hi : 1 ≤ ni) (hj : 1 ≤ nj) (hk : 1 ≤ nk)
    (px py : ℤ) (hpx : (ni : ℝ) * dx = px * (2 * Real.pi)) (hpy : (nj : ℝ) * dx = py * (2 * Real.pi)) (e : Int → Int → Int → ℝ)
    (he : ∀ i j k : Int, (-1 ≤ i ∧ i < ni + 1) → (-1 ≤ j ∧ j < nj + 1) → (-1 ≤ k ∧ k < nk + 1) → e i j k =
      Real.sin (xb + (i + 1 / 2) * dx) * Real.cos (yb + (j + 1 / 2) * dx) * Real.cos (zb + (k + 1 / 2) * dx))
    (us : Int × Int × Int → ℝ) (hus : PoisSolves dx ni nj nk e us) :
    Real.sqrt (sum3 ni nj nk (fun i j k => (us (i, j, k) - e i j k) ^ 2) / (ni * nj * nk : ℝ)) ≤ 5 / 16 * ((nk : ℝ) * dx) ^ 2 * dx ^ 2 := by
  have h1 : (0 : ℝ) < ni := by exact_mod_cast (show 0 < ni by omega)
  have h2 : (0 : ℝ) < nj := by exact_mod_cast (show 0 < nj by omega)
  have h3 : (0 : ℝ) < nk := by exact_mod_cast (show 0 < nk by omega)
  have tr := pois_truncation dx xb yb zb hdx px py hi hj hpx hpy e e he (fun _ _ _ _ _ _ => rfl)
  have st := lapL_stable hdx.ne' hi hj hk (us - fun c => e c.1 c.2.1 c.2.2)
  have hL : ∀ c, In3 ni nj nk c → lapL dx ni nj nk (us - fun c => e c.1 c.2.1 c.2.2) c = -poisRhs dx ni nj nk e e c.1 c.2.1 c.2.2 := by
    intro c hc
    rw [← poisRhs_sub dx ni nj nk e, hus _ _ _ hc.1 hc.2.1 hc.2.2, zero_sub]
  have b : sum3 ni nj nk (fun i j k => (us (i, j, k) - e i j k) ^ 2) ≤ ((nk : ℝ) * dx) ^ 4 * ((5 / 16 * dx ^ 2) ^ 2 * (ni * nj * nk)) := by
    simp only [ipL_apply, Pi.sub_apply, ← sq] at st
    refine st.trans (mul_le_mul_of_nonneg_left ?_ (by positivity))
    have : sum3 ni nj nk (fun _ _ _ => (5 / 16 * dx ^ 2) ^ 2) = (5 / 16 * dx ^ 2) ^ 2 * (ni * nj * nk) := by
      rw [sum3_const ni nj nk (by omega) (by omega) (by omega)]; push_cast; ring
    rw [← this]
    unfold sum3
    refine Finset.sum_le_sum fun i hi => Finset.sum_le_sum fun j hj => Finset.sum_le_sum fun k hk => ?_
    simp only [Finset.mem_Ico] at hi hj hk
    dsimp only
    rw [hL (i, j, k) ⟨hi, hj, hk⟩, neg_sq, ← sq_abs]
    exact pow_le_pow_left₀ (abs_nonneg _) ((tr i j k hi hj hk).2 hdx1) 2
  refine Real.sqrt_le_iff.2 ⟨by positivity, ?_⟩
  rw [div_le_iff₀ (by positivity)]
  refine b.trans (le_of_eq ?_)
  ring

section
variable {A : Type} [DecidableEq A] {nlev : Nat} {g : Nat → Grid3} {bx bY bz : BCType} {G : Nat → Geom3} {mode : String}
  {arr : Nat → MGRole → A} {co : Nat → Fin 3 → A} {sz : A → Int}

variable (hH : PHierOk nlev g bx bY bz G mode arr co sz) (dx : Nat → ℝ) (sn cs : ℝ → ℝ) (cfl rf rc : ℝ)
  (M : MG A ℝ) (hMdef : M = poissonMG nlev G dx sn cs co arr mode cfl rf rc false) (m : Mem A ℝ)
  (hdx : dx 0 ≠ 0) (hc : 0 < cfl) (hc1 : cfl ≤ 1 / 5) (hL : nlev ≤ 6) (n : Nat) (hn : 1 ≤ n) (cyc : List Int)
  (hcyc : getMGCycle nlev n = .ok cyc) (tol : ℝ) (time dt : ℝ) (dts : Nat → ℝ)
  (us : Int × Int × Int → ℝ)
  (hus : PoisSolves (dx 0) (g 0).ni (g 0).nj (g 0).nk (fun i j k => sn (m (co 0 0) ((g 0).at3 i j k)) *
    cs (m (co 0 1) ((g 0).at3 i j k)) * cs (m (co 0 2) ((g 0).at3 i j k))) us)
  (rms : (Int → Int → Int → ℝ) → ℝ)
  (hrms : ∀ v, rms v = Real.sqrt (sum3 (g 0).ni (g 0).nj (g 0).nk (fun i j k => v i j k ^ 2) / ((g 0).ni * (g 0).nj * (g 0).nk : ℝ)))
include hH hMdef hdx hc hc1 hL hn hcyc hus hrms

/-- C80. If the step of the steady problem reports convergence, the state differs from the solution of the discrete problem by at
most `8/5 (nk dx)²` times tolerance and initial residual, in the root mean square. -/
theorem C80_converged_accuracy (maxCycles : Int) :
    ∃ (rep : MGReport ℝ) (m' : Mem A ℝ), CDet sz (M.doTimeStep cyc Real.sqrt tol maxCycles time dt dts) m rep m' ∧
      (rep.cycles ≠ 0 → rms (fun i j k => m' (arr 0 .state) ((g 0).at3 i j k) - us (i, j, k)) ≤
        8 / 5 * (((g 0).nk : ℝ) * dx 0) ^ 2 * (tol * rms fun i j k => poisRhs (dx 0) (g 0).ni (g 0).nj (g 0).nk
          (fun i j k => sn (m (co 0 0) ((g 0).at3 i j k)) * cs (m (co 0 1) ((g 0).at3 i j k)) * cs (m (co 0 2) ((g 0).at3 i j k)))
          (fun i j k => m (arr 0 .state) ((g 0).at3 i j k)) i j k)) := by
  obtain ⟨hi, hj, hk⟩ := hH.ext 0 hH.pos
  set E : Nat → Int → Int → Int → ℝ := fun ℓ i j k => sn (m (co ℓ 0) ((g ℓ).at3 i j k)) *
    cs (m (co ℓ 1) ((g ℓ).at3 i j k)) * cs (m (co ℓ 2) ((g ℓ).at3 i j k)) with hE
  obtain ⟨rep, m', d, -, a, b, -⟩ := C79_time_step hH dx sn cs cfl rf rc false M hMdef m E (fun _ _ _ _ => rfl) hL n hn cyc hcyc
    Real.sqrt tol maxCycles time dt (fun h => absurd h Bool.false_ne_true) dts (fun c => m (arr 0 .state) ((g 0).at3 c.1 c.2.1 c.2.2)) (fun _ _ => rfl) _ rfl _ (fun _ => rfl)
  refine ⟨rep, m', d, fun h => ?_⟩
  obtain ⟨-, b2, -, b4⟩ := b h
  obtain ⟨k, -, r0, -⟩ := a.1 h
  set U := (poisFas g E dx mode cfl rf rc).iterate n (nlev - 1) dts
      (fun w c => poisRhs (dx 0) (g 0).ni (g 0).nj (g 0).nk (E 0) (fun i j k => w (i, j, k)) c.1 c.2.1 c.2.2 -
        if false = true then (w c - m (arr 0 .state) ((g 0).at3 c.1 c.2.1 c.2.2)) / dt else 0)
      (fun c => m (arr 0 .state) ((g 0).at3 c.1 c.2.1 c.2.2), fun c => poisRhs (dx 0) (g 0).ni (g 0).nj (g 0).nk (E 0)
        (fun i j k => m (arr 0 .state) ((g 0).at3 i j k)) c.1 c.2.1 c.2.2) with hU
  have hU' : U = (poisFas g E dx mode cfl rf rc).iterate n (nlev - 1) dts
      (fun w c => poisRhs (dx 0) (g 0).ni (g 0).nj (g 0).nk (E 0) (fun i j k => w (i, j, k)) c.1 c.2.1 c.2.2)
      (fun c => m (arr 0 .state) ((g 0).at3 c.1 c.2.1 c.2.2), fun c => poisRhs (dx 0) (g 0).ni (g 0).nj (g 0).nk (E 0)
        (fun i j k => m (arr 0 .state) ((g 0).at3 i j k)) c.1 c.2.1 c.2.2) := by
    rw [hU]; simp only [Bool.false_eq_true, if_false, sub_zero]
  obtain ⟨i, hi'⟩ : ∃ i, rep.cycles = i + 1 := Nat.exists_eq_succ_of_ne_zero h
  have key := C80_residual_bounds_error g E dx mode cfl rf rc hdx hc hc1 (by omega) (by omega) (by omega) n hn (nlev - 1) dts _ U hU'
    us hus i
  rw [← hi'] at key
  have hN : (0 : ℝ) < ((g 0).ni * (g 0).nj * (g 0).nk : ℝ) := by
    have h1 : (0 : ℝ) < (g 0).ni := by exact_mod_cast (show 0 < (g 0).ni by omega)
    have h2 : (0 : ℝ) < (g 0).nj := by exact_mod_cast (show 0 < (g 0).nj by omega)
    have h3 : (0 : ℝ) < (g 0).nk := by exact_mod_cast (show 0 < (g 0).nk by omega)
    positivity
  have e0 : rms (fun i j k => m' (arr 0 .state) ((g 0).at3 i j k) - us (i, j, k)) =
      Real.sqrt (sum3 (g 0).ni (g 0).nj (g 0).nk (fun x y z => ((U rep.cycles).1 (x, y, z) - us (x, y, z)) ^ 2) /
        ((g 0).ni * (g 0).nj * (g 0).nk : ℝ)) := by
    rw [hrms]
    congr 2
    exact sum3_congr fun x y z hx hy hz => by rw [b4 (x, y, z) ⟨hx, hy, hz⟩]
  have r0' := lt_of_le_of_ne (Real.sqrt_nonneg _) (Ne.symm r0)
  rw [div_le_iff₀ r0'] at b2
  rw [e0, hrms]
  refine le_trans ?_ (mul_le_mul_of_nonneg_left b2 (by positivity))
  rw [show 8 / 5 * (((g 0).nk : ℝ) * dx 0) ^ 2 = Real.sqrt (64 / 25 * (((g 0).nk : ℝ) * dx 0) ^ 4) by
    rw [show 64 / 25 * (((g 0).nk : ℝ) * dx 0) ^ 4 = (8 / 5 * (((g 0).nk : ℝ) * dx 0) ^ 2) ^ 2 by ring]
    exact (Real.sqrt_sq (by positivity)).symm, ← Real.sqrt_mul (by positivity)]
  refine Real.sqrt_le_sqrt ?_
  rw [← mul_div_assoc]
  exact div_le_div_of_nonneg_right key hN.le

omit hus in
/-- C82. End to end: if the step of the steady problem reports convergence, the state it leaves differs from the exact solution
`sin x cos y cos z` by at most `(nk dx)² (8/5 tol r + 5/16 dx²)`, `r` being the initial residual, in the root mean square. -/
theorem C82_solver_accuracy (hsn : sn = Real.sin) (hcs : cs = Real.cos) (maxCycles : Int) (hdx0 : 0 < dx 0) (hdx1 : dx 0 ≤ 1)
    (xb yb zb : ℝ) (px py : ℤ)
    (hpx : ((g 0).ni : ℝ) * dx 0 = px * (2 * Real.pi)) (hpy : ((g 0).nj : ℝ) * dx 0 = py * (2 * Real.pi))
    (hco : ∀ i j k : Int, (-2 ≤ i ∧ i < (g 0).ni + 2) → (-2 ≤ j ∧ j < (g 0).nj + 2) → (-2 ≤ k ∧ k < (g 0).nk + 2) →
      m (co 0 0) ((g 0).at3 i j k) = xb + (i + 1 / 2) * dx 0 ∧ m (co 0 1) ((g 0).at3 i j k) = yb + (j + 1 / 2) * dx 0 ∧
      m (co 0 2) ((g 0).at3 i j k) = zb + (k + 1 / 2) * dx 0) :
    ∃ (rep : MGReport ℝ) (m' : Mem A ℝ), CDet sz (M.doTimeStep cyc Real.sqrt tol maxCycles time dt dts) m rep m' ∧
      (rep.cycles ≠ 0 → rms (fun i j k => m' (arr 0 .state) ((g 0).at3 i j k) -
          Real.sin (xb + (i + 1 / 2) * dx 0) * Real.cos (yb + (j + 1 / 2) * dx 0) * Real.cos (zb + (k + 1 / 2) * dx 0)) ≤
        (((g 0).nk : ℝ) * dx 0) ^ 2 * (8 / 5 * (tol * rms fun i j k => poisRhs (dx 0) (g 0).ni (g 0).nj (g 0).nk
          (fun i j k => Real.sin (m (co 0 0) ((g 0).at3 i j k)) * Real.cos (m (co 0 1) ((g 0).at3 i j k)) * Real.cos (m (co 0 2) ((g 0).at3 i j k)))
          (fun i j k => m (arr 0 .state) ((g 0).at3 i j k)) i j k) + 5 / 16 * dx 0 ^ 2)) := by
  subst hsn hcs
  obtain ⟨hi, hj, hk⟩ := hH.ext 0 hH.pos
  obtain ⟨us, hus, -⟩ := C80_unique_solution (dx 0) hdx (g 0).ni (g 0).nj (g 0).nk (by omega) (by omega) (by omega)
    (fun i j k => Real.sin (m (co 0 0) ((g 0).at3 i j k)) * Real.cos (m (co 0 1) ((g 0).at3 i j k)) * Real.cos (m (co 0 2) ((g 0).at3 i j k)))
  obtain ⟨rep, m', d, a⟩ := C80_converged_accuracy hH dx Real.sin Real.cos cfl rf rc M hMdef m hdx hc hc1 hL n hn cyc hcyc tol time dt dts us hus
    rms hrms maxCycles
  refine ⟨rep, m', d, fun h => ?_⟩
  have b := C82_discretization_error (dx 0) xb yb zb hdx0 hdx1 (g 0).ni (g 0).nj (g 0).nk (by omega) (by omega) (by omega) px py hpx hpy _
    (fun i j k a b c => by
      obtain ⟨e1, e2, e3⟩ := hco i j k (by omega) (by omega) (by omega)
      show Real.sin _ * Real.cos _ * Real.cos _ = _
      rw [e1, e2, e3]) us hus
  have hN : (0 : ℝ) < ((g 0).ni * (g 0).nj * (g 0).nk : ℝ) := by
    have h1 : (0 : ℝ) < (g 0).ni := by exact_mod_cast (show 0 < (g 0).ni by omega)
    have h2 : (0 : ℝ) < (g 0).nj := by exact_mod_cast (show 0 < (g 0).nj by omega)
    have h3 : (0 : ℝ) < (g 0).nk := by exact_mod_cast (show 0 < (g 0).nk by omega)
    positivity
  have t := rms_triangle (ni := (g 0).ni) (nj := (g 0).nj) (nk := (g 0).nk) hN (fun i j k => m' (arr 0 .state) ((g 0).at3 i j k) - us (i, j, k))
    (fun i j k => us (i, j, k) - Real.sin (m (co 0 0) ((g 0).at3 i j k)) * Real.cos (m (co 0 1) ((g 0).at3 i j k)) * Real.cos (m (co 0 2) ((g 0).at3 i j k)))
  have a' := a h
  rw [hrms (fun i j k => m' (arr 0 .state) ((g 0).at3 i j k) - us (i, j, k))] at a'
  rw [hrms (fun i j k => m' (arr 0 .state) ((g 0).at3 i j k) - _)]
  have e0 : sum3 (g 0).ni (g 0).nj (g 0).nk (fun i j k => (m' (arr 0 .state) ((g 0).at3 i j k) -
          Real.sin (xb + (i + 1 / 2) * dx 0) * Real.cos (yb + (j + 1 / 2) * dx 0) * Real.cos (zb + (k + 1 / 2) * dx 0)) ^ 2) =
      sum3 (g 0).ni (g 0).nj (g 0).nk (fun i j k => (m' (arr 0 .state) ((g 0).at3 i j k) - us (i, j, k) + (us (i, j, k) -
        Real.sin (m (co 0 0) ((g 0).at3 i j k)) * Real.cos (m (co 0 1) ((g 0).at3 i j k)) * Real.cos (m (co 0 2) ((g 0).at3 i j k)))) ^ 2) :=
    sum3_congr fun i j k h1 h2 h3 => by
      obtain ⟨e1, e2, e3⟩ := hco i j k (by omega) (by omega) (by omega)
      rw [e1, e2, e3]; ring
  rw [e0]
  refine t.trans ?_
  linarith

omit hus hrms in
/-- C81. With piecewise constant prolongation, a positive tolerance and a state that is not yet a solution, the steady problem
converges: from some number of allowed cycles on, the step reports convergence. -/
theorem C81_converges (hmode : mode = "nearest") (hdx2 : ∀ ℓ, ℓ + 1 < nlev → dx (ℓ + 1) = 2 * dx ℓ) (hrf : 0 ≤ rf ∧ rf ≤ 1)
    (hrc : 2 < nlev → 0 ≤ rc ∧ rc ≤ 1 / 2) (htol : 0 < tol)
    (h0 : ¬ PoisSolves (dx 0) (g 0).ni (g 0).nj (g 0).nk (fun i j k => sn (m (co 0 0) ((g 0).at3 i j k)) *
      cs (m (co 0 1) ((g 0).at3 i j k)) * cs (m (co 0 2) ((g 0).at3 i j k))) (fun c => m (arr 0 .state) ((g 0).at3 c.1 c.2.1 c.2.2))) :
    ∃ N : Nat, ∀ maxCycles : Int, N ≤ maxCycles → ∃ (rep : MGReport ℝ) (m' : Mem A ℝ),
      CDet sz (M.doTimeStep cyc Real.sqrt tol maxCycles time dt dts) m rep m' ∧ rep.cycles ≠ 0 ∧ rep.cycles ≤ N := by
  subst hmode
  obtain ⟨hi, hj, hk⟩ := hH.ext 0 hH.pos
  have hp := hH.pos
  set E : Nat → Int → Int → Int → ℝ := fun ℓ i j k => sn (m (co ℓ 0) ((g ℓ).at3 i j k)) *
    cs (m (co ℓ 1) ((g ℓ).at3 i j k)) * cs (m (co ℓ 2) ((g ℓ).at3 i j k)) with hE
  obtain ⟨us, hus, -⟩ := C80_unique_solution (dx 0) hdx (g 0).ni (g 0).nj (g 0).nk (by omega) (by omega) (by omega) (E 0)
  set U := (poisFas g E dx "nearest" cfl rf rc).iterate n (nlev - 1) dts
      (fun w c => poisRhs (dx 0) (g 0).ni (g 0).nj (g 0).nk (E 0) (fun i j k => w (i, j, k)) c.1 c.2.1 c.2.2 -
        if false = true then (w c - m (arr 0 .state) ((g 0).at3 c.1 c.2.1 c.2.2)) / dt else 0)
      (fun c => m (arr 0 .state) ((g 0).at3 c.1 c.2.1 c.2.2), fun c => poisRhs (dx 0) (g 0).ni (g 0).nj (g 0).nk (E 0)
        (fun i j k => m (arr 0 .state) ((g 0).at3 i j k)) c.1 c.2.1 c.2.2) with hU
  have hU' : U = (poisFas g E dx "nearest" cfl rf rc).iterate n (nlev - 1) dts
      (fun w c => poisRhs (dx 0) (g 0).ni (g 0).nj (g 0).nk (E 0) (fun i j k => w (i, j, k)) c.1 c.2.1 c.2.2)
      (fun c => m (arr 0 .state) ((g 0).at3 c.1 c.2.1 c.2.2), fun c => poisRhs (dx 0) (g 0).ni (g 0).nj (g 0).nk (E 0)
        (fun i j k => m (arr 0 .state) ((g 0).at3 i j k)) c.1 c.2.1 c.2.2) := by
    rw [hU]; simp only [Bool.false_eq_true, if_false, sub_zero]
  have con := C81_contraction nlev hp g E dx cfl rf rc (fun ℓ hℓ => by have := hH.ext ℓ hℓ; omega)
    (fun ℓ hℓ => by
      obtain ⟨q1, q2, q3, -⟩ := (hH.levels ℓ (by omega)).2.2.2 hℓ
      exact ⟨q1, q2, q3⟩) hdx hdx2 hc hc1 hrf hrc n hn dts _ U hU' us hus _ (fun _ => rfl)
  set En : Nat → ℝ := fun i => poisEnergy (dx 0) (g 0).ni (g 0).nj (g 0).nk (fun c => (U i).1 c - us c) with hEn
  set ρ := (1 - cfl / (8 * ((g 0).nk : ℝ) ^ 2)) ^ (2 * n) with hρ
  have hnk : (1 : ℝ) ≤ (g 0).nk := by exact_mod_cast (show 1 ≤ (g 0).nk by omega)
  have hN : (0 : ℝ) < ((g 0).ni * (g 0).nj * (g 0).nk : ℝ) := by
    have h1 : (0 : ℝ) < (g 0).ni := by exact_mod_cast (show 0 < (g 0).ni by omega)
    have h2 : (0 : ℝ) < (g 0).nj := by exact_mod_cast (show 0 < (g 0).nj by omega)
    positivity
  have hq : 0 < cfl / (8 * ((g 0).nk : ℝ) ^ 2) ∧ cfl / (8 * ((g 0).nk : ℝ) ^ 2) < 1 := by
    refine ⟨by positivity, ?_⟩
    rw [div_lt_one (by positivity)]
    have : (1 : ℝ) ≤ ((g 0).nk : ℝ) ^ 2 := one_le_pow₀ hnk
    linarith
  have ρ0 : 0 ≤ ρ := pow_nonneg (by linarith [hq.2]) _
  have ρ1 : ρ < 1 := pow_lt_one₀ (by linarith [hq.2]) (by linarith [hq.1]) (by omega)
  have dec : ∀ i, En (i + 1) ≤ ρ ^ i * En 1 := by
    intro i
    induction i with
    | zero => simp
    | succ i ih =>
      refine (con i).1.trans ?_
      rw [pow_succ', mul_assoc]
      exact mul_le_mul_of_nonneg_left ih ρ0
  set res : Nat → ℝ := fun i => Real.sqrt (sum3 (g 0).ni (g 0).nj (g 0).nk (fun x y z => (U i).2 (x, y, z) ^ 2) /
      ((g 0).ni * (g 0).nj * (g 0).nk : ℝ)) with hres
  have r0 : 0 < res 0 := by
    rw [hres]
    refine Real.sqrt_pos.2 (div_pos ?_ hN)
    unfold PoisSolves at h0
    push Not at h0
    obtain ⟨i, j, k, a, b, c, h⟩ := h0
    have := ipL_point (U 0).2 (c := (i, j, k)) ⟨a, b, c⟩
    simp only [ipL_apply, ← sq] at this
    refine lt_of_lt_of_le ?_ this
    exact sq_pos_of_ne_zero h
  -- the residual tends to zero
  set C := 4 * ((g 0).nk : ℝ) ^ 2 / (cfl ^ 2 * dx 0 ^ 2) with hC
  have hC0 : 0 < C := by positivity
  set target := (tol * res 0) ^ 2 * ((g 0).ni * (g 0).nj * (g 0).nk : ℝ) with ht
  have ht0 : 0 < target := by positivity
  obtain ⟨i, hi'⟩ : ∃ i : Nat, C * (ρ ^ i * En 1) ≤ target := by
    rcases le_or_gt (En 1) 0 with h | h
    · exact ⟨0, le_trans (by simpa using mul_nonpos_of_nonneg_of_nonpos hC0.le h) ht0.le⟩
    · obtain ⟨i, hi⟩ := exists_pow_lt_of_lt_one (show 0 < target / (C * En 1) by positivity) ρ1
      refine ⟨i, ?_⟩
      rw [lt_div_iff₀ (by positivity)] at hi
      linarith
  have small : res (i + 2) ≤ tol * res 0 := by
    refine Real.sqrt_le_iff.2 ⟨by positivity, ?_⟩
    rw [div_le_iff₀ hN]
    exact (con i).2.2.trans ((mul_le_mul_of_nonneg_left (dec i) hC0.le).trans hi')
  refine ⟨i + 2, fun maxCycles hm => ?_⟩
  obtain ⟨rep, m', d, -, a, b, -⟩ := C79_time_step hH dx sn cs cfl rf rc false M hMdef m E (fun _ _ _ _ => rfl) hL n hn cyc hcyc
    Real.sqrt tol maxCycles time dt (fun h => absurd h Bool.false_ne_true) dts (fun c => m (arr 0 .state) ((g 0).at3 c.1 c.2.1 c.2.2)) (fun _ _ => rfl) U hU res (fun _ => rfl)
  have hcv : rep.cycles ≠ 0 := a.2 ⟨i + 1, by push_cast at hm ⊢; omega, r0.ne', by rw [div_le_iff₀ r0]; exact small⟩
  refine ⟨rep, m', d, hcv, ?_⟩
  by_contra hgt
  exact (b hcv).2.2.1 (i + 1) (by omega) (by rw [div_le_iff₀ r0]; exact small)

end

theorem phier_example : ∃ (G : Nat → Geom3) (arr : Nat → MGRole → Nat × (MGRole ⊕ Fin 3)) (co : Nat → Fin 3 → Nat × (MGRole ⊕ Fin 3))
    (sz : Nat × (MGRole ⊕ Fin 3) → Int),
    PHierOk 2 (fun ℓ => levelGrid ⟨8, 8, 4, 2⟩ (min ℓ 1)) .periodic .periodic .dirichlet G "nearest" arr co sz ∧
    (∀ ℓ x, co ℓ x = (ℓ, .inr x)) := by
  have ok : ∀ ℓ, (levelGrid ⟨8, 8, 4, 2⟩ (min ℓ 1)).Ok := fun ℓ => by
    have : min ℓ 1 = 0 ∨ min ℓ 1 = 1 := by omega
    rcases this with h | h <;> rw [h] <;> exact ⟨by decide, by decide, by decide, by decide⟩
  refine ⟨fun ℓ => _, fun ℓ ρ => (ℓ, .inl ρ), fun ℓ x => (ℓ, .inr x),
    fun a => (levelGrid ⟨8, 8, 4, 2⟩ (min a.1 1)).size,
    ⟨by decide, rfl, fun ℓ hℓ => ?_, fun ℓ hℓ => ?_, fun ℓ _ => mkGeom3_ok (ok ℓ) _ _ _, by decide,
      fun i ρ j σ e => (by cases e; exact ⟨rfl, rfl⟩),
      fun i ρ j x e => (by cases e), fun _ _ _ => rfl, fun _ _ _ => rfl⟩, fun _ _ => rfl⟩
  · have : ℓ = 0 ∨ ℓ = 1 := by omega
    rcases this with rfl | rfl <;> decide
  · have : ℓ = 0 := by omega
    subst this; rfl

/-- The hypotheses of `C79_cycle`, `C79_time_step`, `C80_converged_accuracy`, `C81_contraction` and `C81_converges` hold together: two levels, two
smoothing passes, `cfl = 1/5`, relaxation `9/10`, a state that does not solve the problem. -/
example : ∃ (g : Nat → Grid3) (G : Nat → Geom3) (arr : Nat → MGRole → Nat × (MGRole ⊕ Fin 3)) (co : Nat → Fin 3 → Nat × (MGRole ⊕ Fin 3))
    (sz : Nat × (MGRole ⊕ Fin 3) → Int) (dx : Nat → ℝ) (m : Mem (Nat × (MGRole ⊕ Fin 3)) ℝ) (us : Int × Int × Int → ℝ),
    PHierOk 2 g .periodic .periodic .dirichlet G "nearest" arr co sz ∧ (∃ cyc, getMGCycle (2 : Nat) (2 : Nat) = .ok cyc) ∧
    dx 0 ≠ 0 ∧ (∀ ℓ, ℓ + 1 < 2 → dx (ℓ + 1) = 2 * dx ℓ) ∧ (0 : ℝ) < 1 / 5 ∧ (1 / 5 : ℝ) ≤ 1 / 5 ∧ ((0 : ℝ) ≤ 9 / 10 ∧ (9 / 10 : ℝ) ≤ 1) ∧
    PoisSolves (dx 0) (g 0).ni (g 0).nj (g 0).nk (fun i j k => id (m (co 0 0) ((g 0).at3 i j k)) *
      id (m (co 0 1) ((g 0).at3 i j k)) * id (m (co 0 2) ((g 0).at3 i j k))) us ∧
    ¬ PoisSolves (dx 0) (g 0).ni (g 0).nj (g 0).nk (fun i j k => id (m (co 0 0) ((g 0).at3 i j k)) *
      id (m (co 0 1) ((g 0).at3 i j k)) * id (m (co 0 2) ((g 0).at3 i j k))) (fun c => m (arr 0 .state) ((g 0).at3 c.1 c.2.1 c.2.2)) := by
  obtain ⟨G, arr, co, sz, h, -⟩ := phier_example
  obtain ⟨us, hus, -⟩ := C80_unique_solution (1 : ℝ) one_ne_zero 8 8 4 (by decide) (by decide) (by decide) (fun _ _ _ => 1)
  refine ⟨_, G, arr, co, sz, fun ℓ => 2 ^ ℓ, fun _ _ => 1, us, h, ⟨_, rfl⟩, by norm_num, fun ℓ _ => by ring, by norm_num, le_rfl,
    by norm_num, ?_, ?_⟩
  · simp only [id, mul_one, pow_zero]; exact hus
  · intro h
    have := h 0 0 0 (by decide) (by decide) (by decide)
    simp only [poisRhs, lap3, d2x, d2y, d2z, extDirichlet, id, mul_one, ite_self] at this
    norm_num at this

/-- The coordinates `C82_solver_accuracy` asks for, with `dx = π / 4` and eight cells in x and y. -/
example : ∃ (G : Nat → Geom3) (arr : Nat → MGRole → Nat × (MGRole ⊕ Fin 3)) (co : Nat → Fin 3 → Nat × (MGRole ⊕ Fin 3))
    (sz : Nat × (MGRole ⊕ Fin 3) → Int) (m : Mem (Nat × (MGRole ⊕ Fin 3)) ℝ) (g : Nat → Grid3) (dx : ℝ),
    PHierOk 2 g .periodic .periodic .dirichlet G "nearest" arr co sz ∧ 0 < dx ∧ dx ≤ 1 ∧
    ((g 0).ni : ℝ) * dx = (1 : ℤ) * (2 * Real.pi) ∧ ((g 0).nj : ℝ) * dx = (1 : ℤ) * (2 * Real.pi) ∧
    (∀ i j k : Int, (-2 ≤ i ∧ i < (g 0).ni + 2) → (-2 ≤ j ∧ j < (g 0).nj + 2) → (-2 ≤ k ∧ k < (g 0).nk + 2) →
      m (co 0 0) ((g 0).at3 i j k) = 0 + (i + 1 / 2) * dx ∧ m (co 0 1) ((g 0).at3 i j k) = 0 + (j + 1 / 2) * dx ∧
      m (co 0 2) ((g 0).at3 i j k) = 0 + (k + 1 / 2) * dx) := by
  obtain ⟨G, arr, co, sz, h, hco⟩ := phier_example
  let g0 : Grid3 := ⟨8, 8, 4, 2⟩
  refine ⟨G, arr, co, sz, fun a n => (0 : ℝ) + (((match a.2 with
    | .inr 0 => g0.getI n | .inr 1 => g0.getJ n | _ => g0.getK n : Int) : ℝ) + 1 / 2) * (Real.pi / 4), _, Real.pi / 4, h,
    by positivity, by linarith [Real.pi_le_four], ?_, ?_, ?_⟩
  · show (((8 : ℤ)) : ℝ) * _ = _; push_cast; ring
  · show (((8 : ℤ)) : ℝ) * _ = _; push_cast; ring
  · intro i j k h1 h2 h3
    have hp : g0.Pad i j k := by
      have e1 : (levelGrid ⟨8, 8, 4, 2⟩ (min 0 1)).ni = 8 := rfl
      have e2 : (levelGrid ⟨8, 8, 4, 2⟩ (min 0 1)).nj = 8 := rfl
      have e3 : (levelGrid ⟨8, 8, 4, 2⟩ (min 0 1)).nk = 4 := rfl
      simp only [Grid3.Pad, g0]; omega
    obtain ⟨e1, e2, e3⟩ := Grid3.get_at3 hp
    simp only [hco]
    refine ⟨?_, ?_, ?_⟩
    · show (0 : ℝ) + (((g0.getI (g0.at3 i j k) : ℤ) : ℝ) + 1 / 2) * _ = _; rw [e1]
    · show (0 : ℝ) + (((g0.getJ (g0.at3 i j k) : ℤ) : ℝ) + 1 / 2) * _ = _; rw [e2]
    · show (0 : ℝ) + (((g0.getK (g0.at3 i j k) : ℤ) : ℝ) + 1 / 2) * _ = _; rw [e3]

end Madg
