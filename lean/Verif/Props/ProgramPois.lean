/-
C91: whole runs of the Poisson problem with the explicit integrators.
-/
import Verif.Proofs.ProgramPois
import Verif.Proofs.PoisRK
import Verif.Props.ProgramMGRestart

set_option linter.unusedSectionVars false
set_option linter.unusedVariables false

namespace Madg
open Spec

/-! ### Accuracy -/

theorem cellsR_pos {nx ny nz : Int} (hn : 1 ≤ nx ∧ 1 ≤ ny ∧ 1 ≤ nz) : (0 : ℝ) < (nx : ℝ) * ny * nz := by
  have h1 : (0 : ℝ) < nx := by exact_mod_cast (show 0 < nx by omega)
  have h2 : (0 : ℝ) < ny := by exact_mod_cast (show 0 < ny by omega)
  have h3 : (0 : ℝ) < nz := by exact_mod_cast (show 0 < nz by omega)
  positivity

theorem rms3_ipL (nx ny nz : Int) (v : Int × Int × Int → ℝ) :
    rms3 Real.sqrt nx ny nz v = Real.sqrt (ipL nx ny nz v v / ((nx : ℝ) * ny * nz)) := by
  unfold rms3
  rw [ipL_apply]
  simp only [sq]

theorem poisEnergy_dir {dx : ℝ} {nx ny nz : Int} (hn : 1 ≤ nx ∧ 1 ≤ ny ∧ 1 ≤ nz) (v : Int × Int × Int → ℝ) :
    poisEnergy dx nx ny nz v = dirForm nx ny nz v v / dx ^ 2 := by
  have := congrArg Neg.neg (dir_green dx hn.1 hn.2.1 hn.2.2 v v)
  rw [neg_neg] at this
  exact this

section
variable (nx ny nz : Int) (hn : 1 ≤ nx ∧ 1 ≤ ny ∧ 1 ≤ nz) (dx : ℝ) (hdx : 0 < dx) (e : Int → Int → Int → ℝ)
  (F : ℝ → (Int × Int × Int → ℝ) → Int × Int × Int → ℝ) (hF : F = poisField dx nx ny nz e)
  (T : Tableau ℝ) (hT : T = ssprk3 ∨ T = bs23)
include hn hdx hF hT

/-- C91. After a step of size at most `dx² / 5` with either explicit method the field differs from the solution of the discrete
problem by at most `8/5 (nz dx)²` times the residual reported for the step, in the root mean square: from any field, however far
from the solution. -/
theorem C91_residual_certifies (t dt : ℝ) (h0 : 0 ≤ dt) (h1 : dt ≤ 1 / 5 * dx ^ 2) (us : Int × Int × Int → ℝ)
    (hus : PoisSolves dx nx ny nz e us) (u : Int × Int × Int → ℝ) :
    rms3 Real.sqrt nx ny nz (fun x => T.step F t dt u x - us x) ≤
      8 / 5 * ((nz : ℝ) * dx) ^ 2 * rms3 Real.sqrt nx ny nz (T.slope F t dt u) := by
  subst hF
  have key := pois_rk_slope hdx.ne' hn.1 hn.2.1 hn.2.2 hus hT h0 h1 t u
  rw [rms3_ipL, rms3_ipL, show 8 / 5 * ((nz : ℝ) * dx) ^ 2 = Real.sqrt (64 / 25 * ((nz : ℝ) * dx) ^ 4) by
    rw [show 64 / 25 * ((nz : ℝ) * dx) ^ 4 = (8 / 5 * ((nz : ℝ) * dx) ^ 2) ^ 2 by ring]
    exact (Real.sqrt_sq (by positivity)).symm, ← Real.sqrt_mul (by positivity)]
  refine Real.sqrt_le_sqrt ?_
  rw [← mul_div_assoc]
  exact div_le_div_of_nonneg_right key (cellsR_pos hn).le

/-- C91. On a uniform grid whose x and y lengths are multiples of `2π`, after such a step the field differs from the exact
solution `sin x cos y cos z` by at most `(nz dx)² (8/5 r + 5/16 dx²)`, `r` being the residual reported for the step. -/
theorem C91_accuracy (hdx1 : dx ≤ 1) (xb yb zb : ℝ) (px py : ℤ) (hpx : (nx : ℝ) * dx = px * (2 * Real.pi))
    (hpy : (ny : ℝ) * dx = py * (2 * Real.pi))
    (he : ∀ i j k : Int, e i j k =
      Real.sin (xb + dx * (i + 1 / 2)) * Real.cos (yb + dx * (j + 1 / 2)) * Real.cos (zb + dx * (k + 1 / 2)))
    (t dt : ℝ) (h0 : 0 ≤ dt) (h1 : dt ≤ 1 / 5 * dx ^ 2) (u : Int × Int × Int → ℝ) :
    rms3 Real.sqrt nx ny nz (fun x => T.step F t dt u x - e x.1 x.2.1 x.2.2) ≤
      ((nz : ℝ) * dx) ^ 2 * (8 / 5 * rms3 Real.sqrt nx ny nz (T.slope F t dt u) + 5 / 16 * dx ^ 2) := by
  obtain ⟨us, hus, -⟩ := C80_unique_solution dx hdx.ne' nx ny nz hn.1 hn.2.1 hn.2.2 e
  have a := C91_residual_certifies nx ny nz hn dx hdx e F hF T hT t dt h0 h1 us hus u
  have b := C82_discretization_error dx xb yb zb hdx hdx1 nx ny nz hn.1 hn.2.1 hn.2.2 px py hpx hpy e
    (fun i j k _ _ _ => by rw [he]; simp only [mul_comm dx]) us hus
  have tr := rms_triangle (ni := nx) (nj := ny) (nk := nz) (cellsR_pos hn) (fun i j l => T.step F t dt u (i, j, l) - us (i, j, l))
    (fun i j l => us (i, j, l) - e i j l)
  simp only [sub_add_sub_cancel] at tr
  unfold rms3 at a ⊢
  refine tr.trans ?_
  refine (add_le_add a b).trans (le_of_eq ?_)
  ring

/-- C91. Each step of size at most `dx² / 5` reduces the energy of the error by at least the factor `1 - dt / (8 (nz dx)²)`, and over
a run with such steps the error dies out exponentially in time: its energy like `exp (-(t - t0) / (8 (nz dx)²))`, and the error
itself, in the root mean square, like the square root of that. -/
theorem C91_decay (us : Int × Int × Int → ℝ) (hus : PoisSolves dx nx ny nz e us) (Tf t0 dt0 : ℝ) (t d p : Nat → ℝ)
    (hm : Marching Tf t0 dt0 t d p) (hd : ∀ k, 0 ≤ d k ∧ d k ≤ 1 / 5 * dx ^ 2) (u0 : Int × Int × Int → ℝ)
    (u : Nat → Int × Int × Int → ℝ) (hu : u = states T F t d u0) (En : Nat → ℝ)
    (hEn : ∀ k, En k = poisEnergy dx nx ny nz (fun x => u k x - us x)) :
    (∀ k, 0 ≤ En k ∧ En (k + 1) ≤ (1 - d k / (8 * ((nz : ℝ) * dx) ^ 2)) * En k) ∧
    (∀ k, En k ≤ Real.exp (-((t k - t0) / (8 * ((nz : ℝ) * dx) ^ 2))) * En 0) ∧
    ∀ k, rms3 Real.sqrt nx ny nz (fun x => u k x - us x) ≤
      (nz : ℝ) * dx * Real.exp (-((t k - t0) / (16 * ((nz : ℝ) * dx) ^ 2))) * Real.sqrt (En 0 / ((nx : ℝ) * ny * nz)) := by
  subst hu hF
  have hen : ∀ k, En k = dirForm nx ny nz (states T (poisField dx nx ny nz e) t d u0 k - us)
      (states T (poisField dx nx ny nz e) t d u0 k - us) / dx ^ 2 := fun k => by
    rw [hEn]; exact poisEnergy_dir hn _
  have en0 : ∀ k, 0 ≤ En k := fun k => by rw [hen]; exact div_nonneg (dirForm_nonneg _ _ _ _) (sq_nonneg _)
  have hs : ∀ k, En (k + 1) ≤ (1 - d k / (8 * ((nz : ℝ) * dx) ^ 2)) * En k := by
    intro k
    rw [hen, hen, ← mul_div_assoc]
    exact div_le_div_of_nonneg_right
      (pois_rk_decay hdx.ne' hn.1 hn.2.1 hn.2.2 hus hT (hd k).1 (hd k).2 (t k) (states T (poisField dx nx ny nz e) t d u0 k))
      (sq_nonneg _)
  have hexp : ∀ k, En k ≤ Real.exp (-((t k - t0) / (8 * ((nz : ℝ) * dx) ^ 2))) * En 0 := by
    intro k
    have := exp_decay (c := 1 / (8 * ((nz : ℝ) * dx) ^ 2)) hm en0 (fun k => by rw [mul_one_div]; exact hs k) k
    rwa [one_div_mul_eq_div] at this
  refine ⟨fun k => ⟨en0 k, hs k⟩, hexp, fun k => ?_⟩
  have hz : (0 : ℝ) < nz := by exact_mod_cast (show 0 < nz by omega)
  have hN := cellsR_pos hn
  have q1 := dir_poincare hn.1 hn.2.1 hn.2.2 (states T (poisField dx nx ny nz e) t d u0 k - us)
  have q2 : ipL nx ny nz (states T (poisField dx nx ny nz e) t d u0 k - us) (states T (poisField dx nx ny nz e) t d u0 k - us) ≤
      ((nz : ℝ) * dx) ^ 2 * (Real.exp (-((t k - t0) / (8 * ((nz : ℝ) * dx) ^ 2))) * En 0) := by
    refine q1.trans ?_
    have := mul_le_mul_of_nonneg_left (hexp k) (sq_nonneg ((nz : ℝ) * dx))
    refine le_trans (le_of_eq ?_) this
    rw [hen k]
    field_simp
  have e1 : Real.exp (-((t k - t0) / (8 * ((nz : ℝ) * dx) ^ 2))) = Real.exp (-((t k - t0) / (16 * ((nz : ℝ) * dx) ^ 2))) ^ 2 := by
    rw [← Real.exp_nat_mul]
    congr 1
    push_cast
    field_simp
    ring
  have e2 : (nz : ℝ) * dx * Real.exp (-((t k - t0) / (16 * ((nz : ℝ) * dx) ^ 2))) =
      Real.sqrt (((nz : ℝ) * dx) ^ 2 * Real.exp (-((t k - t0) / (8 * ((nz : ℝ) * dx) ^ 2)))) := by
    rw [e1, ← mul_pow]
    exact (Real.sqrt_sq (by positivity)).symm
  rw [e2, ← Real.sqrt_mul (by positivity)]
  have := rms3_ipL nx ny nz (fun x => states T (poisField dx nx ny nz e) t d u0 k x - us x)
  rw [this]
  refine Real.sqrt_le_sqrt ?_
  rw [← mul_div_assoc]
  exact div_le_div_of_nonneg_right (q2.trans (le_of_eq (by ring))) hN.le

end

/-- C91. The steps of an rk3ssp run never exceed the first one, and those of an ode23 run never exceed the first one and the
configured limits, are never negative, and never pass the final time, provided the first step does not. -/
theorem C91_step_range (Tf t0 dt0 b : ℝ) (t d p : Nat → ℝ) (hm : Marching Tf t0 dt0 t d p) (h0 : 0 ≤ dt0) (hb : dt0 ≤ b)
    (hT : t0 + dt0 ≤ Tf) (hp : (∀ k, p (k + 1) = d k) ∨
      ∃ tol mn mx e, (0 ≤ mn ∧ mn ≤ b ∧ mx ≤ b) ∧ ∀ k, p (k + 1) = proposal tol mn mx d e k) :
    ∀ k, 0 ≤ d k ∧ d k ≤ b ∧ t k + d k ≤ Tf := by
  refine steps_between hm h0 hb hT fun k a1 a2 => ?_
  rcases hp with hp | ⟨tol, mn, mx, e, ⟨b0, b1, b2⟩, hp⟩
  · rw [hp]; exact ⟨a1, a2⟩
  · rw [hp]
    unfold proposal
    split
    · exact ⟨a1, a2⟩
    · exact ⟨b0.trans (le_max_right _ _), max_le ((min_le_right _ _).trans b2) b1⟩

/-! ### Runs of the program -/

section
variable {A : Type} [DecidableEq A] (sz : A → Int) (E : Env ℝ) (o : RunOpts) (w : ProgArr A)
  (heq : o.sel.equation = "poisson") (hcfl : o.useCfl = false) (hlf : o.logFreq ≠ 0) (hms : 0 < o.maxSteps)
  (hmax : o.maxSteps < 2147483648) {bx bY bz : BCType}
  (hbx : (o.sel.bcx, bx) ∈ [("periodic", BCType.periodic), ("neumann", .neumann), ("dirichlet", .dirichlet)])
  (hby : (o.sel.bcy, bY) ∈ [("periodic", BCType.periodic), ("neumann", .neumann), ("dirichlet", .dirichlet)])
  (hbz : (o.sel.bcz, bz) ∈ [("periodic", BCType.periodic), ("neumann", .neumann), ("dirichlet", .dirichlet)])
  (hdim : o.sel.dimension = 3)

section
variable (hn : 2 ≤ o.nx ∧ 2 ≤ o.ny ∧ 2 ≤ o.nz) (hw : ArraysPois sz w o.nx o.ny o.nz)
  (dx : ℝ) (hdx : dx = (o.box.xend - o.box.xbeg) / o.nx) (e : Int → Int → Int → ℝ)
  (he : ∀ i j k : Int, e i j k = E.sn (o.box.xbeg + dx * (i + 1 / 2)) * E.cs (o.box.ybeg + dx * (j + 1 / 2)) *
    E.cs (o.box.zbeg + dx * (k + 1 / 2)))
  (F : ℝ → (Int × Int × Int → ℝ) → Int × Int × Int → ℝ) (hF : F = poisField dx o.nx o.ny o.nz e)
  (W : Nat) (hW : W = max (Nat.log 10 o.maxSteps + 1) 4) (m : Mem A ℝ)
include heq hcfl hlf hms hmax hbx hby hbz hdim hn hw hdx he hF hW

/-- C91. A run of the Poisson equation with rk3ssp, from any contents of the memory, under every schedule of its loops and
reductions: the field starts from zero, each step is one step of the three-stage method on the discrete equation with source
`3 sin x cos y cos z` and that boundary value in z, whatever boundary names are configured, and the log rows, file names and file
contents are those of the fields passed through. -/
theorem C91_run_rk3ssp (hint : o.sel.integrator = "rk3ssp") (t d p : Nat → ℝ) (hm : Marching o.tfinal o.t0 o.dt0 t d p)
    (hp : ∀ k, p (k + 1) = d k) (u : Nat → Int × Int × Int → ℝ) (hu : u = states ssprk3 F t d (fun _ => 0)) :
    RunsAs sz (program E o none w) m ⟨o.t0, o.tfinal, o.dt0, false, o.maxSteps, 0, o.relTol, o.absTol⟩
      o.logFreq.natAbs o.saveEvery.natAbs t d p
      (fun k => rms3 E.rt o.nx o.ny o.nz ((ssprk3 : Tableau ℝ).slope F (t k) (d k) (u k)))
      (fun k => Monitors3 E.rt E.big E.tiny dx o.nx o.ny o.nz (u (k + 1)))
      (stepName o.base W) (stepName (o.base ++ "_final".toList) W)
      (fun k => vts3 E.io o.box.xbeg o.box.ybeg o.box.zbeg dx o.nx o.ny o.nz (u (k + 1))) := by
  subst hdx hu hW
  exact run3_pois_rk3 (file := none) (domain_none E o (by omega)) (by rw [timeOpts_eq o hcfl hmax]) heq rfl hlf hms
    (by dsimp only; omega) (le_refl 0) hbx hby hbz hdim hn hw (by dsimp only; omega)
    (fun G hG hg m => by
      have := icPois_none E hG (sz := sz) (sol := w.rk.sol) (by rw [hg]; exact hw.cells _ (by simp))
        (.d3 ⟨o.nx, o.ny, o.nz, 2⟩ w.rk.sol) m
      rw [hg] at this ⊢
      exact this) he hint hm hp F hF m

/-- C91. The same with ode23, whose stage arrays are zero at the start, as they are when freshly allocated. -/
theorem C91_run_ode23 (hint : o.sel.integrator = "ode23") (t d p ee : Nat → ℝ) (hm : Marching o.tfinal o.t0 o.dt0 t d p)
    (u : Nat → Int × Int × Int → ℝ) (hu : u = states bs23 F t d (fun _ => 0))
    (hee : Estimates bs23 F (In3 o.nx o.ny o.nz) t d u ee) (hp : ∀ k, p (k + 1) = proposal o.errTol o.minStep o.maxStep d ee k)
    (hz : ∀ a ∈ [w.rk.k1, w.rk.k2, w.rk.k3, w.rk.k4], ∀ n, m a n = 0) :
    RunsAs sz (program E o none w) m ⟨o.t0, o.tfinal, o.dt0, false, o.maxSteps, 0, o.relTol, o.absTol⟩
      o.logFreq.natAbs o.saveEvery.natAbs t d p
      (fun k => rms3 E.rt o.nx o.ny o.nz ((bs23 : Tableau ℝ).slope F (t k) (d k) (u k)))
      (fun k => Monitors3 E.rt E.big E.tiny dx o.nx o.ny o.nz (u (k + 1)))
      (stepName o.base W) (stepName (o.base ++ "_final".toList) W)
      (fun k => vts3 E.io o.box.xbeg o.box.ybeg o.box.zbeg dx o.nx o.ny o.nz (u (k + 1))) := by
  subst hdx hu hW
  exact run3_pois_ode23 (file := none) (domain_none E o (by omega)) (by rw [timeOpts_eq o hcfl hmax]) heq rfl hlf hms
    (by dsimp only; omega) (le_refl 0) hbx hby hbz hdim hn hw (by dsimp only; omega)
    (fun G hG hg m => by
      have := icPois_none E hG (sz := sz) (sol := w.rk.sol) (by rw [hg]; exact hw.cells _ (by simp))
        (.d3 ⟨o.nx, o.ny, o.nz, 2⟩ w.rk.sol) m
      rw [hg] at this ⊢
      exact this) he hint hm F hF hee hp m hz

omit hF he in
/-- C91. End to end, with either explicit integrator on a box whose x and y lengths are multiples of `2π`, with steps of at most
`dx² / 5`: the field in each solution file differs from `sin x cos y cos z` by at most `(nz dx)² (8/5 r + 5/16 dx²)`, `r` being the
residual the run reports for that step. -/
theorem C91_solution_files (hrt : E.rt = Real.sqrt) (hsn : E.sn = Real.sin) (hcs : E.cs = Real.cos)
    (hint : o.sel.integrator = "rk3ssp" ∨ o.sel.integrator = "ode23")
    (hz : o.sel.integrator = "ode23" → (∀ a ∈ [w.rk.k1, w.rk.k2, w.rk.k3, w.rk.k4], ∀ n, m a n = 0) ∧
      0 ≤ o.minStep ∧ o.minStep ≤ 1 / 5 * dx ^ 2 ∧ o.maxStep ≤ 1 / 5 * dx ^ 2)
    (h0 : 0 < dx) (h1 : dx ≤ 1) (hd0 : 0 ≤ o.dt0) (hd1 : o.dt0 ≤ 1 / 5 * dx ^ 2) (hd2 : o.t0 + o.dt0 ≤ o.tfinal)
    (px py : ℤ) (hpx : (o.nx : ℝ) * dx = px * (2 * Real.pi)) (hpy : (o.ny : ℝ) * dx = py * (2 * Real.pi)) :
    ∃ (t d p : Nat → ℝ) (u : Nat → Int × Int × Int → ℝ) (r : Nat → ℝ) (Q : Nat → ℝ × ℝ × ℝ → Prop),
      Marching o.tfinal o.t0 o.dt0 t d p ∧
      RunsAs sz (program E o none w) m ⟨o.t0, o.tfinal, o.dt0, false, o.maxSteps, 0, o.relTol, o.absTol⟩
        o.logFreq.natAbs o.saveEvery.natAbs t d p r Q (stepName o.base W) (stepName (o.base ++ "_final".toList) W)
        (fun k => vts3 E.io o.box.xbeg o.box.ybeg o.box.zbeg dx o.nx o.ny o.nz (u (k + 1))) ∧
      ∀ k, rms3 Real.sqrt o.nx o.ny o.nz (fun x => u (k + 1) x - Real.sin (o.box.xbeg + dx * (x.1 + 1 / 2)) *
          Real.cos (o.box.ybeg + dx * (x.2.1 + 1 / 2)) * Real.cos (o.box.zbeg + dx * (x.2.2 + 1 / 2))) ≤
        ((o.nz : ℝ) * dx) ^ 2 * (8 / 5 * r k + 5 / 16 * dx ^ 2) := by
  obtain ⟨e, he⟩ : ∃ e : Int → Int → Int → ℝ, ∀ i j k : Int, e i j k = E.sn (o.box.xbeg + dx * (i + 1 / 2)) *
    E.cs (o.box.ybeg + dx * (j + 1 / 2)) * E.cs (o.box.zbeg + dx * (k + 1 / 2)) := ⟨_, fun _ _ _ => rfl⟩
  obtain ⟨F, hF⟩ : ∃ F, F = poisField dx o.nx o.ny o.nz e := ⟨_, rfl⟩
  have he' : ∀ i j k : Int, e i j k = Real.sin (o.box.xbeg + dx * (i + 1 / 2)) *
    Real.cos (o.box.ybeg + dx * (j + 1 / 2)) * Real.cos (o.box.zbeg + dx * (k + 1 / 2)) := fun i j k => by rw [he, hsn, hcs]
  rcases hint with hint | hint
  · obtain ⟨t, d, p, ⟨hm, hp⟩, -⟩ := C85_sequences o.tfinal o.t0 o.dt0
    refine ⟨t, d, p, _, _, _, hm, C91_run_rk3ssp sz E o w heq hcfl hlf hms hmax hbx hby hbz hdim hn hw dx hdx e he F hF W hW m hint
      t d p hm hp _ rfl, fun k => ?_⟩
    have hr := C91_step_range _ _ _ _ t d p hm hd0 hd1 hd2 (Or.inl hp) k
    have := C91_accuracy o.nx o.ny o.nz (by omega) dx h0 e F hF ssprk3 (Or.inl rfl) h1 _ _ _ px py hpx hpy he' (t k) (d k) hr.1 hr.2.1
      (states ssprk3 F t d (fun _ => 0) k)
    simp only [he'] at this
    rw [hrt]
    exact this
  · obtain ⟨hz0, hz1, hz2, hz3⟩ := hz hint
    obtain ⟨t, d, p, ee, hm, hee, hp⟩ := C86_sequences F (In3 o.nx o.ny o.nz) (finite_in3 _ _ _) (fun _ => 0) o.tfinal o.t0 o.dt0
      o.errTol o.minStep o.maxStep
    refine ⟨t, d, p, _, _, _, hm, C91_run_ode23 sz E o w heq hcfl hlf hms hmax hbx hby hbz hdim hn hw dx hdx e he F hF W hW m hint
      t d p ee hm _ rfl hee hp hz0, fun k => ?_⟩
    have hr := C91_step_range _ _ _ _ t d p hm hd0 hd1 hd2 (Or.inr ⟨_, _, _, ee, ⟨hz1, hz2, hz3⟩, hp⟩) k
    have := C91_accuracy o.nx o.ny o.nz (by omega) dx h0 e F hF bs23 (Or.inr rfl) h1 _ _ _ px py hpx hpy he' (t k) (d k) hr.1 hr.2.1
      (states bs23 F t d (fun _ => 0) k)
    simp only [he'] at this
    rw [hrt]
    exact this

end

section
variable (xb xe yb zb : ℝ) (hle : xb ≤ xe) (nx ny nz : Int) (hn : 2 ≤ nx ∧ 2 ≤ ny ∧ 2 ≤ nz)
  (hn' : nx < 2147483648 ∧ ny < 2147483648 ∧ nz < 2147483648) (hw : ArraysPois sz w nx ny nz)
  (dx : ℝ) (hdx : dx = (xe - xb) / nx) (e : Int → Int → Int → ℝ)
  (he : ∀ i j k : Int, e i j k = E.sn (xb + dx * (i + 1 / 2)) * E.cs (yb + dx * (j + 1 / 2)) * E.cs (zb + dx * (k + 1 / 2)))
  (F : ℝ → (Int × Int × Int → ℝ) → Int × Int × Int → ℝ) (hF : F = poisField dx nx ny nz e)
  (hex : ∀ i : Int, 0 ≤ i → i ≤ nx → Exact E.io (xb + dx * i)) (hey : ∀ i : Int, 0 ≤ i → i ≤ ny → Exact E.io (yb + dx * i))
  (hez : ∀ i : Int, 0 ≤ i → i ≤ nz → Exact E.io (zb + dx * i))
  (u0 : Int × Int × Int → ℝ) (hu0 : ∀ c, In3 nx ny nz c → Exact E.io (u0 c)) (st : Status ℝ)
  (hst : 0 ≤ st.iter ∧ st.iter < 2147483648) (htime : ShortExact E.io st.time) (hdt : ShortExact E.io st.dt)
  (W : Nat) (hW : W = max (Nat.log 10 o.maxSteps + 1) 4) (m : Mem A ℝ)
include heq hcfl hlf hms hmax hbx hby hbz hdim hle hn hn' hw hdx he hF hex hey hez hu0 hst htime hdt hW

/-- C91. A run of the Poisson equation with rk3ssp started from a solution file goes on from the field, time, step size and step
number in the file, on the grid of the file. -/
theorem C91_restart_rk3ssp (hint : o.sel.integrator = "rk3ssp") (t d p : Nat → ℝ) (hm : Marching o.tfinal st.time st.dt t d p)
    (hp : ∀ k, p (k + 1) = d k) (u : Nat → Int × Int × Int → ℝ) (hu : u = states ssprk3 F t d u0) :
    RunsAs sz (program E o (some (vts3 E.io xb yb zb dx nx ny nz u0 st)) w) m
      ⟨st.time, o.tfinal, st.dt, false, o.maxSteps, st.iter, o.relTol, o.absTol⟩
      o.logFreq.natAbs o.saveEvery.natAbs t d p
      (fun k => rms3 E.rt nx ny nz ((ssprk3 : Tableau ℝ).slope F (t k) (d k) (u k)))
      (fun k => Monitors3 E.rt E.big E.tiny dx nx ny nz (u (k + 1)))
      (stepName o.base W) (stepName (o.base ++ "_final".toList) W)
      (fun k => vts3 E.io xb yb zb dx nx ny nz (u (k + 1))) := by
  subst hdx hu hW
  have hdom := domain_vts3 E.io (nx := nx) (xb := xb) (xe := xe) ⟨by omega, hn'.2.1⟩ ⟨by omega, hn'.2.2⟩ yb zb hex hey hez u0 st
    ⟨by omega, hn'.1⟩ hle
  exact run3_pois_rk3 (file := some _) (dom := ⟨nx, ny, nz, xb, xe, yb, zb⟩) hdom (time_file (o := o) rfl htime hdt hst hcfl hmax) heq rfl
    hlf hms (by dsimp only; omega) hst.1 hbx hby hbz hdim hn hw (by dsimp only; omega)
    (fun G hG hg m => by
      rw [hg]
      exact ic3_file (o := o) ⟨by omega, by omega, by omega⟩ hdom hu0 (hw.cells _ (by simp)) G.interior m) he hint hm hp F hF m

/-- C91. The same with ode23; its controller begins as in a new run. -/
theorem C91_restart_ode23 (hint : o.sel.integrator = "ode23") (t d p ee : Nat → ℝ) (hm : Marching o.tfinal st.time st.dt t d p)
    (u : Nat → Int × Int × Int → ℝ) (hu : u = states bs23 F t d u0)
    (hee : Estimates bs23 F (In3 nx ny nz) t d u ee) (hp : ∀ k, p (k + 1) = proposal o.errTol o.minStep o.maxStep d ee k)
    (hz : ∀ a ∈ [w.rk.k1, w.rk.k2, w.rk.k3, w.rk.k4], ∀ n, m a n = 0) :
    RunsAs sz (program E o (some (vts3 E.io xb yb zb dx nx ny nz u0 st)) w) m
      ⟨st.time, o.tfinal, st.dt, false, o.maxSteps, st.iter, o.relTol, o.absTol⟩
      o.logFreq.natAbs o.saveEvery.natAbs t d p
      (fun k => rms3 E.rt nx ny nz ((bs23 : Tableau ℝ).slope F (t k) (d k) (u k)))
      (fun k => Monitors3 E.rt E.big E.tiny dx nx ny nz (u (k + 1)))
      (stepName o.base W) (stepName (o.base ++ "_final".toList) W)
      (fun k => vts3 E.io xb yb zb dx nx ny nz (u (k + 1))) := by
  subst hdx hu hW
  have hdom := domain_vts3 E.io (nx := nx) (xb := xb) (xe := xe) ⟨by omega, hn'.2.1⟩ ⟨by omega, hn'.2.2⟩ yb zb hex hey hez u0 st
    ⟨by omega, hn'.1⟩ hle
  exact run3_pois_ode23 (file := some _) (dom := ⟨nx, ny, nz, xb, xe, yb, zb⟩) hdom (time_file (o := o) rfl htime hdt hst hcfl hmax) heq rfl
    hlf hms (by dsimp only; omega) hst.1 hbx hby hbz hdim hn hw (by dsimp only; omega)
    (fun G hG hg m => by
      rw [hg]
      exact ic3_file (o := o) ⟨by omega, by omega, by omega⟩ hdom hu0 (hw.cells _ (by simp)) G.interior m) he hint hm F hF hee hp m hz

end

end

/-! ### Concrete runs -/

noncomputable def poisDemoOpts (integrator : String) : RunOpts :=
  { demoOpts integrator with
    sel := ⟨3, "periodic", "neumann", "periodic", "poisson", integrator, false⟩
    nx := 8
    ny := 8
    nz := 4
    dt0 := 1 / 20
    minStep := 0
    maxStep := 1 / 20
    box := ⟨-Real.pi, Real.pi, -Real.pi, -Real.pi⟩ }

theorem poisDemo_arrays : ArraysPois (demoSize 1521 1152) demoArr 8 8 4 :=
  ⟨by simp [demoArr], by simp [demoArr, demoSize], by simp [demoArr, demoSize]⟩

/-- Both integrators on 8×8×4 cells with steps of 1/20. -/
example (io : RealText ℝ) (integrator : String) (hi : integrator = "rk3ssp" ∨ integrator = "ode23") :
    ∃ (t d p : Nat → ℝ) (u : Nat → Int × Int × Int → ℝ) (r : Nat → ℝ) (Q : Nat → ℝ × ℝ × ℝ → Prop),
    Marching 1 0 (1 / 20) t d p ∧
    RunsAs (demoSize 1521 1152) (program ⟨io, Real.sqrt, 0, 0, fun _ => 0, Real.sin, Real.cos⟩ (poisDemoOpts integrator) none demoArr)
      (fun _ _ => 0) ⟨0, 1, 1 / 20, false, 100, 0, 0, 0⟩ 1 5 t d p r Q (stepName ['s'] 4) (stepName "s_final".toList 4)
      (fun k => vts3 io (-Real.pi) (-Real.pi) (-Real.pi) (Real.pi / 4) 8 8 4 (u (k + 1))) ∧
    ∀ k, rms3 Real.sqrt 8 8 4 (fun x => u (k + 1) x - Real.sin (-Real.pi + Real.pi / 4 * (x.1 + 1 / 2)) *
        Real.cos (-Real.pi + Real.pi / 4 * (x.2.1 + 1 / 2)) * Real.cos (-Real.pi + Real.pi / 4 * (x.2.2 + 1 / 2))) ≤
      (((4 : ℤ) : ℝ) * (Real.pi / 4)) ^ 2 * (8 / 5 * r k + 5 / 16 * (Real.pi / 4) ^ 2) := by
  have h3 := Real.two_le_pi
  have hs : (1 : ℝ) / 20 ≤ 1 / 5 * (Real.pi / 4) ^ 2 := by nlinarith
  exact C91_solution_files (bx := .periodic) (bY := .neumann) (bz := .periodic) (demoSize 1521 1152)
    ⟨io, Real.sqrt, 0, 0, fun _ => 0, Real.sin, Real.cos⟩ (poisDemoOpts integrator) demoArr rfl rfl (by simp [poisDemoOpts, demoOpts])
    (by simp [poisDemoOpts, demoOpts]) (by simp [poisDemoOpts, demoOpts]) (by simp [poisDemoOpts]) (by simp [poisDemoOpts])
    (by simp [poisDemoOpts]) rfl (by simp [poisDemoOpts]) poisDemo_arrays (Real.pi / 4)
    (by simp only [poisDemoOpts]; push_cast; ring) 4 (by simp only [poisDemoOpts, demoOpts]; decide +kernel) (fun _ _ => 0) rfl rfl rfl hi
    (fun _ => ⟨fun _ _ _ => rfl, le_refl _, by simp only [poisDemoOpts]; positivity, hs⟩) (by positivity)
    (by linarith [Real.pi_le_four]) (by simp [poisDemoOpts]) hs (by simp only [poisDemoOpts, demoOpts]; norm_num) 1 1
    (by simp only [poisDemoOpts]; push_cast; ring) (by simp only [poisDemoOpts]; push_cast; ring)

/-- Steps and a solution that meet the hypotheses of `C91_decay`. -/
example : ∃ (us : Int × Int × Int → ℝ) (t d p : Nat → ℝ), PoisSolves (1 : ℝ) 8 8 4 (fun _ _ _ => 1) us ∧
    Marching 1 0 (1 / 10) t d p ∧ ∀ k, 0 ≤ d k ∧ d k ≤ 1 / 5 * (1 : ℝ) ^ 2 := by
  obtain ⟨us, hus, -⟩ := C80_unique_solution (1 : ℝ) one_ne_zero 8 8 4 (by decide) (by decide) (by decide) (fun _ _ _ => 1)
  obtain ⟨t, d, p, ⟨hm, hp⟩, -⟩ := C85_sequences 1 0 (1 / 10)
  refine ⟨us, t, d, p, hus, hm, fun k => ?_⟩
  have := C91_step_range 1 0 (1 / 10) (1 / 5 * 1 ^ 2) t d p hm (by norm_num) (by norm_num) (by norm_num) (Or.inl hp) k
  exact ⟨this.1, this.2.1⟩

/-- A file from which an rk3ssp run goes on. -/
example (E : Env ℝ) (u0 : Int × Int × Int → ℝ) (m : Mem Nat ℝ) : ∃ (io : RealText ℝ) (t d p r : Nat → ℝ) (Q : Nat → ℝ × ℝ × ℝ → Prop)
    (file : Nat → Status ℝ → VtsFile), RunsAs (demoSize 1521 1152) (program { E with io := io } (poisDemoOpts "rk3ssp")
        (some (vts3 io 0 0 0 ((8 - 0) / ((8 : Int) : ℝ)) 8 8 4 u0 ⟨7, 1 / 2, 1 / 100⟩)) demoArr) m
      ⟨1 / 2, 1, 1 / 100, false, 100, 7, 0, 0⟩ 1 5 t d p r Q (stepName ['s'] 4) (stepName "s_final".toList 4) file := by
  obtain ⟨t, d, p, ⟨hm, hp⟩, -⟩ := C85_sequences 1 (1 / 2) (1 / 100)
  obtain ⟨L, hLe⟩ : ∃ L : List ℝ, L = (1 / 2) :: (1 / 100) :: ((triples 8 8 4).map u0 ++
    (irange 0 9).map fun i : Int => 0 + ((8 : ℝ) - 0) / ((8 : Int) : ℝ) * (i : ℝ)) := ⟨_, rfl⟩
  have hL : ∀ i : Int, 0 ≤ i → i ≤ 8 → Exact (listText L) (0 + ((8 : ℝ) - 0) / ((8 : Int) : ℝ) * (i : ℝ)) := fun i i0 i1 =>
    (listText_exact (by rw [hLe]; exact List.mem_cons_of_mem _ (List.mem_cons_of_mem _ (List.mem_append_right _
      (List.mem_map.2 ⟨i, mem_irange.2 ⟨i0, by omega⟩, rfl⟩))))).1
  have := C91_restart_rk3ssp (bx := .periodic) (bY := .neumann) (bz := .periodic) (demoSize 1521 1152)
    { E with io := listText L } (poisDemoOpts "rk3ssp") demoArr rfl rfl (by simp [poisDemoOpts, demoOpts])
    (by simp [poisDemoOpts, demoOpts]) (by simp [poisDemoOpts, demoOpts]) (by simp [poisDemoOpts]) (by simp [poisDemoOpts])
    (by simp [poisDemoOpts]) rfl 0 8 0 0 (by norm_num) 8 8 4 (by norm_num) (by norm_num) poisDemo_arrays _ rfl _ (fun _ _ _ => rfl) _ rfl
    (fun i i0 i1 => hL i i0 i1) (fun i i0 i1 => hL i i0 i1)
    (fun i i0 i1 => hL i i0 (by omega)) u0
    (fun c hc => (listText_exact (by rw [hLe]; exact List.mem_cons_of_mem _ (List.mem_cons_of_mem _ (List.mem_append_left _
      (List.mem_map_of_mem (mem_triples.2 hc)))))).1) ⟨7, 1 / 2, 1 / 100⟩ (by norm_num)
    (listText_exact (by rw [hLe]; exact List.mem_cons_self)).2
    (listText_exact (by rw [hLe]; exact List.mem_cons_of_mem _ List.mem_cons_self)).2 4
    (by simp only [poisDemoOpts, demoOpts]; decide +kernel) m rfl t d p hm hp _ rfl
  exact ⟨_, t, d, p, _, _, _, this⟩

end Madg
