/-
C102 for 2D runs: every single execution of an explicit run in any arithmetic.
-/
import Verif.Proofs.RunEach2
import Verif.Props.RunEach

set_option linter.unusedSectionVars false

namespace Madg
open Spec

section
variable {A K : Type} [DecidableEq A] [Arith K] [LT K] [DecidableLT K] [LE K] [DecidableLE K] [DecidableEq K] [Max K] [Min K] [Pow K K]
  (sz : A → Int) (E : Env K) (o : RunOpts K) (w : ProgArr A)
  (heq : o.sel.equation = "cahn-hilliard") (hcfl : o.useCfl = false) (hlf : o.logFreq ≠ 0)
  (hms : 0 < o.maxSteps) (hM : o.maxSteps < 1000000)
  (hbx : o.sel.bcx ∈ ["periodic", "neumann", "dirichlet"]) (hby : o.sel.bcy ∈ ["periodic", "neumann", "dirichlet"])
  (hbz : o.sel.bcz ∈ ["periodic", "neumann", "dirichlet"]) (hdim : o.sel.dimension = 2) (hn : 2 ≤ o.nx) (hw : Arrays2 sz w o.nx)
include heq hcfl hlf hms hM hbx hby hbz hdim hn hw

/-- C102. In any arithmetic, every execution of a fresh 2D Cahn–Hilliard run with the explicit integrator `rk3ssp`, with any convergence
tolerances and any order of its reductions, ends normally and its log and files are those of one documented run on the periodic square,
whatever (valid) boundary conditions were asked for. -/
theorem C102_rk3ssp2 (hint : o.sel.integrator = "rk3ssp") (dx : K) (hdx : dx = (o.box.xend - o.box.xbeg) / (o.nx : K))
    (W : Nat) (hW : W = Nat.log 10 o.maxSteps + 1) (m : Mem A K) :
    RunsEach sz (program E o none w) m ⟨o.t0, o.tfinal, o.dt0, false, o.maxSteps, 0, o.relTol, o.absTol⟩ o.logFreq.natAbs
      o.saveEvery.natAbs (ssprk3Method (rhsOps2 o.par dx o.nx)) (initialAny2 E.draw o.par.m o.nx) (Rms E.rt (pairs o.nx o.nx))
      (Extremes E.big E.tiny (pairs o.nx o.nx)) (stepName o.base W) (stepName (finalBase o.base) W)
      (vts2 E.io o.box.xbeg o.box.ybeg dx o.nx) := by
  have h := each2_rk3 (domain_none_any (E := E) (o := o) (by omega)) (file := none)
    (ti := ⟨o.t0, o.tfinal, o.dt0, false, o.maxSteps, 0, o.relTol, o.absTol⟩)
    (by dsimp only; rw [timeOpts_any hcfl (by omega)]) heq rfl hlf hms (by dsimp only; omega) le_rfl hbx hby hbz hdim hn hw
    (by dsimp only; omega) (u0 := initialAny2 E.draw o.par.m o.nx)
    (fun G hG hg m => by
      obtain ⟨m1, h1, h2, h3⟩ := ic2_none_any (E := E) (o := o) hG (sz := sz) (sol := w.rk.sol)
        (by rw [hg]; exact hw.cells _ (by simp)) (.d2 ⟨o.nx, o.nx, 2⟩ w.rk.sol) m
      rw [hg] at h2
      exact ⟨m1, h1, by rw [hg]; exact h2, h3⟩)
    hint m
  rw [hW, hdx]
  rw [chFieldA2_eq] at h
  exact h

/-- C102. The same for the adaptive integrator `ode23`, whose stage arrays are 0 at the start (as data_structures/managed_array.hpp:28
leaves them). -/
theorem C102_ode23_2 (hint : o.sel.integrator = "ode23") (dx : K) (hdx : dx = (o.box.xend - o.box.xbeg) / (o.nx : K))
    (W : Nat) (hW : W = Nat.log 10 o.maxSteps + 1) (m : Mem A K)
    (hz : ∀ a ∈ [w.rk.k1, w.rk.k2, w.rk.k3, w.rk.k4], ∀ n, m a n = 0) :
    RunsEach sz (program E o none w) m ⟨o.t0, o.tfinal, o.dt0, false, o.maxSteps, 0, o.relTol, o.absTol⟩ o.logFreq.natAbs
      o.saveEvery.natAbs (bs23Method (rhsOps2 o.par dx o.nx 0) (pairs o.nx o.nx)
        ((o.nx + 4) * (o.nx + 4) - o.nx * o.nx).toNat o.errTol o.minStep o.maxStep)
      (initialAny2 E.draw o.par.m o.nx) (Rms E.rt (pairs o.nx o.nx))
      (Extremes E.big E.tiny (pairs o.nx o.nx)) (stepName o.base W) (stepName (finalBase o.base) W)
      (vts2 E.io o.box.xbeg o.box.ybeg dx o.nx) := by
  have h := each2_ode23 (domain_none_any (E := E) (o := o) (by omega)) (file := none)
    (ti := ⟨o.t0, o.tfinal, o.dt0, false, o.maxSteps, 0, o.relTol, o.absTol⟩)
    (by dsimp only; rw [timeOpts_any hcfl (by omega)]) heq rfl hlf hms (by dsimp only; omega) le_rfl hbx hby hbz hdim hn hw
    (by dsimp only; omega) (u0 := initialAny2 E.draw o.par.m o.nx)
    (fun G hG hg m => by
      obtain ⟨m1, h1, h2, h3⟩ := ic2_none_any (E := E) (o := o) hG (sz := sz) (sol := w.rk.sol)
        (by rw [hg]; exact hw.cells _ (by simp)) (.d2 ⟨o.nx, o.nx, 2⟩ w.rk.sol) m
      rw [hg] at h2
      exact ⟨m1, h1, by rw [hg]; exact h2, h3⟩)
    hint m hz
  have hpad : ((⟨o.nx, o.nx, 2⟩ : Grid2).size.toNat - (pairs o.nx o.nx).length : Nat) =
      ((o.nx + 4) * (o.nx + 4) - o.nx * o.nx).toNat := by
    rw [pairs_eq, List.length_map, length_box2]
    obtain ⟨a, ha⟩ := Int.eq_ofNat_of_zero_le (show 0 ≤ o.nx by omega)
    rw [ha]
    simp only [Grid2.size, sub_zero, Int.toNat_natCast]
    have e : ((a : Int) + 4) * (a + 4) - a * a = (((a + 4) * (a + 4) : Nat) : Int) - ((a * a : Nat) : Int) := by
      push_cast
      ring
    rw [e, Int.toNat_sub]
    congr 1
  rw [hW, hdx]
  rw [chFieldA2_eq, hpad] at h
  exact h

/-- C102. No parameter, tolerance, step size limit or order of reductions can crash or hang an explicit 2D Cahn–Hilliard run. -/
theorem C102_always_ends2 (hint : o.sel.integrator = "rk3ssp" ∨ o.sel.integrator = "ode23") (m : Mem A K)
    (hz : ∀ a ∈ [w.rk.k1, w.rk.k2, w.rk.k3, w.rk.k4], ∀ n, m a n = 0) :
    AllEnd sz (program E o none w o.maxSteps) m fun res _ => ∃ files rows, res = .done files rows ∧ files ≠ [] ∧
      rows.length ≤ o.maxSteps := by
  rcases hint with h | h
  · exact (C102_rk3ssp2 sz E o w heq hcfl hlf hms hM hbx hby hbz hdim hn hw h _ rfl _ rfl m).ends hms rfl rfl
  · exact (C102_ode23_2 sz E o w heq hcfl hlf hms hM hbx hby hbz hdim hn hw h _ rfl _ rfl m hz).ends hms rfl rfl

end

/-- The run of `lostOpts` in two dimensions on 3 × 3 cells (test data). -/
def lostOpts2 (integrator : String) : RunOpts (Ieee ieee64) :=
  { lostOpts with
    sel := ⟨2, "periodic", "neumann", "periodic", "cahn-hilliard", integrator, false⟩
    nx := 3 }

example [Pow (Ieee ieee64) (Ieee ieee64)] (E : Env (Ieee ieee64)) (m : Mem _ (Ieee ieee64)) (hz : ∀ a n, m a n = 0) :
    (AllEnd (demoSize 64 49) (program E (lostOpts2 "ode23") none demoArr 100) m fun res _ => ∃ files rows, res = .done files rows ∧
      files ≠ [] ∧ rows.length ≤ 100) ∧
    (AllEnd (demoSize 64 49) (program E (lostOpts2 "rk3ssp") none demoArr 100) m fun res _ => ∃ files rows, res = .done files rows ∧
      files ≠ [] ∧ rows.length ≤ 100) :=
  ⟨C102_always_ends2 (demoSize 64 49) E (lostOpts2 "ode23") demoArr rfl rfl (by decide) (by decide) (by decide)
    (by simp [lostOpts2]) (by simp [lostOpts2]) (by simp [lostOpts2]) rfl (by simp [lostOpts2])
    ⟨by simp [demoArr], by simp [demoArr, demoSize, lostOpts2], by simp [demoArr, demoSize, lostOpts2]⟩ (.inr rfl) m
    (fun a _ n => hz a n),
   C102_always_ends2 (demoSize 64 49) E (lostOpts2 "rk3ssp") demoArr rfl rfl (by decide) (by decide) (by decide)
    (by simp [lostOpts2]) (by simp [lostOpts2]) (by simp [lostOpts2]) rfl (by simp [lostOpts2])
    ⟨by simp [demoArr], by simp [demoArr, demoSize, lostOpts2], by simp [demoArr, demoSize, lostOpts2]⟩ (.inl rfl) m
    (fun a _ n => hz a n)⟩

end Madg
