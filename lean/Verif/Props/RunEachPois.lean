/-
C103: every single execution of an explicit run of the Poisson problem in any arithmetic.
-/
import Verif.Proofs.RunEachPois
import Verif.Props.RunEach2

set_option linter.unusedSectionVars false

namespace Madg
open Spec

section
variable {A K : Type} [DecidableEq A] [Arith K] [LT K] [DecidableLT K] [LE K] [DecidableLE K] [DecidableEq K] [Max K] [Min K] [Pow K K]
  (sz : A → Int) (E : Env K) (o : RunOpts K) (w : ProgArr A)
  (heq : o.sel.equation = "poisson") (hcfl : o.useCfl = false) (hlf : o.logFreq ≠ 0)
  (hms : 0 < o.maxSteps) (hM : o.maxSteps < 2147483648)
  (hbx : o.sel.bcx ∈ ["periodic", "neumann", "dirichlet"]) (hby : o.sel.bcy ∈ ["periodic", "neumann", "dirichlet"])
  (hbz : o.sel.bcz ∈ ["periodic", "neumann", "dirichlet"]) (hdim : o.sel.dimension = 3)
  (hn : 2 ≤ o.nx ∧ 2 ≤ o.ny ∧ 2 ≤ o.nz) (hw : ArraysPois sz w o.nx o.ny o.nz)
include heq hcfl hlf hms hM hbx hby hbz hdim hn hw

/-- C103. In any arithmetic and with any functions in place of `sin` and `cos`, every execution of a fresh run of the Poisson problem
with `rk3ssp` ends normally and its log and files are those of one documented run from the zero field, whatever (valid) boundary
conditions were asked for. -/
theorem C103_rk3ssp (hint : o.sel.integrator = "rk3ssp") (dx : K) (hdx : dx = (o.box.xend - o.box.xbeg) / (o.nx : K))
    (W : Nat) (hW : W = max (Nat.log 10 o.maxSteps + 1) 4) (m : Mem A K) :
    RunsEach sz (program E o none w) m ⟨o.t0, o.tfinal, o.dt0, false, o.maxSteps, 0, o.relTol, o.absTol⟩ o.logFreq.natAbs
      o.saveEvery.natAbs (ssprk3Method fun _ => poisOps E.sn E.cs o.box.xbeg o.box.ybeg o.box.zbeg dx o.nx o.ny o.nz)
      (fun _ => 0) (Rms E.rt (triples o.nx o.ny o.nz))
      (Extremes E.big E.tiny (triples o.nx o.ny o.nz)) (stepName o.base W) (stepName (finalBase o.base) W)
      (vts3 E.io o.box.xbeg o.box.ybeg o.box.zbeg dx o.nx o.ny o.nz) := by
  have h := eachPois_rk3 (domain_none_any (E := E) (o := o) (by omega)) (file := none)
    (ti := ⟨o.t0, o.tfinal, o.dt0, false, o.maxSteps, 0, o.relTol, o.absTol⟩)
    (by dsimp only; rw [timeOpts_any hcfl hM]) heq rfl hlf hms (by dsimp only; omega) le_rfl hbx hby hbz hdim hn hw
    (by dsimp only; omega) (u0 := fun _ => 0)
    (fun G hG hg m => by
      obtain ⟨m1, h1, h2, h3⟩ := icPois_none_any (E := E) hG (sz := sz) (sol := w.rk.sol)
        (by rw [hg]; exact hw.cells _ (by simp)) (.d3 ⟨o.nx, o.ny, o.nz, 2⟩ w.rk.sol) m
      rw [hg] at h2
      exact ⟨m1, h1, by rw [hg]; exact h2, h3⟩)
    hint m
  rw [hW, hdx]
  exact h

/-- C103. The same for the adaptive integrator `ode23`, whose stage arrays are 0 at the start (as data_structures/managed_array.hpp:28
leaves them). -/
theorem C103_ode23 (hint : o.sel.integrator = "ode23") (dx : K) (hdx : dx = (o.box.xend - o.box.xbeg) / (o.nx : K))
    (W : Nat) (hW : W = max (Nat.log 10 o.maxSteps + 1) 4) (m : Mem A K)
    (hz : ∀ a ∈ [w.rk.k1, w.rk.k2, w.rk.k3, w.rk.k4], ∀ n, m a n = 0) :
    RunsEach sz (program E o none w) m ⟨o.t0, o.tfinal, o.dt0, false, o.maxSteps, 0, o.relTol, o.absTol⟩ o.logFreq.natAbs
      o.saveEvery.natAbs (bs23Method (poisOps E.sn E.cs o.box.xbeg o.box.ybeg o.box.zbeg dx o.nx o.ny o.nz) (triples o.nx o.ny o.nz)
        ((o.nx + 4) * (o.ny + 4) * (o.nz + 4) - o.nx * o.ny * o.nz).toNat o.errTol o.minStep o.maxStep)
      (fun _ => 0) (Rms E.rt (triples o.nx o.ny o.nz))
      (Extremes E.big E.tiny (triples o.nx o.ny o.nz)) (stepName o.base W) (stepName (finalBase o.base) W)
      (vts3 E.io o.box.xbeg o.box.ybeg o.box.zbeg dx o.nx o.ny o.nz) := by
  have h := eachPois_ode23 (domain_none_any (E := E) (o := o) (by omega)) (file := none)
    (ti := ⟨o.t0, o.tfinal, o.dt0, false, o.maxSteps, 0, o.relTol, o.absTol⟩)
    (by dsimp only; rw [timeOpts_any hcfl hM]) heq rfl hlf hms (by dsimp only; omega) le_rfl hbx hby hbz hdim hn hw
    (by dsimp only; omega) (u0 := fun _ => 0)
    (fun G hG hg m => by
      obtain ⟨m1, h1, h2, h3⟩ := icPois_none_any (E := E) hG (sz := sz) (sol := w.rk.sol)
        (by rw [hg]; exact hw.cells _ (by simp)) (.d3 ⟨o.nx, o.ny, o.nz, 2⟩ w.rk.sol) m
      rw [hg] at h2
      exact ⟨m1, h1, by rw [hg]; exact h2, h3⟩)
    hint m hz
  have hpad : ((⟨o.nx, o.ny, o.nz, 2⟩ : Grid3).size.toNat - (triples o.nx o.ny o.nz).length : Nat) =
      ((o.nx + 4) * (o.ny + 4) * (o.nz + 4) - o.nx * o.ny * o.nz).toNat := by
    rw [triples_eq, List.length_map, length_box3]
    obtain ⟨a, ha⟩ := Int.eq_ofNat_of_zero_le (show 0 ≤ o.nx by omega)
    obtain ⟨b, hb⟩ := Int.eq_ofNat_of_zero_le (show 0 ≤ o.ny by omega)
    obtain ⟨c, hc⟩ := Int.eq_ofNat_of_zero_le (show 0 ≤ o.nz by omega)
    rw [ha, hb, hc]
    simp only [Grid3.size, sub_zero, Int.toNat_natCast]
    have e : ((a : Int) + 4) * (b + 4) * (c + 4) - a * b * c = (((a + 4) * (b + 4) * (c + 4) : Nat) : Int) - ((c * (b * a) : Nat) : Int) := by
      push_cast
      ring
    rw [e, Int.toNat_sub]
    congr 1
  rw [hW, hdx]
  rw [hpad] at h
  exact h

/-- C103. No tolerance, step size limit or order of reductions can crash or hang an explicit run of the Poisson problem. -/
theorem C103_always_ends (hint : o.sel.integrator = "rk3ssp" ∨ o.sel.integrator = "ode23") (m : Mem A K)
    (hz : ∀ a ∈ [w.rk.k1, w.rk.k2, w.rk.k3, w.rk.k4], ∀ n, m a n = 0) :
    AllEnd sz (program E o none w o.maxSteps) m fun res _ => ∃ files rows, res = .done files rows ∧ files ≠ [] ∧
      rows.length ≤ o.maxSteps := by
  rcases hint with h | h
  · exact (C103_rk3ssp sz E o w heq hcfl hlf hms hM hbx hby hbz hdim hn hw h _ rfl _ rfl m).ends hms rfl rfl
  · exact (C103_ode23 sz E o w heq hcfl hlf hms hM hbx hby hbz hdim hn hw h _ rfl _ rfl m hz).ends hms rfl rfl

end

/-- The run of `lostOpts` for the Poisson problem (test data). -/
def lostPois (integrator : String) : RunOpts (Ieee ieee64) :=
  { lostOpts with
    sel := ⟨3, "periodic", "neumann", "dirichlet", "poisson", integrator, false⟩ }

/-- Both explicit integrators end the Poisson run of `lostPois` with files, in double precision, whatever the library functions do. -/
example [Pow (Ieee ieee64) (Ieee ieee64)] (E : Env (Ieee ieee64)) (m : Mem _ (Ieee ieee64)) (hz : ∀ a n, m a n = 0) :
    (AllEnd (demoSize 392 252) (program E (lostPois "ode23") none demoArr 100) m fun res _ => ∃ files rows, res = .done files rows ∧
      files ≠ [] ∧ rows.length ≤ 100) ∧
    (AllEnd (demoSize 392 252) (program E (lostPois "rk3ssp") none demoArr 100) m fun res _ => ∃ files rows, res = .done files rows ∧
      files ≠ [] ∧ rows.length ≤ 100) :=
  ⟨C103_always_ends (demoSize 392 252) E (lostPois "ode23") demoArr rfl rfl (by decide) (by decide) (by decide)
    (by simp [lostPois]) (by simp [lostPois]) (by simp [lostPois]) rfl (by simp [lostPois, lostOpts, blowOpts])
    ⟨by simp [demoArr], by simp [demoArr, demoSize, lostPois, lostOpts, blowOpts],
      by simp [demoArr, demoSize, lostPois, lostOpts, blowOpts]⟩ (.inr rfl) m (fun a _ n => hz a n),
   C103_always_ends (demoSize 392 252) E (lostPois "rk3ssp") demoArr rfl rfl (by decide) (by decide) (by decide)
    (by simp [lostPois]) (by simp [lostPois]) (by simp [lostPois]) rfl (by simp [lostPois, lostOpts, blowOpts])
    ⟨by simp [demoArr], by simp [demoArr, demoSize, lostPois, lostOpts, blowOpts],
      by simp [demoArr, demoSize, lostPois, lostOpts, blowOpts]⟩ (.inl rfl) m (fun a _ n => hz a n)⟩

end Madg
