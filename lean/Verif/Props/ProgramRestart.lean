/-
C87: whole runs of the program started from a solution file.
-/
import Verif.Proofs.ProgramRestart
import Verif.Props.Program

set_option linter.unusedSectionVars false

namespace Madg
open Spec

section
variable {A : Type} [DecidableEq A] (sz : A → Int) (E : Env ℝ) (o : RunOpts) (w : ProgArr A)
  (heq : o.sel.equation = "cahn-hilliard") (hcfl : o.useCfl = false) (hlf : o.logFreq ≠ 0) (hms : 0 < o.maxSteps)
  (xb xe yb : ℝ) (hle : xb ≤ xe)

section
variable {bx bY bz : BCType}
  (hbx : (o.sel.bcx, bx) ∈ [("periodic", BCType.periodic), ("neumann", .neumann), ("dirichlet", .dirichlet)])
  (hby : (o.sel.bcy, bY) ∈ [("periodic", BCType.periodic), ("neumann", .neumann), ("dirichlet", .dirichlet)])
  (hbz : (o.sel.bcz, bz) ∈ [("periodic", BCType.periodic), ("neumann", .neumann), ("dirichlet", .dirichlet)])
  (hdim : o.sel.dimension = 3) (hv : o.variant = 0 ∨ o.variant = 1 ∨ o.variant = 2) (hmax : o.maxSteps < 2147483648)
  (nx ny nz : Int) (hn : 2 ≤ nx ∧ 2 ≤ ny ∧ 2 ≤ nz) (hn' : nx < 2147483648 ∧ ny < 2147483648 ∧ nz < 2147483648)
  (hw : Arrays3 sz w nx ny nz) (zb dx : ℝ) (hdx : dx = (xe - xb) / nx)
  (hex : ∀ i : Int, 0 ≤ i → i ≤ nx → Exact E.io (xb + dx * i)) (hey : ∀ i : Int, 0 ≤ i → i ≤ ny → Exact E.io (yb + dx * i))
  (hez : ∀ i : Int, 0 ≤ i → i ≤ nz → Exact E.io (zb + dx * i))
  (F : ℝ → (Int × Int × Int → ℝ) → Int × Int × Int → ℝ) (hF : F = chField3 o.par dx bx bY bz nx ny nz)
  (W : Nat) (hW : W = max (Nat.log 10 o.maxSteps + 1) 4)
include heq hcfl hlf hms hle hbx hby hbz hdim hv hmax hn hn' hw hdx hex hey hez hF hW

/-- A 3D run with rk3ssp started from a solution file with status `s` and values `u0`, all numbers of which survive
printing: grid, spacing, initial field, time, step size and step number are those of the file, whatever the options say
about them; the rest is as in a new run. -/
theorem C87_restart3_rk3 (hint : o.sel.integrator = "rk3ssp") (u0 : Int × Int × Int → ℝ)
    (hu0 : ∀ c, In3 nx ny nz c → Exact E.io (u0 c)) (s : Status ℝ) (hs : 0 ≤ s.iter ∧ s.iter < 2147483648)
    (hst : ShortExact E.io s.time) (hsd : ShortExact E.io s.dt)
    (t d p : Nat → ℝ) (hm : Marching o.tfinal s.time s.dt t d p) (hp : ∀ k, p (k + 1) = d k)
    (u : Nat → Int × Int × Int → ℝ) (hu : u = states ssprk3 F t d u0) (m : Mem A ℝ) :
    RunsAs sz (program E o (some (vts3 E.io xb yb zb dx nx ny nz u0 s)) w) m
      ⟨s.time, o.tfinal, s.dt, false, o.maxSteps, s.iter, o.relTol, o.absTol⟩
      o.logFreq.natAbs o.saveEvery.natAbs t d p
      (fun k => rms3 E.rt nx ny nz ((ssprk3 : Tableau ℝ).slope F (t k) (d k) (u k)))
      (fun k => Monitors3 E.rt E.big E.tiny dx nx ny nz (u (k + 1)))
      (stepName o.base W) (stepName (o.base ++ "_final".toList) W)
      (fun k => vts3 E.io xb yb zb dx nx ny nz (u (k + 1))) := by
  subst hdx hu hW
  have hd := domain_vts3 E.io (nx := nx) (xb := xb) (xe := xe) ⟨by omega, hn'.2.1⟩ ⟨by omega, hn'.2.2⟩ yb zb hex hey hez u0 s
    ⟨by omega, hn'.1⟩ hle
  exact run3_rk3 (file := some _) (dom := ⟨nx, ny, nz, xb, xe, yb, zb⟩) hd (time_file (o := o) rfl hst hsd hs hcfl hmax) heq rfl hlf hms
    (by dsimp only; omega) hs.1 hbx hby hbz hdim hv hn hw (by dsimp only; omega)
    (fun G hG hg m => by
      rw [hg]
      exact ic3_file ⟨by omega, by omega, by omega⟩ hd hu0 (hw.cells _ (by simp)) G.interior m) hint hm hp F hF m

/-- The same with ode23, whose stage arrays are zero at the start; the histories of the step size controller start empty. -/
theorem C87_restart3_ode23 (hint : o.sel.integrator = "ode23") (u0 : Int × Int × Int → ℝ)
    (hu0 : ∀ c, In3 nx ny nz c → Exact E.io (u0 c)) (s : Status ℝ) (hs : 0 ≤ s.iter ∧ s.iter < 2147483648)
    (hst : ShortExact E.io s.time) (hsd : ShortExact E.io s.dt)
    (t d p e : Nat → ℝ) (hm : Marching o.tfinal s.time s.dt t d p)
    (u : Nat → Int × Int × Int → ℝ) (hu : u = states bs23 F t d u0) (he : Estimates bs23 F (In3 nx ny nz) t d u e)
    (hp : ∀ k, p (k + 1) = proposal o.errTol o.minStep o.maxStep d e k) (m : Mem A ℝ)
    (hz : ∀ a ∈ [w.rk.k1, w.rk.k2, w.rk.k3, w.rk.k4], ∀ n, m a n = 0) :
    RunsAs sz (program E o (some (vts3 E.io xb yb zb dx nx ny nz u0 s)) w) m
      ⟨s.time, o.tfinal, s.dt, false, o.maxSteps, s.iter, o.relTol, o.absTol⟩
      o.logFreq.natAbs o.saveEvery.natAbs t d p
      (fun k => rms3 E.rt nx ny nz ((bs23 : Tableau ℝ).slope F (t k) (d k) (u k)))
      (fun k => Monitors3 E.rt E.big E.tiny dx nx ny nz (u (k + 1)))
      (stepName o.base W) (stepName (o.base ++ "_final".toList) W)
      (fun k => vts3 E.io xb yb zb dx nx ny nz (u (k + 1))) := by
  subst hdx hu hW
  have hd := domain_vts3 E.io (nx := nx) (xb := xb) (xe := xe) ⟨by omega, hn'.2.1⟩ ⟨by omega, hn'.2.2⟩ yb zb hex hey hez u0 s
    ⟨by omega, hn'.1⟩ hle
  exact run3_ode23 (file := some _) (dom := ⟨nx, ny, nz, xb, xe, yb, zb⟩) hd (time_file (o := o) rfl hst hsd hs hcfl hmax) heq rfl hlf hms
    (by dsimp only; omega) hs.1 hbx hby hbz hdim hv hn hw (by dsimp only; omega)
    (fun G hG hg m => by
      rw [hg]
      exact ic3_file ⟨by omega, by omega, by omega⟩ hd hu0 (hw.cells _ (by simp)) G.interior m) hint hm F hF he hp m hz

/-- Interrupting does no harm: the program is restarted, with the same options, from the file a run with rk3ssp saved after
step number `n ≥ 1`, unless the step after it is the one cut to reach the final time. All further steps, files and log
entries are those of the uninterrupted run (except that residuals are related to the largest one since the restart). -/
theorem C87_resume3 (hint : o.sel.integrator = "rk3ssp") (u0 : Int × Int × Int → ℝ) (t0 dt0 : ℝ)
    (t d p : Nat → ℝ) (hm : Marching o.tfinal t0 dt0 t d p) (hp : ∀ k, p (k + 1) = d k)
    (u : Nat → Int × Int × Int → ℝ) (hu : u = states ssprk3 F t d u0)
    (n : Nat) (hn0 : 1 ≤ n) (hn1 : n < 2147483648) (hlast : ¬ LastStep o.tfinal t p n)
    (hun : ∀ c, In3 nx ny nz c → Exact E.io (u n c)) (htn : ShortExact E.io (t n)) (hdn : ShortExact E.io (d (n - 1)))
    (m : Mem A ℝ) :
    RunsAs sz (program E o (some (vts3 E.io xb yb zb dx nx ny nz (u n) ⟨n, t n, d (n - 1)⟩)) w) m
      ⟨t n, o.tfinal, d (n - 1), false, o.maxSteps, n, o.relTol, o.absTol⟩
      o.logFreq.natAbs o.saveEvery.natAbs (fun k => t (n + k)) (fun k => d (n + k)) (fun k => p (n + k))
      (fun k => rms3 E.rt nx ny nz ((ssprk3 : Tableau ℝ).slope F (t (n + k)) (d (n + k)) (u (n + k))))
      (fun k => Monitors3 E.rt E.big E.tiny dx nx ny nz (u (n + (k + 1))))
      (stepName o.base W) (stepName (o.base ++ "_final".toList) W)
      (fun k => vts3 E.io xb yb zb dx nx ny nz (u (n + (k + 1)))) := by
  have hdd : d (n - 1) = d n := by
    obtain ⟨k, rfl⟩ : ∃ k, n = k + 1 := ⟨n - 1, by omega⟩
    rw [hm.d_succ, if_neg (fun h => hlast ⟨hn0, h⟩), hp]; rfl
  rw [hdd] at hdn ⊢
  exact C87_restart3_rk3 sz E o w heq hcfl hlf hms xb xe yb hle hbx hby hbz hdim hv hmax nx ny nz hn hn' hw zb dx hdx hex hey hez
    F hF W hW hint (u n) hun ⟨n, t n, d n⟩ ⟨by dsimp only; omega, by dsimp only; omega⟩ htn hdn _ _ _ (hm.shift n)
    (fun k => hp (n + k)) (fun k => u (n + k)) (by subst hu; funext k; exact (states_shift ssprk3 F t d u0 n k).symm) m

/-- Without tolerances the resumed run also ends at the same step, and the file it leaves at the end is, in name and
contents, the one the uninterrupted run leaves. -/
theorem C87_same_final3 (hint : o.sel.integrator = "rk3ssp") (u0 : Int × Int × Int → ℝ) (t0 dt0 : ℝ)
    (t d p : Nat → ℝ) (hm : Marching o.tfinal t0 dt0 t d p) (hp : ∀ k, p (k + 1) = d k)
    (u : Nat → Int × Int × Int → ℝ) (hu : u = states ssprk3 F t d u0) (hr : o.relTol = 0) (ha : o.absTol = 0)
    (r : Nat → ℝ) (N : Nat) (hN : EndsAfter ⟨t0, o.tfinal, dt0, false, o.maxSteps, 0, o.relTol, o.absTol⟩ o.logFreq.natAbs t p r N)
    (n : Nat) (hn0 : 1 ≤ n) (hnN : n < N) (hn1 : n < 2147483648) (hlast : ¬ LastStep o.tfinal t p n)
    (hun : ∀ c, In3 nx ny nz c → Exact E.io (u n c)) (htn : ShortExact E.io (t n)) (hdn : ShortExact E.io (d (n - 1)))
    (m : Mem A ℝ) (fuel : Nat) (hf : N - n ≤ fuel) :
    ∃ files rows m', CDet sz (program E o (some (vts3 E.io xb yb zb dx nx ny nz (u n) ⟨n, t n, d (n - 1)⟩)) w fuel) m
      (.done (files ++ [(stepName (o.base ++ "_final".toList) W N,
        vts3 E.io xb yb zb dx nx ny nz (u N) (finalStatus 0 o.tfinal t d p N))]) rows) m' := by
  obtain ⟨N', h1, h2, -⟩ := C87_resume3 sz E o w heq hcfl hlf hms xb xe yb hle hbx hby hbz hdim hv hmax nx ny nz hn hn' hw zb dx hdx
    hex hey hez F hF W hW hint u0 t0 dt0 t d p hm hp u hu n hn0 hn1 hlast hun htn hdn m
  rw [hr, ha] at hN h1
  obtain rfl := endsAfter_shift hlast hN hnN h1
  obtain ⟨v, m', -, h4⟩ := h2 fuel (by omega)
  have e := finalStatus_shift (d := d) h1.1 hlast
  have e2 : n + (N' - 1 + 1) = n + N' := by have := h1.1; omega
  dsimp only at h4
  rw [e2, e] at h4
  exact ⟨_, _, m', by push_cast; exact h4⟩

end

section
variable (hbx : o.sel.bcx ∈ ["periodic", "neumann", "dirichlet"]) (hby : o.sel.bcy ∈ ["periodic", "neumann", "dirichlet"])
  (hbz : o.sel.bcz ∈ ["periodic", "neumann", "dirichlet"]) (hdim : o.sel.dimension = 2) (hmax : o.maxSteps < 1000000)
  (nx : Int) (hn : 2 ≤ nx) (hn' : nx < 2147483648)
  (hw : Arrays2 sz w nx) (dx : ℝ) (hdx : dx = (xe - xb) / nx)
  (h00 : E.io.parse "0.0".toList = some 0)
  (hex : ∀ i : Int, 0 ≤ i → i ≤ nx → Exact E.io (xb + dx * i)) (hey : ∀ i : Int, 0 ≤ i → i ≤ nx → Exact E.io (yb + dx * i))
  (F : ℝ → (Int × Int → ℝ) → Int × Int → ℝ) (hF : F = chField2 o.par dx nx)
  (W : Nat) (hW : W = Nat.log 10 o.maxSteps + 1)
include heq hcfl hlf hms hle hbx hby hbz hdim hmax hn hn' hw hdx h00 hex hey hF hW

/-- A 2D run with rk3ssp started from a solution file. -/
theorem C87_restart2_rk3 (hint : o.sel.integrator = "rk3ssp") (u0 : Int × Int → ℝ)
    (hu0 : ∀ c, In2 nx c → Exact E.io (u0 c)) (s : Status ℝ) (hs : 0 ≤ s.iter ∧ s.iter + 1 < 1000000)
    (hst : ShortExact E.io s.time) (hsd : ShortExact E.io s.dt)
    (t d p : Nat → ℝ) (hm : Marching o.tfinal s.time s.dt t d p) (hp : ∀ k, p (k + 1) = d k)
    (u : Nat → Int × Int → ℝ) (hu : u = states ssprk3 F t d u0) (m : Mem A ℝ) :
    RunsAs sz (program E o (some (vts2 E.io xb yb dx nx u0 s)) w) m
      ⟨s.time, o.tfinal, s.dt, false, o.maxSteps, s.iter, o.relTol, o.absTol⟩
      o.logFreq.natAbs o.saveEvery.natAbs t d p
      (fun k => rms2 E.rt nx ((ssprk3 : Tableau ℝ).slope F (t k) (d k) (u k)))
      (fun k => Monitors2 E.rt E.big E.tiny dx nx (u (k + 1)))
      (stepName o.base W) (stepName (o.base ++ "_final".toList) W)
      (fun k => vts2 E.io xb yb dx nx (u (k + 1))) := by
  subst hdx hu hW
  have hd := domain_vts2 E.io (nx := nx) (xb := xb) (xe := xe) yb h00 hex hey u0 s ⟨by omega, hn'⟩ hle
  exact run2_rk3 (file := some _) (dom := ⟨nx, nx, 0, xb, xe, yb, 0⟩) hd
    (time_file (o := o) rfl hst hsd ⟨hs.1, by omega⟩ hcfl (by omega)) heq rfl hlf hms
    (by dsimp only; omega) hs.1 hbx hby hbz hdim hn hw (by dsimp only; omega)
    (fun G hG hg m => by
      rw [hg]
      exact ic2_file (by omega) hd hu0 (hw.cells _ (by simp)) G.interior m) hint hm hp F hF m

/-- A 2D run with ode23 started from a solution file. -/
theorem C87_restart2_ode23 (hint : o.sel.integrator = "ode23") (u0 : Int × Int → ℝ)
    (hu0 : ∀ c, In2 nx c → Exact E.io (u0 c)) (s : Status ℝ) (hs : 0 ≤ s.iter ∧ s.iter + 1 < 1000000)
    (hst : ShortExact E.io s.time) (hsd : ShortExact E.io s.dt)
    (t d p e : Nat → ℝ) (hm : Marching o.tfinal s.time s.dt t d p)
    (u : Nat → Int × Int → ℝ) (hu : u = states bs23 F t d u0) (he : Estimates bs23 F (In2 nx) t d u e)
    (hp : ∀ k, p (k + 1) = proposal o.errTol o.minStep o.maxStep d e k) (m : Mem A ℝ)
    (hz : ∀ a ∈ [w.rk.k1, w.rk.k2, w.rk.k3, w.rk.k4], ∀ n, m a n = 0) :
    RunsAs sz (program E o (some (vts2 E.io xb yb dx nx u0 s)) w) m
      ⟨s.time, o.tfinal, s.dt, false, o.maxSteps, s.iter, o.relTol, o.absTol⟩
      o.logFreq.natAbs o.saveEvery.natAbs t d p
      (fun k => rms2 E.rt nx ((bs23 : Tableau ℝ).slope F (t k) (d k) (u k)))
      (fun k => Monitors2 E.rt E.big E.tiny dx nx (u (k + 1)))
      (stepName o.base W) (stepName (o.base ++ "_final".toList) W)
      (fun k => vts2 E.io xb yb dx nx (u (k + 1))) := by
  subst hdx hu hW
  have hd := domain_vts2 E.io (nx := nx) (xb := xb) (xe := xe) yb h00 hex hey u0 s ⟨by omega, hn'⟩ hle
  exact run2_ode23 (file := some _) (dom := ⟨nx, nx, 0, xb, xe, yb, 0⟩) hd
    (time_file (o := o) rfl hst hsd ⟨hs.1, by omega⟩ hcfl (by omega)) heq rfl hlf hms
    (by dsimp only; omega) hs.1 hbx hby hbz hdim hn hw (by dsimp only; omega)
    (fun G hG hg m => by
      rw [hg]
      exact ic2_file (by omega) hd hu0 (hw.cells _ (by simp)) G.interior m) hint hm F hF he hp m hz

/-- Interrupting a 2D run with rk3ssp does no harm either. -/
theorem C87_resume2 (hint : o.sel.integrator = "rk3ssp") (u0 : Int × Int → ℝ) (t0 dt0 : ℝ)
    (t d p : Nat → ℝ) (hm : Marching o.tfinal t0 dt0 t d p) (hp : ∀ k, p (k + 1) = d k)
    (u : Nat → Int × Int → ℝ) (hu : u = states ssprk3 F t d u0)
    (n : Nat) (hn0 : 1 ≤ n) (hn1 : n + 1 < 1000000) (hlast : ¬ LastStep o.tfinal t p n)
    (hun : ∀ c, In2 nx c → Exact E.io (u n c)) (htn : ShortExact E.io (t n)) (hdn : ShortExact E.io (d (n - 1)))
    (m : Mem A ℝ) :
    RunsAs sz (program E o (some (vts2 E.io xb yb dx nx (u n) ⟨n, t n, d (n - 1)⟩)) w) m
      ⟨t n, o.tfinal, d (n - 1), false, o.maxSteps, n, o.relTol, o.absTol⟩
      o.logFreq.natAbs o.saveEvery.natAbs (fun k => t (n + k)) (fun k => d (n + k)) (fun k => p (n + k))
      (fun k => rms2 E.rt nx ((ssprk3 : Tableau ℝ).slope F (t (n + k)) (d (n + k)) (u (n + k))))
      (fun k => Monitors2 E.rt E.big E.tiny dx nx (u (n + (k + 1))))
      (stepName o.base W) (stepName (o.base ++ "_final".toList) W)
      (fun k => vts2 E.io xb yb dx nx (u (n + (k + 1)))) := by
  have hdd : d (n - 1) = d n := by
    obtain ⟨k, rfl⟩ : ∃ k, n = k + 1 := ⟨n - 1, by omega⟩
    rw [hm.d_succ, if_neg (fun h => hlast ⟨hn0, h⟩), hp]; rfl
  rw [hdd] at hdn ⊢
  exact C87_restart2_rk3 sz E o w heq hcfl hlf hms xb xe yb hle hbx hby hbz hdim hmax nx hn hn' hw dx hdx h00 hex hey
    F hF W hW hint (u n) hun ⟨n, t n, d n⟩ ⟨by dsimp only; omega, by dsimp only; omega⟩ htn hdn _ _ _ (hm.shift n)
    (fun k => hp (n + k)) (fun k => u (n + k)) (by subst hu; funext k; exact (states_shift ssprk3 F t d u0 n k).symm) m

/-- The resumed 2D run leaves the same last file as the uninterrupted one. -/
theorem C87_same_final2 (hint : o.sel.integrator = "rk3ssp") (u0 : Int × Int → ℝ) (t0 dt0 : ℝ)
    (t d p : Nat → ℝ) (hm : Marching o.tfinal t0 dt0 t d p) (hp : ∀ k, p (k + 1) = d k)
    (u : Nat → Int × Int → ℝ) (hu : u = states ssprk3 F t d u0) (hr : o.relTol = 0) (ha : o.absTol = 0)
    (r : Nat → ℝ) (N : Nat) (hN : EndsAfter ⟨t0, o.tfinal, dt0, false, o.maxSteps, 0, o.relTol, o.absTol⟩ o.logFreq.natAbs t p r N)
    (n : Nat) (hn0 : 1 ≤ n) (hnN : n < N) (hn1 : n + 1 < 1000000) (hlast : ¬ LastStep o.tfinal t p n)
    (hun : ∀ c, In2 nx c → Exact E.io (u n c)) (htn : ShortExact E.io (t n)) (hdn : ShortExact E.io (d (n - 1)))
    (m : Mem A ℝ) (fuel : Nat) (hf : N - n ≤ fuel) :
    ∃ files rows m', CDet sz (program E o (some (vts2 E.io xb yb dx nx (u n) ⟨n, t n, d (n - 1)⟩)) w fuel) m
      (.done (files ++ [(stepName (o.base ++ "_final".toList) W N,
        vts2 E.io xb yb dx nx (u N) (finalStatus 0 o.tfinal t d p N))]) rows) m' := by
  obtain ⟨N', h1, h2, -⟩ := C87_resume2 sz E o w heq hcfl hlf hms xb xe yb hle hbx hby hbz hdim hmax nx hn hn' hw dx hdx
    h00 hex hey F hF W hW hint u0 t0 dt0 t d p hm hp u hu n hn0 hn1 hlast hun htn hdn m
  rw [hr, ha] at hN h1
  obtain rfl := endsAfter_shift hlast hN hnN h1
  obtain ⟨v, m', -, h4⟩ := h2 fuel (by omega)
  have e := finalStatus_shift (d := d) h1.1 hlast
  have e2 : n + (N' - 1 + 1) = n + N' := by have := h1.1; omega
  dsimp only at h4
  rw [e2, e] at h4
  exact ⟨_, _, m', by push_cast; exact h4⟩

end

end

/-- The exception in `C87_resume3` is real. If the step after the file is the one cut to reach the final time, the file still
carries the uncut size, and the first step of a run is not compared with the final time: the resumed run goes to or beyond
the final time and then takes one more step of zero or negative size back to it. -/
theorem C87_penultimate (T t0 dt0 : ℝ) (t d p : Nat → ℝ) (hm : Marching T t0 dt0 t d p) (hp : ∀ k, p (k + 1) = d k) (n : Nat)
    (hlast : LastStep T t p n) (hd : 0 ≤ d (n - 1)) (M : Int) (hM : n + 2 ≤ M) (t' d' p' : Nat → ℝ)
    (hm' : Marching T (t n) (d (n - 1)) t' d' p') (hp' : ∀ k, p' (k + 1) = d' k) (f : Nat) (r' : Nat → ℝ) (N' : Nat)
    (hN' : EndsAfter ⟨t n, T, d (n - 1), false, M, n, 0, 0⟩ f t' p' r' N') :
    t (n + 1) = T ∧ N' = 2 ∧ t' 1 = t n + d (n - 1) ∧ T ≤ t' 1 ∧ d' 1 = T - t' 1 ∧ t' 2 = T := by
  obtain ⟨k, rfl⟩ : ∃ k, n = k + 1 := ⟨n - 1, by have := hlast.1; omega⟩
  have h0 := hlast.2
  rw [hp] at h0
  simp only [Nat.add_sub_cancel] at *
  have e1 : t' 1 = t (k + 1) + d k := by rw [hm'.t_succ, hm'.t_zero, hm'.d_zero]
  have hT : T ≤ t' 1 := by rw [e1]; exact h0
  have hl : T ≤ t' 1 + p' 1 := by rw [hp' 0, hm'.d_zero]; linarith
  have e2 : d' 1 = T - t' 1 := by rw [hm'.d_succ, if_pos hl]
  have e3 : d (k + 1) = T - t (k + 1) := by rw [hm.d_succ, if_pos hlast.2]
  refine ⟨by rw [hm.t_succ, e3]; ring, ?_, e1, hT, e2, by rw [hm'.t_succ, e2]; ring⟩
  have hstop : ∀ j : Nat, (k + 1 : Nat) + (j : Int) < M →
      ¬ StopAt (⟨t (k + 1), T, d k, false, M, ((k + 1 : Nat) : Int), 0, 0⟩ : TimeOpts ℝ) f r' j := by
    rintro j hj (h | ⟨h, -⟩ | ⟨h, -⟩)
    · have := h.2; dsimp only at this; omega
    · exact h rfl
    · exact h rfl
  refine hN'.unique ⟨by omega, Or.inl ⟨le_refl 1, hl⟩, fun j j1 j2 => ?_⟩
  obtain rfl : j = 1 := by omega
  rintro (h | h)
  · exact absurd h.1 (by norm_num)
  · exact hstop 1 (by push_cast at hM ⊢; omega) h

/-! ### A concrete restart -/

/-- Printing by position in a list: every number of the list survives. -/
noncomputable def listText (L : List ℝ) : RealText ℝ :=
  ⟨fun v => List.replicate (L.idxOf v + 4) '1', fun v => List.replicate (L.idxOf v + 4) '1',
    fun t => if t = "0.0".toList then some 0 else L[t.length - 4]?⟩

theorem listText_exact {L : List ℝ} {v : ℝ} (hv : v ∈ L) : Exact (listText L) v ∧ ShortExact (listText L) v := by
  have hw : Word isSpaceNl (List.replicate (L.idxOf v + 4) '1') := by
    refine ⟨by simp, fun c hc => ?_⟩
    rw [List.eq_of_mem_replicate hc]; decide
  have hp : (listText L).parse (List.replicate (L.idxOf v + 4) '1') = some v := by
    unfold listText
    dsimp only
    rw [if_neg (fun h => by have := congrArg List.length h; simp at this), List.length_replicate, Nat.add_sub_cancel,
      List.getElem?_eq_getElem (List.idxOf_lt_length_of_mem hv), List.getElem_idxOf]
  exact ⟨⟨hw, hp⟩, ⟨hw, hp⟩⟩

/-- A run on a 2×2×3 grid to time 1 in ten steps, interrupted after step 5 and resumed, for every field reached. -/
example (E : Env ℝ) (u0 : Int × Int × Int → ℝ) (m : Mem Nat ℝ) (fuel : Nat) (hf : 5 ≤ fuel) :
    ∃ (io : RealText ℝ) (u : Int × Int × Int → ℝ) (s : Status ℝ) (files : List (Text × VtsFile)) (rows : List (List (String × ℝ))) (m' : Mem Nat ℝ)
      (uN : Int × Int × Int → ℝ) (sN : Status ℝ), s.iter = 5 ∧ sN.iter = 10 ∧ sN.time = 1 ∧
      CDet (demoSize 392 252) (program { E with io := io } (demoOpts "rk3ssp") (some (vts3 io 0 0 0 ((1 - 0) / (2 : Int)) 2 2 3 u s)) demoArr fuel) m
        (.done (files ++ [(stepName "s_final".toList 4 10, vts3 io 0 0 0 ((1 - 0) / (2 : Int)) 2 2 3 uN sN)]) rows) m' := by
  obtain ⟨t, d, p, ⟨hm, hp⟩, -⟩ := C85_sequences 1 0 (1 / 10)
  have hc : ⌈((1 : ℝ) - 0) / (1 / 10)⌉₊ = 10 := by norm_num
  obtain ⟨N, hN⟩ := exists_end (o := ⟨0, 1, 1 / 10, false, (100 : Nat), 0, 0, 0⟩) (f := 1) (t := t) (p := p)
    (r := fun _ => 0) (by norm_num)
  obtain ⟨h1, h2, h3⟩ := C85_steps 0 1 (1 / 10) (by norm_num) 100 (by norm_num) t d p hm hp 1 _ N hN
  rw [hc] at h1 h2 h3
  obtain rfl : N = 10 := by rw [h1]; norm_num
  have hl : ¬ LastStep 1 t p 5 := by
    rintro ⟨-, h⟩
    rw [hp 4, (h3 5 (by norm_num)).1, (h3 4 (by norm_num)).2] at h
    norm_num at h
  obtain ⟨F, hF⟩ : ∃ F, F = chField3 (demoOpts "rk3ssp").par (((1 : ℝ) - 0) / (2 : Int)) .periodic .neumann .periodic 2 2 3 :=
    ⟨_, rfl⟩
  obtain ⟨u, hu⟩ : ∃ u, u = states ssprk3 F t d u0 := ⟨_, rfl⟩
  obtain ⟨L, hLe⟩ : ∃ L : List ℝ, L = t 5 :: d (5 - 1) :: ((triples 2 2 3).map (u 5) ++
    (irange 0 4).map fun i : Int => 0 + ((1 : ℝ) - 0) / (2 : Int) * (i : ℝ)) := ⟨_, rfl⟩
  have hL : ∀ i : Int, 0 ≤ i → i ≤ 3 → Exact (listText L) (0 + ((1 : ℝ) - 0) / (2 : Int) * (i : ℝ)) := fun i i0 i1 =>
    (listText_exact (by rw [hLe]; exact List.mem_cons_of_mem _ (List.mem_cons_of_mem _ (List.mem_append_right _
      (List.mem_map.2 ⟨i, mem_irange.2 ⟨i0, by omega⟩, rfl⟩))))).1
  obtain ⟨files, rows, m', h⟩ := C87_same_final3 (bx := .periodic) (bY := .neumann) (bz := .periodic) (demoSize 392 252)
    { E with io := listText L } (demoOpts "rk3ssp") demoArr rfl rfl (by simp [demoOpts]) (by simp [demoOpts]) 0 1 0 (by norm_num)
    (by simp [demoOpts]) (by simp [demoOpts]) (by simp [demoOpts]) rfl (by simp [demoOpts]) (by simp [demoOpts]) 2 2 3 (by norm_num)
    (by norm_num) ⟨by simp [demoArr], by simp [demoArr, demoSize], by simp [demoArr, demoSize]⟩ 0 _ rfl
    (fun i i0 i1 => hL i i0 (by omega)) (fun i i0 i1 => hL i i0 (by omega)) (fun i i0 i1 => hL i i0 i1) F hF 4
    (by simp only [demoOpts]; decide +kernel) rfl u0 0 (1 / 10) t d p hm hp u hu rfl rfl _ 10 hN 5 (by norm_num) (by norm_num)
    (by norm_num) hl
    (fun c hc => (listText_exact (by rw [hLe]; exact List.mem_cons_of_mem _ (List.mem_cons_of_mem _ (List.mem_append_left _
      (List.mem_map_of_mem (mem_triples.2 hc)))))).1)
    (listText_exact (by rw [hLe]; exact List.mem_cons_self)).2
    (listText_exact (by rw [hLe]; exact List.mem_cons_of_mem _ List.mem_cons_self)).2 m fuel hf
  exact ⟨listText L, u 5, ⟨5, t 5, d (5 - 1)⟩, files, rows, m', u 10, _, rfl, by simp [finalStatus], h2 (by norm_num), h⟩

/-- A 2D run with ode23 started from any field. -/
example (E : Env ℝ) (u0 : Int × Int → ℝ) : ∃ (io : RealText ℝ) (t d p r : Nat → ℝ) (Q : Nat → ℝ × ℝ × ℝ → Prop) (file : Nat → Status ℝ → VtsFile),
    RunsAs (demoSize 64 49) (program { E with io := io } (demoOpts2 "ode23") (some (vts2 io 0 0 ((1 - 0) / (3 : Int)) 3 u0 ⟨7, 1 / 2, 1 / 100⟩)) demoArr)
      (fun _ _ => 0) ⟨1 / 2, 1, 1 / 100, false, 100, 7, 0, 0⟩ 1 5 t d p r Q (stepName ['s'] 3) (stepName "s_final".toList 3) file := by
  obtain ⟨F, hF⟩ : ∃ F, F = chField2 (demoOpts2 "ode23").par (((1 : ℝ) - 0) / (3 : Int)) 3 := ⟨_, rfl⟩
  obtain ⟨t, d, p, e, hm, he, hp⟩ := C86_sequences F (In2 3) (finite_in2 3) u0 1 (1 / 2) (1 / 100) 1 0 1
  obtain ⟨L, hLe⟩ : ∃ L : List ℝ, L = (1 / 2) :: (1 / 100) :: ((pairs 3 3).map u0 ++
    (irange 0 4).map fun i : Int => 0 + ((1 : ℝ) - 0) / (3 : Int) * (i : ℝ)) := ⟨_, rfl⟩
  have hL : ∀ i : Int, 0 ≤ i → i ≤ 3 → Exact (listText L) (0 + ((1 : ℝ) - 0) / (3 : Int) * (i : ℝ)) := fun i i0 i1 =>
    (listText_exact (by rw [hLe]; exact List.mem_cons_of_mem _ (List.mem_cons_of_mem _ (List.mem_append_right _
      (List.mem_map.2 ⟨i, mem_irange.2 ⟨i0, by omega⟩, rfl⟩))))).1
  exact ⟨listText L, t, d, p, _, _, _, C87_restart2_ode23 (demoSize 64 49) { E with io := listText L } (demoOpts2 "ode23") demoArr
    rfl rfl (by simp [demoOpts2, demoOpts]) (by simp [demoOpts2, demoOpts]) 0 1 0 (by norm_num) (by simp [demoOpts2]) (by simp [demoOpts2])
    (by simp [demoOpts2]) rfl (by simp [demoOpts2, demoOpts]) 3 (by norm_num) (by norm_num)
    ⟨by simp [demoArr], by simp [demoArr, demoSize], by simp [demoArr, demoSize]⟩ _ rfl (by unfold listText; simp) hL hL F hF 3
    (by simp only [demoOpts2, demoOpts]; decide +kernel) rfl u0
    (fun c hc => (listText_exact (by rw [hLe]; exact List.mem_cons_of_mem _ (List.mem_cons_of_mem _ (List.mem_append_left _
      (List.mem_map_of_mem (mem_pairs.2 hc)))))).1) ⟨7, 1 / 2, 1 / 100⟩ (by norm_num)
    (listText_exact (by rw [hLe]; exact List.mem_cons_self)).2
    (listText_exact (by rw [hLe]; exact List.mem_cons_of_mem _ List.mem_cons_self)).2 t d p e hm _ rfl he hp _ (fun _ _ _ => rfl)⟩

/-- Steps of size 2/5 towards time 1: the run resumed from the file at 4/5 goes to 6/5 and back. -/
example (t d p : Nat → ℝ) (hm : Marching 1 0 (2 / 5) t d p) (hp : ∀ k, p (k + 1) = d k) :
    LastStep 1 t p 2 ∧ 0 ≤ d (2 - 1) ∧ t 2 + d (2 - 1) = 6 / 5 := by
  have h0 := hm.t_succ 0
  have h1 := hm.t_succ 1
  have e1 := hm.d_succ 0
  have e0 := hp 0
  rw [hm.t_zero, hm.d_zero] at h0
  rw [hm.d_zero] at e0
  norm_num at h0 h1 e1
  rw [e0, h0, if_neg (by norm_num)] at e1
  rw [h0, e1] at h1
  refine ⟨⟨by norm_num, ?_⟩, ?_, ?_⟩
  · rw [hp 1, h1, e1]; norm_num
  · norm_num [e1]
  · norm_num [h1, e1]

end Madg
