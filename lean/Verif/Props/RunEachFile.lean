/-
C106: every single execution of an explicit run resumed from a file, in floating-point arithmetic.
-/
import Verif.Props.RunEach2
import Verif.Props.RunEachPois
import Verif.Props.Resume

set_option linter.unusedSectionVars false

namespace Madg
open Spec

/-- Reading the domain of a 2D file whose points were computed with rounding. -/
theorem domain_vts2_fl {F : FloatFmt} {io : RealText (Fl F.round)} (hp : 1 ≤ F.prec) (hio : ∀ x : Fl F.round, IsFloat F x.val → Exact io x)
    (h00 : io.parse "0.0".toList = some 0) {n : Int} (hx : 1 ≤ n ∧ n < 2147483648) {xb yb h : Fl F.round}
    (hxb : IsFloat F xb.val) (hyb : IsFloat F yb.val) (hh : 0 ≤ h.val) (u : Int × Int → Fl F.round) (s : Status (Fl F.round)) :
    getCartesianDomain io (vts2 io xb yb h n u s) = .ok ⟨n, n, 0, xb, xb + h * (n : Fl F.round), yb, 0⟩ := by
  have hb : ∀ c ∈ pairs (n + 1) (n + 1), (0 ≤ c.1 ∧ c.1 ≤ n) ∧ (0 ≤ c.2 ∧ c.2 ≤ n) := by
    intro c hc
    obtain ⟨h1, h2⟩ := mem_pairs.1 hc
    omega
  have h0 : ((0, 0) : Int × Int) ∈ pairs (n + 1) (n + 1) := mem_pairs.2 ⟨by dsimp only; omega, by dsimp only; omega⟩
  have hN : ((n, 0) : Int × Int) ∈ pairs (n + 1) (n + 1) := mem_pairs.2 ⟨by dsimp only; omega, by dsimp only; omega⟩
  have mono : ∀ (b : Fl F.round) (i j : Int), i ≤ j → b + h * (i : Fl F.round) ≤ b + h * (j : Fl F.round) := by
    intro b i j hij
    rw [Fl.le_def]
    show F.round (b.val + F.round (h.val * F.round (i : ℚ))) ≤ F.round (b.val + F.round (h.val * F.round (j : ℚ)))
    have h1 : F.round (i : ℚ) ≤ F.round (j : ℚ) := F.round_mono hp (by exact_mod_cast hij)
    have h2 : F.round (h.val * F.round (i : ℚ)) ≤ F.round (h.val * F.round (j : ℚ)) :=
      F.round_mono hp (mul_le_mul_of_nonneg_left h1 hh)
    exact F.round_mono hp (by linarith)
  have start : ∀ b : Fl F.round, IsFloat F b.val → b + h * ((0 : Int) : Fl F.round) = b := by
    intro b hb
    apply Fl.eq_of_val
    show F.round (b.val + F.round (h.val * F.round ((0 : Int) : ℚ))) = b.val
    rw [Int.cast_zero, F.round_zero, mul_zero, F.round_zero, add_zero, F.round_float hb]
  have ex : ∀ (b : Fl F.round) (i : Int), Exact io (b + h * (i : Fl F.round)) := fun b i => hio _ (F.round_isFloat hp _)
  refine getCartesianDomain_ok io _ ⟨by omega, hx.2⟩ ⟨by omega, hx.2⟩ ⟨by omega, by omega⟩ rfl
    (pairs (n + 1) (n + 1)) _ _ _ (fun c => xb + h * (c.1 : Fl F.round)) (fun c => yb + h * (c.2 : Fl F.round))
    (fun _ => 0) (vts2_points io xb yb h n u s) ?_ ?_ ?_ ?_ ?_ ?_ ?_
  · rw [pairs_eq, List.length_map, length_box2]
    push_cast
    rw [Int.toNat_of_nonneg (by omega)]
    ring
  · intro c hc
    exact ⟨(ex _ _).1, (ex _ _).1, by unfold Word; decide +kernel⟩
  · intro c hc
    exact ⟨(ex _ _).2, (ex _ _).2, h00⟩
  · refine ⟨⟨_, h0, start xb hxb⟩, fun c hc => ?_⟩
    have := mono xb 0 c.1 (hb c hc).1.1
    rwa [start xb hxb] at this
  · exact ⟨⟨_, hN, rfl⟩, fun c hc => mono xb c.1 n (hb c hc).1.2⟩
  · refine ⟨⟨_, h0, start yb hyb⟩, fun c hc => ?_⟩
    have := mono yb 0 c.2 (hb c hc).2.1
    rwa [start yb hyb] at this
  · exact ⟨⟨_, h0, rfl⟩, fun c hc => le_refl 0⟩

/-- A resumed run ends normally, having written files. -/
theorem Spec.RunsEach.ends_from {A K C : Type} [DecidableEq A] [Arith K] [LT K] [DecidableLT K] [LE K] [DecidableLE K] [DecidableEq K]
    [Max K] [Min K] {sz : A → Int}
    {run : Nat → Cmd A K (RunResult K)} {m : Mem A K} {ti : TimeOpts K} {lf se : Nat} {M : Method K C} {u0 : C → K}
    {R : (C → K) → K → Prop} {Q : (C → K) → K × K × K → Prop} {name fname : Int → Text} {vf : (C → K) → Status K → VtsFile} {n : Nat}
    (h : RunsEach sz run m ti lf se M u0 R Q name fname vf) (hm : 0 < ti.maxSteps) (hn : 1 ≤ n) (h2 : ti.maxSteps ≤ ti.initialStep + n) :
    AllEnd sz (run n) m fun res _ => ∃ files rows, res = .done files rows ∧ files ≠ [] ∧
      (rows.length : Int) ≤ max 1 (ti.maxSteps - ti.initialStep) := by
  refine (h n hn h2).mono ?_
  rintro res m1 ⟨N, t, d, p, r, e, v, u, q1, q2, q3, q4, q5, rfl⟩
  have hb : ti.initialStep + N ≤ max ti.maxSteps (ti.initialStep + 1) := by
    let : Max K := byLess
    exact q2.bound hm.ne'
  refine ⟨_, _, rfl, by simp, ?_⟩
  refine le_trans (b := (N : Int)) ?_ (by omega)
  unfold reportRows
  have : ∀ {α β : Type} (f : α → β) (g : α → Bool) (l : List α), ((l.filter g).map f).length ≤ l.length := fun f g l =>
    (List.length_map ..).le.trans (List.length_filter_le ..)
  refine Int.ofNat_le.2 ((this _ _ _).trans (List.length_range ..).le)

theorem pad3_count {nx ny nz : Int} (hn : 0 ≤ nx ∧ 0 ≤ ny ∧ 0 ≤ nz) :
    ((⟨nx, ny, nz, 2⟩ : Grid3).size.toNat - (triples nx ny nz).length : Nat) = ((nx + 4) * (ny + 4) * (nz + 4) - nx * ny * nz).toNat := by
  rw [triples_eq, List.length_map, length_box3]
  obtain ⟨a, ha⟩ := Int.eq_ofNat_of_zero_le hn.1
  obtain ⟨b, hb⟩ := Int.eq_ofNat_of_zero_le hn.2.1
  obtain ⟨c, hc⟩ := Int.eq_ofNat_of_zero_le hn.2.2
  rw [ha, hb, hc]
  simp only [Grid3.size, sub_zero, Int.toNat_natCast]
  have e : ((a : Int) + 4) * (b + 4) * (c + 4) - a * b * c = (((a + 4) * (b + 4) * (c + 4) : Nat) : Int) - ((c * (b * a) : Nat) : Int) := by
    push_cast
    ring
  rw [e, Int.toNat_sub]
  congr 1

theorem pad2_count {n : Int} (hn : 0 ≤ n) :
    ((⟨n, n, 2⟩ : Grid2).size.toNat - (pairs n n).length : Nat) = ((n + 4) * (n + 4) - n * n).toNat := by
  rw [pairs_eq, List.length_map, length_box2]
  obtain ⟨a, ha⟩ := Int.eq_ofNat_of_zero_le hn
  rw [ha]
  simp only [Grid2.size, sub_zero, Int.toNat_natCast]
  have e : ((a : Int) + 4) * (a + 4) - a * a = (((a + 4) * (a + 4) : Nat) : Int) - ((a * a : Nat) : Int) := by
    push_cast
    ring
  rw [e, Int.toNat_sub]
  congr 1

section
variable {A : Type} [DecidableEq A] {F : FloatFmt} [Pow (Fl F.round) (Fl F.round)] (sz : A → Int) (E : Env (Fl F.round))
  (o : RunOpts (Fl F.round)) (w : ProgArr A) (hcfl : o.useCfl = false) (hlf : o.logFreq ≠ 0) (hms : 0 < o.maxSteps)
  (hF : 1 ≤ F.prec) (hio : ∀ x : Fl F.round, IsFloat F x.val → Exact E.io x)
  {xb yb zb h : Fl F.round} (hbox : IsFloat F xb.val ∧ IsFloat F yb.val ∧ IsFloat F zb.val) (hh : 0 ≤ h.val)
  (s0 : Status (Fl F.round)) (hs0 : ShortExact E.io s0.time ∧ ShortExact E.io s0.dt)

section
variable (hM : o.maxSteps < 2147483648) (hdim : o.sel.dimension = 3)
  {nx ny nz : Int} (hn : 2 ≤ nx ∧ 2 ≤ ny ∧ 2 ≤ nz) (hn' : nx < 2147483648 ∧ ny < 2147483648 ∧ nz < 2147483648)
  (u0 : Int × Int × Int → Fl F.round) (hu0 : ∀ c, In3 nx ny nz c → IsFloat F (u0 c).val) (hi0 : 0 ≤ s0.iter ∧ s0.iter < 2147483647)
  (dx : Fl F.round) (hdx : dx = (xb + h * (nx : Fl F.round) - xb) / (nx : Fl F.round))
  (W : Nat) (hW : W = max (Nat.log 10 o.maxSteps + 1) 4)

section
variable (heq : o.sel.equation = "cahn-hilliard") {bx bY bz : BCType}
  (hbx : (o.sel.bcx, bx) ∈ [("periodic", BCType.periodic), ("neumann", .neumann), ("dirichlet", .dirichlet)])
  (hby : (o.sel.bcy, bY) ∈ [("periodic", BCType.periodic), ("neumann", .neumann), ("dirichlet", .dirichlet)])
  (hbz : (o.sel.bcz, bz) ∈ [("periodic", BCType.periodic), ("neumann", .neumann), ("dirichlet", .dirichlet)])
  (hv : o.variant = 0 ∨ o.variant = 1 ∨ o.variant = 2) (hw : Arrays3 sz w nx ny nz)
include hcfl hlf hms hF hio hbox hh hs0 hM hdim hn hn' hu0 hi0 hdx hW heq hbx hby hbz hv hw

/-- C106. In floating-point arithmetic, every execution of a 3D Cahn–Hilliard run with `rk3ssp` that was started from a file of the
program is one documented run: it starts from the values, time, step size and step number of the file, on the grid of the file, with the
spacing `dx` computed from the points of the file, whatever the options say about the domain, the initial time and step. -/
theorem C106_rk3ssp3 (hint : o.sel.integrator = "rk3ssp") (m : Mem A (Fl F.round)) :
    RunsEach sz (program E o (some (vts3 E.io xb yb zb h nx ny nz u0 s0)) w) m
      ⟨s0.time, o.tfinal, s0.dt, false, o.maxSteps, s0.iter, o.relTol, o.absTol⟩ o.logFreq.natAbs
      o.saveEvery.natAbs (ssprk3Method (rhsOps3 o.variant o.par dx bx bY bz nx ny nz)) u0 (Rms E.rt (triples nx ny nz))
      (Extremes E.big E.tiny (triples nx ny nz)) (stepName o.base W) (stepName (finalBase o.base) W)
      (vts3 E.io xb yb zb dx nx ny nz) := by
  have hre := domain_vts3_fl hF hio (nx := nx) (ny := ny) (nz := nz) ⟨by omega, hn'.1⟩ ⟨by omega, hn'.2.1⟩ ⟨by omega, hn'.2.2⟩
    hbox.1 hbox.2.1 hbox.2.2 hh u0 s0
  have htime := time_file (o := o) (f := vts3 E.io xb yb zb h nx ny nz u0 s0) (s := s0) rfl hs0.1 hs0.2 ⟨hi0.1, by omega⟩ hcfl hM
  have r := each3_rk3 (E := E) (o := o) (dom := ⟨nx, ny, nz, xb, xb + h * (nx : Fl F.round), yb, zb⟩) hre
    (file := some (vts3 E.io xb yb zb h nx ny nz u0 s0)) htime heq rfl hlf hms (by dsimp only; omega) hi0.1 hbx hby hbz hdim hv hn hw
    (by dsimp only; omega) (u0 := u0) (fun G hG hg m => by
      rw [hg]
      exact ic3_file ⟨by omega, by omega, by omega⟩ hre (fun c hc => hio _ (hu0 c hc)) (hw.cells _ (by simp)) G.interior m) hint m
  rw [hW, hdx]
  rw [chFieldA_eq] at r
  exact r

/-- C106. The same for `ode23`: the step size controller and the first stage start afresh. -/
theorem C106_ode23_3 (hint : o.sel.integrator = "ode23") (m : Mem A (Fl F.round))
    (hz : ∀ a ∈ [w.rk.k1, w.rk.k2, w.rk.k3, w.rk.k4], ∀ n, m a n = 0) :
    RunsEach sz (program E o (some (vts3 E.io xb yb zb h nx ny nz u0 s0)) w) m
      ⟨s0.time, o.tfinal, s0.dt, false, o.maxSteps, s0.iter, o.relTol, o.absTol⟩ o.logFreq.natAbs
      o.saveEvery.natAbs (bs23Method (rhsOps3 o.variant o.par dx bx bY bz nx ny nz 0) (triples nx ny nz)
        ((nx + 4) * (ny + 4) * (nz + 4) - nx * ny * nz).toNat o.errTol o.minStep o.maxStep) u0 (Rms E.rt (triples nx ny nz))
      (Extremes E.big E.tiny (triples nx ny nz)) (stepName o.base W) (stepName (finalBase o.base) W)
      (vts3 E.io xb yb zb dx nx ny nz) := by
  have hre := domain_vts3_fl hF hio (nx := nx) (ny := ny) (nz := nz) ⟨by omega, hn'.1⟩ ⟨by omega, hn'.2.1⟩ ⟨by omega, hn'.2.2⟩
    hbox.1 hbox.2.1 hbox.2.2 hh u0 s0
  have htime := time_file (o := o) (f := vts3 E.io xb yb zb h nx ny nz u0 s0) (s := s0) rfl hs0.1 hs0.2 ⟨hi0.1, by omega⟩ hcfl hM
  have r := each3_ode23 (E := E) (o := o) (dom := ⟨nx, ny, nz, xb, xb + h * (nx : Fl F.round), yb, zb⟩) hre
    (file := some (vts3 E.io xb yb zb h nx ny nz u0 s0)) htime heq rfl hlf hms (by dsimp only; omega) hi0.1 hbx hby hbz hdim hv hn hw
    (by dsimp only; omega) (u0 := u0) (fun G hG hg m => by
      rw [hg]
      exact ic3_file ⟨by omega, by omega, by omega⟩ hre (fun c hc => hio _ (hu0 c hc)) (hw.cells _ (by simp)) G.interior m) hint m hz
  rw [hW, hdx]
  rw [chFieldA_eq, pad3_count ⟨by dsimp only; omega, by dsimp only; omega, by dsimp only; omega⟩] at r
  exact r

omit hdx hW in
/-- C106. A resumed 3D Cahn–Hilliard run with an explicit integrator always ends normally, with files, after at most the remaining steps
up to the limit, or one step if the file is already at the limit or beyond. -/
theorem C106_always_ends (hint : o.sel.integrator = "rk3ssp" ∨ o.sel.integrator = "ode23") (m : Mem A (Fl F.round))
    (hz : ∀ a ∈ [w.rk.k1, w.rk.k2, w.rk.k3, w.rk.k4], ∀ n, m a n = 0) (fuel : Nat) (hf1 : 1 ≤ fuel)
    (hf2 : (o.maxSteps : Int) ≤ s0.iter + fuel) :
    AllEnd sz (program E o (some (vts3 E.io xb yb zb h nx ny nz u0 s0)) w fuel) m fun res _ => ∃ files rows, res = .done files rows ∧
      files ≠ [] ∧ (rows.length : Int) ≤ max 1 (o.maxSteps - s0.iter) := by
  rcases hint with q | q
  · exact (C106_rk3ssp3 sz E o w hcfl hlf hms hF hio hbox hh s0 hs0 hM hdim hn hn' u0 hu0 hi0 _ rfl _ rfl heq hbx hby hbz hv hw q
      m).ends_from (by dsimp only; omega) hf1 hf2
  · exact (C106_ode23_3 sz E o w hcfl hlf hms hF hio hbox hh s0 hs0 hM hdim hn hn' u0 hu0 hi0 _ rfl _ rfl heq hbx hby hbz hv hw q
      m hz).ends_from (by dsimp only; omega) hf1 hf2

end

section
variable (heq : o.sel.equation = "poisson")
  (hbx : o.sel.bcx ∈ ["periodic", "neumann", "dirichlet"]) (hby : o.sel.bcy ∈ ["periodic", "neumann", "dirichlet"])
  (hbz : o.sel.bcz ∈ ["periodic", "neumann", "dirichlet"]) (hw : ArraysPois sz w nx ny nz)
include hcfl hlf hms hF hio hbox hh hs0 hM hdim hn hn' hu0 hi0 hdx hW heq hbx hby hbz hw

/-- C106. The same for Poisson runs with `rk3ssp`. -/
theorem C106_poisson_rk3ssp (hint : o.sel.integrator = "rk3ssp") (m : Mem A (Fl F.round)) :
    RunsEach sz (program E o (some (vts3 E.io xb yb zb h nx ny nz u0 s0)) w) m
      ⟨s0.time, o.tfinal, s0.dt, false, o.maxSteps, s0.iter, o.relTol, o.absTol⟩ o.logFreq.natAbs
      o.saveEvery.natAbs (ssprk3Method fun _ => poisOps E.sn E.cs xb yb zb dx nx ny nz) u0 (Rms E.rt (triples nx ny nz))
      (Extremes E.big E.tiny (triples nx ny nz)) (stepName o.base W) (stepName (finalBase o.base) W)
      (vts3 E.io xb yb zb dx nx ny nz) := by
  have hre := domain_vts3_fl hF hio (nx := nx) (ny := ny) (nz := nz) ⟨by omega, hn'.1⟩ ⟨by omega, hn'.2.1⟩ ⟨by omega, hn'.2.2⟩
    hbox.1 hbox.2.1 hbox.2.2 hh u0 s0
  have htime := time_file (o := o) (f := vts3 E.io xb yb zb h nx ny nz u0 s0) (s := s0) rfl hs0.1 hs0.2 ⟨hi0.1, by omega⟩ hcfl hM
  have r := eachPois_rk3 (E := E) (o := o) (dom := ⟨nx, ny, nz, xb, xb + h * (nx : Fl F.round), yb, zb⟩) hre
    (file := some (vts3 E.io xb yb zb h nx ny nz u0 s0)) htime heq rfl hlf hms (by dsimp only; omega) hi0.1 hbx hby hbz hdim hn hw
    (by dsimp only; omega) (u0 := u0) (fun G hG hg m => by
      rw [hg]
      exact ic3_file (o := o) ⟨by omega, by omega, by omega⟩ hre (fun c hc => hio _ (hu0 c hc)) (hw.cells _ (by simp)) G.interior m) hint m
  rw [hW, hdx]
  exact r

/-- C106. The same for Poisson runs with `ode23`. -/
theorem C106_poisson_ode23 (hint : o.sel.integrator = "ode23") (m : Mem A (Fl F.round))
    (hz : ∀ a ∈ [w.rk.k1, w.rk.k2, w.rk.k3, w.rk.k4], ∀ n, m a n = 0) :
    RunsEach sz (program E o (some (vts3 E.io xb yb zb h nx ny nz u0 s0)) w) m
      ⟨s0.time, o.tfinal, s0.dt, false, o.maxSteps, s0.iter, o.relTol, o.absTol⟩ o.logFreq.natAbs
      o.saveEvery.natAbs (bs23Method (poisOps E.sn E.cs xb yb zb dx nx ny nz) (triples nx ny nz)
        ((nx + 4) * (ny + 4) * (nz + 4) - nx * ny * nz).toNat o.errTol o.minStep o.maxStep) u0 (Rms E.rt (triples nx ny nz))
      (Extremes E.big E.tiny (triples nx ny nz)) (stepName o.base W) (stepName (finalBase o.base) W)
      (vts3 E.io xb yb zb dx nx ny nz) := by
  have hre := domain_vts3_fl hF hio (nx := nx) (ny := ny) (nz := nz) ⟨by omega, hn'.1⟩ ⟨by omega, hn'.2.1⟩ ⟨by omega, hn'.2.2⟩
    hbox.1 hbox.2.1 hbox.2.2 hh u0 s0
  have htime := time_file (o := o) (f := vts3 E.io xb yb zb h nx ny nz u0 s0) (s := s0) rfl hs0.1 hs0.2 ⟨hi0.1, by omega⟩ hcfl hM
  have r := eachPois_ode23 (E := E) (o := o) (dom := ⟨nx, ny, nz, xb, xb + h * (nx : Fl F.round), yb, zb⟩) hre
    (file := some (vts3 E.io xb yb zb h nx ny nz u0 s0)) htime heq rfl hlf hms (by dsimp only; omega) hi0.1 hbx hby hbz hdim hn hw
    (by dsimp only; omega) (u0 := u0) (fun G hG hg m => by
      rw [hg]
      exact ic3_file (o := o) ⟨by omega, by omega, by omega⟩ hre (fun c hc => hio _ (hu0 c hc)) (hw.cells _ (by simp)) G.interior m) hint m hz
  rw [hW, hdx]
  rw [pad3_count ⟨by dsimp only; omega, by dsimp only; omega, by dsimp only; omega⟩] at r
  exact r

end
end

section
variable (hM : o.maxSteps < 1000000) (hdim : o.sel.dimension = 2) (h00 : E.io.parse "0.0".toList = some 0)
  {n : Int} (hn : 2 ≤ n) (hn' : n < 2147483648)
  (u0 : Int × Int → Fl F.round) (hu0 : ∀ c, In2 n c → IsFloat F (u0 c).val) (hi0 : 0 ≤ s0.iter ∧ s0.iter + 1 < 1000000)
  (dx : Fl F.round) (hdx : dx = (xb + h * (n : Fl F.round) - xb) / (n : Fl F.round))
  (W : Nat) (hW : W = Nat.log 10 o.maxSteps + 1) (heq : o.sel.equation = "cahn-hilliard")
  (hbx : o.sel.bcx ∈ ["periodic", "neumann", "dirichlet"]) (hby : o.sel.bcy ∈ ["periodic", "neumann", "dirichlet"])
  (hbz : o.sel.bcz ∈ ["periodic", "neumann", "dirichlet"]) (hw : Arrays2 sz w n)
include hcfl hlf hms hF hio hbox hh hs0 hM hdim h00 hn hn' hu0 hi0 hdx hW heq hbx hby hbz hw

/-- C106. The same for 2D Cahn–Hilliard runs with `rk3ssp`. -/
theorem C106_rk3ssp2 (hint : o.sel.integrator = "rk3ssp") (m : Mem A (Fl F.round)) :
    RunsEach sz (program E o (some (vts2 E.io xb yb h n u0 s0)) w) m
      ⟨s0.time, o.tfinal, s0.dt, false, o.maxSteps, s0.iter, o.relTol, o.absTol⟩ o.logFreq.natAbs
      o.saveEvery.natAbs (ssprk3Method (rhsOps2 o.par dx n)) u0 (Rms E.rt (pairs n n))
      (Extremes E.big E.tiny (pairs n n)) (stepName o.base W) (stepName (finalBase o.base) W) (vts2 E.io xb yb dx n) := by
  have hre := domain_vts2_fl hF hio h00 (n := n) ⟨by omega, hn'⟩ hbox.1 hbox.2.1 hh u0 s0
  have htime := time_file (o := o) (f := vts2 E.io xb yb h n u0 s0) (s := s0) rfl hs0.1 hs0.2 ⟨hi0.1, by omega⟩ hcfl (by omega)
  have r := each2_rk3 (E := E) (o := o) (dom := ⟨n, n, 0, xb, xb + h * (n : Fl F.round), yb, 0⟩) hre
    (file := some (vts2 E.io xb yb h n u0 s0)) htime heq rfl hlf hms (by dsimp only; omega) hi0.1 hbx hby hbz hdim hn hw
    (by dsimp only; omega) (u0 := u0) (fun G hG hg m => by
      rw [hg]
      exact ic2_file (by omega) hre (fun c hc => hio _ (hu0 c hc)) (hw.cells _ (by simp)) G.interior m) hint m
  rw [hW, hdx]
  rw [chFieldA2_eq] at r
  exact r

/-- C106. The same for 2D Cahn–Hilliard runs with `ode23`. -/
theorem C106_ode23_2 (hint : o.sel.integrator = "ode23") (m : Mem A (Fl F.round))
    (hz : ∀ a ∈ [w.rk.k1, w.rk.k2, w.rk.k3, w.rk.k4], ∀ n, m a n = 0) :
    RunsEach sz (program E o (some (vts2 E.io xb yb h n u0 s0)) w) m
      ⟨s0.time, o.tfinal, s0.dt, false, o.maxSteps, s0.iter, o.relTol, o.absTol⟩ o.logFreq.natAbs
      o.saveEvery.natAbs (bs23Method (rhsOps2 o.par dx n 0) (pairs n n) ((n + 4) * (n + 4) - n * n).toNat o.errTol o.minStep o.maxStep)
      u0 (Rms E.rt (pairs n n)) (Extremes E.big E.tiny (pairs n n)) (stepName o.base W) (stepName (finalBase o.base) W)
      (vts2 E.io xb yb dx n) := by
  have hre := domain_vts2_fl hF hio h00 (n := n) ⟨by omega, hn'⟩ hbox.1 hbox.2.1 hh u0 s0
  have htime := time_file (o := o) (f := vts2 E.io xb yb h n u0 s0) (s := s0) rfl hs0.1 hs0.2 ⟨hi0.1, by omega⟩ hcfl (by omega)
  have r := each2_ode23 (E := E) (o := o) (dom := ⟨n, n, 0, xb, xb + h * (n : Fl F.round), yb, 0⟩) hre
    (file := some (vts2 E.io xb yb h n u0 s0)) htime heq rfl hlf hms (by dsimp only; omega) hi0.1 hbx hby hbz hdim hn hw
    (by dsimp only; omega) (u0 := u0) (fun G hG hg m => by
      rw [hg]
      exact ic2_file (by omega) hre (fun c hc => hio _ (hu0 c hc)) (hw.cells _ (by simp)) G.interior m) hint m hz
  rw [hW, hdx]
  rw [chFieldA2_eq, pad2_count (by dsimp only; omega)] at r
  exact r

end
end

/-- Options of a resumed run with both tolerances (test data). -/
def laterOpts (integrator : String) : RunOpts (Fl binary64.round) :=
  { resumeOpts with
    sel := ⟨3, "periodic", "neumann", "periodic", "cahn-hilliard", integrator, false⟩
    relTol := dbl (1 / 2)
    absTol := dbl (1 / 2) }

/-- Double precision, both integrators: the run resumed at step 5 of 100 ends after at most 95 steps. -/
example [Pow (Fl binary64.round) (Fl binary64.round)] (E : Env (Fl binary64.round)) (hE : E.io = doubleText.fl) (i : String)
    (hi : i = "rk3ssp" ∨ i = "ode23") (m : Mem _ (Fl binary64.round)) (hz : ∀ a n, m a n = 0) :
    AllEnd (demoSize 392 252) (program E (laterOpts i) (some (vts3 E.io (dbl (1 / 5)) 0 0 (dbl (1 / 10)) 2 2 3 (fun c => dbl c.1)
        ⟨5, dbl (1 / 2), dbl (1 / 2)⟩)) demoArr 95) m fun res _ => ∃ files rows, res = .done files rows ∧ files ≠ [] ∧
      (rows.length : Int) ≤ max 1 (100 - 5) := by
  have h00 : IsFloat binary64 (0 : ℚ) := ⟨0, 0, by decide, by decide, by simp⟩
  have hhalf : ((5000000 : Nat) : ℚ) * (10 : ℚ) ^ (-7 : Int) = 1 / 2 := by norm_num
  have hsh : ShortExact E.io (dbl (1 / 2)) := by
    have := C62_seven_digits 5000000 (-7) (by norm_num) (by norm_num) (by norm_num)
    rw [hhalf] at this
    rw [hE]
    exact shortExact_fl this
  have h15 : IsFloat binary64 (dbl (1 / 5)).val := FloatFmt.round_isFloat binary64 (by decide) (1 / 5)
  exact C106_always_ends (bx := .periodic) (bY := .neumann) (bz := .periodic) (demoSize 392 252) E (laterOpts i) demoArr rfl
    (by simp [laterOpts, resumeOpts]) (by simp [laterOpts, resumeOpts]) (by decide) (by rw [hE]; exact doubleText_fl_exact)
    (xb := dbl (1 / 5)) (yb := 0) (zb := 0) (h := dbl (1 / 10)) ⟨h15, h00, h00⟩ (by decide +kernel)
    ⟨5, dbl (1 / 2), dbl (1 / 2)⟩ ⟨hsh, hsh⟩ (by simp [laterOpts, resumeOpts]) rfl
    (nx := 2) (ny := 2) (nz := 3) (by decide) (by decide) (fun c => dbl c.1) (fun c _ => FloatFmt.round_isFloat binary64 (by decide) _) (by decide)
    rfl (by simp [laterOpts]) (by simp [laterOpts]) (by simp [laterOpts]) (by simp [laterOpts, resumeOpts])
    ⟨by simp [demoArr], by simp [demoArr, demoSize], by simp [demoArr, demoSize]⟩ hi m (fun a _ n => hz a n) 95 (by decide)
    (by simp [laterOpts, resumeOpts])

/-- Poisson and 2D runs resumed from files in double precision. -/
example [Pow (Fl binary64.round) (Fl binary64.round)] (E : Env (Fl binary64.round)) (hE : E.io = doubleText.fl)
    (m : Mem _ (Fl binary64.round)) (hz : ∀ a n, m a n = 0) (fl : Nat → VtsFile)
    (h3 : fl 3 = vts3 E.io (dbl (1 / 5)) 0 0 (dbl (1 / 10)) 2 2 3 (fun c => dbl c.1) ⟨5, dbl (1 / 2), dbl (1 / 2)⟩)
    (h2 : fl 2 = vts2 E.io (dbl (1 / 5)) 0 (dbl (1 / 10)) 3 (fun c => dbl c.1) ⟨5, dbl (1 / 2), dbl (1 / 2)⟩) (i : String)
    (hi : i = "rk3ssp" ∨ i = "ode23") :
    (AllEnd (demoSize 392 252)
      (program E { laterOpts i with sel := ⟨3, "periodic", "neumann", "periodic", "poisson", i, false⟩ } (some (fl 3)) demoArr 95) m
      fun res _ => ∃ files rows, res = .done files rows ∧ files ≠ [] ∧ (rows.length : Int) ≤ max 1 (100 - 5)) ∧
    (AllEnd (demoSize 64 49)
      (program E { laterOpts i with sel := ⟨2, "periodic", "neumann", "periodic", "cahn-hilliard", i, false⟩ } (some (fl 2)) demoArr 95) m
      fun res _ => ∃ files rows, res = .done files rows ∧ files ≠ [] ∧ (rows.length : Int) ≤ max 1 (100 - 5)) := by
  have h00 : IsFloat binary64 (0 : ℚ) := ⟨0, 0, by decide, by decide, by simp⟩
  have hhalf : ((5000000 : Nat) : ℚ) * (10 : ℚ) ^ (-7 : Int) = 1 / 2 := by norm_num
  have hsh : ShortExact E.io (dbl (1 / 2)) := by
    have := C62_seven_digits 5000000 (-7) (by norm_num) (by norm_num) (by norm_num)
    rw [hhalf] at this
    rw [hE]
    exact shortExact_fl this
  have h15 : IsFloat binary64 (dbl (1 / 5)).val := FloatFmt.round_isFloat binary64 (by decide) (1 / 5)
  have hz0 : E.io.parse "0.0".toList = some 0 := by rw [hE]; decide +kernel
  rw [h3, h2]
  constructor
  · rcases hi with rfl | rfl
    · exact (C106_poisson_rk3ssp (demoSize 392 252) E _ demoArr rfl (by simp [laterOpts, resumeOpts]) (by simp [laterOpts, resumeOpts])
        (by decide) (by rw [hE]; exact doubleText_fl_exact) ⟨h15, h00, h00⟩ (by decide +kernel) _ ⟨hsh, hsh⟩ (by simp [laterOpts, resumeOpts])
        rfl (by decide) (by decide) _ (fun c _ => FloatFmt.round_isFloat binary64 (by decide) _) (by decide) _ rfl _ rfl rfl (by simp)
        (by simp) (by simp) ⟨by simp [demoArr], by simp [demoArr, demoSize], by simp [demoArr, demoSize]⟩ rfl m).ends_from (by decide)
        (by decide) (by decide)
    · exact (C106_poisson_ode23 (demoSize 392 252) E _ demoArr rfl (by simp [laterOpts, resumeOpts]) (by simp [laterOpts, resumeOpts])
        (by decide) (by rw [hE]; exact doubleText_fl_exact) ⟨h15, h00, h00⟩ (by decide +kernel) _ ⟨hsh, hsh⟩ (by simp [laterOpts, resumeOpts])
        rfl (by decide) (by decide) _ (fun c _ => FloatFmt.round_isFloat binary64 (by decide) _) (by decide) _ rfl _ rfl rfl (by simp)
        (by simp) (by simp) ⟨by simp [demoArr], by simp [demoArr, demoSize], by simp [demoArr, demoSize]⟩ rfl m (fun a _ n => hz a n)).ends_from
        (by decide) (by decide) (by decide)
  · rcases hi with rfl | rfl
    · exact (C106_rk3ssp2 (demoSize 64 49) E _ demoArr rfl (by simp [laterOpts, resumeOpts]) (by simp [laterOpts, resumeOpts])
        (by decide) (by rw [hE]; exact doubleText_fl_exact) (zb := 0) ⟨h15, h00, h00⟩ (by decide +kernel) _ ⟨hsh, hsh⟩
        (by simp [laterOpts, resumeOpts]) rfl hz0 (by decide) (by decide) _ (fun c _ => FloatFmt.round_isFloat binary64 (by decide) _)
        (by decide) _ rfl _ rfl rfl (by simp) (by simp) (by simp)
        ⟨by simp [demoArr], by simp [demoArr, demoSize], by simp [demoArr, demoSize]⟩ rfl m).ends_from (by decide) (by decide) (by decide)
    · exact (C106_ode23_2 (demoSize 64 49) E _ demoArr rfl (by simp [laterOpts, resumeOpts]) (by simp [laterOpts, resumeOpts])
        (by decide) (by rw [hE]; exact doubleText_fl_exact) (zb := 0) ⟨h15, h00, h00⟩ (by decide +kernel) _ ⟨hsh, hsh⟩
        (by simp [laterOpts, resumeOpts]) rfl hz0 (by decide) (by decide) _ (fun c _ => FloatFmt.round_isFloat binary64 (by decide) _)
        (by decide) _ rfl _ rfl rfl (by simp) (by simp) (by simp)
        ⟨by simp [demoArr], by simp [demoArr, demoSize], by simp [demoArr, demoSize]⟩ rfl m (fun a _ n => hz a n)).ends_from (by decide)
        (by decide) (by decide)

end Madg
