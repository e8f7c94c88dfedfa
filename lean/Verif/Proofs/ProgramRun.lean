/-
Runs of the program for any initial condition.
-/
import Verif.Proofs.ProgramMain
import Verif.Spec.Run

set_option linter.unusedSectionVars false

namespace Madg
open Spec

theorem maxSteps_small (n : Nat) (h : n < 2147483648) : maxStepsOfOption n = n := by
  unfold maxStepsOfOption
  rw [BitVec.toInt_eq_toNat_of_lt (by rw [BitVec.toNat_ofNat]; omega), BitVec.toNat_ofNat]
  omega

variable {A : Type} [DecidableEq A] {sz : A → Int} {E : Env ℝ} {o : RunOpts} {file : Option VtsFile} {w : ProgArr A}
  {dom : FileDomain ℝ} (hdom : o.domain E file = .ok dom) {ti : TimeOpts ℝ}
  (ht : (match file with | some f => setInitialTimeStep E.io f o.timeOpts | none => .ok o.timeOpts) = .ok ti)
  (heq : o.sel.equation = "cahn-hilliard") (hcfl : ti.useCfl = false) (hlf : o.logFreq ≠ 0) (hms : 0 < o.maxSteps)
  (hmax : 0 < ti.maxSteps) (hi0 : 0 ≤ ti.initialStep)

/-! ### 3D -/

section
variable {bx bY bz : BCType}
  (hbx : (o.sel.bcx, bx) ∈ [("periodic", BCType.periodic), ("neumann", .neumann), ("dirichlet", .dirichlet)])
  (hby : (o.sel.bcy, bY) ∈ [("periodic", BCType.periodic), ("neumann", .neumann), ("dirichlet", .dirichlet)])
  (hbz : (o.sel.bcz, bz) ∈ [("periodic", BCType.periodic), ("neumann", .neumann), ("dirichlet", .dirichlet)])
  (hdim : o.sel.dimension = 3) (hv : o.variant = 0 ∨ o.variant = 1 ∨ o.variant = 2)
  (hn : 2 ≤ dom.nx ∧ 2 ≤ dom.ny ∧ 2 ≤ dom.nz) (hw : Arrays3 sz w dom.nx dom.ny dom.nz)
  (hbig : ti.maxSteps < 10 ^ 17 ∧ ti.initialStep + 1 < 10 ^ 17) {u0 : Int × Int × Int → ℝ}
  (hic : ∀ (G : Geom3), G.Ok → G.g = ⟨dom.nx, dom.ny, dom.nz, 2⟩ → ∀ m : Mem A ℝ, ∃ m1,
    CDet sz (icOf E o file G.interior (.d3 ⟨dom.nx, dom.ny, dom.nz, 2⟩ w.rk.sol) w.rk.sol) m () m1 ∧
      (∀ c, In3 dom.nx dom.ny dom.nz c → m1 w.rk.sol (G.g.at3 c.1 c.2.1 c.2.2) = u0 c) ∧ ∀ b, b ≠ w.rk.sol → m1 b = m b)

include heq hbx hby hbz hdim hv hn hw in
theorem setup3 (m : Mem A ℝ) : ∃ b1 b2 b3 G mc, geomFactory o.sel = .ok (.cart3 b1 b2 b3) ∧
    rhsFactory o.sel (.cart3 b1 b2 b3) = .ok .ch3 ∧
    mkGeom3 ⟨dom.nx, dom.ny, dom.nz, 2⟩ b1.toBC b2.toBC b3.toBC = .ok G ∧
    Det sz ((⟨dom.nx, dom.ny, dom.nz, 2⟩ : Grid3).fillCoords dom.box w.co) m mc ∧ G.Ok ∧
    G.g = ⟨dom.nx, dom.ny, dom.nz, 2⟩ ∧ (∀ a, a ∉ [w.co.x, w.co.y, w.co.z, w.co.xv, w.co.yv, w.co.zv] → mc a = m a) ∧
    RhsContract sz (⟨dom.nx, dom.ny, dom.nz, 2⟩ : Grid3).size (· ∈ [w.l1, w.l2, w.l3, w.l4]) (In3 dom.nx dom.ny dom.nz)
      (fun c : Int × Int × Int => (⟨dom.nx, dom.ny, dom.nz, 2⟩ : Grid3).at3 c.1 c.2.1 c.2.2)
      (chField3 o.par (dom.box.dx dom.nx) bx bY bz dom.nx dom.ny dom.nz)
      (fun s r _ => G.evalRHS o.variant o.par (dom.box.dx dom.nx) ⟨s, r, w.l1, w.l2, w.l3, w.l4⟩) ∧
    w.rk.Ok sz (⟨dom.nx, dom.ny, dom.nz, 2⟩ : Grid3).size (· ∈ [w.l1, w.l2, w.l3, w.l4]) ∧
    (∀ a ∈ [w.co.xv, w.co.yv, w.co.zv], a ∉ [w.rk.sol, w.rk.res, w.rk.k1, w.rk.k2, w.rk.k3, w.rk.k4, w.rk.stage] ∧
      ¬ a ∈ [w.l1, w.l2, w.l3, w.l4]) ∧
    ∀ (H : Type) (doStep : H → ℝ → ℝ → Cmd A ℝ H) (nextDT : H → ℝ → Cmd A ℝ (H × ℝ)),
      ViewOk (sim3 E G (dom.box.dx dom.nx) w o.maxSteps doStep nextDT) sz (In3 dom.nx dom.ny dom.nz)
        (fun c : Int × Int × Int => (⟨dom.nx, dom.ny, dom.nz, 2⟩ : Grid3).at3 c.1 c.2.1 c.2.2) w.rk.sol w.rk.res
        (fun m' => ∀ a ∈ [w.co.xv, w.co.yv, w.co.zv], m' a = mc a) (rms3 E.rt dom.nx dom.ny dom.nz)
        (Monitors3 E.rt E.big E.tiny (dom.box.dx dom.nx) dom.nx dom.ny dom.nz)
        (vts3 E.io dom.xbeg dom.ybeg dom.zbeg (dom.box.dx dom.nx) dom.nx dom.ny dom.nz) := by
  obtain ⟨nx, ex, rfl⟩ := parseBC_name hbx
  obtain ⟨ny, ey, rfl⟩ := parseBC_name hby
  obtain ⟨nz, ez, rfl⟩ := parseBC_name hbz
  have hgk : geomFactory o.sel = .ok (.cart3 nx ny nz) := by
    unfold geomFactory
    rw [ex, ey, ez, hdim]; rfl
  have hr : rhsFactory o.sel (.cart3 nx ny nz) = .ok .ch3 := by
    unfold rhsFactory
    rw [if_pos heq, if_neg (by omega), if_pos hdim]
  have hgo : (⟨dom.nx, dom.ny, dom.nz, 2⟩ : Grid3).Ok :=
    ⟨by dsimp only; omega, by dsimp only; omega, by dsimp only; omega, by dsimp only; omega⟩
  have hG := mkGeom3_ok hgo nx.toBC ny.toBC nz.toBC
  obtain ⟨hGo, hGg, -⟩ := Geom3.ok_of_mk hgo hG
  obtain ⟨hd, hc, hvt⟩ := hw
  have hsize : (⟨dom.nx, dom.ny, dom.nz, 2⟩ : Grid3).size = (dom.nx + 4) * (dom.ny + 4) * (dom.nz + 4) := rfl
  have hvsize : (⟨dom.nx, dom.ny, dom.nz, 2⟩ : Grid3).vert.size = (dom.nx + 5) * (dom.ny + 5) * (dom.nz + 5) := by
    simp only [Grid3.size, Grid3.vert]; ring
  have hco : w.co.Ok sz ⟨dom.nx, dom.ny, dom.nz, 2⟩ :=
    ⟨hd.sublist (by
        have : [w.co.x, w.co.y, w.co.z, w.co.xv, w.co.yv, w.co.zv] ++ [w.rk.sol, w.rk.res, w.rk.k1, w.rk.k2, w.rk.k3,
          w.rk.k4, w.rk.stage, w.l1, w.l2, w.l3, w.l4] = [w.co.x, w.co.y, w.co.z, w.co.xv, w.co.yv, w.co.zv, w.rk.sol,
          w.rk.res, w.rk.k1, w.rk.k2, w.rk.k3, w.rk.k4, w.rk.stage, w.l1, w.l2, w.l3, w.l4] := rfl
        rw [← this]
        exact List.sublist_append_left _ _),
      fun a ha => by
        rw [hsize]
        exact hc a (List.mem_append_left [w.rk.sol, w.rk.res, w.rk.k1, w.rk.k2, w.rk.k3, w.rk.k4, w.rk.stage, w.l1, w.l2,
          w.l3, w.l4] ha),
      fun a ha => by rw [hvsize]; exact hvt a ha⟩
  obtain ⟨mc, c1, c2, -, c4⟩ := coords3_det hco dom.box m
  have hd2 : ([w.co.x, w.co.y, w.co.z, w.co.xv, w.co.yv, w.co.zv] ++ [w.rk.sol, w.rk.res, w.rk.k1, w.rk.k2, w.rk.k3,
    w.rk.k4, w.rk.stage, w.l1, w.l2, w.l3, w.l4]).Nodup := hd
  obtain ⟨-, d2, d3⟩ := List.nodup_append.1 hd2
  obtain ⟨hR, hwo⟩ := ch3_setup ⟨dom.nx, dom.ny, dom.nz, 2⟩ hn rfl nx.toBC ny.toBC nz.toBC _ hG o.variant hv sz w.rk w.l1 w.l2
    w.l3 w.l4 d2 (fun a ha => by rw [hsize]; exact hc a (List.mem_append_right [w.co.x, w.co.y, w.co.z] ha)) o.par
    (dom.box.dx dom.nx)
  refine ⟨nx, ny, nz, _, mc, hgk, hr, hG, c1, hGo, hGg, c4, hR, hwo, fun a ha => ⟨fun h => ?_, fun h => ?_⟩,
    fun H doStep nextDT => ?_⟩
  · exact d3 a (List.mem_append_right [w.co.x, w.co.y, w.co.z] ha) a (List.mem_append_left [w.l1, w.l2, w.l3, w.l4] h) rfl
  · exact d3 a (List.mem_append_right [w.co.x, w.co.y, w.co.z] ha) a (List.mem_append_right [w.rk.sol, w.rk.res, w.rk.k1,
      w.rk.k2, w.rk.k3, w.rk.k4, w.rk.stage] h) rfl
  · exact view3 hn rfl hGo hGg (by rw [hsize]; exact hc _ (by simp)) (by rw [hsize]; exact hc _ (by simp)) hco.sizev c2 E _
      doStep nextDT _

include hdom ht heq hcfl hlf hms hmax hi0 hbx hby hbz hdim hv hn hw hbig hic

theorem run3_rk3 (hint : o.sel.integrator = "rk3ssp") {t d p : Nat → ℝ} (hm : Marching ti.tfinal ti.t0 ti.dt0 t d p)
    (hp : ∀ k, p (k + 1) = d k) (F : ℝ → (Int × Int × Int → ℝ) → Int × Int × Int → ℝ)
    (hF : F = chField3 o.par (dom.box.dx dom.nx) bx bY bz dom.nx dom.ny dom.nz) (m : Mem A ℝ) :
    RunsAs sz (program E o file w) m ti o.logFreq.natAbs o.saveEvery.natAbs t d p
      (fun k => rms3 E.rt dom.nx dom.ny dom.nz ((ssprk3 : Tableau ℝ).slope F (t k) (d k) (states ssprk3 F t d u0 k)))
      (fun k => Monitors3 E.rt E.big E.tiny (dom.box.dx dom.nx) dom.nx dom.ny dom.nz (states ssprk3 F t d u0 (k + 1)))
      (stepName o.base (max (Nat.log 10 o.maxSteps + 1) 4)) (stepName (finalBase o.base) (max (Nat.log 10 o.maxSteps + 1) 4))
      (fun k => vts3 E.io dom.xbeg dom.ybeg dom.zbeg (dom.box.dx dom.nx) dom.nx dom.ny dom.nz
        (states ssprk3 F t d u0 (k + 1))) := by
  subst hF
  obtain ⟨b1, b2, b3, G, mc, hgk, hr, hG, hco, hGo, hGg, hfr, hR, hwo, hvs, hV⟩ :=
    setup3 (E := E) heq hbx hby hbz hdim hv hn hw m
  obtain ⟨m1, i1, i2, i3⟩ := hic G hGo hGg mc
  rw [hGg] at i2
  have hS := rk3_simOk hR.on hwo hvs (hV Unit _ _) rfl rfl (t := t) hp u0
  obtain ⟨N, e1, -, e2, e3⟩ := run_ends (se := o.saveEvery) (base := o.base) hS hm hcfl hlf hmax hi0
    (fun b i => stepName b (max (Nat.log 10 o.maxSteps + 1) 4) i) (fun b i => stepName3_total _ (by exact_mod_cast hms) b i)
    (fun b i h1 h2 => stepName3_eq _ (by exact_mod_cast hms) b i h1 (by omega)) (fun _ _ => trivial) i1
    ⟨i2, fun a ha => i3 a fun h => (hvs a ha).1 (by rw [h]; simp), trivial⟩
  refine ⟨N, e1, fun fuel hf => ?_, fun fuel hf => ?_⟩
  · obtain ⟨v, m', f1, f2⟩ := e2 fuel hf
    exact ⟨v, m', f1, program3_rk3 hdom ht hgk hr hv hG hco hint f2⟩
  · obtain ⟨m', f2⟩ := e3 fuel hf
    exact ⟨m', program3_rk3 hdom ht hgk hr hv hG hco hint f2⟩

theorem run3_ode23 (hint : o.sel.integrator = "ode23") {t d p e : Nat → ℝ} (hm : Marching ti.tfinal ti.t0 ti.dt0 t d p)
    (F : ℝ → (Int × Int × Int → ℝ) → Int × Int × Int → ℝ)
    (hF : F = chField3 o.par (dom.box.dx dom.nx) bx bY bz dom.nx dom.ny dom.nz)
    (he : Estimates bs23 F (In3 dom.nx dom.ny dom.nz) t d (states bs23 F t d u0) e)
    (hp : ∀ k, p (k + 1) = proposal o.errTol o.minStep o.maxStep d e k) (m : Mem A ℝ)
    (hz : ∀ a ∈ [w.rk.k1, w.rk.k2, w.rk.k3, w.rk.k4], ∀ n, m a n = 0) :
    RunsAs sz (program E o file w) m ti o.logFreq.natAbs o.saveEvery.natAbs t d p
      (fun k => rms3 E.rt dom.nx dom.ny dom.nz ((bs23 : Tableau ℝ).slope F (t k) (d k) (states bs23 F t d u0 k)))
      (fun k => Monitors3 E.rt E.big E.tiny (dom.box.dx dom.nx) dom.nx dom.ny dom.nz (states bs23 F t d u0 (k + 1)))
      (stepName o.base (max (Nat.log 10 o.maxSteps + 1) 4)) (stepName (finalBase o.base) (max (Nat.log 10 o.maxSteps + 1) 4))
      (fun k => vts3 E.io dom.xbeg dom.ybeg dom.zbeg (dom.box.dx dom.nx) dom.nx dom.ny dom.nz
        (states bs23 F t d u0 (k + 1))) := by
  subst hF
  obtain ⟨b1, b2, b3, G, mc, hgk, hr, hG, hco, hGo, hGg, hfr, hR, hwo, hvs, hV⟩ :=
    setup3 (E := E) heq hbx hby hbz hdim hv hn hw m
  obtain ⟨m1, i1, i2, i3⟩ := hic G hGo hGg mc
  rw [hGg] at i2
  have hS := ode23_simOk hR.on hwo hvs (hV _ _ _) rfl rfl u0 hm.t_succ he o.errTol o.minStep o.maxStep hp
  have hzero : ∀ a ∈ [w.rk.k1, w.rk.k2, w.rk.k3, w.rk.k4], ∀ n, m1 a n = 0 := by
    intro a ha n
    have h1 : a ≠ w.rk.sol := by
      rintro rfl
      exact (List.nodup_cons.1 hwo.1).1 (List.mem_append_right [w.rk.res] (List.mem_append_left [w.rk.stage] ha))
    have h2 : a ∉ [w.co.x, w.co.y, w.co.z, w.co.xv, w.co.yv, w.co.zv] := by
      intro h
      have hd : ([w.co.x, w.co.y, w.co.z, w.co.xv, w.co.yv, w.co.zv] ++ [w.rk.sol, w.rk.res, w.rk.k1, w.rk.k2, w.rk.k3,
        w.rk.k4, w.rk.stage, w.l1, w.l2, w.l3, w.l4]).Nodup := hw.distinct
      refine (List.nodup_append.1 hd).2.2 a h a ?_ rfl
      exact List.mem_append_right [w.rk.sol, w.rk.res] (List.mem_append_left [w.rk.stage, w.l1, w.l2, w.l3, w.l4] ha)
    rw [i3 a h1, hfr a h2, hz a ha]
  obtain ⟨N, e1, -, e2, e3⟩ := run_ends (se := o.saveEvery) (base := o.base) hS hm hcfl hlf hmax hi0
    (fun b i => stepName b (max (Nat.log 10 o.maxSteps + 1) 4) i) (fun b i => stepName3_total _ (by exact_mod_cast hms) b i)
    (fun b i h1 h2 => stepName3_eq _ (by exact_mod_cast hms) b i h1 (by omega)) (fun _ _ => trivial)
    (h0 := (ode23Init, PID.new o.errTol o.minStep o.maxStep)) i1
    ⟨i2, fun a ha => i3 a fun h => (hvs a ha).1 (by rw [h]; simp), fun n _ _ _ =>
      ⟨hzero _ (by simp) n, hzero _ (by simp) n, hzero _ (by simp) n, hzero _ (by simp) n⟩, fun h => (by cases h),
      pid_new _ _ _, trivial⟩
  refine ⟨N, e1, fun fuel hf => ?_, fun fuel hf => ?_⟩
  · obtain ⟨v, m', f1, f2⟩ := e2 fuel hf
    exact ⟨v, m', f1, program3_ode23 hdom ht hgk hr hv hG hco hint f2⟩
  · obtain ⟨m', f2⟩ := e3 fuel hf
    exact ⟨m', program3_ode23 hdom ht hgk hr hv hG hco hint f2⟩

end

/-! ### 2D -/

section
variable
  (hbx : o.sel.bcx ∈ ["periodic", "neumann", "dirichlet"]) (hby : o.sel.bcy ∈ ["periodic", "neumann", "dirichlet"])
  (hbz : o.sel.bcz ∈ ["periodic", "neumann", "dirichlet"])
  (hdim : o.sel.dimension = 2) (hn : 2 ≤ dom.nx) (hw : Arrays2 sz w dom.nx)
  (hbig : ti.maxSteps < 10 ^ 6 ∧ ti.initialStep + 1 < 10 ^ 6) {u0 : Int × Int → ℝ}
  (hic : ∀ (G : Geom2), G.Ok → G.g = ⟨dom.nx, dom.nx, 2⟩ → ∀ m : Mem A ℝ, ∃ m1,
    CDet sz (icOf E o file G.interior (.d2 ⟨dom.nx, dom.nx, 2⟩ w.rk.sol) w.rk.sol) m () m1 ∧
      (∀ c, In2 dom.nx c → m1 w.rk.sol (G.g.at2 c.1 c.2) = u0 c) ∧ ∀ b, b ≠ w.rk.sol → m1 b = m b)

include heq hbx hby hbz hdim hn hw in
theorem setup2 (m : Mem A ℝ) : ∃ G mc, geomFactory o.sel = .ok .cart2 ∧ rhsFactory o.sel .cart2 = .ok .ch2 ∧
    mkGeom2 dom.nx 2 = .ok G ∧ Det sz ((⟨dom.nx, dom.nx, 2⟩ : Grid2).fillCoords dom.box w.co) m mc ∧ G.Ok ∧
    G.g = ⟨dom.nx, dom.nx, 2⟩ ∧ (∀ a, a ∉ [w.co.x, w.co.y, w.co.xv, w.co.yv] → mc a = m a) ∧
    RhsContract sz (⟨dom.nx, dom.nx, 2⟩ : Grid2).size (· ∈ [w.l1, w.l2, w.l3, w.l4]) (In2 dom.nx)
      (fun c : Int × Int => G.g.at2 c.1 c.2) (chField2 o.par (dom.box.dx dom.nx) dom.nx)
      (fun s r _ => G.evalRHS o.par (dom.box.dx dom.nx) ⟨s, r, w.l1, w.l2, w.l3, w.l4⟩) ∧
    w.rk.Ok sz (⟨dom.nx, dom.nx, 2⟩ : Grid2).size (· ∈ [w.l1, w.l2, w.l3, w.l4]) ∧
    (∀ a ∈ [w.co.xv, w.co.yv], a ∉ [w.rk.sol, w.rk.res, w.rk.k1, w.rk.k2, w.rk.k3, w.rk.k4, w.rk.stage] ∧
      ¬ a ∈ [w.l1, w.l2, w.l3, w.l4]) ∧
    ∀ (H : Type) (doStep : H → ℝ → ℝ → Cmd A ℝ H) (nextDT : H → ℝ → Cmd A ℝ (H × ℝ)),
      ViewOk (sim2 E G (dom.box.dx dom.nx) w o.maxSteps doStep nextDT) sz (In2 dom.nx)
        (fun c : Int × Int => G.g.at2 c.1 c.2) w.rk.sol w.rk.res
        (fun m' => ∀ a ∈ [w.co.xv, w.co.yv], m' a = mc a) (rms2 E.rt dom.nx)
        (Monitors2 E.rt E.big E.tiny (dom.box.dx dom.nx) dom.nx)
        (vts2 E.io dom.xbeg dom.ybeg (dom.box.dx dom.nx) dom.nx) := by
  have pb : ∀ s ∈ ["periodic", "neumann", "dirichlet"], ∃ n, parseBC s = .ok n := by
    intro s hs
    simp only [List.mem_cons, List.not_mem_nil, or_false] at hs
    rcases hs with rfl | rfl | rfl <;> exact ⟨_, rfl⟩
  obtain ⟨nx, ex⟩ := pb _ hbx
  obtain ⟨ny, ey⟩ := pb _ hby
  obtain ⟨nz, ez⟩ := pb _ hbz
  have hgk : geomFactory o.sel = .ok .cart2 := by
    unfold geomFactory
    rw [ex, ey, ez, hdim]; rfl
  have hr : rhsFactory o.sel .cart2 = .ok .ch2 := by
    unfold rhsFactory
    rw [if_pos heq, if_pos hdim]
  obtain ⟨G, hG, hGo, hGg⟩ := mkGeom2_ok (n := dom.nx) (nhalo := 2) (by omega) (by omega)
  obtain ⟨hd, hc, hvt⟩ := hw
  have hsize : (⟨dom.nx, dom.nx, 2⟩ : Grid2).size = (dom.nx + 4) * (dom.nx + 4) := rfl
  have hvsize : (⟨dom.nx, dom.nx, 2⟩ : Grid2).vert.size = (dom.nx + 5) * (dom.nx + 5) := by
    simp only [Grid2.size, Grid2.vert]; ring
  have hd2 : ([w.co.x, w.co.y, w.co.xv, w.co.yv] ++ [w.rk.sol, w.rk.res, w.rk.k1, w.rk.k2, w.rk.k3,
    w.rk.k4, w.rk.stage, w.l1, w.l2, w.l3, w.l4]).Nodup := hd
  obtain ⟨d1, d2, d3⟩ := List.nodup_append.1 hd2
  have hsv : ∀ a ∈ [w.co.xv, w.co.yv], sz a = (⟨dom.nx, dom.nx, 2⟩ : Grid2).vert.size := fun a ha => by
    rw [hvsize]; exact hvt a ha
  obtain ⟨mc, c1, c2, -, c4⟩ := coords2_det (g := ⟨dom.nx, dom.nx, 2⟩) rfl d1 (fun a ha => by
    rw [hsize]
    exact hc a (List.mem_append_left [w.rk.sol, w.rk.res, w.rk.k1, w.rk.k2, w.rk.k3, w.rk.k4, w.rk.stage, w.l1, w.l2,
      w.l3, w.l4] ha)) hsv dom.box m
  obtain ⟨hR, hwo⟩ := ch2_setup dom.nx hn G hG sz w.rk w.l1 w.l2
    w.l3 w.l4 d2 (fun a ha => hc a (List.mem_append_right [w.co.x, w.co.y] ha)) o.par
    (dom.box.dx dom.nx)
  refine ⟨G, mc, hgk, hr, hG, c1, hGo, hGg, c4, hR, hwo, fun a ha => ⟨fun h => ?_, fun h => ?_⟩,
    fun H doStep nextDT => ?_⟩
  · exact d3 a (List.mem_append_right [w.co.x, w.co.y] ha) a (List.mem_append_left [w.l1, w.l2, w.l3, w.l4] h) rfl
  · exact d3 a (List.mem_append_right [w.co.x, w.co.y] ha) a (List.mem_append_right [w.rk.sol, w.rk.res, w.rk.k1,
      w.rk.k2, w.rk.k3, w.rk.k4, w.rk.stage] h) rfl
  · exact view2 hn hGo hGg (by rw [hGg, hsize]; exact hc _ (by simp)) (by rw [hGg, hsize]; exact hc _ (by simp))
      (by rw [hGg]; exact hsv) (b := dom.box) (by rw [hGg]; exact c2) E _ doStep nextDT _

include hdom ht heq hcfl hlf hms hmax hi0 hbx hby hbz hdim hn hw hbig hic

theorem run2_rk3 (hint : o.sel.integrator = "rk3ssp") {t d p : Nat → ℝ} (hm : Marching ti.tfinal ti.t0 ti.dt0 t d p)
    (hp : ∀ k, p (k + 1) = d k) (F : ℝ → (Int × Int → ℝ) → Int × Int → ℝ)
    (hF : F = chField2 o.par (dom.box.dx dom.nx) dom.nx) (m : Mem A ℝ) :
    RunsAs sz (program E o file w) m ti o.logFreq.natAbs o.saveEvery.natAbs t d p
      (fun k => rms2 E.rt dom.nx ((ssprk3 : Tableau ℝ).slope F (t k) (d k) (states ssprk3 F t d u0 k)))
      (fun k => Monitors2 E.rt E.big E.tiny (dom.box.dx dom.nx) dom.nx (states ssprk3 F t d u0 (k + 1)))
      (stepName o.base (Nat.log 10 o.maxSteps + 1)) (stepName (finalBase o.base) (Nat.log 10 o.maxSteps + 1))
      (fun k => vts2 E.io dom.xbeg dom.ybeg (dom.box.dx dom.nx) dom.nx
        (states ssprk3 F t d u0 (k + 1))) := by
  subst hF
  obtain ⟨G, mc, hgk, hr, hG, hco, hGo, hGg, hfr, hR, hwo, hvs, hV⟩ :=
    setup2 (E := E) heq hbx hby hbz hdim hn hw m
  obtain ⟨m1, i1, i2, i3⟩ := hic G hGo hGg mc
  have hS := rk3_simOk hR.on hwo hvs (hV Unit _ _) rfl rfl (t := t) hp u0
  obtain ⟨N, e1, -, e2, e3⟩ := run_ends (se := o.saveEvery) (base := o.base) hS hm hcfl hlf hmax hi0
    (fun b i => stepName b (Nat.log 10 o.maxSteps + 1) i) (fun b i => stepName2_total _ (by exact_mod_cast hms) b i)
    (fun b i h1 h2 => stepName2_eq _ (by exact_mod_cast hms) b i h1 (by omega)) (fun _ _ => trivial) i1
    ⟨i2, fun a ha => i3 a fun h => (hvs a ha).1 (by rw [h]; simp), trivial⟩
  refine ⟨N, e1, fun fuel hf => ?_, fun fuel hf => ?_⟩
  · obtain ⟨v, m', f1, f2⟩ := e2 fuel hf
    exact ⟨v, m', f1, program2_rk3 hdom ht hgk hr hG hco hint f2⟩
  · obtain ⟨m', f2⟩ := e3 fuel hf
    exact ⟨m', program2_rk3 hdom ht hgk hr hG hco hint f2⟩

theorem run2_ode23 (hint : o.sel.integrator = "ode23") {t d p e : Nat → ℝ} (hm : Marching ti.tfinal ti.t0 ti.dt0 t d p)
    (F : ℝ → (Int × Int → ℝ) → Int × Int → ℝ)
    (hF : F = chField2 o.par (dom.box.dx dom.nx) dom.nx)
    (he : Estimates bs23 F (In2 dom.nx) t d (states bs23 F t d u0) e)
    (hp : ∀ k, p (k + 1) = proposal o.errTol o.minStep o.maxStep d e k) (m : Mem A ℝ)
    (hz : ∀ a ∈ [w.rk.k1, w.rk.k2, w.rk.k3, w.rk.k4], ∀ n, m a n = 0) :
    RunsAs sz (program E o file w) m ti o.logFreq.natAbs o.saveEvery.natAbs t d p
      (fun k => rms2 E.rt dom.nx ((bs23 : Tableau ℝ).slope F (t k) (d k) (states bs23 F t d u0 k)))
      (fun k => Monitors2 E.rt E.big E.tiny (dom.box.dx dom.nx) dom.nx (states bs23 F t d u0 (k + 1)))
      (stepName o.base (Nat.log 10 o.maxSteps + 1)) (stepName (finalBase o.base) (Nat.log 10 o.maxSteps + 1))
      (fun k => vts2 E.io dom.xbeg dom.ybeg (dom.box.dx dom.nx) dom.nx
        (states bs23 F t d u0 (k + 1))) := by
  subst hF
  obtain ⟨G, mc, hgk, hr, hG, hco, hGo, hGg, hfr, hR, hwo, hvs, hV⟩ :=
    setup2 (E := E) heq hbx hby hbz hdim hn hw m
  obtain ⟨m1, i1, i2, i3⟩ := hic G hGo hGg mc
  have hS := ode23_simOk hR.on hwo hvs (hV _ _ _) rfl rfl u0 hm.t_succ he o.errTol o.minStep o.maxStep hp
  have hzero : ∀ a ∈ [w.rk.k1, w.rk.k2, w.rk.k3, w.rk.k4], ∀ n, m1 a n = 0 := by
    intro a ha n
    have h1 : a ≠ w.rk.sol := by
      rintro rfl
      exact (List.nodup_cons.1 hwo.1).1 (List.mem_append_right [w.rk.res] (List.mem_append_left [w.rk.stage] ha))
    have h2 : a ∉ [w.co.x, w.co.y, w.co.xv, w.co.yv] := by
      intro h
      have hd : ([w.co.x, w.co.y, w.co.xv, w.co.yv] ++ [w.rk.sol, w.rk.res, w.rk.k1, w.rk.k2, w.rk.k3,
        w.rk.k4, w.rk.stage, w.l1, w.l2, w.l3, w.l4]).Nodup := hw.distinct
      refine (List.nodup_append.1 hd).2.2 a h a ?_ rfl
      exact List.mem_append_right [w.rk.sol, w.rk.res] (List.mem_append_left [w.rk.stage, w.l1, w.l2, w.l3, w.l4] ha)
    rw [i3 a h1, hfr a h2, hz a ha]
  obtain ⟨N, e1, -, e2, e3⟩ := run_ends (se := o.saveEvery) (base := o.base) hS hm hcfl hlf hmax hi0
    (fun b i => stepName b (Nat.log 10 o.maxSteps + 1) i) (fun b i => stepName2_total _ (by exact_mod_cast hms) b i)
    (fun b i h1 h2 => stepName2_eq _ (by exact_mod_cast hms) b i h1 (by omega)) (fun _ _ => trivial)
    (h0 := (ode23Init, PID.new o.errTol o.minStep o.maxStep)) i1
    ⟨i2, fun a ha => i3 a fun h => (hvs a ha).1 (by rw [h]; simp), fun n _ _ _ =>
      ⟨hzero _ (by simp) n, hzero _ (by simp) n, hzero _ (by simp) n, hzero _ (by simp) n⟩, fun h => (by cases h),
      pid_new _ _ _, trivial⟩
  refine ⟨N, e1, fun fuel hf => ?_, fun fuel hf => ?_⟩
  · obtain ⟨v, m', f1, f2⟩ := e2 fuel hf
    exact ⟨v, m', f1, program2_ode23 hdom ht hgk hr hG hco hint f2⟩
  · obtain ⟨m', f2⟩ := e3 fuel hf
    exact ⟨m', program2_ode23 hdom ht hgk hr hG hco hint f2⟩

end

end Madg
