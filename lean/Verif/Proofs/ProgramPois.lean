/-
Runs of the program for the Poisson problem with the explicit integrators.
-/
import Verif.Proofs.MGMain
import Verif.Proofs.ProgramRun
import Verif.Spec.PoisRun

set_option linter.unusedSectionVars false

namespace Madg
open Spec
variable {A : Type} [DecidableEq A]

/-- The right-hand side of the Poisson problem, while the coordinate arrays are kept. -/
theorem pois_on {G : Geom3} (hGo : G.Ok) {g : Grid3} (hGg : G.g = g) (hn : 2 ≤ g.ni ∧ 2 ≤ g.nj ∧ 2 ≤ g.nk) (hh : g.nhalo = 2)
    {sz : A → Int} {x y z : A} (hsz : ∀ a ∈ [x, y, z], sz a = g.size) (sn cs : ℝ → ℝ) (dx : ℝ) (mc : Mem A ℝ)
    {e : Int → Int → Int → ℝ}
    (he : ∀ i j k, g.Pad i j k → e i j k = sn (mc x (g.at3 i j k)) * cs (mc y (g.at3 i j k)) * cs (mc z (g.at3 i j k))) :
    RhsOn (fun m : Mem A ℝ => ∀ a ∈ [x, y, z], m a = mc a) sz g.size (· ∈ [x, y, z]) (In3 g.ni g.nj g.nk)
      (fun c : Int × Int × Int => g.at3 c.1 c.2.1 c.2.2) (poisField dx g.ni g.nj g.nk e)
      (fun s r _ => G.poissonRHS sn cs dx ⟨s, r, x, y, z⟩) := by
  subst hGg
  have hpad : ∀ c, In3 G.g.ni G.g.nj G.g.nk c → G.g.Pad c.1 c.2.1 c.2.2 := by
    intro c hc; unfold In3 at hc; unfold Grid3.Pad; omega
  refine ⟨fun c hc => Grid3.at3_bounds (hpad c hc), ?_, ?_, ?_⟩
  · intro t u v h c hc
    have : ∀ i j k, extDirichlet G.g.ni G.g.nj G.g.nk e (fun i j k => u (i, j, k)) i j k =
        extDirichlet G.g.ni G.g.nj G.g.nk e (fun i j k => v (i, j, k)) i j k := by
      intro i j k
      unfold extDirichlet
      split
      · rename_i hz
        exact h _ ⟨wrapIdx_range i (by omega), wrapIdx_range j (by omega), hz⟩
      · rfl
    unfold poisField poisRhs lap3 d2x d2y d2z
    simp only [this]
  · intro m m' h hI a ha
    rw [h a ha, hI a ha]
  · intro s r t m hI hne hs hr hzs hzr
    simp only [List.mem_cons, List.not_mem_nil, or_false, not_or] at hs hr
    obtain ⟨m', d, v, vs, vo, vf⟩ := poisson_det hGo (sz := sz) (w := ⟨s, r, x, y, z⟩)
      ⟨hne, ⟨Ne.symm hs.1, Ne.symm hs.2.1, Ne.symm hs.2.2⟩, ⟨Ne.symm hr.1, Ne.symm hr.2.1, Ne.symm hr.2.2⟩, hzs, hzr,
        hsz x (by simp), hsz y (by simp), hsz z (by simp)⟩ (by omega) (by omega) (by omega) (by omega) sn cs dx m
    have hx : m x = mc x := hI x (by simp)
    have hy : m y = mc y := hI y (by simp)
    have hz : m z = mc z := hI z (by simp)
    refine ⟨m', d, fun c hc => ?_, fun c hc => ?_, fun n hn' => Or.inl (vo n fun i j k h => hn' (i, j, k) h), fun b h1 h2 _ => vf b h1 h2,
      fun a ha => ?_⟩
    · refine (v _ _ _ hc).trans (poisRhs_congr_e dx (fun i j k h1 h2 h3 => ?_) _ hc.1 hc.2.1 hc.2.2)
      rw [he i j k (by unfold Grid3.Pad; omega)]
      simp only [PoisArr.exact, hx, hy, hz]
    · refine (vs _ _ _ (hpad c hc)).trans ?_
      unfold In3 at hc
      unfold extDirichlet
      rw [if_pos hc.2.2, wrapIdx_of_int hc.1.1 hc.1.2, wrapIdx_of_int hc.2.1.1 hc.2.1.2]
    · rw [vf a, hI a ha]
      · rintro rfl; simp only [List.mem_cons, List.not_mem_nil, or_false] at ha; tauto
      · rintro rfl; simp only [List.mem_cons, List.not_mem_nil, or_false] at ha; tauto

section
variable {sz : A → Int} {E : Env ℝ} {o : RunOpts} {file : Option VtsFile} {w : ProgArr A}
  {dom : FileDomain ℝ} (hdom : o.domain E file = .ok dom) {ti : TimeOpts ℝ}
  (ht : (match file with | some f => setInitialTimeStep E.io f o.timeOpts | none => .ok o.timeOpts) = .ok ti)

section
variable {fuel : Nat} {bx bY bz : BCName} {G : Geom3}
  (hgk : geomFactory o.sel = .ok (.cart3 bx bY bz)) (hr : rhsFactory o.sel (.cart3 bx bY bz) = .ok .poisson3)
  (hG : mkGeom3 ⟨dom.nx, dom.ny, dom.nz, 2⟩ bx.toBC bY.toBC bz.toBC = .ok G) {m mc m' : Mem A ℝ}
  (hco : Det sz ((⟨dom.nx, dom.ny, dom.nz, 2⟩ : Grid3).fillCoords dom.box w.co) m mc) {Res : RunResult ℝ}
include hdom ht hgk hr hG hco

theorem program3_pois_rk3 (hi : o.sel.integrator = "rk3ssp")
    (hrun : CDet sz ((sim3 E G (dom.box.dx dom.nx) w o.maxSteps
      (rk3Do (⟨dom.nx, dom.ny, dom.nz, 2⟩ : Grid3).size
        (fun s r _ => G.poissonRHS E.sn E.cs (dom.box.dx dom.nx) ⟨s, r, w.co.x, w.co.y, w.co.z⟩) w.rk) keepDT).run ti
      o.logFreq o.saveEvery o.base (icPois E file G.interior (.d3 ⟨dom.nx, dom.ny, dom.nz, 2⟩ w.rk.sol) w.rk.sol) () fuel)
      mc Res m') : CDet sz (program E o file w fuel) m Res m' := by
  have hts := timeSetup_ok (E := E) ht (by rw [hi]; decide)
  rw [hi] at hts
  unfold program
  refine (CDet.ofExcept hdom m).bind ?_
  rw [hgk]
  refine (CDet.ret _ _).bind ?_
  refine (CDet.ofExcept hG m).bind ((CDet.ofHost hco).bind ?_)
  rw [hr]
  refine (CDet.ret _ _).bind ?_
  rw [if_pos rfl]
  refine (CDet.ofExcept hts mc).bind ?_
  dsimp only
  rw [if_pos rfl]
  exact hrun

theorem program3_pois_ode23 (hi : o.sel.integrator = "ode23")
    (hrun : CDet sz ((sim3 E G (dom.box.dx dom.nx) w o.maxSteps
      (ode23Do (⟨dom.nx, dom.ny, dom.nz, 2⟩ : Grid3).size
        (fun s r _ => G.poissonRHS E.sn E.cs (dom.box.dx dom.nx) ⟨s, r, w.co.x, w.co.y, w.co.z⟩) w.rk) ode23Next).run ti
      o.logFreq o.saveEvery o.base (icPois E file G.interior (.d3 ⟨dom.nx, dom.ny, dom.nz, 2⟩ w.rk.sol) w.rk.sol)
      (ode23Init, PID.new o.errTol o.minStep o.maxStep) fuel) mc Res m') : CDet sz (program E o file w fuel) m Res m' := by
  have hts := timeSetup_ok (E := E) ht (by rw [hi]; decide)
  rw [hi] at hts
  unfold program
  refine (CDet.ofExcept hdom m).bind ?_
  rw [hgk]
  refine (CDet.ret _ _).bind ?_
  refine (CDet.ofExcept hG m).bind ((CDet.ofHost hco).bind ?_)
  rw [hr]
  refine (CDet.ret _ _).bind ?_
  rw [if_pos rfl]
  refine (CDet.ofExcept hts mc).bind ?_
  dsimp only
  rw [if_neg (by decide), if_pos rfl]
  exact hrun

end

variable (heq : o.sel.equation = "poisson") (hcfl : ti.useCfl = false) (hlf : o.logFreq ≠ 0) (hms : 0 < o.maxSteps)
  (hmax : 0 < ti.maxSteps) (hi0 : 0 ≤ ti.initialStep) {bx bY bz : BCType}
  (hbx : (o.sel.bcx, bx) ∈ [("periodic", BCType.periodic), ("neumann", .neumann), ("dirichlet", .dirichlet)])
  (hby : (o.sel.bcy, bY) ∈ [("periodic", BCType.periodic), ("neumann", .neumann), ("dirichlet", .dirichlet)])
  (hbz : (o.sel.bcz, bz) ∈ [("periodic", BCType.periodic), ("neumann", .neumann), ("dirichlet", .dirichlet)])
  (hdim : o.sel.dimension = 3)
  (hn : 2 ≤ dom.nx ∧ 2 ≤ dom.ny ∧ 2 ≤ dom.nz) (hw : ArraysPois sz w dom.nx dom.ny dom.nz)
  (hbig : ti.maxSteps < 10 ^ 17 ∧ ti.initialStep + 1 < 10 ^ 17) {u0 : Int × Int × Int → ℝ}
  (hic : ∀ (G : Geom3), G.Ok → G.g = ⟨dom.nx, dom.ny, dom.nz, 2⟩ → ∀ m : Mem A ℝ, ∃ m1,
    CDet sz (icPois E file G.interior (.d3 ⟨dom.nx, dom.ny, dom.nz, 2⟩ w.rk.sol) w.rk.sol) m () m1 ∧
      (∀ c, In3 dom.nx dom.ny dom.nz c → m1 w.rk.sol (G.g.at3 c.1 c.2.1 c.2.2) = u0 c) ∧ ∀ b, b ≠ w.rk.sol → m1 b = m b)
  {e : Int → Int → Int → ℝ} (he : ∀ i j k : Int, e i j k = E.sn (dom.xbeg + dom.box.dx dom.nx * (i + 1 / 2)) *
    E.cs (dom.ybeg + dom.box.dx dom.nx * (j + 1 / 2)) * E.cs (dom.zbeg + dom.box.dx dom.nx * (k + 1 / 2)))

include heq hbx hby hbz hdim hn hw he in
theorem setupPois (m : Mem A ℝ) : ∃ b1 b2 b3 G mc, geomFactory o.sel = .ok (.cart3 b1 b2 b3) ∧
    rhsFactory o.sel (.cart3 b1 b2 b3) = .ok .poisson3 ∧
    mkGeom3 ⟨dom.nx, dom.ny, dom.nz, 2⟩ b1.toBC b2.toBC b3.toBC = .ok G ∧
    Det sz ((⟨dom.nx, dom.ny, dom.nz, 2⟩ : Grid3).fillCoords dom.box w.co) m mc ∧ G.Ok ∧
    G.g = ⟨dom.nx, dom.ny, dom.nz, 2⟩ ∧ (∀ a, a ∉ [w.co.x, w.co.y, w.co.z, w.co.xv, w.co.yv, w.co.zv] → mc a = m a) ∧
    RhsOn (fun m' : Mem A ℝ => ∀ a ∈ [w.co.x, w.co.y, w.co.z], m' a = mc a) sz (⟨dom.nx, dom.ny, dom.nz, 2⟩ : Grid3).size
      (· ∈ [w.co.x, w.co.y, w.co.z]) (In3 dom.nx dom.ny dom.nz)
      (fun c : Int × Int × Int => (⟨dom.nx, dom.ny, dom.nz, 2⟩ : Grid3).at3 c.1 c.2.1 c.2.2)
      (poisField (dom.box.dx dom.nx) dom.nx dom.ny dom.nz e)
      (fun s r _ => G.poissonRHS E.sn E.cs (dom.box.dx dom.nx) ⟨s, r, w.co.x, w.co.y, w.co.z⟩) ∧
    w.rk.Ok sz (⟨dom.nx, dom.ny, dom.nz, 2⟩ : Grid3).size (· ∈ [w.co.x, w.co.y, w.co.z]) ∧
    (∀ a ∈ [w.co.xv, w.co.yv, w.co.zv], a ∉ [w.rk.sol, w.rk.res, w.rk.k1, w.rk.k2, w.rk.k3, w.rk.k4, w.rk.stage] ∧
      ¬ a ∈ [w.co.x, w.co.y, w.co.z]) ∧
    (∀ a ∈ [w.co.x, w.co.y, w.co.z, w.co.xv, w.co.yv, w.co.zv],
      a ∉ [w.rk.sol, w.rk.res, w.rk.k1, w.rk.k2, w.rk.k3, w.rk.k4, w.rk.stage]) ∧
    ∀ (H : Type) (doStep : H → ℝ → ℝ → Cmd A ℝ H) (nextDT : H → ℝ → Cmd A ℝ (H × ℝ)),
      ViewOk (sim3 E G (dom.box.dx dom.nx) w o.maxSteps doStep nextDT) sz (In3 dom.nx dom.ny dom.nz)
        (fun c : Int × Int × Int => (⟨dom.nx, dom.ny, dom.nz, 2⟩ : Grid3).at3 c.1 c.2.1 c.2.2) w.rk.sol w.rk.res
        (fun m' => ∀ a ∈ [w.co.xv, w.co.yv, w.co.zv], m' a = mc a) (rms3 E.rt dom.nx dom.ny dom.nz)
        (Monitors3 E.rt E.big E.tiny (dom.box.dx dom.nx) dom.nx dom.ny dom.nz)
        (vts3 E.io dom.xbeg dom.ybeg dom.zbeg (dom.box.dx dom.nx) dom.nx dom.ny dom.nz) := by
  obtain ⟨nx, ex, rfl⟩ := parseBC_name hbx
  obtain ⟨ny, ey, rfl⟩ := parseBC_name hby
  obtain ⟨nz, ez, rfl⟩ := parseBC_name hbz
  have hgk : geomFactory o.sel = .ok (.cart3 nx ny nz) := by
    unfold geomFactory
    rw [ex, ey, ez, hdim]; rfl
  have hr : rhsFactory o.sel (.cart3 nx ny nz) = .ok .poisson3 := by
    unfold rhsFactory
    rw [if_neg (by rw [heq]; decide), if_pos heq]
  have hgo : (⟨dom.nx, dom.ny, dom.nz, 2⟩ : Grid3).Ok :=
    ⟨by dsimp only; omega, by dsimp only; omega, by dsimp only; omega, by dsimp only; omega⟩
  have hG := mkGeom3_ok hgo nx.toBC ny.toBC nz.toBC
  obtain ⟨hGo, hGg, -⟩ := Geom3.ok_of_mk hgo hG
  obtain ⟨hd, hc, hvt⟩ := hw
  have hsize : (⟨dom.nx, dom.ny, dom.nz, 2⟩ : Grid3).size = (dom.nx + 4) * (dom.ny + 4) * (dom.nz + 4) := rfl
  have hvsize : (⟨dom.nx, dom.ny, dom.nz, 2⟩ : Grid3).vert.size = (dom.nx + 5) * (dom.ny + 5) * (dom.nz + 5) := by
    simp only [Grid3.size, Grid3.vert]; ring
  have hd2 : ([w.co.x, w.co.y, w.co.z, w.co.xv, w.co.yv, w.co.zv] ++ [w.rk.sol, w.rk.res, w.rk.k1, w.rk.k2, w.rk.k3,
    w.rk.k4, w.rk.stage]).Nodup := hd
  obtain ⟨d1, d2, d3⟩ := List.nodup_append.1 hd2
  have hco : w.co.Ok sz ⟨dom.nx, dom.ny, dom.nz, 2⟩ :=
    ⟨d1, fun a ha => by
        rw [hsize]
        exact hc a (List.mem_append_left [w.rk.sol, w.rk.res, w.rk.k1, w.rk.k2, w.rk.k3, w.rk.k4, w.rk.stage] ha),
      fun a ha => by rw [hvsize]; exact hvt a ha⟩
  obtain ⟨mc, c1, c2, c3, c4⟩ := coords3_det hco dom.box m
  have hce := centres_of c3
  have hxyz : ([w.co.x, w.co.y, w.co.z] ++ [w.co.xv, w.co.yv, w.co.zv]).Nodup := d1
  refine ⟨nx, ny, nz, _, mc, hgk, hr, hG, c1, hGo, hGg, c4, ?_, ⟨d2, fun a ha => ?_, fun a ha hb => ?_⟩, fun a ha => ⟨fun h => ?_, fun h => ?_⟩,
    fun a ha h => d3 a ha a h rfl, fun H doStep nextDT => ?_⟩
  · refine pois_on hGo hGg hn rfl hco.size E.sn E.cs _ mc fun i j k hp => ?_
    obtain ⟨e1, e2, e3⟩ := hce i j k hp
    rw [e1, e2, e3, he]
    rfl
  · rw [hsize]; exact hc a (List.mem_append_right [w.co.x, w.co.y, w.co.z] ha)
  · exact d3 a (List.mem_append_left [w.co.xv, w.co.yv, w.co.zv] hb) a ha rfl
  · exact d3 a (List.mem_append_right [w.co.x, w.co.y, w.co.z] ha) a h rfl
  · exact (List.nodup_append.1 hxyz).2.2 a h a ha rfl
  · exact view3 hn rfl hGo hGg (by rw [hsize]; exact hc _ (by simp)) (by rw [hsize]; exact hc _ (by simp)) hco.sizev c2 E _
      doStep nextDT _

include hdom ht heq hcfl hlf hms hmax hi0 hbx hby hbz hdim hn hw hbig hic he

theorem run3_pois_rk3 (hint : o.sel.integrator = "rk3ssp") {t d p : Nat → ℝ} (hm : Marching ti.tfinal ti.t0 ti.dt0 t d p)
    (hp : ∀ k, p (k + 1) = d k) (F : ℝ → (Int × Int × Int → ℝ) → Int × Int × Int → ℝ)
    (hF : F = poisField (dom.box.dx dom.nx) dom.nx dom.ny dom.nz e) (m : Mem A ℝ) :
    RunsAs sz (program E o file w) m ti o.logFreq.natAbs o.saveEvery.natAbs t d p
      (fun k => rms3 E.rt dom.nx dom.ny dom.nz ((ssprk3 : Tableau ℝ).slope F (t k) (d k) (states ssprk3 F t d u0 k)))
      (fun k => Monitors3 E.rt E.big E.tiny (dom.box.dx dom.nx) dom.nx dom.ny dom.nz (states ssprk3 F t d u0 (k + 1)))
      (stepName o.base (max (Nat.log 10 o.maxSteps + 1) 4)) (stepName (finalBase o.base) (max (Nat.log 10 o.maxSteps + 1) 4))
      (fun k => vts3 E.io dom.xbeg dom.ybeg dom.zbeg (dom.box.dx dom.nx) dom.nx dom.ny dom.nz
        (states ssprk3 F t d u0 (k + 1))) := by
  subst hF
  obtain ⟨b1, b2, b3, G, mc, hgk, hr, hG, hco, hGo, hGg, hfr, hR, hwo, hvs, hap, hV⟩ :=
    setupPois (E := E) heq hbx hby hbz hdim hn hw he m
  obtain ⟨m1, i1, i2, i3⟩ := hic G hGo hGg mc
  rw [hGg] at i2
  have hS := rk3_simOk hR hwo hvs (hV Unit _ _) rfl rfl (t := t) hp u0
  obtain ⟨N, e1, -, e2, e3⟩ := run_ends (se := o.saveEvery) (base := o.base) hS hm hcfl hlf hmax hi0
    (fun b i => stepName b (max (Nat.log 10 o.maxSteps + 1) 4) i) (fun b i => stepName3_total _ (by exact_mod_cast hms) b i)
    (fun b i h1 h2 => stepName3_eq _ (by exact_mod_cast hms) b i h1 (by omega)) (fun _ _ => trivial) i1
    ⟨i2, fun a ha => i3 a fun h => (hvs a ha).1 (by rw [h]; simp),
      fun a ha => i3 a fun h => hap a (List.mem_append_left [w.co.xv, w.co.yv, w.co.zv] ha) (by rw [h]; simp)⟩
  refine ⟨N, e1, fun fuel hf => ?_, fun fuel hf => ?_⟩
  · obtain ⟨v, m', f1, f2⟩ := e2 fuel hf
    exact ⟨v, m', f1, program3_pois_rk3 hdom ht hgk hr hG hco hint f2⟩
  · obtain ⟨m', f2⟩ := e3 fuel hf
    exact ⟨m', program3_pois_rk3 hdom ht hgk hr hG hco hint f2⟩

theorem run3_pois_ode23 (hint : o.sel.integrator = "ode23") {t d p ee : Nat → ℝ} (hm : Marching ti.tfinal ti.t0 ti.dt0 t d p)
    (F : ℝ → (Int × Int × Int → ℝ) → Int × Int × Int → ℝ)
    (hF : F = poisField (dom.box.dx dom.nx) dom.nx dom.ny dom.nz e)
    (hee : Estimates bs23 F (In3 dom.nx dom.ny dom.nz) t d (states bs23 F t d u0) ee)
    (hp : ∀ k, p (k + 1) = proposal o.errTol o.minStep o.maxStep d ee k) (m : Mem A ℝ)
    (hz : ∀ a ∈ [w.rk.k1, w.rk.k2, w.rk.k3, w.rk.k4], ∀ n, m a n = 0) :
    RunsAs sz (program E o file w) m ti o.logFreq.natAbs o.saveEvery.natAbs t d p
      (fun k => rms3 E.rt dom.nx dom.ny dom.nz ((bs23 : Tableau ℝ).slope F (t k) (d k) (states bs23 F t d u0 k)))
      (fun k => Monitors3 E.rt E.big E.tiny (dom.box.dx dom.nx) dom.nx dom.ny dom.nz (states bs23 F t d u0 (k + 1)))
      (stepName o.base (max (Nat.log 10 o.maxSteps + 1) 4)) (stepName (finalBase o.base) (max (Nat.log 10 o.maxSteps + 1) 4))
      (fun k => vts3 E.io dom.xbeg dom.ybeg dom.zbeg (dom.box.dx dom.nx) dom.nx dom.ny dom.nz
        (states bs23 F t d u0 (k + 1))) := by
  subst hF
  obtain ⟨b1, b2, b3, G, mc, hgk, hr, hG, hco, hGo, hGg, hfr, hR, hwo, hvs, hap, hV⟩ :=
    setupPois (E := E) heq hbx hby hbz hdim hn hw he m
  obtain ⟨m1, i1, i2, i3⟩ := hic G hGo hGg mc
  rw [hGg] at i2
  have hS := ode23_simOk hR hwo hvs (hV _ _ _) rfl rfl u0 hm.t_succ hee o.errTol o.minStep o.maxStep hp
  have hzero : ∀ a ∈ [w.rk.k1, w.rk.k2, w.rk.k3, w.rk.k4], ∀ n, m1 a n = 0 := by
    intro a ha n
    have h1 : a ≠ w.rk.sol := by
      rintro rfl
      exact (List.nodup_cons.1 hwo.1).1 (List.mem_append_right [w.rk.res] (List.mem_append_left [w.rk.stage] ha))
    have h2 : a ∉ [w.co.x, w.co.y, w.co.z, w.co.xv, w.co.yv, w.co.zv] := fun h =>
      hap a h (List.mem_append_right [w.rk.sol, w.rk.res] (List.mem_append_left [w.rk.stage] ha))
    rw [i3 a h1, hfr a h2, hz a ha]
  obtain ⟨N, e1, -, e2, e3⟩ := run_ends (se := o.saveEvery) (base := o.base) hS hm hcfl hlf hmax hi0
    (fun b i => stepName b (max (Nat.log 10 o.maxSteps + 1) 4) i) (fun b i => stepName3_total _ (by exact_mod_cast hms) b i)
    (fun b i h1 h2 => stepName3_eq _ (by exact_mod_cast hms) b i h1 (by omega)) (fun _ _ => trivial)
    (h0 := (ode23Init, PID.new o.errTol o.minStep o.maxStep)) i1
    ⟨i2, fun a ha => i3 a fun h => (hvs a ha).1 (by rw [h]; simp), fun n _ _ _ =>
      ⟨hzero _ (by simp) n, hzero _ (by simp) n, hzero _ (by simp) n, hzero _ (by simp) n⟩, fun h => (by cases h),
      pid_new _ _ _,
      fun a ha => i3 a fun h => hap a (List.mem_append_left [w.co.xv, w.co.yv, w.co.zv] ha) (by rw [h]; simp)⟩
  refine ⟨N, e1, fun fuel hf => ?_, fun fuel hf => ?_⟩
  · obtain ⟨v, m', f1, f2⟩ := e2 fuel hf
    exact ⟨v, m', f1, program3_pois_ode23 hdom ht hgk hr hG hco hint f2⟩
  · obtain ⟨m', f2⟩ := e3 fuel hf
    exact ⟨m', program3_pois_ode23 hdom ht hgk hr hG hco hint f2⟩

end

end Madg
