/-
Single executions of 3D Cahn–Hilliard runs in any arithmetic.
-/
import Verif.Proofs.RunEachRK

set_option linter.unusedSectionVars false

namespace Madg
open Spec

theorem In3.pad' {g : Grid3} (hg : g.Ok) {c : Int × Int × Int} (h : In3 g.ni g.nj g.nk c) : g.Pad c.1 c.2.1 c.2.2 :=
  Grid3.Int3.pad (g := g) hg h

theorem nodup_triples (ni nj nk : Int) : (triples ni nj nk).Nodup := by
  rw [triples_eq]
  exact List.Nodup.map (fun x y h => by
    obtain ⟨a, b, c⟩ := x
    obtain ⟨a', b', c'⟩ := y
    simp only [Prod.mk.injEq] at h ⊢
    tauto) (nodup_box3 _ _ _ _ _ _)

theorem Geom3.Ok.cells_nodup {G : Geom3} (hG : G.Ok) :
    ((triples G.g.ni G.g.nj G.g.nk).map fun c => G.g.at3 c.1 c.2.1 c.2.2).Nodup := by
  refine List.Nodup.map_on (fun c hc d hd e => ?_) (nodup_triples _ _ _)
  obtain ⟨e1, e2, e3⟩ := Grid3.at3_inj (In3.pad' hG.ok (mem_triples.1 hc)) (In3.pad' hG.ok (mem_triples.1 hd)) e
  exact Prod.ext e1 (Prod.ext e2 e3)

theorem Geom3.Ok.cells_perm {G : Geom3} (hG : G.Ok) :
    ((triples G.g.ni G.g.nj G.g.nk).map fun c => G.g.at3 c.1 c.2.1 c.2.2).Perm G.interior := by
  refine (List.perm_ext_iff_of_nodup hG.cells_nodup hG.nodup_int).2 fun n => ?_
  rw [hG.mem_int, List.mem_map]
  constructor
  · rintro ⟨c, hc, rfl⟩
    exact ⟨_, _, _, mem_triples.1 hc, rfl⟩
  · rintro ⟨i, j, k, hi, rfl⟩
    exact ⟨(i, j, k), mem_triples.2 hi, rfl⟩

section
variable {A K H : Type} [DecidableEq A] [Arith K] [LT K] [DecidableLT K] [LE K] [DecidableLE K] [DecidableEq K] [Max K] [Min K] {sz : A → Int}

theorem solMon3_each {G : Geom3} (hG : G.Ok) (h1 : 1 ≤ G.g.nhalo) {f : A} (hs : sz f = G.g.size) (rt : K → K)
    (big tiny dx : K) (m : Mem A K) (u : Int × Int × Int → K)
    (h : ∀ c, In3 G.g.ni G.g.nj G.g.nk c → m f (G.g.at3 c.1 c.2.1 c.2.2) = u c) :
    AllEnd sz (G.solMonitor rt big tiny dx f) m fun v m' => m' = m ∧ Extremes big tiny (triples G.g.ni G.g.nj G.g.nk) u v := by
  have hr : ∀ n ∈ G.interior, (Prog.rd f (G.g.at3 (G.g.getI n) (G.g.getJ n) (G.g.getK n)) : Prog A K K).run sz m = .ok (m f n, m) := by
    intro n hn
    obtain ⟨i, j, k, hi, rfl⟩ := hG.mem_int.1 hn
    have hp := hi.pad hG.ok
    rw [Grid3.getI_at3 hp, Grid3.getJ_at3 hp, Grid3.getK_at3 hp]
    exact run_rd (hG.int_inB hs hn) m
  have hp : (G.interior.map (m f)).Perm ((triples G.g.ni G.g.nj G.g.nk).map u) := by
    refine ((hG.cells_perm.map (m f)).symm).trans ?_
    rw [List.map_map]
    exact List.Perm.of_eq (List.map_congr_left fun c hc => h c (mem_triples.1 hc))
  unfold Geom3.solMonitor
  rw [redIdx_eq_map]
  refine (allEnd_reduce_map _ _ _ _ (m f) m hr).bind ?_
  rintro lo m1 ⟨rfl, hlo⟩
  refine (allEnd_reduce_map _ _ _ _ (m1 f) m1 hr).bind ?_
  rintro hi m2 ⟨rfl, hhi⟩
  refine (allEnd_reduce _ _ _ (redIdx_run fun n hn m => ?_) m2).bind ?_
  · obtain ⟨i, j, k, h, rfl⟩ := hG.mem_int.1 hn
    exact gradCell3_runs hG.ok h1 hs rt dx h m
  · rintro x m1 rfl
    exact AllEnd.ret ⟨rfl, hlo.perm (hp.cons _), hhi.perm (hp.cons _)⟩

end

/-! ### The program -/

section
variable {A K : Type} [DecidableEq A] [Arith K] [LT K] [DecidableLT K] [LE K] [DecidableLE K] [DecidableEq K] [Max K] [Min K] [Pow K K] {sz : A → Int} {E : Env K} {o : RunOpts K}
  {file : Option VtsFile} {w : ProgArr A} {dom : FileDomain K} {ti : TimeOpts K}

theorem program3_ode23_any {bx bY bz : BCName} (hdom : o.domain E file = .ok dom)
    (ht : (match file with | some f => setInitialTimeStep E.io f o.timeOpts | none => .ok o.timeOpts) = .ok ti)
    (hgk : geomFactory o.sel = .ok (.cart3 bx bY bz))
    (hr : rhsFactory o.sel (.cart3 bx bY bz) = .ok .ch3) (hv : o.variant = 0 ∨ o.variant = 1 ∨ o.variant = 2)
    {G : Geom3} (hG : mkGeom3 ⟨dom.nx, dom.ny, dom.nz, 2⟩ bx.toBC bY.toBC bz.toBC = .ok G) {m mc : Mem A K}
    (hco : Det sz ((⟨dom.nx, dom.ny, dom.nz, 2⟩ : Grid3).fillCoords dom.box w.co) m mc) (hi : o.sel.integrator = "ode23")
    {fuel : Nat} {P : RunResult K → Mem A K → Prop}
    (hrun : AllEnd sz ((sim3 E G (dom.box.dx dom.nx) w o.maxSteps
      (ode23Do (⟨dom.nx, dom.ny, dom.nz, 2⟩ : Grid3).size
        (fun s r _ => G.evalRHS o.variant o.par (dom.box.dx dom.nx) ⟨s, r, w.l1, w.l2, w.l3, w.l4⟩) w.rk) ode23Next).run ti
      o.logFreq o.saveEvery o.base (icOf E o file G.interior (.d3 ⟨dom.nx, dom.ny, dom.nz, 2⟩ w.rk.sol) w.rk.sol)
      (ode23Init, PID.new o.errTol o.minStep o.maxStep) fuel) mc P) : AllEnd sz (program E o file w fuel) m P := by
  have hts := timeSetup_ok (E := E) ht (by rw [hi]; decide)
  rw [hi] at hts
  unfold program
  refine (CDet.ofExcept hdom m).allEnd ?_
  rw [hgk]
  refine (CDet.ret _ _).allEnd ?_
  refine (CDet.ofExcept hG m).allEnd ((CDet.ofHost hco).allEnd ?_)
  rw [hr]
  refine (CDet.ret _ _).allEnd ?_
  rw [if_neg (by simp), if_neg (by simp)]
  refine (CDet.ofExcept (show ctorCH3 o.variant = .ok () by unfold ctorCH3; rw [if_pos (by omega)]) mc).allEnd ?_
  refine (CDet.ofExcept hts mc).allEnd ?_
  dsimp only
  rw [if_neg (by decide), if_pos rfl]
  exact hrun

theorem view3_each {nx ny nz : Int} {b : Box K} (hn : 2 ≤ nx ∧ 2 ≤ ny ∧ 2 ≤ nz) {G : Geom3} (hGo : G.Ok) (hGg : G.g = ⟨nx, ny, nz, 2⟩)
    (hsol : sz w.rk.sol = (⟨nx, ny, nz, 2⟩ : Grid3).size) (hres : sz w.rk.res = (⟨nx, ny, nz, 2⟩ : Grid3).size)
    (hsv : ∀ a ∈ [w.co.xv, w.co.yv, w.co.zv], sz a = (⟨nx, ny, nz, 2⟩ : Grid3).vert.size) {mc : Mem A K}
    (hmc : ∀ i j k, (⟨nx, ny, nz, 2⟩ : Grid3).vert.Pad i j k →
      mc w.co.xv ((⟨nx, ny, nz, 2⟩ : Grid3).vert.at3 i j k) = b.xbeg + b.dx nx * (i : K) ∧
      mc w.co.yv ((⟨nx, ny, nz, 2⟩ : Grid3).vert.at3 i j k) = b.ybeg + b.dx nx * (j : K) ∧
      mc w.co.zv ((⟨nx, ny, nz, 2⟩ : Grid3).vert.at3 i j k) = b.zbeg + b.dx nx * (k : K))
    {H : Type} (doStep : H → K → K → Cmd A K H) (nextDT : H → K → Cmd A K (H × K)) {ms : Int} {dx : K} :
    ViewEach (sim3 E G dx w ms doStep nextDT) sz (In3 nx ny nz)
      (fun c => (⟨nx, ny, nz, 2⟩ : Grid3).at3 c.1 c.2.1 c.2.2) w.rk.sol w.rk.res
      (fun m => ∀ a ∈ [w.co.xv, w.co.yv, w.co.zv], m a = mc a) (Rms E.rt (triples nx ny nz))
      (Extremes E.big E.tiny (triples nx ny nz))
      (vts3 E.io b.xbeg b.ybeg b.zbeg (b.dx nx) nx ny nz) where
  resid m1 mx x hx := by
    have := resid_each (sz := sz) E.rt (l := G.interior) (a := w.rk.res) (fun n hn => hGo.int_inB (by rw [hGg]; exact hres) hn)
      hGo.cells_perm mx m1 (x := x) (fun c hc => by rw [mem_triples, hGg] at hc; rw [hGg]; exact hx c hc)
    rw [hGg] at this
    exact this
  mon m1 u hu := by
    have := solMon3_each (sz := sz) hGo (by rw [hGg]; dsimp only; omega) (f := w.rk.sol) (by rw [hGg]; exact hsol) E.rt E.big E.tiny dx m1 u
      (by rw [hGg]; exact hu)
    rw [hGg] at this
    exact this
  write m1 u st hu hk :=
    write3 (g := ⟨nx, ny, nz, 2⟩) ⟨by dsimp only; omega, by dsimp only; omega, by dsimp only; omega⟩ rfl hGg hsol hsv hmc E.io m1 u st hu hk

variable (hdom : o.domain E file = .ok dom)
  (ht : (match file with | some f => setInitialTimeStep E.io f o.timeOpts | none => .ok o.timeOpts) = .ok ti)
  (heq : o.sel.equation = "cahn-hilliard") (hcfl : ti.useCfl = false) (hlf : o.logFreq ≠ 0) (hms : 0 < o.maxSteps)
  (hmax : 0 < ti.maxSteps) (hi0 : 0 ≤ ti.initialStep)
  {bx bY bz : BCType}
  (hbx : (o.sel.bcx, bx) ∈ [("periodic", BCType.periodic), ("neumann", .neumann), ("dirichlet", .dirichlet)])
  (hby : (o.sel.bcy, bY) ∈ [("periodic", BCType.periodic), ("neumann", .neumann), ("dirichlet", .dirichlet)])
  (hbz : (o.sel.bcz, bz) ∈ [("periodic", BCType.periodic), ("neumann", .neumann), ("dirichlet", .dirichlet)])
  (hdim : o.sel.dimension = 3) (hv : o.variant = 0 ∨ o.variant = 1 ∨ o.variant = 2)
  (hn : 2 ≤ dom.nx ∧ 2 ≤ dom.ny ∧ 2 ≤ dom.nz) (hw : Arrays3 sz w dom.nx dom.ny dom.nz)
  (hbig : ti.maxSteps < 10 ^ 17 ∧ ti.initialStep + 1 < 10 ^ 17) {u0 : Int × Int × Int → K}
  (hic : ∀ (G : Geom3), G.Ok → G.g = ⟨dom.nx, dom.ny, dom.nz, 2⟩ → ∀ m : Mem A K, ∃ m1,
    CDet sz (icOf E o file G.interior (.d3 ⟨dom.nx, dom.ny, dom.nz, 2⟩ w.rk.sol) w.rk.sol) m () m1 ∧
      (∀ c, In3 dom.nx dom.ny dom.nz c → m1 w.rk.sol (G.g.at3 c.1 c.2.1 c.2.2) = u0 c) ∧ ∀ b, b ≠ w.rk.sol → m1 b = m b)

/-- What the set-up of a 3D Cahn–Hilliard run establishes. -/
structure Setup3 (sz : A → Int) (E : Env K) (o : RunOpts K) (w : ProgArr A) (dom : FileDomain K) (F : (Int × Int × Int → K) → Int × Int × Int → K)
    (m mc : Mem A K) (nx ny nz : BCName) (G : Geom3) : Prop where
  hgk : geomFactory o.sel = .ok (.cart3 nx ny nz)
  hr : rhsFactory o.sel (.cart3 nx ny nz) = .ok .ch3
  hG : mkGeom3 ⟨dom.nx, dom.ny, dom.nz, 2⟩ nx.toBC ny.toBC nz.toBC = .ok G
  hGo : G.Ok
  hGg : G.g = ⟨dom.nx, dom.ny, dom.nz, 2⟩
  hco : Det sz ((⟨dom.nx, dom.ny, dom.nz, 2⟩ : Grid3).fillCoords dom.box w.co) m mc
  frame : ∀ b, b ∉ [w.co.x, w.co.y, w.co.z, w.co.xv, w.co.yv, w.co.zv] → mc b = m b
  hR : RhsOn (fun _ => True) sz (⟨dom.nx, dom.ny, dom.nz, 2⟩ : Grid3).size (· ∈ [w.l1, w.l2, w.l3, w.l4]) (In3 dom.nx dom.ny dom.nz)
    (fun c => (⟨dom.nx, dom.ny, dom.nz, 2⟩ : Grid3).at3 c.1 c.2.1 c.2.2) (fun _ => F)
    (fun s r _ => G.evalRHS o.variant o.par (dom.box.dx dom.nx) ⟨s, r, w.l1, w.l2, w.l3, w.l4⟩)
  hwo : w.rk.Ok sz (⟨dom.nx, dom.ny, dom.nz, 2⟩ : Grid3).size (· ∈ [w.l1, w.l2, w.l3, w.l4])
  hvs : ∀ a ∈ [w.co.xv, w.co.yv, w.co.zv], a ∉ [w.rk.sol, w.rk.res, w.rk.k1, w.rk.k2, w.rk.k3, w.rk.k4, w.rk.stage] ∧
    ¬ a ∈ [w.l1, w.l2, w.l3, w.l4]
  hvk : ∀ a ∈ [w.rk.k1, w.rk.k2, w.rk.k3, w.rk.k4], a ∉ [w.co.x, w.co.y, w.co.z, w.co.xv, w.co.yv, w.co.zv] ∧ a ≠ w.rk.sol
  view : ∀ {H : Type} (doStep : H → K → K → Cmd A K H) (nextDT : H → K → Cmd A K (H × K)),
    ViewEach (sim3 E G (dom.box.dx dom.nx) w o.maxSteps doStep nextDT) sz (In3 dom.nx dom.ny dom.nz)
      (fun c => (⟨dom.nx, dom.ny, dom.nz, 2⟩ : Grid3).at3 c.1 c.2.1 c.2.2) w.rk.sol w.rk.res
      (fun m => ∀ a ∈ [w.co.xv, w.co.yv, w.co.zv], m a = mc a) (Rms E.rt (triples dom.nx dom.ny dom.nz))
      (Extremes E.big E.tiny (triples dom.nx dom.ny dom.nz))
      (vts3 E.io dom.xbeg dom.ybeg dom.zbeg (dom.box.dx dom.nx) dom.nx dom.ny dom.nz)

include heq hbx hby hbz hdim hv hn hw in
theorem setupEach3 (m : Mem A K) : ∃ (mc : Mem A K) (nx ny nz : BCName) (G : Geom3),
    Setup3 sz E o w dom (chFieldA o.variant o.par (dom.box.dx dom.nx) bx bY bz dom.nx dom.ny dom.nz 0) m mc nx ny nz G := by
  obtain ⟨nx, ex, rfl⟩ := parseBC_name hbx
  obtain ⟨ny, ey, rfl⟩ := parseBC_name hby
  obtain ⟨nz, ez, rfl⟩ := parseBC_name hbz
  have hgk : geomFactory o.sel = .ok (.cart3 nx ny nz) := by
    unfold geomFactory
    rw [ex, ey, ez, hdim]; rfl
  have hr : rhsFactory o.sel (.cart3 nx ny nz) = .ok .ch3 := by
    unfold rhsFactory
    rw [if_pos heq, if_neg (by omega), if_pos hdim]
  have hgo : (⟨dom.nx, dom.ny, dom.nz, 2⟩ : Grid3).Ok :=
    ⟨by dsimp only; omega, by dsimp only; omega, by dsimp only; omega, by dsimp only; omega⟩
  obtain ⟨G, hG⟩ : ∃ G, mkGeom3 ⟨dom.nx, dom.ny, dom.nz, 2⟩ nx.toBC ny.toBC nz.toBC = .ok G := ⟨_, mkGeom3_ok hgo nx.toBC ny.toBC nz.toBC⟩
  obtain ⟨hGo, hGg, -⟩ := Geom3.ok_of_mk hgo hG
  obtain ⟨hd, hc, hvt⟩ := hw
  have hsize : (⟨dom.nx, dom.ny, dom.nz, 2⟩ : Grid3).size = (dom.nx + 4) * (dom.ny + 4) * (dom.nz + 4) := rfl
  have hvsize : (⟨dom.nx, dom.ny, dom.nz, 2⟩ : Grid3).vert.size = (dom.nx + 5) * (dom.ny + 5) * (dom.nz + 5) := by
    simp only [Grid3.size, Grid3.vert]; ring
  have hco : w.co.Ok sz ⟨dom.nx, dom.ny, dom.nz, 2⟩ :=
    ⟨hd.sublist (by
        have : [w.co.x, w.co.y, w.co.z, w.co.xv, w.co.yv, w.co.zv] ++ [w.rk.sol, w.rk.res, w.rk.k1, w.rk.k2, w.rk.k3,
          w.rk.k4, w.rk.stage, w.l1, w.l2, w.l3, w.l4] = [w.co.x, w.co.y, w.co.z, w.co.xv, w.co.yv, w.co.zv, w.rk.sol,
          w.rk.res, w.rk.k1, w.rk.k2, w.rk.k3, w.rk.k4, w.rk.stage, w.l1, w.l2, w.l3, w.l4] := rfl
        rw [← this]
        exact List.sublist_append_left _ _),
      fun a ha => by
        rw [hsize]
        exact hc a (List.mem_append_left [w.rk.sol, w.rk.res, w.rk.k1, w.rk.k2, w.rk.k3, w.rk.k4, w.rk.stage, w.l1, w.l2,
          w.l3, w.l4] ha),
      fun a ha => by rw [hvsize]; exact hvt a ha⟩
  obtain ⟨mc, c1, c2, -, c4⟩ := coords3_det hco dom.box m
  have hd2 : ([w.co.x, w.co.y, w.co.z, w.co.xv, w.co.yv, w.co.zv] ++ [w.rk.sol, w.rk.res, w.rk.k1, w.rk.k2, w.rk.k3,
    w.rk.k4, w.rk.stage, w.l1, w.l2, w.l3, w.l4]).Nodup := hd
  obtain ⟨-, d2, d3⟩ := List.nodup_append.1 hd2
  have hd4 : ([w.rk.sol, w.rk.res, w.rk.k1, w.rk.k2, w.rk.k3, w.rk.k4, w.rk.stage] ++ [w.l1, w.l2, w.l3, w.l4]).Nodup := d2
  obtain ⟨d5, d6, d7⟩ := List.nodup_append.1 hd4
  have hR := ch3_contractA (A := A) (g := ⟨dom.nx, dom.ny, dom.nz, 2⟩) hn rfl hG hv (sz := sz) d6
    (fun a ha => by
      rw [hsize]
      exact hc a (List.mem_append_right [w.co.x, w.co.y, w.co.z, w.rk.sol, w.rk.res, w.rk.k1, w.rk.k2, w.rk.k3, w.rk.k4, w.rk.stage] ha))
    o.par (dom.box.dx dom.nx)
  have hwo : w.rk.Ok sz (⟨dom.nx, dom.ny, dom.nz, 2⟩ : Grid3).size (· ∈ [w.l1, w.l2, w.l3, w.l4]) :=
    ⟨d5, fun a ha => by
        rw [hsize]
        exact hc a (List.mem_append_right [w.co.x, w.co.y, w.co.z] (List.mem_append_left [w.l1, w.l2, w.l3, w.l4] ha)),
      fun a ha h => d7 a ha a h rfl⟩
  have hvs : ∀ a ∈ [w.co.xv, w.co.yv, w.co.zv], a ∉ [w.rk.sol, w.rk.res, w.rk.k1, w.rk.k2, w.rk.k3, w.rk.k4, w.rk.stage] ∧
      ¬ a ∈ [w.l1, w.l2, w.l3, w.l4] := fun a ha =>
    ⟨fun h => d3 a (List.mem_append_right [w.co.x, w.co.y, w.co.z] ha) a (List.mem_append_left [w.l1, w.l2, w.l3, w.l4] h) rfl,
     fun h => d3 a (List.mem_append_right [w.co.x, w.co.y, w.co.z] ha) a (List.mem_append_right [w.rk.sol, w.rk.res, w.rk.k1,
      w.rk.k2, w.rk.k3, w.rk.k4, w.rk.stage] h) rfl⟩
  have hvk : ∀ a ∈ [w.rk.k1, w.rk.k2, w.rk.k3, w.rk.k4], a ∉ [w.co.x, w.co.y, w.co.z, w.co.xv, w.co.yv, w.co.zv] ∧ a ≠ w.rk.sol := by
    intro a ha
    have ha' : a ∈ [w.rk.sol, w.rk.res, w.rk.k1, w.rk.k2, w.rk.k3, w.rk.k4, w.rk.stage, w.l1, w.l2, w.l3, w.l4] :=
      List.mem_append_right [w.rk.sol, w.rk.res] (List.mem_append_left [w.rk.stage, w.l1, w.l2, w.l3, w.l4] ha)
    refine ⟨fun h => d3 a h a ha' rfl, ?_⟩
    rintro rfl
    exact (List.nodup_cons.1 d5).1 (List.mem_append_right [w.rk.res] (List.mem_append_left [w.rk.stage] ha))
  have hsol : sz w.rk.sol = (⟨dom.nx, dom.ny, dom.nz, 2⟩ : Grid3).size := by rw [hsize]; exact hc _ (by simp)
  have hres : sz w.rk.res = (⟨dom.nx, dom.ny, dom.nz, 2⟩ : Grid3).size := by rw [hsize]; exact hc _ (by simp)
  refine ⟨mc, nx, ny, nz, G, hgk, hr, hG, hGo, hGg, c1, c4, hR, hwo, hvs, hvk, fun doStep nextDT =>
    view3_each hn hGo hGg hsol hres hco.sizev c2 doStep nextDT⟩

include hms hmax hi0 hbig in
theorem names3 : ∃ nn : Text → Int → Text, (∀ b i, stepName3 b o.maxSteps i = .ok (nn b i)) ∧
    ∀ b i, 0 ≤ i → i ≤ max ti.maxSteps (ti.initialStep + 1) → nn b i = stepName b (max (Nat.log 10 o.maxSteps + 1) 4) i := by
  choose nn hnn using fun b i => stepName3_total o.maxSteps (by exact_mod_cast hms) b i
  exact ⟨nn, hnn, fun b i h1 h2 => Except.ok.inj ((hnn b i).symm.trans (stepName3_eq _ (by exact_mod_cast hms) b i h1 (by omega)))⟩

include hmax hi0 in
/-- Change of the file names to equal ones. -/
theorem Spec.RunsEach.rename {C : Type} {run run' : Nat → Cmd A K (RunResult K)} {m m' : Mem A K} {lf se : Nat} {M : Method K C} {u0 : C → K} {R : (C → K) → K → Prop}
    {Q : (C → K) → K × K × K → Prop} {name fname name' fname' : Int → Text} {vf : (C → K) → Status K → VtsFile}
    (h : RunsEach sz run m ti lf se M u0 R Q name fname vf)
    (hrun : ∀ fuel P, AllEnd sz (run fuel) m P → AllEnd sz (run' fuel) m' P)
    (h1 : ∀ i, 0 ≤ i → i ≤ max ti.maxSteps (ti.initialStep + 1) → name i = name' i)
    (h2 : ∀ i, 0 ≤ i → i ≤ max ti.maxSteps (ti.initialStep + 1) → fname i = fname' i) :
    RunsEach sz run' m' ti lf se M u0 R Q name' fname' vf := by
  intro fuel hf hm
  refine hrun fuel _ ((h fuel hf hm).mono ?_)
  rintro res m1 ⟨N, t, d, p, r, e, v, u, q1, q2, q3, q4, q5, rfl⟩
  refine ⟨N, t, d, p, r, e, v, u, q1, q2, q3, q4, q5, ?_⟩
  have hb : ti.initialStep + N ≤ max ti.maxSteps (ti.initialStep + 1) := by
    let : Max K := byLess
    exact q2.bound hmax.ne'
  rw [h2 _ (by omega) hb, savedFiles_congr (name' := name') fun k hk => h1 _ (by omega) (by omega)]

include hdom ht heq hcfl hlf hms hmax hi0 hbx hby hbz hdim hv hn hw hbig hic

theorem each3_rk3 (hint : o.sel.integrator = "rk3ssp") (m : Mem A K) :
    RunsEach sz (program E o file w) m ti o.logFreq.natAbs o.saveEvery.natAbs
      (ssprk3Method fun _ => chFieldA o.variant o.par (dom.box.dx dom.nx) bx bY bz dom.nx dom.ny dom.nz 0) u0
      (Rms E.rt (triples dom.nx dom.ny dom.nz)) (Extremes E.big E.tiny (triples dom.nx dom.ny dom.nz))
      (stepName o.base (max (Nat.log 10 o.maxSteps + 1) 4)) (stepName (finalBase o.base) (max (Nat.log 10 o.maxSteps + 1) 4))
      (vts3 E.io dom.xbeg dom.ybeg dom.zbeg (dom.box.dx dom.nx) dom.nx dom.ny dom.nz) := by
  obtain ⟨mc, nx, ny, nz, G, hS⟩ := setupEach3 (sz := sz) (E := E) heq hbx hby hbz hdim hv hn hw m
  obtain ⟨nn, hnn, hnm⟩ := names3 (o := o) hms hmax hi0 hbig
  obtain ⟨m1, i1, i2, i3⟩ := hic G hS.hGo hS.hGg mc
  rw [hS.hGg] at i2
  have key := run_each (se := o.saveEvery) (base := o.base) (o := ti)
    (rk3_each hS.hR hS.hwo hS.hvs (hS.view (rk3Do _ _ _) keepDT) rfl rfl) hcfl hmax hlf (name := nn o.base)
    (fun k => hnn o.base _) (fname := nn (finalBase o.base)) (fun k => hnn (finalBase o.base) _) (h0 := ()) i1
    ⟨i2, fun a ha => i3 a fun h => (hS.hvs a ha).1 (by rw [h]; simp), trivial⟩
  exact key.rename hmax hi0 (fun fuel P h => program3_rk3_any hdom ht hS.hgk hS.hr hv hS.hG hS.hco hint h)
    (hnm o.base) (hnm (finalBase o.base))

theorem each3_ode23 (hint : o.sel.integrator = "ode23") (m : Mem A K)
    (hz : ∀ a ∈ [w.rk.k1, w.rk.k2, w.rk.k3, w.rk.k4], ∀ n, m a n = 0) :
    RunsEach sz (program E o file w) m ti o.logFreq.natAbs o.saveEvery.natAbs
      (bs23Method (chFieldA o.variant o.par (dom.box.dx dom.nx) bx bY bz dom.nx dom.ny dom.nz 0) (triples dom.nx dom.ny dom.nz)
        ((⟨dom.nx, dom.ny, dom.nz, 2⟩ : Grid3).size.toNat - (triples dom.nx dom.ny dom.nz).length) o.errTol o.minStep o.maxStep) u0
      (Rms E.rt (triples dom.nx dom.ny dom.nz)) (Extremes E.big E.tiny (triples dom.nx dom.ny dom.nz))
      (stepName o.base (max (Nat.log 10 o.maxSteps + 1) 4)) (stepName (finalBase o.base) (max (Nat.log 10 o.maxSteps + 1) 4))
      (vts3 E.io dom.xbeg dom.ybeg dom.zbeg (dom.box.dx dom.nx) dom.nx dom.ny dom.nz) := by
  obtain ⟨mc, nx, ny, nz, G, hS⟩ := setupEach3 (sz := sz) (E := E) heq hbx hby hbz hdim hv hn hw m
  obtain ⟨nn, hnn, hnm⟩ := names3 (o := o) hms hmax hi0 hbig
  obtain ⟨m1, i1, i2, i3⟩ := hic G hS.hGo hS.hGg mc
  rw [hS.hGg] at i2
  have hnd := hS.hGo.cells_nodup
  rw [hS.hGg] at hnd
  have hk : ∀ a ∈ [w.rk.k1, w.rk.k2, w.rk.k3, w.rk.k4], ∀ n, m1 a n = 0 := fun a ha n => by
    rw [i3 a (hS.hvk a ha).2, hS.frame a (hS.hvk a ha).1, hz a ha]
  have key := run_each (se := o.saveEvery) (base := o.base) (o := ti)
    (ode23_each hS.hR hS.hwo hS.hvs (cells := triples dom.nx dom.ny dom.nz) (fun c => mem_triples) hnd
      (hS.view (ode23Do _ _ _) ode23Next) rfl rfl o.errTol o.minStep o.maxStep) hcfl hmax hlf (name := nn o.base)
    (fun k => hnn o.base _) (fname := nn (finalBase o.base)) (fun k => hnn (finalBase o.base) _)
    (h0 := (ode23Init, PID.new o.errTol o.minStep o.maxStep)) i1
    ⟨i2, fun a ha => i3 a fun h => (hS.hvs a ha).1 (by rw [h]; simp),
      fun n _ _ _ => ⟨hk _ (by simp) n, hk _ (by simp) n, hk _ (by simp) n, hk _ (by simp) n⟩,
      fun h => absurd h (by simp [ode23Init]), ⟨rfl, rfl, rfl, rfl, rfl⟩, trivial⟩
  exact key.rename hmax hi0 (fun fuel P h => program3_ode23_any hdom ht hS.hgk hS.hr hv hS.hG hS.hco hint h)
    (hnm o.base) (hnm (finalBase o.base))

end

end Madg
