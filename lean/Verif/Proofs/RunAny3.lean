/-
3D Cahn–Hilliard runs with rk3ssp in any arithmetic.
-/
import Verif.Proofs.RunAny
import Verif.Proofs.RoundRK
import Verif.Proofs.ProgramRestart

set_option linter.unusedSectionVars false

namespace Madg
open Spec

section
variable {A K C : Type} [DecidableEq A] [Arith K]
variable {sz : A → Int} {N : Int} {scratch : A → Prop} {P : C → Prop} {loc : C → Int}
  {F : K → (C → K) → C → K} {rhs : A → A → K → Host A K} {I : Mem A K → Prop} (hR : RhsOn I sz N scratch P loc F rhs)
  {w : RKArr A} (hw : w.Ok sz N scratch)
include hR

theorem ssprk3Step_congr (t dt : K) {u v : C → K} (h : ∀ c, P c → u c = v c) (c : C) (hc : P c) :
    ssprk3Step F t dt u c = ssprk3Step F t dt v c := by
  have e1 : ∀ c, P c → F t u c = F t v c := hR.interior t u v h
  have e2 : ∀ c, P c → F (t + 1 * dt) (fun c => u c + dt * 1 * F t u c) c = F (t + 1 * dt) (fun c => v c + dt * 1 * F t v c) c :=
    hR.interior _ _ _ fun c hc => by rw [h c hc, e1 c hc]
  unfold ssprk3Step
  rw [h c hc, e1 c hc, e2 c hc]
  rw [hR.interior (t + 1 / 2 * dt) _ (fun c => v c + dt * (1 / 4 * F t v c + 1 / 4 * F (t + 1 * dt) (fun c => v c + dt * 1 * F t v c) c))
    (fun c hc => by rw [h c hc, e1 c hc, e2 c hc]) c hc]

include hw

theorem rk3_any (t dt : K) (m : Mem A K) (hI : I m) : ∃ m', Det sz (rk3Step N rhs w t dt) m m' ∧
    (∀ c, P c → m' w.sol (loc c) = ssprk3Step F t dt (inner loc m w.sol) c) ∧
    (∀ b, b ∉ [w.sol, w.res, w.k1, w.k2, w.k3, w.stage] → ¬ scratch b → m' b = m b) ∧ I m' := by
  obtain ⟨m', d, q, hI', f⟩ := rk3_onA hR hw t dt m hI
  refine ⟨m', d, fun c hc => ?_, f, hI'⟩
  have e2 : ∀ c, P c → m' w.k2 (loc c) = F (t + 1 * dt) (fun c => inner loc m w.sol c + dt * 1 * F t (inner loc m w.sol) c) c := by
    intro c hc
    rw [q.k2 c hc]
    exact hR.interior _ _ _ (fun c hc => by rw [q.k1 c hc]; rfl) c hc
  have e3 : ∀ c, P c → m' w.k3 (loc c) = F (t + 1 / 2 * dt) (fun c => inner loc m w.sol c + dt * (1 / 4 * F t (inner loc m w.sol) c +
      1 / 4 * F (t + 1 * dt) (fun c => inner loc m w.sol c + dt * 1 * F t (inner loc m w.sol) c) c)) c := by
    intro c hc
    rw [q.k3 c hc]
    exact hR.interior _ _ _ (fun c hc => by rw [q.k1 c hc, e2 c hc]; rfl) c hc
  rw [q.sol c hc, q.k1 c hc, e2 c hc, e3 c hc]
  rfl

end

section
variable {A K : Type} [DecidableEq A] [Arith K] [LT K] [DecidableLT K] [LE K] [DecidableLE K] [DecidableEq K] [Max K] [Min K] {sz : A → Int}

theorem residRecord_shape (mx r : K) : ∃ a b c, (residRecord mx r).1 = [("res_c", a), ("abs_res", b), ("rel_res", c)] := by
  unfold residRecord
  dsimp only
  split <;> exact ⟨_, _, _, rfl⟩

theorem resid_any (rt : K → K) {l : List Int} {a : A} (h : ∀ n ∈ l, InB sz a n) (mx : K) (m : Mem A K) :
    AllEnd sz (residualCalculator rt mx l a) m fun r m' => m' = m ∧
      ∃ a b c, r.1 = [("res_c", a), ("abs_res", b), ("rel_res", c)] := by
  refine AllEnd.bind (P := fun _ m' => m' = m) ?_ ?_
  · refine (allEnd_reduce _ _ _ (redIdx_run fun n hn m => ⟨m a n ^ 2, by rw [run_bind_ok (run_rd (h n hn) m)]; rfl⟩) m).bind ?_
    rintro x m1 rfl
    exact AllEnd.ret rfl
  · rintro x m1 rfl
    exact AllEnd.ret ⟨rfl, residRecord_shape mx x⟩

end

section
variable {A K : Type} [DecidableEq A] [Arith K] [LinearOrder K] {sz : A → Int}

theorem solMon3_any {G : Geom3} (hG : G.Ok) (h1 : 1 ≤ G.g.nhalo) {f : A} (hs : sz f = G.g.size) (rt : K → K)
    (big tiny dx : K) (m : Mem A K) (u : Int × Int × Int → K)
    (h : ∀ c, In3 G.g.ni G.g.nj G.g.nk c → m f (G.g.at3 c.1 c.2.1 c.2.2) = u c) :
    AllEnd sz (G.solMonitor rt big tiny dx f) m fun v m' => m' = m ∧
      Range3 big tiny G.g.ni G.g.nj G.g.nk u v.1 v.2.1 := by
  have hr : ∀ n ∈ G.interior, (Prog.rd f (G.g.at3 (G.g.getI n) (G.g.getJ n) (G.g.getK n)) : Prog A K K).run sz m = .ok (m f n, m) := by
    intro n hn
    obtain ⟨i, j, k, hi, rfl⟩ := hG.mem_int.1 hn
    have hp := hi.pad hG.ok
    rw [Grid3.getI_at3 hp, Grid3.getJ_at3 hp, Grid3.getK_at3 hp]
    exact run_rd (hG.int_inB hs hn) m
  have hset : ∀ s : K, {x | x = s ∨ x ∈ G.interior.map (m f)} =
      insert s {x | ∃ c, In3 G.g.ni G.g.nj G.g.nk c ∧ u c = x} := by
    intro s
    ext x
    simp only [Set.mem_ofPred_eq, Set.mem_insert_iff, List.mem_map]
    refine or_congr_right ⟨?_, ?_⟩
    · rintro ⟨n, hn, rfl⟩
      obtain ⟨i, j, k, hi, rfl⟩ := hG.mem_int.1 hn
      exact ⟨(i, j, k), hi, (h (i, j, k) hi).symm⟩
    · rintro ⟨⟨i, j, k⟩, hi, rfl⟩
      exact ⟨_, hG.mem_int.2 ⟨i, j, k, hi, rfl⟩, h (i, j, k) hi⟩
  unfold Geom3.solMonitor
  refine (CDet.redIdx min_assoc min_comm _ _ (m f) big m hr).allEnd ?_
  refine (CDet.redIdx max_assoc max_comm _ _ (m f) tiny m hr).allEnd ?_
  refine (allEnd_reduce _ _ _ (redIdx_run fun n hn m => ?_) m).bind ?_
  · obtain ⟨i, j, k, h, rfl⟩ := hG.mem_int.1 hn
    exact gradCell3_runs hG.ok h1 hs rt dx h m
  · rintro x m1 rfl
    refine AllEnd.ret ⟨rfl, ?_, ?_⟩
    · rw [← hset]; exact foldl_min_least _ _
    · rw [← hset]; exact foldl_max_greatest _ _

end

/-! ### The program -/

section
variable {A K : Type} [DecidableEq A] [Arith K] [LT K] [DecidableLT K] [LE K] [DecidableLE K] [DecidableEq K] [Max K] [Min K] [Pow K K] {sz : A → Int} {E : Env K} {o : RunOpts K}
  {file : Option VtsFile} {w : ProgArr A} {dom : FileDomain K} (hdom : o.domain E file = .ok dom) {ti : TimeOpts K}
  (ht : (match file with | some f => setInitialTimeStep E.io f o.timeOpts | none => .ok o.timeOpts) = .ok ti)
  (heq : o.sel.equation = "cahn-hilliard") (hcfl : ti.useCfl = false) (hlf : o.logFreq ≠ 0) (hms : 0 < o.maxSteps)
  (hmax : 0 < ti.maxSteps) (hi0 : 0 ≤ ti.initialStep) (hrt : ti.relTol = 0) (hat : ti.absTol = 0)

theorem program3_rk3_any {bx bY bz : BCName} (hdom : o.domain E file = .ok dom)
    (ht : (match file with | some f => setInitialTimeStep E.io f o.timeOpts | none => .ok o.timeOpts) = .ok ti)
    (hgk : geomFactory o.sel = .ok (.cart3 bx bY bz))
    (hr : rhsFactory o.sel (.cart3 bx bY bz) = .ok .ch3) (hv : o.variant = 0 ∨ o.variant = 1 ∨ o.variant = 2)
    {G : Geom3} (hG : mkGeom3 ⟨dom.nx, dom.ny, dom.nz, 2⟩ bx.toBC bY.toBC bz.toBC = .ok G) {m mc : Mem A K}
    (hco : Det sz ((⟨dom.nx, dom.ny, dom.nz, 2⟩ : Grid3).fillCoords dom.box w.co) m mc) (hi : o.sel.integrator = "rk3ssp")
    {fuel : Nat} {P : RunResult K → Mem A K → Prop}
    (hrun : AllEnd sz ((sim3 E G (dom.box.dx dom.nx) w o.maxSteps
      (rk3Do (⟨dom.nx, dom.ny, dom.nz, 2⟩ : Grid3).size
        (fun s r _ => G.evalRHS o.variant o.par (dom.box.dx dom.nx) ⟨s, r, w.l1, w.l2, w.l3, w.l4⟩) w.rk) keepDT).run ti
      o.logFreq o.saveEvery o.base (icOf E o file G.interior (.d3 ⟨dom.nx, dom.ny, dom.nz, 2⟩ w.rk.sol) w.rk.sol) () fuel)
      mc P) : AllEnd sz (program E o file w fuel) m P := by
  have hts := timeSetup_ok (E := E) ht (by rw [hi]; decide)
  rw [hi] at hts
  unfold program
  refine (CDet.ofExcept hdom m).allEnd ?_
  rw [hgk]
  refine (CDet.ret _ _).allEnd ?_
  refine (CDet.ofExcept hG m).allEnd ((CDet.ofHost hco).allEnd ?_)
  rw [hr]
  refine (CDet.ret _ _).allEnd ?_
  rw [if_neg (by simp), if_neg (by simp)]
  refine (CDet.ofExcept (show ctorCH3 o.variant = .ok () by unfold ctorCH3; rw [if_pos (by omega)]) mc).allEnd ?_
  refine (CDet.ofExcept hts mc).allEnd ?_
  dsimp only
  rw [if_pos rfl]
  exact hrun

variable {bx bY bz : BCType}
  (hbx : (o.sel.bcx, bx) ∈ [("periodic", BCType.periodic), ("neumann", .neumann), ("dirichlet", .dirichlet)])
  (hby : (o.sel.bcy, bY) ∈ [("periodic", BCType.periodic), ("neumann", .neumann), ("dirichlet", .dirichlet)])
  (hbz : (o.sel.bcz, bz) ∈ [("periodic", BCType.periodic), ("neumann", .neumann), ("dirichlet", .dirichlet)])
  (hdim : o.sel.dimension = 3) (hv : o.variant = 0 ∨ o.variant = 1 ∨ o.variant = 2)
  (hn : 2 ≤ dom.nx ∧ 2 ≤ dom.ny ∧ 2 ≤ dom.nz) (hw : Arrays3 sz w dom.nx dom.ny dom.nz)
  (hbig : ti.maxSteps < 10 ^ 17 ∧ ti.initialStep + 1 < 10 ^ 17) {u0 : Int × Int × Int → K}
  (hic : ∀ (G : Geom3), G.Ok → G.g = ⟨dom.nx, dom.ny, dom.nz, 2⟩ → ∀ m : Mem A K, ∃ m1,
    CDet sz (icOf E o file G.interior (.d3 ⟨dom.nx, dom.ny, dom.nz, 2⟩ w.rk.sol) w.rk.sol) m () m1 ∧
      (∀ c, In3 dom.nx dom.ny dom.nz c → m1 w.rk.sol (G.g.at3 c.1 c.2.1 c.2.2) = u0 c) ∧ ∀ b, b ≠ w.rk.sol → m1 b = m b)
include hdom ht heq hcfl hlf hms hmax hi0 hrt hat hbx hby hbz hdim hv hn hw hbig hic

theorem run3_raw (hint : o.sel.integrator = "rk3ssp") {t d p : Nat → K} (hm : Marching ti.tfinal ti.t0 ti.dt0 t d p)
    (hp : ∀ k, p (k + 1) = d k) {u : Nat → Int × Int × Int → K}
    (hu : u = iterates (ssprk3Step (chFieldA o.variant o.par (dom.box.dx dom.nx) bx bY bz dom.nx dom.ny dom.nz)) t d u0)
    {Q : Nat → K → K → Prop} (hQ : ∀ (G : Geom3), G.Ok → G.g = ⟨dom.nx, dom.ny, dom.nz, 2⟩ → sz w.rk.sol = G.g.size → ∀ (k : Nat) (m : Mem A K),
      (∀ c, In3 dom.nx dom.ny dom.nz c → m w.rk.sol (G.g.at3 c.1 c.2.1 c.2.2) = u (k + 1) c) →
      AllEnd sz (G.solMonitor E.rt E.big E.tiny (dom.box.dx dom.nx) w.rk.sol) m fun v m' => m' = m ∧ Q k v.1 v.2.1) (m : Mem A K) :
    RunsAny sz (program E o file w) m ti o.logFreq.natAbs o.saveEvery.natAbs t d p
      Q
      (stepName o.base (max (Nat.log 10 o.maxSteps + 1) 4)) (stepName (finalBase o.base) (max (Nat.log 10 o.maxSteps + 1) 4))
      (fun k => vts3 E.io dom.xbeg dom.ybeg dom.zbeg (dom.box.dx dom.nx) dom.nx dom.ny dom.nz (u (k + 1))) := by
  obtain ⟨nx, ex, rfl⟩ := parseBC_name hbx
  obtain ⟨ny, ey, rfl⟩ := parseBC_name hby
  obtain ⟨nz, ez, rfl⟩ := parseBC_name hbz
  have hgk : geomFactory o.sel = .ok (.cart3 nx ny nz) := by
    unfold geomFactory
    rw [ex, ey, ez, hdim]; rfl
  have hr : rhsFactory o.sel (.cart3 nx ny nz) = .ok .ch3 := by
    unfold rhsFactory
    rw [if_pos heq, if_neg (by omega), if_pos hdim]
  have hgo : (⟨dom.nx, dom.ny, dom.nz, 2⟩ : Grid3).Ok :=
    ⟨by dsimp only; omega, by dsimp only; omega, by dsimp only; omega, by dsimp only; omega⟩
  obtain ⟨G, hG⟩ : ∃ G, mkGeom3 ⟨dom.nx, dom.ny, dom.nz, 2⟩ nx.toBC ny.toBC nz.toBC = .ok G := ⟨_, mkGeom3_ok hgo nx.toBC ny.toBC nz.toBC⟩
  obtain ⟨hGo, hGg, -⟩ := Geom3.ok_of_mk hgo hG
  obtain ⟨hd, hc, hvt⟩ := hw
  have hsize : (⟨dom.nx, dom.ny, dom.nz, 2⟩ : Grid3).size = (dom.nx + 4) * (dom.ny + 4) * (dom.nz + 4) := rfl
  have hvsize : (⟨dom.nx, dom.ny, dom.nz, 2⟩ : Grid3).vert.size = (dom.nx + 5) * (dom.ny + 5) * (dom.nz + 5) := by
    simp only [Grid3.size, Grid3.vert]; ring
  have hco : w.co.Ok sz ⟨dom.nx, dom.ny, dom.nz, 2⟩ :=
    ⟨hd.sublist (by
        have : [w.co.x, w.co.y, w.co.z, w.co.xv, w.co.yv, w.co.zv] ++ [w.rk.sol, w.rk.res, w.rk.k1, w.rk.k2, w.rk.k3,
          w.rk.k4, w.rk.stage, w.l1, w.l2, w.l3, w.l4] = [w.co.x, w.co.y, w.co.z, w.co.xv, w.co.yv, w.co.zv, w.rk.sol,
          w.rk.res, w.rk.k1, w.rk.k2, w.rk.k3, w.rk.k4, w.rk.stage, w.l1, w.l2, w.l3, w.l4] := rfl
        rw [← this]
        exact List.sublist_append_left _ _),
      fun a ha => by
        rw [hsize]
        exact hc a (List.mem_append_left [w.rk.sol, w.rk.res, w.rk.k1, w.rk.k2, w.rk.k3, w.rk.k4, w.rk.stage, w.l1, w.l2,
          w.l3, w.l4] ha),
      fun a ha => by rw [hvsize]; exact hvt a ha⟩
  obtain ⟨mc, c1, c2, -, c4⟩ := coords3_det hco dom.box m
  have hd2 : ([w.co.x, w.co.y, w.co.z, w.co.xv, w.co.yv, w.co.zv] ++ [w.rk.sol, w.rk.res, w.rk.k1, w.rk.k2, w.rk.k3,
    w.rk.k4, w.rk.stage, w.l1, w.l2, w.l3, w.l4]).Nodup := hd
  obtain ⟨-, d2, d3⟩ := List.nodup_append.1 hd2
  have hd4 : ([w.rk.sol, w.rk.res, w.rk.k1, w.rk.k2, w.rk.k3, w.rk.k4, w.rk.stage] ++ [w.l1, w.l2, w.l3, w.l4]).Nodup := d2
  obtain ⟨d5, d6, d7⟩ := List.nodup_append.1 hd4
  have hR := ch3_contractA (A := A) (g := ⟨dom.nx, dom.ny, dom.nz, 2⟩) hn rfl hG hv (sz := sz) d6
    (fun a ha => by
      rw [hsize]
      exact hc a (List.mem_append_right [w.co.x, w.co.y, w.co.z, w.rk.sol, w.rk.res, w.rk.k1, w.rk.k2, w.rk.k3, w.rk.k4, w.rk.stage] ha))
    o.par (dom.box.dx dom.nx)
  have hwo : w.rk.Ok sz (⟨dom.nx, dom.ny, dom.nz, 2⟩ : Grid3).size (· ∈ [w.l1, w.l2, w.l3, w.l4]) :=
    ⟨d5, fun a ha => by
        rw [hsize]
        exact hc a (List.mem_append_right [w.co.x, w.co.y, w.co.z] (List.mem_append_left [w.l1, w.l2, w.l3, w.l4] ha)),
      fun a ha h => d7 a ha a h rfl⟩
  have hvs : ∀ a ∈ [w.co.xv, w.co.yv, w.co.zv], a ∉ [w.rk.sol, w.rk.res, w.rk.k1, w.rk.k2, w.rk.k3, w.rk.k4, w.rk.stage] ∧
      ¬ a ∈ [w.l1, w.l2, w.l3, w.l4] := fun a ha =>
    ⟨fun h => d3 a (List.mem_append_right [w.co.x, w.co.y, w.co.z] ha) a (List.mem_append_left [w.l1, w.l2, w.l3, w.l4] h) rfl,
     fun h => d3 a (List.mem_append_right [w.co.x, w.co.y, w.co.z] ha) a (List.mem_append_right [w.rk.sol, w.rk.res, w.rk.k1,
      w.rk.k2, w.rk.k3, w.rk.k4, w.rk.stage] h) rfl⟩
  have hsol : sz w.rk.sol = (⟨dom.nx, dom.ny, dom.nz, 2⟩ : Grid3).size := by rw [hsize]; exact hc _ (by simp)
  have hres : sz w.rk.res = (⟨dom.nx, dom.ny, dom.nz, 2⟩ : Grid3).size := by rw [hsize]; exact hc _ (by simp)
  obtain ⟨F, hF⟩ : ∃ F, F = chFieldA o.variant o.par (dom.box.dx dom.nx) nx.toBC ny.toBC nz.toBC dom.nx dom.ny dom.nz := ⟨_, rfl⟩
  dsimp only at hR
  rw [← hF] at hR hu
  have hS : SimAny (sim3 E G (dom.box.dx dom.nx) w o.maxSteps
      (rk3Do (⟨dom.nx, dom.ny, dom.nz, 2⟩ : Grid3).size
        (fun s r _ => G.evalRHS o.variant o.par (dom.box.dx dom.nx) ⟨s, r, w.l1, w.l2, w.l3, w.l4⟩) w.rk) keepDT) sz t d p
      Q
      (fun k => vts3 E.io dom.xbeg dom.ybeg dom.zbeg (dom.box.dx dom.nx) dom.nx dom.ny dom.nz (u (k + 1)))
      (fun k _ m => (∀ c, In3 dom.nx dom.ny dom.nz c → m w.rk.sol ((⟨dom.nx, dom.ny, dom.nz, 2⟩ : Grid3).at3 c.1 c.2.1 c.2.2) = u k c) ∧
        ∀ a ∈ [w.co.xv, w.co.yv, w.co.zv], m a = mc a)
      (fun k _ m => (∀ c, In3 dom.nx dom.ny dom.nz c → m w.rk.sol ((⟨dom.nx, dom.ny, dom.nz, 2⟩ : Grid3).at3 c.1 c.2.1 c.2.2) = u (k + 1) c) ∧
        ∀ a ∈ [w.co.xv, w.co.yv, w.co.zv], m a = mc a) := by
    refine ⟨?_, ?_, ?_, ?_, ?_⟩
    · rintro k - m1 ⟨h1, h2⟩
      obtain ⟨m2, e, v, f, -⟩ := rk3_any hR hwo (t k) (d k) m1 trivial
      refine ⟨(), m2, CDet.ofHost e, fun c hc => ?_, fun a ha => ?_⟩
      · rw [v c hc, hu, iterates]
        rw [hu] at h1
        exact ssprk3Step_congr hR _ _ h1 c hc
      · obtain ⟨a1, a2⟩ := hvs a ha
        simp only [List.mem_cons, List.not_mem_nil, or_false, not_or] at a1
        rw [f a (by simp only [List.mem_cons, List.not_mem_nil, or_false, not_or]; tauto) a2, h2 a ha]
    · rintro k - m1 h1
      refine ⟨(), ?_, h1⟩
      rw [hp]
      exact CDet.ret _ _
    · rintro k - m1 mx h1
      exact resid_any E.rt (fun n hn => hGo.int_inB (by rw [hGg]; exact hres) hn) mx m1
    · rintro k - m1 h1
      exact hQ G hGo hGg (by rw [hGg]; exact hsol) k m1 (by rw [hGg]; exact h1.1)
    · rintro k - m1 st h1
      exact write3 (g := ⟨dom.nx, dom.ny, dom.nz, 2⟩) ⟨by dsimp only; omega, by dsimp only; omega, by dsimp only; omega⟩ rfl hGg hsol
        hco.sizev c2 E.io m1 (u (k + 1)) st h1.1 h1.2
  obtain ⟨m1, i1, i2, i3⟩ := hic G hGo hGg mc
  rw [hGg] at i2
  obtain ⟨N, hN⟩ := exists_end ti o.logFreq.natAbs t p (fun _ => 0) hmax
  have hb := hN.bound hmax.ne'
  choose nn hnn using fun b i => stepName3_total o.maxSteps (by exact_mod_cast hms) b i
  have hnm : ∀ b i, 0 ≤ i → i ≤ max ti.maxSteps (ti.initialStep + 1) → nn b i = stepName b (max (Nat.log 10 o.maxSteps + 1) 4) i :=
    fun b i h1 h2 => Except.ok.inj ((hnn b i).symm.trans (stepName3_eq _ (by exact_mod_cast hms) b i h1 (by omega)))
  have key := run_any (se := o.saveEvery) (base := o.base) hS hm hcfl hrt hat hlf (name := nn o.base)
    (fun k => hnn o.base _) (fname := nn (finalBase o.base)) (fun k => hnn (finalBase o.base) _) (h0 := ()) i1
    ⟨fun c hc => by rw [i2 c hc, hu]; rfl, fun a ha => i3 a fun h => (hvs a ha).1 (by rw [h]; simp)⟩
  refine ⟨N, hN, fun fuel hf => program3_rk3_any hdom ht hgk hr hv hG c1 hint ?_,
    fun fuel hf => program3_rk3_any hdom ht hgk hr hv hG c1 hint (key.2 fuel fun k h1 h2 => hN.2.2 k h1 (by omega))⟩
  refine (key.1 N fuel hN hf).mono ?_
  rintro r m' ⟨rows, h1, rfl⟩
  refine ⟨rows, h1, ?_⟩
  rw [hnm _ _ (by omega) hb, savedFiles_congr (name' := nn o.base) fun k hk => (hnm o.base _ (by omega) (by omega)).symm]

end

section
variable {A K : Type} [DecidableEq A] [Arith K] [LinearOrder K] [Pow K K] {sz : A → Int} {E : Env K} {o : RunOpts K}
  {file : Option VtsFile} {w : ProgArr A} {dom : FileDomain K} (hdom : o.domain E file = .ok dom) {ti : TimeOpts K}
  (ht : (match file with | some f => setInitialTimeStep E.io f o.timeOpts | none => .ok o.timeOpts) = .ok ti)
  (heq : o.sel.equation = "cahn-hilliard") (hcfl : ti.useCfl = false) (hlf : o.logFreq ≠ 0) (hms : 0 < o.maxSteps)
  (hmax : 0 < ti.maxSteps) (hi0 : 0 ≤ ti.initialStep) (hrt : ti.relTol = 0) (hat : ti.absTol = 0)

variable {bx bY bz : BCType}
  (hbx : (o.sel.bcx, bx) ∈ [("periodic", BCType.periodic), ("neumann", .neumann), ("dirichlet", .dirichlet)])
  (hby : (o.sel.bcy, bY) ∈ [("periodic", BCType.periodic), ("neumann", .neumann), ("dirichlet", .dirichlet)])
  (hbz : (o.sel.bcz, bz) ∈ [("periodic", BCType.periodic), ("neumann", .neumann), ("dirichlet", .dirichlet)])
  (hdim : o.sel.dimension = 3) (hv : o.variant = 0 ∨ o.variant = 1 ∨ o.variant = 2)
  (hn : 2 ≤ dom.nx ∧ 2 ≤ dom.ny ∧ 2 ≤ dom.nz) (hw : Arrays3 sz w dom.nx dom.ny dom.nz)
  (hbig : ti.maxSteps < 10 ^ 17 ∧ ti.initialStep + 1 < 10 ^ 17) {u0 : Int × Int × Int → K}
  (hic : ∀ (G : Geom3), G.Ok → G.g = ⟨dom.nx, dom.ny, dom.nz, 2⟩ → ∀ m : Mem A K, ∃ m1,
    CDet sz (icOf E o file G.interior (.d3 ⟨dom.nx, dom.ny, dom.nz, 2⟩ w.rk.sol) w.rk.sol) m () m1 ∧
      (∀ c, In3 dom.nx dom.ny dom.nz c → m1 w.rk.sol (G.g.at3 c.1 c.2.1 c.2.2) = u0 c) ∧ ∀ b, b ≠ w.rk.sol → m1 b = m b)
include hdom ht heq hcfl hlf hms hmax hi0 hrt hat hbx hby hbz hdim hv hn hw hbig hic

theorem run3_any (hint : o.sel.integrator = "rk3ssp") {t d p : Nat → K} (hm : Marching ti.tfinal ti.t0 ti.dt0 t d p)
    (hp : ∀ k, p (k + 1) = d k) {u : Nat → Int × Int × Int → K}
    (hu : u = iterates (ssprk3Step (chFieldA o.variant o.par (dom.box.dx dom.nx) bx bY bz dom.nx dom.ny dom.nz)) t d u0) (m : Mem A K) :
    RunsAny sz (program E o file w) m ti o.logFreq.natAbs o.saveEvery.natAbs t d p
      (fun k => Range3 E.big E.tiny dom.nx dom.ny dom.nz (u (k + 1)))
      (stepName o.base (max (Nat.log 10 o.maxSteps + 1) 4)) (stepName (finalBase o.base) (max (Nat.log 10 o.maxSteps + 1) 4))
      (fun k => vts3 E.io dom.xbeg dom.ybeg dom.zbeg (dom.box.dx dom.nx) dom.nx dom.ny dom.nz (u (k + 1))) :=
  run3_raw hdom ht heq hcfl hlf hms hmax hi0 hrt hat hbx hby hbz hdim hv hn hw hbig hic hint hm hp hu
    (fun G hGo hGg hs k m1 h1 => by
      have := solMon3_any (m := m1) hGo (by rw [hGg]; dsimp only; omega) hs E.rt E.big E.tiny (dom.box.dx dom.nx)
        (u (k + 1)) (by rw [hGg] at h1 ⊢; exact h1)
      rw [hGg] at this
      exact this) m

end

end Madg
