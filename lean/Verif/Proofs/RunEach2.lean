/-
Single executions of 2D Cahn–Hilliard runs in any arithmetic.
-/
import Verif.Proofs.RunEach3
import Verif.Proofs.CH2A

set_option linter.unusedSectionVars false

namespace Madg
open Spec

theorem nodup_pairs (ni nj : Int) : (pairs ni nj).Nodup := by
  rw [pairs_eq]
  exact List.Nodup.map (fun x y h => by
    obtain ⟨a, b⟩ := x
    obtain ⟨a', b'⟩ := y
    simp only [Prod.mk.injEq] at h ⊢
    tauto) (nodup_box2 _ _ _ _)

/-- A run with a step limit ends normally, having written files. -/
theorem Spec.RunsEach.ends {A K C : Type} [DecidableEq A] [Arith K] [LT K] [DecidableLT K] [LE K] [DecidableLE K] [DecidableEq K] [Max K] [Min K]
    {sz : A → Int}
    {run : Nat → Cmd A K (RunResult K)} {m : Mem A K} {ti : TimeOpts K} {lf se : Nat} {M : Method K C} {u0 : C → K}
    {R : (C → K) → K → Prop} {Q : (C → K) → K × K × K → Prop} {name fname : Int → Text} {vf : (C → K) → Status K → VtsFile} {n : Nat}
    (hn : 0 < n) (e1 : ti.maxSteps = n) (e2 : ti.initialStep = 0) (h : RunsEach sz run m ti lf se M u0 R Q name fname vf) :
    AllEnd sz (run n) m fun res _ => ∃ files rows, res = .done files rows ∧ files ≠ [] ∧ rows.length ≤ n := by
  refine (h n hn (by rw [e1, e2]; omega)).mono ?_
  rintro res m1 ⟨N, t, d, p, r, e, v, u, q1, q2, q3, q4, q5, rfl⟩
  have hb : ti.initialStep + N ≤ max ti.maxSteps (ti.initialStep + 1) := by
    let : Max K := byLess
    exact q2.bound (by rw [e1]; omega)
  refine ⟨_, _, rfl, by simp, ?_⟩
  refine le_trans (b := N) ?_ (by omega)
  unfold reportRows
  refine le_trans (List.length_map .. ).le ?_
  exact (List.length_filter_le ..).trans (List.length_range ..).le

theorem mem_pairs_in {n : Int} {c : Int × Int} : c ∈ pairs n n ↔ In2 n c := mem_pairs

theorem Geom2.Ok.int_of_in {G : Geom2} (hG : G.Ok) {c : Int × Int} (h : In2 G.g.ni c) : G.g.Int2 c.1 c.2 :=
  ⟨h.1, by rw [hG.sq]; exact h.2⟩

theorem Geom2.Ok.cells_nodup {G : Geom2} (hG : G.Ok) : ((pairs G.g.ni G.g.ni).map fun c => G.g.at2 c.1 c.2).Nodup := by
  refine List.Nodup.map_on (fun c hc d hd e => ?_) (nodup_pairs _ _)
  obtain ⟨e1, e2⟩ := Grid2.at2_inj ((hG.int_of_in (mem_pairs_in.1 hc)).pad hG.ok) ((hG.int_of_in (mem_pairs_in.1 hd)).pad hG.ok) e
  exact Prod.ext e1 e2

theorem Geom2.Ok.cells_perm {G : Geom2} (hG : G.Ok) : ((pairs G.g.ni G.g.ni).map fun c => G.g.at2 c.1 c.2).Perm G.interior := by
  refine (List.perm_ext_iff_of_nodup hG.cells_nodup hG.nodup_int).2 fun n => ?_
  rw [hG.mem_int, List.mem_map]
  constructor
  · rintro ⟨c, hc, rfl⟩
    exact ⟨_, _, hG.int_of_in (mem_pairs_in.1 hc), rfl⟩
  · rintro ⟨i, j, hi, rfl⟩
    exact ⟨(i, j), mem_pairs_in.2 ⟨hi.1, by rw [← hG.sq]; exact hi.2⟩, rfl⟩

section
variable {A K H : Type} [DecidableEq A] [Arith K] [LT K] [DecidableLT K] [LE K] [DecidableLE K] [DecidableEq K] [Max K] [Min K] {sz : A → Int}

theorem solMon2_each {G : Geom2} (hG : G.Ok) (h1 : 1 ≤ G.g.nhalo) {f : A} (hs : sz f = G.g.size) (rt : K → K)
    (big tiny dx : K) (m : Mem A K) (u : Int × Int → K) (h : ∀ c, In2 G.g.ni c → m f (G.g.at2 c.1 c.2) = u c) :
    AllEnd sz (G.solMonitor rt big tiny dx f) m fun v m' => m' = m ∧ Extremes big tiny (pairs G.g.ni G.g.ni) u v := by
  have hr : ∀ n ∈ G.interior, (Prog.rd f (G.g.at2 (G.g.getI n) (G.g.getJ n)) : Prog A K K).run sz m = .ok (m f n, m) := by
    intro n hn
    obtain ⟨i, j, hi, rfl⟩ := hG.mem_int.1 hn
    obtain ⟨e1, e2⟩ := Grid2.get_at2 (hi.pad hG.ok)
    rw [e1, e2]
    exact run_rd (hG.int_inB hs hn) m
  have hp : (G.interior.map (m f)).Perm ((pairs G.g.ni G.g.ni).map u) := by
    refine ((hG.cells_perm.map (m f)).symm).trans ?_
    rw [List.map_map]
    exact List.Perm.of_eq (List.map_congr_left fun c hc => h c (mem_pairs_in.1 hc))
  unfold Geom2.solMonitor
  rw [redIdx_eq_map]
  refine (allEnd_reduce_map _ _ _ _ (m f) m hr).bind ?_
  rintro lo m1 ⟨rfl, hlo⟩
  refine (allEnd_reduce_map _ _ _ _ (m1 f) m1 hr).bind ?_
  rintro hi m2 ⟨rfl, hhi⟩
  refine (allEnd_reduce _ _ _ (redIdx_run fun n hn m => ?_) m2).bind ?_
  · obtain ⟨i, j, h, rfl⟩ := hG.mem_int.1 hn
    exact gradCell2_runs hG.ok h1 hs rt dx h m
  · rintro x m1 rfl
    exact AllEnd.ret ⟨rfl, hlo.perm (hp.cons _), hhi.perm (hp.cons _)⟩

end

/-! ### The program -/

section
variable {A K : Type} [DecidableEq A] [Arith K] [LT K] [DecidableLT K] [LE K] [DecidableLE K] [DecidableEq K] [Max K] [Min K] {sz : A → Int} {E : Env K} {o : RunOpts K}
  {file : Option VtsFile} {w : ProgArr A} {dom : FileDomain K} {ti : TimeOpts K}

theorem ic2_none_any {G : Geom2} (hG : G.Ok) {sol : A} (hs : sz sol = G.g.size) (st : StateArr A) (m : Mem A K) :
    ∃ m1, CDet sz (icOf E o none G.interior st sol) m () m1 ∧
      (∀ c, In2 G.g.ni c → m1 sol (G.g.at2 c.1 c.2) = initialAny2 E.draw o.par.m G.g.ni c) ∧ ∀ b, b ≠ sol → m1 b = m b := by
  obtain ⟨m1, d, v, -, f⟩ := icRandom_detA G.interior hG.nodup_int sol (fun n hn => hG.int_inB hs hn) o.par.m E.draw m
  refine ⟨m1, CDet.ofHost d, fun c hc => ?_, f⟩
  have hl := hG.length_int
  have hlt : (c.1 * G.g.ni + c.2).toNat < G.interior.length := idx2_lt hl hc.1 hc.2
  have := v _ hlt
  rw [interior2_getD hG hc.1 hc.2] at this
  rw [this]
  unfold initialAny2
  rw [← hl, Int.toNat_natCast]

variable [Pow K K]

theorem program2_any {G : Geom2} (hdom : o.domain E file = .ok dom)
    (ht : (match file with | some f => setInitialTimeStep E.io f o.timeOpts | none => .ok o.timeOpts) = .ok ti)
    (hgk : geomFactory o.sel = .ok .cart2) (hr : rhsFactory o.sel .cart2 = .ok .ch2) (hG : mkGeom2 dom.nx 2 = .ok G) {m mc : Mem A K}
    (hco : Det sz ((⟨dom.nx, dom.nx, 2⟩ : Grid2).fillCoords dom.box w.co) m mc) {fuel : Nat} {P : RunResult K → Mem A K → Prop} :
    (o.sel.integrator = "rk3ssp" → AllEnd sz ((sim2 E G (dom.box.dx dom.nx) w o.maxSteps
      (rk3Do (⟨dom.nx, dom.nx, 2⟩ : Grid2).size
        (fun s r _ => G.evalRHS o.par (dom.box.dx dom.nx) ⟨s, r, w.l1, w.l2, w.l3, w.l4⟩) w.rk) keepDT).run ti
      o.logFreq o.saveEvery o.base (icOf E o file G.interior (.d2 ⟨dom.nx, dom.nx, 2⟩ w.rk.sol) w.rk.sol) () fuel) mc P →
      AllEnd sz (program E o file w fuel) m P) ∧
    (o.sel.integrator = "ode23" → AllEnd sz ((sim2 E G (dom.box.dx dom.nx) w o.maxSteps
      (ode23Do (⟨dom.nx, dom.nx, 2⟩ : Grid2).size
        (fun s r _ => G.evalRHS o.par (dom.box.dx dom.nx) ⟨s, r, w.l1, w.l2, w.l3, w.l4⟩) w.rk) ode23Next).run ti
      o.logFreq o.saveEvery o.base (icOf E o file G.interior (.d2 ⟨dom.nx, dom.nx, 2⟩ w.rk.sol) w.rk.sol)
      (ode23Init, PID.new o.errTol o.minStep o.maxStep) fuel) mc P → AllEnd sz (program E o file w fuel) m P) := by
  constructor
  all_goals
    intro hi hrun
    have hts := timeSetup_ok (E := E) ht (by rw [hi]; decide)
    rw [hi] at hts
    unfold program
    refine (CDet.ofExcept hdom m).allEnd ?_
    rw [hgk]
    refine (CDet.ret _ _).allEnd ?_
    refine (CDet.ofExcept hG m).allEnd ((CDet.ofHost hco).allEnd ?_)
    rw [hr]
    refine (CDet.ret _ _).allEnd ?_
    rw [if_neg (by simp)]
    refine (CDet.ofExcept hts mc).allEnd ?_
    dsimp only
  · rw [if_pos rfl]
    exact hrun
  · rw [if_neg (by decide), if_pos rfl]
    exact hrun

theorem view2_each {n : Int} {b : Box K} (hn : 2 ≤ n) {G : Geom2} (hGo : G.Ok) (hGg : G.g = ⟨n, n, 2⟩)
    (hsol : sz w.rk.sol = G.g.size) (hres : sz w.rk.res = G.g.size)
    (hsv : ∀ a ∈ [w.co.xv, w.co.yv], sz a = G.g.vert.size) {mc : Mem A K}
    (hmc : ∀ i j, G.g.vert.Pad i j → mc w.co.xv (G.g.vert.at2 i j) = b.xbeg + b.dx n * (i : K) ∧
      mc w.co.yv (G.g.vert.at2 i j) = b.ybeg + b.dx n * (j : K))
    {H : Type} (doStep : H → K → K → Cmd A K H) (nextDT : H → K → Cmd A K (H × K)) {ms : Int} {dx : K} :
    ViewEach (sim2 E G dx w ms doStep nextDT) sz (In2 n) (fun c => G.g.at2 c.1 c.2) w.rk.sol w.rk.res
      (fun m => ∀ a ∈ [w.co.xv, w.co.yv], m a = mc a) (Rms E.rt (pairs n n)) (Extremes E.big E.tiny (pairs n n))
      (vts2 E.io b.xbeg b.ybeg (b.dx n) n) where
  resid m1 mx x hx := by
    have e1 : G.g.ni = n := by rw [hGg]
    have := resid_each (sz := sz) E.rt (l := G.interior) (a := w.rk.res) (fun n hn => hGo.int_inB hres hn)
      hGo.cells_perm mx m1 (x := x) (fun c hc => by rw [mem_pairs_in, e1] at hc; exact hx c hc)
    rw [e1] at this
    exact this
  mon m1 u hu := by
    have e1 : G.g.ni = n := by rw [hGg]
    have := solMon2_each (sz := sz) hGo (by rw [hGg]; dsimp only; omega) (f := w.rk.sol) hsol E.rt E.big E.tiny dx m1 u
      (by rw [e1]; exact hu)
    rw [e1] at this
    exact this
  write m1 u st h hk := by
    have e1 : G.g.ni = n := by rw [hGg]
    have e2 : G.g.nj = n := by rw [hGg]
    have e3 : G.g.nhalo = 2 := by rw [hGg]
    refine CDet.ofProg ?_
    rw [vtkWrite2_run E.io hGo.sq (by omega) hsol hsv st m1]
    have e : file2 E.io G.g w.co.xv w.co.yv w.rk.sol st m1 = vts2 E.io b.xbeg b.ybeg (b.dx n) n u st := by
      unfold file2 vts2 cellsText pointsText
      rw [e1]
      congr 1
      · rw [pairs_eq, spaced_flatMap, List.flatMap_map, List.flatMap_map]
        congr 2
        refine List.flatMap_congr fun x hx => ?_
        rw [mem_box2] at hx
        rw [h (x.2, x.1) ⟨hx.2, hx.1⟩]
      · rw [pairs_eq, spaced_triples, List.flatMap_map]
        congr 2
        refine List.flatMap_congr fun x hx => ?_
        rw [mem_box2] at hx
        obtain ⟨a1, a2⟩ := hmc x.2 x.1 ((Grid2.vert_pad hGo.sq).2 ⟨by omega, by omega⟩)
        rw [hk _ (by simp), hk w.co.yv (by simp), a1, a2]
    rw [e]

variable (hdom : o.domain E file = .ok dom)
  (ht : (match file with | some f => setInitialTimeStep E.io f o.timeOpts | none => .ok o.timeOpts) = .ok ti)
  (heq : o.sel.equation = "cahn-hilliard") (hcfl : ti.useCfl = false) (hlf : o.logFreq ≠ 0) (hms : 0 < o.maxSteps)
  (hmax : 0 < ti.maxSteps) (hi0 : 0 ≤ ti.initialStep)
  (hbx : o.sel.bcx ∈ ["periodic", "neumann", "dirichlet"]) (hby : o.sel.bcy ∈ ["periodic", "neumann", "dirichlet"])
  (hbz : o.sel.bcz ∈ ["periodic", "neumann", "dirichlet"])
  (hdim : o.sel.dimension = 2) (hn : 2 ≤ dom.nx) (hw : Arrays2 sz w dom.nx)
  (hbig : ti.maxSteps < 10 ^ 6 ∧ ti.initialStep + 1 < 10 ^ 6) {u0 : Int × Int → K}
  (hic : ∀ (G : Geom2), G.Ok → G.g = ⟨dom.nx, dom.nx, 2⟩ → ∀ m : Mem A K, ∃ m1,
    CDet sz (icOf E o file G.interior (.d2 ⟨dom.nx, dom.nx, 2⟩ w.rk.sol) w.rk.sol) m () m1 ∧
      (∀ c, In2 dom.nx c → m1 w.rk.sol (G.g.at2 c.1 c.2) = u0 c) ∧ ∀ b, b ≠ w.rk.sol → m1 b = m b)

/-- What the set-up of a 2D Cahn–Hilliard run establishes. -/
structure Setup2 (sz : A → Int) (E : Env K) (o : RunOpts K) (w : ProgArr A) (dom : FileDomain K) (F : (Int × Int → K) → Int × Int → K)
    (m mc : Mem A K) (G : Geom2) : Prop where
  hgk : geomFactory o.sel = .ok .cart2
  hr : rhsFactory o.sel .cart2 = .ok .ch2
  hG : mkGeom2 dom.nx 2 = .ok G
  hGo : G.Ok
  hGg : G.g = ⟨dom.nx, dom.nx, 2⟩
  hco : Det sz ((⟨dom.nx, dom.nx, 2⟩ : Grid2).fillCoords dom.box w.co) m mc
  frame : ∀ b, b ∉ [w.co.x, w.co.y, w.co.xv, w.co.yv] → mc b = m b
  hR : RhsOn (fun _ => True) sz (⟨dom.nx, dom.nx, 2⟩ : Grid2).size (· ∈ [w.l1, w.l2, w.l3, w.l4]) (In2 dom.nx)
    (fun c => G.g.at2 c.1 c.2) (fun _ => F)
    (fun s r _ => G.evalRHS o.par (dom.box.dx dom.nx) ⟨s, r, w.l1, w.l2, w.l3, w.l4⟩)
  hwo : w.rk.Ok sz (⟨dom.nx, dom.nx, 2⟩ : Grid2).size (· ∈ [w.l1, w.l2, w.l3, w.l4])
  hvs : ∀ a ∈ [w.co.xv, w.co.yv], a ∉ [w.rk.sol, w.rk.res, w.rk.k1, w.rk.k2, w.rk.k3, w.rk.k4, w.rk.stage] ∧
    ¬ a ∈ [w.l1, w.l2, w.l3, w.l4]
  hvk : ∀ a ∈ [w.rk.k1, w.rk.k2, w.rk.k3, w.rk.k4], a ∉ [w.co.x, w.co.y, w.co.xv, w.co.yv] ∧ a ≠ w.rk.sol
  view : ∀ {H : Type} (doStep : H → K → K → Cmd A K H) (nextDT : H → K → Cmd A K (H × K)),
    ViewEach (sim2 E G (dom.box.dx dom.nx) w o.maxSteps doStep nextDT) sz (In2 dom.nx)
      (fun c => G.g.at2 c.1 c.2) w.rk.sol w.rk.res
      (fun m => ∀ a ∈ [w.co.xv, w.co.yv], m a = mc a) (Rms E.rt (pairs dom.nx dom.nx))
      (Extremes E.big E.tiny (pairs dom.nx dom.nx)) (vts2 E.io dom.xbeg dom.ybeg (dom.box.dx dom.nx) dom.nx)

include heq hbx hby hbz hdim hn hw in
theorem setupEach2 (m : Mem A K) : ∃ (mc : Mem A K) (G : Geom2),
    Setup2 sz E o w dom (chFieldA2 o.par (dom.box.dx dom.nx) dom.nx 0) m mc G := by
  have pb : ∀ s ∈ ["periodic", "neumann", "dirichlet"], ∃ n, parseBC s = .ok n := by
    intro s hs
    simp only [List.mem_cons, List.not_mem_nil, or_false] at hs
    rcases hs with rfl | rfl | rfl <;> exact ⟨_, rfl⟩
  obtain ⟨nx, ex⟩ := pb _ hbx
  obtain ⟨ny, ey⟩ := pb _ hby
  obtain ⟨nz, ez⟩ := pb _ hbz
  have hgk : geomFactory o.sel = .ok .cart2 := by
    unfold geomFactory
    rw [ex, ey, ez, hdim]; rfl
  have hr : rhsFactory o.sel .cart2 = .ok .ch2 := by
    unfold rhsFactory
    rw [if_pos heq, if_pos hdim]
  obtain ⟨G, hG, hGo, hGg⟩ := mkGeom2_ok (n := dom.nx) (nhalo := 2) (by omega) (by omega)
  obtain ⟨hd, hc, hvt⟩ := hw
  have hsize : (⟨dom.nx, dom.nx, 2⟩ : Grid2).size = (dom.nx + 4) * (dom.nx + 4) := rfl
  have hvsize : (⟨dom.nx, dom.nx, 2⟩ : Grid2).vert.size = (dom.nx + 5) * (dom.nx + 5) := by
    simp only [Grid2.size, Grid2.vert]; ring
  have hd2 : ([w.co.x, w.co.y, w.co.xv, w.co.yv] ++ [w.rk.sol, w.rk.res, w.rk.k1, w.rk.k2, w.rk.k3,
    w.rk.k4, w.rk.stage, w.l1, w.l2, w.l3, w.l4]).Nodup := hd
  obtain ⟨d1, d2, d3⟩ := List.nodup_append.1 hd2
  have hd4 : ([w.rk.sol, w.rk.res, w.rk.k1, w.rk.k2, w.rk.k3, w.rk.k4, w.rk.stage] ++ [w.l1, w.l2, w.l3, w.l4]).Nodup := d2
  obtain ⟨d5, d6, d7⟩ := List.nodup_append.1 hd4
  have hsv : ∀ a ∈ [w.co.xv, w.co.yv], sz a = (⟨dom.nx, dom.nx, 2⟩ : Grid2).vert.size := fun a ha => by
    rw [hvsize]; exact hvt a ha
  obtain ⟨mc, c1, c2, -, c4⟩ := coords2_det (g := ⟨dom.nx, dom.nx, 2⟩) rfl d1 (fun a ha => by
    rw [hsize]
    exact hc a (List.mem_append_left [w.rk.sol, w.rk.res, w.rk.k1, w.rk.k2, w.rk.k3, w.rk.k4, w.rk.stage, w.l1, w.l2,
      w.l3, w.l4] ha)) hsv dom.box m
  have hR := ch2_contractA (A := A) (K := K) hn hG (sz := sz) d6
    (fun a ha => (hc a (List.mem_append_right [w.co.x, w.co.y, w.rk.sol, w.rk.res, w.rk.k1, w.rk.k2, w.rk.k3, w.rk.k4, w.rk.stage] ha) :
      sz a = (dom.nx + 4) * (dom.nx + 4)))
    o.par (dom.box.dx dom.nx)
  have hwo : w.rk.Ok sz (⟨dom.nx, dom.nx, 2⟩ : Grid2).size (· ∈ [w.l1, w.l2, w.l3, w.l4]) :=
    ⟨d5, fun a ha => by
        rw [hsize]
        exact hc a (List.mem_append_right [w.co.x, w.co.y] (List.mem_append_left [w.l1, w.l2, w.l3, w.l4] ha)),
      fun a ha h => d7 a ha a h rfl⟩
  have hvs : ∀ a ∈ [w.co.xv, w.co.yv], a ∉ [w.rk.sol, w.rk.res, w.rk.k1, w.rk.k2, w.rk.k3, w.rk.k4, w.rk.stage] ∧
      ¬ a ∈ [w.l1, w.l2, w.l3, w.l4] := fun a ha =>
    ⟨fun h => d3 a (List.mem_append_right [w.co.x, w.co.y] ha) a (List.mem_append_left [w.l1, w.l2, w.l3, w.l4] h) rfl,
     fun h => d3 a (List.mem_append_right [w.co.x, w.co.y] ha) a (List.mem_append_right [w.rk.sol, w.rk.res, w.rk.k1,
      w.rk.k2, w.rk.k3, w.rk.k4, w.rk.stage] h) rfl⟩
  have hvk : ∀ a ∈ [w.rk.k1, w.rk.k2, w.rk.k3, w.rk.k4], a ∉ [w.co.x, w.co.y, w.co.xv, w.co.yv] ∧ a ≠ w.rk.sol := by
    intro a ha
    have ha' : a ∈ [w.rk.sol, w.rk.res, w.rk.k1, w.rk.k2, w.rk.k3, w.rk.k4, w.rk.stage, w.l1, w.l2, w.l3, w.l4] :=
      List.mem_append_right [w.rk.sol, w.rk.res] (List.mem_append_left [w.rk.stage, w.l1, w.l2, w.l3, w.l4] ha)
    refine ⟨fun h => d3 a h a ha' rfl, ?_⟩
    rintro rfl
    exact (List.nodup_cons.1 d5).1 (List.mem_append_right [w.rk.res] (List.mem_append_left [w.rk.stage] ha))
  have hsol : sz w.rk.sol = G.g.size := by rw [hGg, hsize]; exact hc _ (by simp)
  have hres : sz w.rk.res = G.g.size := by rw [hGg, hsize]; exact hc _ (by simp)
  refine ⟨mc, G, hgk, hr, hG, hGo, hGg, c1, c4, hR, hwo, hvs, hvk, fun doStep nextDT => ?_⟩
  have hsv' : ∀ a ∈ [w.co.xv, w.co.yv], sz a = G.g.vert.size := by rw [hGg]; exact hsv
  refine view2_each (b := dom.box) hn hGo hGg hsol hres hsv' ?_ doStep nextDT
  rw [hGg]
  exact c2

include hms hmax hi0 hbig in
theorem names2 : ∃ nn : Text → Int → Text, (∀ b i, stepName2 b o.maxSteps i = .ok (nn b i)) ∧
    ∀ b i, 0 ≤ i → i ≤ max ti.maxSteps (ti.initialStep + 1) → nn b i = stepName b (Nat.log 10 o.maxSteps + 1) i := by
  choose nn hnn using fun b i => stepName2_total o.maxSteps (by exact_mod_cast hms) b i
  exact ⟨nn, hnn, fun b i h1 h2 => Except.ok.inj ((hnn b i).symm.trans (stepName2_eq _ (by exact_mod_cast hms) b i h1 (by omega)))⟩

include hdom ht heq hcfl hlf hms hmax hi0 hbx hby hbz hdim hn hw hbig hic

theorem each2_rk3 (hint : o.sel.integrator = "rk3ssp") (m : Mem A K) :
    RunsEach sz (program E o file w) m ti o.logFreq.natAbs o.saveEvery.natAbs
      (ssprk3Method fun _ => chFieldA2 o.par (dom.box.dx dom.nx) dom.nx 0) u0
      (Rms E.rt (pairs dom.nx dom.nx)) (Extremes E.big E.tiny (pairs dom.nx dom.nx))
      (stepName o.base (Nat.log 10 o.maxSteps + 1)) (stepName (finalBase o.base) (Nat.log 10 o.maxSteps + 1))
      (vts2 E.io dom.xbeg dom.ybeg (dom.box.dx dom.nx) dom.nx) := by
  obtain ⟨mc, G, hS⟩ := setupEach2 (sz := sz) (E := E) heq hbx hby hbz hdim hn hw m
  obtain ⟨nn, hnn, hnm⟩ := names2 (o := o) hms hmax hi0 hbig
  obtain ⟨m1, i1, i2, i3⟩ := hic G hS.hGo hS.hGg mc
  have key := run_each (se := o.saveEvery) (base := o.base) (o := ti)
    (rk3_each hS.hR hS.hwo hS.hvs (hS.view (rk3Do (⟨dom.nx, dom.nx, 2⟩ : Grid2).size
      (fun s r _ => G.evalRHS o.par (dom.box.dx dom.nx) ⟨s, r, w.l1, w.l2, w.l3, w.l4⟩) w.rk) keepDT) rfl rfl) hcfl hmax hlf (name := nn o.base)
    (fun k => hnn o.base _) (fname := nn (finalBase o.base)) (fun k => hnn (finalBase o.base) _) (h0 := ()) i1
    ⟨i2, fun a ha => i3 a fun h => (hS.hvs a ha).1 (by rw [h]; simp), trivial⟩
  exact key.rename hmax hi0 (fun fuel P h => (program2_any hdom ht hS.hgk hS.hr hS.hG hS.hco).1 hint h)
    (hnm o.base) (hnm (finalBase o.base))

theorem each2_ode23 (hint : o.sel.integrator = "ode23") (m : Mem A K)
    (hz : ∀ a ∈ [w.rk.k1, w.rk.k2, w.rk.k3, w.rk.k4], ∀ n, m a n = 0) :
    RunsEach sz (program E o file w) m ti o.logFreq.natAbs o.saveEvery.natAbs
      (bs23Method (chFieldA2 o.par (dom.box.dx dom.nx) dom.nx 0) (pairs dom.nx dom.nx)
        ((⟨dom.nx, dom.nx, 2⟩ : Grid2).size.toNat - (pairs dom.nx dom.nx).length) o.errTol o.minStep o.maxStep) u0
      (Rms E.rt (pairs dom.nx dom.nx)) (Extremes E.big E.tiny (pairs dom.nx dom.nx))
      (stepName o.base (Nat.log 10 o.maxSteps + 1)) (stepName (finalBase o.base) (Nat.log 10 o.maxSteps + 1))
      (vts2 E.io dom.xbeg dom.ybeg (dom.box.dx dom.nx) dom.nx) := by
  obtain ⟨mc, G, hS⟩ := setupEach2 (sz := sz) (E := E) heq hbx hby hbz hdim hn hw m
  obtain ⟨nn, hnn, hnm⟩ := names2 (o := o) hms hmax hi0 hbig
  obtain ⟨m1, i1, i2, i3⟩ := hic G hS.hGo hS.hGg mc
  have hnd := hS.hGo.cells_nodup
  have e1 : G.g.ni = dom.nx := by rw [hS.hGg]
  rw [e1] at hnd
  have hk : ∀ a ∈ [w.rk.k1, w.rk.k2, w.rk.k3, w.rk.k4], ∀ n, m1 a n = 0 := fun a ha n => by
    rw [i3 a (hS.hvk a ha).2, hS.frame a (hS.hvk a ha).1, hz a ha]
  have key := run_each (se := o.saveEvery) (base := o.base) (o := ti)
    (ode23_each hS.hR hS.hwo hS.hvs (cells := pairs dom.nx dom.nx) (fun c => mem_pairs_in) hnd
      (hS.view (ode23Do _ _ _) ode23Next) rfl rfl o.errTol o.minStep o.maxStep) hcfl hmax hlf (name := nn o.base)
    (fun k => hnn o.base _) (fname := nn (finalBase o.base)) (fun k => hnn (finalBase o.base) _)
    (h0 := (ode23Init, PID.new o.errTol o.minStep o.maxStep)) i1
    ⟨i2, fun a ha => i3 a fun h => (hS.hvs a ha).1 (by rw [h]; simp),
      fun n _ _ _ => ⟨hk _ (by simp) n, hk _ (by simp) n, hk _ (by simp) n, hk _ (by simp) n⟩,
      fun h => absurd h (by simp [ode23Init]), ⟨rfl, rfl, rfl, rfl, rfl⟩, trivial⟩
  exact key.rename hmax hi0 (fun fuel P h => (program2_any hdom ht hS.hgk hS.hr hS.hG hS.hco).2 hint h)
    (hnm o.base) (hnm (finalBase o.base))

end

end Madg
