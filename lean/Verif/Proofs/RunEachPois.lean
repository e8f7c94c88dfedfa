/-
Single executions of explicit runs of the Poisson problem in any arithmetic.
-/
import Verif.Proofs.RunEach2
import Verif.Spec.PoisOps
import Verif.Spec.PoisRun

set_option linter.unusedSectionVars false

namespace Madg
open Spec

section
variable {A K : Type} [DecidableEq A] [Arith K]

theorem poisson_detA {G : Geom3} (hG : G.Ok) {sz : A → Int} {w : PoisArr A} (hw : w.Ok G.g sz) (h1 : 1 ≤ G.g.nhalo)
    (hi : G.g.nhalo ≤ G.g.ni) (hj : G.g.nhalo ≤ G.g.nj) (hk : G.g.nhalo ≤ G.g.nk) (sn cs : K → K) (dx : K) (m : Mem A K) :
    ∃ m', Det sz (G.poissonRHS sn cs dx w) m m' ∧
      (∀ i j k, G.g.Int3 i j k → m' w.r (G.g.at3 i j k) =
        lapA dx (extDirichlet G.g.ni G.g.nj G.g.nk (w.exact G.g sn cs m) (fun i j k => m w.c (G.g.at3 i j k))) i j k +
          3 * sn (m w.x (G.g.at3 i j k)) * cs (m w.y (G.g.at3 i j k)) * cs (m w.z (G.g.at3 i j k))) ∧
      (∀ i j k, G.g.Pad i j k → m' w.c (G.g.at3 i j k) =
        extDirichlet G.g.ni G.g.nj G.g.nk (w.exact G.g sn cs m) (fun i j k => m w.c (G.g.at3 i j k)) i j k) ∧
      (∀ n, (∀ i j k, G.g.Int3 i j k → G.g.at3 i j k ≠ n) → m' w.r n = m w.r n) ∧
      (∀ b, b ≠ w.c → b ≠ w.r → m' b = m b) := by
  obtain ⟨m1, d1, f1⟩ := periodic_det hG hw.sc hi hj hk m
  obtain ⟨m2, d2, v2, -, f2⟩ := dirichlet_det hG hw sn cs m1
  obtain ⟨m3, d3, w3⟩ := laplacian_detA hG hw.cr hw.sc hw.sr h1 dx m2
  obtain ⟨m4, d4, w4⟩ := source_detA hG hw sn cs m3
  have ex : ∀ mm : Mem A K, (∀ b, b ≠ w.c → b ≠ w.r → mm b = m b) → w.exact G.g sn cs mm = w.exact G.g sn cs m := by
    intro mm h
    funext i j k
    simp only [PoisArr.exact]
    rw [h w.x hw.cx.1 hw.rx.1, h w.y hw.cx.2.1 hw.rx.2.1, h w.z hw.cx.2.2 hw.rx.2.2]
  have fr1 : ∀ b, b ≠ w.c → b ≠ w.r → m1 b = m b := fun b hb _ => f1.frame b hb
  have fr3 : ∀ b, b ≠ w.c → b ≠ w.r → m3 b = m b := fun b hb hr => by
    rw [w3.frame b hr, f2 b hb, f1.frame b hb]
  have vc : ∀ i j k, G.g.Pad i j k → m2 w.c (G.g.at3 i j k) =
      extDirichlet G.g.ni G.g.nj G.g.nk (w.exact G.g sn cs m) (fun i j k => m w.c (G.g.at3 i j k)) i j k := by
    intro i j k h
    rw [v2 i j k h, ex m1 fr1]
    unfold extDirichlet
    split
    · rename_i hz
      rw [f1.view i j k h]
      simp only [wrapIdx, Int.emod_eq_of_lt hz.1 hz.2]
    · rfl
  refine ⟨m4, det_append (det_append (det_append d1 d2) d3) d4, ?_, ?_, ?_, ?_⟩
  · intro i j k h
    rw [w4.view i j k h, w3.view i j k h, fr3 w.x hw.cx.1 hw.rx.1, fr3 w.y hw.cx.2.1 hw.rx.2.1, fr3 w.z hw.cx.2.2 hw.rx.2.2]
    congr 1
    refine lapA_congr fun x y z hx hy hz => ?_
    exact vc _ _ _ (pad_of_int_off1 h1 h hx hy hz)
  · intro i j k h
    rw [w4.frame w.c hw.cr, w3.frame w.c hw.cr]
    exact vc i j k h
  · intro n hn
    rw [w4.out n hn, w3.out n hn, f2 w.r hw.cr.symm, f1.frame w.r hw.cr.symm]
  · intro b hb hr
    rw [w4.frame b hr, fr3 b hb hr]

/-- The right-hand side of the Poisson problem, while the coordinate arrays are kept. -/
theorem pois_onA {G : Geom3} (hGo : G.Ok) {nx ny nz : Int} (hGg : G.g = ⟨nx, ny, nz, 2⟩) (hn : 2 ≤ nx ∧ 2 ≤ ny ∧ 2 ≤ nz)
    {sz : A → Int} {x y z : A} (hsz : ∀ a ∈ [x, y, z], sz a = (⟨nx, ny, nz, 2⟩ : Grid3).size) (sn cs : K → K) (xb yb zb dx : K) (mc : Mem A K)
    (he : ∀ i j k, (⟨nx, ny, nz, 2⟩ : Grid3).Pad i j k → mc x ((⟨nx, ny, nz, 2⟩ : Grid3).at3 i j k) = centreOps xb dx i ∧
      mc y ((⟨nx, ny, nz, 2⟩ : Grid3).at3 i j k) = centreOps yb dx j ∧ mc z ((⟨nx, ny, nz, 2⟩ : Grid3).at3 i j k) = centreOps zb dx k) :
    RhsOn (fun m : Mem A K => ∀ a ∈ [x, y, z], m a = mc a) sz (⟨nx, ny, nz, 2⟩ : Grid3).size (· ∈ [x, y, z]) (In3 nx ny nz)
      (fun c : Int × Int × Int => (⟨nx, ny, nz, 2⟩ : Grid3).at3 c.1 c.2.1 c.2.2) (fun _ => poisOps sn cs xb yb zb dx nx ny nz)
      (fun s r _ => G.poissonRHS sn cs dx ⟨s, r, x, y, z⟩) := by
  have hpad : ∀ c, In3 nx ny nz c → (⟨nx, ny, nz, 2⟩ : Grid3).Pad c.1 c.2.1 c.2.2 := by
    intro c hc; unfold In3 at hc; unfold Grid3.Pad; dsimp only; omega
  refine ⟨fun c hc => Grid3.at3_bounds (hpad c hc), ?_, ?_, ?_⟩
  · intro t u v h c hc
    have : ∀ i j k, extDirichlet nx ny nz (exactOps sn cs xb yb zb dx) (fun i j k => u (i, j, k)) i j k =
        extDirichlet nx ny nz (exactOps sn cs xb yb zb dx) (fun i j k => v (i, j, k)) i j k := by
      intro i j k
      unfold extDirichlet
      split
      · rename_i hz
        exact h _ ⟨wrapIdx_range i (by omega), wrapIdx_range j (by omega), hz⟩
      · rfl
    unfold poisOps
    simp only [this]
  · intro m m' h hI a ha
    rw [h a ha, hI a ha]
  · intro s r t m hI hne hs hr hzs hzr
    simp only [List.mem_cons, List.not_mem_nil, or_false, not_or] at hs hr
    obtain ⟨m', d, v, vs, vo, vf⟩ := poisson_detA hGo (sz := sz) (w := ⟨s, r, x, y, z⟩)
      ⟨hne, ⟨Ne.symm hs.1, Ne.symm hs.2.1, Ne.symm hs.2.2⟩, ⟨Ne.symm hr.1, Ne.symm hr.2.1, Ne.symm hr.2.2⟩, by rw [hGg]; exact hzs,
        by rw [hGg]; exact hzr, by rw [hGg]; exact hsz x (by simp), by rw [hGg]; exact hsz y (by simp), by rw [hGg]; exact hsz z (by simp)⟩
      (by rw [hGg]; dsimp only; omega) (by rw [hGg]; dsimp only; omega) (by rw [hGg]; dsimp only; omega) (by rw [hGg]; dsimp only; omega)
      sn cs dx m
    rw [hGg] at v vs vo
    have hx : m x = mc x := hI x (by simp)
    have hy : m y = mc y := hI y (by simp)
    have hz : m z = mc z := hI z (by simp)
    refine ⟨m', d, fun c hc => ?_, fun c hc => ?_, fun n hn' => Or.inl (vo n fun i j k h => hn' (i, j, k) h), fun b h1 h2 _ => vf b h1 h2,
      fun a ha => ?_⟩
    · refine (v _ _ _ hc).trans ?_
      dsimp only
      obtain ⟨e1, e2, e3⟩ := he _ _ _ (hpad c hc)
      rw [hx, hy, hz, e1, e2, e3]
      unfold poisOps
      dsimp only
      congr 1
      have e : ∀ x' y' z', (-1 ≤ x' ∧ x' ≤ 1) → (-1 ≤ y' ∧ y' ≤ 1) → (-1 ≤ z' ∧ z' ≤ 1) →
          extDirichlet nx ny nz (PoisArr.exact ⟨nx, ny, nz, 2⟩ sn cs ⟨s, r, x, y, z⟩ m)
            (fun i j k => m s ((⟨nx, ny, nz, 2⟩ : Grid3).at3 i j k)) (c.1 + x') (c.2.1 + y') (c.2.2 + z') =
          extDirichlet nx ny nz (exactOps sn cs xb yb zb dx) (fun i j k => inner (fun c : Int × Int × Int =>
            (⟨nx, ny, nz, 2⟩ : Grid3).at3 c.1 c.2.1 c.2.2) m s (i, j, k)) (c.1 + x') (c.2.1 + y') (c.2.2 + z') := by
        intro x' y' z' h1 h2 h3
        unfold extDirichlet
        split
        · rfl
        · unfold In3 at hc
          obtain ⟨e1, e2, e3⟩ := he (c.1 + x') (c.2.1 + y') (c.2.2 + z') (by unfold Grid3.Pad; dsimp only; omega)
          unfold PoisArr.exact exactOps
          dsimp only
          rw [hx, hy, hz, e1, e2, e3]
      refine (lapA_congr e).trans ?_
      rfl
    · refine (vs _ _ _ (hpad c hc)).trans ?_
      unfold In3 at hc
      unfold extDirichlet
      rw [if_pos hc.2.2, wrapIdx_of_int hc.1.1 hc.1.2, wrapIdx_of_int hc.2.1.1 hc.2.1.2]
    · rw [vf a, hI a ha]
      · rintro rfl; simp only [List.mem_cons, List.not_mem_nil, or_false] at ha; tauto
      · rintro rfl; simp only [List.mem_cons, List.not_mem_nil, or_false] at ha; tauto

end

/-! ### The program -/

section
variable {A K : Type} [DecidableEq A] [Arith K] [LT K] [DecidableLT K] [LE K] [DecidableLE K] [DecidableEq K] [Max K] [Min K] {sz : A → Int} {E : Env K} {o : RunOpts K}
  {file : Option VtsFile} {w : ProgArr A} {dom : FileDomain K} {ti : TimeOpts K}

theorem icPois_none_any {G : Geom3} (hG : G.Ok) {sol : A} (hs : sz sol = G.g.size)
    (st : StateArr A) (m : Mem A K) : ∃ m1, CDet sz (icPois E none G.interior st sol) m () m1 ∧
      (∀ c, In3 G.g.ni G.g.nj G.g.nk c → m1 sol (G.g.at3 c.1 c.2.1 c.2.2) = 0) ∧ ∀ b, b ≠ sol → m1 b = m b := by
  obtain ⟨m', d, w⟩ := interior_det (K := K) hG (sz := sz) (r := sol) (fun n => Prog.wr sol n 0) (fun _ _ _ => 0) m
    (fun i j k h => ⟨hG.int_inB hs (hG.mem_int.2 ⟨i, j, k, h, rfl⟩), ⟨rfl, rfl⟩, trivial⟩)
    (fun i j k h => Mem.set_same _ _ _ _)
  exact ⟨m', CDet.ofHost d, fun c hc => w.view _ _ _ hc, w.frame⟩

variable [Pow K K]

theorem programPois_any {G : Geom3} {b1 b2 b3 : BCName} (hdom : o.domain E file = .ok dom)
    (ht : (match file with | some f => setInitialTimeStep E.io f o.timeOpts | none => .ok o.timeOpts) = .ok ti)
    (hgk : geomFactory o.sel = .ok (.cart3 b1 b2 b3)) (hr : rhsFactory o.sel (.cart3 b1 b2 b3) = .ok .poisson3)
    (hG : mkGeom3 ⟨dom.nx, dom.ny, dom.nz, 2⟩ b1.toBC b2.toBC b3.toBC = .ok G) {m mc : Mem A K}
    (hco : Det sz ((⟨dom.nx, dom.ny, dom.nz, 2⟩ : Grid3).fillCoords dom.box w.co) m mc) {fuel : Nat} {P : RunResult K → Mem A K → Prop} :
    (o.sel.integrator = "rk3ssp" → AllEnd sz ((sim3 E G (dom.box.dx dom.nx) w o.maxSteps
      (rk3Do (⟨dom.nx, dom.ny, dom.nz, 2⟩ : Grid3).size
        (fun s r _ => G.poissonRHS E.sn E.cs (dom.box.dx dom.nx) ⟨s, r, w.co.x, w.co.y, w.co.z⟩) w.rk) keepDT).run ti
      o.logFreq o.saveEvery o.base (icPois E file G.interior (.d3 ⟨dom.nx, dom.ny, dom.nz, 2⟩ w.rk.sol) w.rk.sol) () fuel) mc P →
      AllEnd sz (program E o file w fuel) m P) ∧
    (o.sel.integrator = "ode23" → AllEnd sz ((sim3 E G (dom.box.dx dom.nx) w o.maxSteps
      (ode23Do (⟨dom.nx, dom.ny, dom.nz, 2⟩ : Grid3).size
        (fun s r _ => G.poissonRHS E.sn E.cs (dom.box.dx dom.nx) ⟨s, r, w.co.x, w.co.y, w.co.z⟩) w.rk) ode23Next).run ti
      o.logFreq o.saveEvery o.base (icPois E file G.interior (.d3 ⟨dom.nx, dom.ny, dom.nz, 2⟩ w.rk.sol) w.rk.sol)
      (ode23Init, PID.new o.errTol o.minStep o.maxStep) fuel) mc P → AllEnd sz (program E o file w fuel) m P) := by
  constructor
  all_goals
    intro hi hrun
    have hts := timeSetup_ok (E := E) ht (by rw [hi]; decide)
    rw [hi] at hts
    unfold program
    refine (CDet.ofExcept hdom m).allEnd ?_
    rw [hgk]
    refine (CDet.ret _ _).allEnd ?_
    refine (CDet.ofExcept hG m).allEnd ((CDet.ofHost hco).allEnd ?_)
    rw [hr]
    refine (CDet.ret _ _).allEnd ?_
    rw [if_pos rfl]
    refine (CDet.ofExcept hts mc).allEnd ?_
    dsimp only
  · rw [if_pos rfl]
    exact hrun
  · rw [if_neg (by decide), if_pos rfl]
    exact hrun

variable (hdom : o.domain E file = .ok dom)
  (ht : (match file with | some f => setInitialTimeStep E.io f o.timeOpts | none => .ok o.timeOpts) = .ok ti)
  (heq : o.sel.equation = "poisson") (hcfl : ti.useCfl = false) (hlf : o.logFreq ≠ 0) (hms : 0 < o.maxSteps)
  (hmax : 0 < ti.maxSteps) (hi0 : 0 ≤ ti.initialStep)
  (hbx : o.sel.bcx ∈ ["periodic", "neumann", "dirichlet"]) (hby : o.sel.bcy ∈ ["periodic", "neumann", "dirichlet"])
  (hbz : o.sel.bcz ∈ ["periodic", "neumann", "dirichlet"])
  (hdim : o.sel.dimension = 3)
  (hn : 2 ≤ dom.nx ∧ 2 ≤ dom.ny ∧ 2 ≤ dom.nz) (hw : ArraysPois sz w dom.nx dom.ny dom.nz)
  (hbig : ti.maxSteps < 10 ^ 17 ∧ ti.initialStep + 1 < 10 ^ 17) {u0 : Int × Int × Int → K}
  (hic : ∀ (G : Geom3), G.Ok → G.g = ⟨dom.nx, dom.ny, dom.nz, 2⟩ → ∀ m : Mem A K, ∃ m1,
    CDet sz (icPois E file G.interior (.d3 ⟨dom.nx, dom.ny, dom.nz, 2⟩ w.rk.sol) w.rk.sol) m () m1 ∧
      (∀ c, In3 dom.nx dom.ny dom.nz c → m1 w.rk.sol (G.g.at3 c.1 c.2.1 c.2.2) = u0 c) ∧ ∀ b, b ≠ w.rk.sol → m1 b = m b)

/-- What the set-up of a run of the Poisson problem establishes. -/
structure SetupPois (sz : A → Int) (E : Env K) (o : RunOpts K) (w : ProgArr A) (dom : FileDomain K) (F : (Int × Int × Int → K) → Int × Int × Int → K)
    (m mc : Mem A K) (nx ny nz : BCName) (G : Geom3) : Prop where
  hgk : geomFactory o.sel = .ok (.cart3 nx ny nz)
  hr : rhsFactory o.sel (.cart3 nx ny nz) = .ok .poisson3
  hG : mkGeom3 ⟨dom.nx, dom.ny, dom.nz, 2⟩ nx.toBC ny.toBC nz.toBC = .ok G
  hGo : G.Ok
  hGg : G.g = ⟨dom.nx, dom.ny, dom.nz, 2⟩
  hco : Det sz ((⟨dom.nx, dom.ny, dom.nz, 2⟩ : Grid3).fillCoords dom.box w.co) m mc
  frame : ∀ b, b ∉ [w.co.x, w.co.y, w.co.z, w.co.xv, w.co.yv, w.co.zv] → mc b = m b
  hR : RhsOn (fun m' : Mem A K => ∀ a ∈ [w.co.x, w.co.y, w.co.z], m' a = mc a) sz (⟨dom.nx, dom.ny, dom.nz, 2⟩ : Grid3).size
    (· ∈ [w.co.x, w.co.y, w.co.z]) (In3 dom.nx dom.ny dom.nz)
    (fun c => (⟨dom.nx, dom.ny, dom.nz, 2⟩ : Grid3).at3 c.1 c.2.1 c.2.2) (fun _ => F)
    (fun s r _ => G.poissonRHS E.sn E.cs (dom.box.dx dom.nx) ⟨s, r, w.co.x, w.co.y, w.co.z⟩)
  hwo : w.rk.Ok sz (⟨dom.nx, dom.ny, dom.nz, 2⟩ : Grid3).size (· ∈ [w.co.x, w.co.y, w.co.z])
  hvs : ∀ a ∈ [w.co.xv, w.co.yv, w.co.zv], a ∉ [w.rk.sol, w.rk.res, w.rk.k1, w.rk.k2, w.rk.k3, w.rk.k4, w.rk.stage] ∧
    ¬ a ∈ [w.co.x, w.co.y, w.co.z]
  hap : ∀ a ∈ [w.co.x, w.co.y, w.co.z, w.co.xv, w.co.yv, w.co.zv],
    a ∉ [w.rk.sol, w.rk.res, w.rk.k1, w.rk.k2, w.rk.k3, w.rk.k4, w.rk.stage]
  view : ∀ {H : Type} (doStep : H → K → K → Cmd A K H) (nextDT : H → K → Cmd A K (H × K)),
    ViewEach (sim3 E G (dom.box.dx dom.nx) w o.maxSteps doStep nextDT) sz (In3 dom.nx dom.ny dom.nz)
      (fun c => (⟨dom.nx, dom.ny, dom.nz, 2⟩ : Grid3).at3 c.1 c.2.1 c.2.2) w.rk.sol w.rk.res
      (fun m => ∀ a ∈ [w.co.xv, w.co.yv, w.co.zv], m a = mc a) (Rms E.rt (triples dom.nx dom.ny dom.nz))
      (Extremes E.big E.tiny (triples dom.nx dom.ny dom.nz))
      (vts3 E.io dom.xbeg dom.ybeg dom.zbeg (dom.box.dx dom.nx) dom.nx dom.ny dom.nz)

include heq hbx hby hbz hdim hn hw in
theorem setupEachPois (m : Mem A K) : ∃ (mc : Mem A K) (nx ny nz : BCName) (G : Geom3),
    SetupPois sz E o w dom (poisOps E.sn E.cs dom.xbeg dom.ybeg dom.zbeg (dom.box.dx dom.nx) dom.nx dom.ny dom.nz) m mc nx ny nz G := by
  have pb : ∀ s ∈ ["periodic", "neumann", "dirichlet"], ∃ n, parseBC s = .ok n := by
    intro s hs
    simp only [List.mem_cons, List.not_mem_nil, or_false] at hs
    rcases hs with rfl | rfl | rfl <;> exact ⟨_, rfl⟩
  obtain ⟨nx, ex⟩ := pb _ hbx
  obtain ⟨ny, ey⟩ := pb _ hby
  obtain ⟨nz, ez⟩ := pb _ hbz
  have hgk : geomFactory o.sel = .ok (.cart3 nx ny nz) := by
    unfold geomFactory
    rw [ex, ey, ez, hdim]; rfl
  have hr : rhsFactory o.sel (.cart3 nx ny nz) = .ok .poisson3 := by
    unfold rhsFactory
    rw [if_neg (by rw [heq]; decide), if_pos heq]
  have hgo : (⟨dom.nx, dom.ny, dom.nz, 2⟩ : Grid3).Ok :=
    ⟨by dsimp only; omega, by dsimp only; omega, by dsimp only; omega, by dsimp only; omega⟩
  obtain ⟨G, hG⟩ : ∃ G, mkGeom3 ⟨dom.nx, dom.ny, dom.nz, 2⟩ nx.toBC ny.toBC nz.toBC = .ok G := ⟨_, mkGeom3_ok hgo nx.toBC ny.toBC nz.toBC⟩
  obtain ⟨hGo, hGg, -⟩ := Geom3.ok_of_mk hgo hG
  obtain ⟨hd, hc, hvt⟩ := hw
  have hsize : (⟨dom.nx, dom.ny, dom.nz, 2⟩ : Grid3).size = (dom.nx + 4) * (dom.ny + 4) * (dom.nz + 4) := rfl
  have hvsize : (⟨dom.nx, dom.ny, dom.nz, 2⟩ : Grid3).vert.size = (dom.nx + 5) * (dom.ny + 5) * (dom.nz + 5) := by
    simp only [Grid3.size, Grid3.vert]; ring
  have hd2 : ([w.co.x, w.co.y, w.co.z, w.co.xv, w.co.yv, w.co.zv] ++ [w.rk.sol, w.rk.res, w.rk.k1, w.rk.k2, w.rk.k3,
    w.rk.k4, w.rk.stage]).Nodup := hd
  obtain ⟨d1, d2, d3⟩ := List.nodup_append.1 hd2
  have hco : w.co.Ok sz ⟨dom.nx, dom.ny, dom.nz, 2⟩ :=
    ⟨d1, fun a ha => by
        rw [hsize]
        exact hc a (List.mem_append_left [w.rk.sol, w.rk.res, w.rk.k1, w.rk.k2, w.rk.k3, w.rk.k4, w.rk.stage] ha),
      fun a ha => by rw [hvsize]; exact hvt a ha⟩
  obtain ⟨mc, c1, c2, c3, c4⟩ := coords3_det hco dom.box m
  have hxyz : ([w.co.x, w.co.y, w.co.z] ++ [w.co.xv, w.co.yv, w.co.zv]).Nodup := d1
  have hsol : sz w.rk.sol = (⟨dom.nx, dom.ny, dom.nz, 2⟩ : Grid3).size := by rw [hsize]; exact hc _ (by simp)
  have hres : sz w.rk.res = (⟨dom.nx, dom.ny, dom.nz, 2⟩ : Grid3).size := by rw [hsize]; exact hc _ (by simp)
  have hR := pois_onA hGo hGg hn hco.size E.sn E.cs dom.xbeg dom.ybeg dom.zbeg (dom.box.dx dom.nx) mc c3
  refine ⟨mc, nx, ny, nz, G, hgk, hr, hG, hGo, hGg, c1, c4, hR, ⟨d2, fun a ha => ?_, fun a ha hb => ?_⟩, fun a ha => ⟨fun h => ?_, fun h => ?_⟩,
    fun a ha h => d3 a ha a h rfl, fun doStep nextDT => view3_each (b := dom.box) hn hGo hGg hsol hres hco.sizev c2 doStep nextDT⟩
  · rw [hsize]; exact hc a (List.mem_append_right [w.co.x, w.co.y, w.co.z] ha)
  · exact d3 a (List.mem_append_left [w.co.xv, w.co.yv, w.co.zv] hb) a ha rfl
  · exact d3 a (List.mem_append_right [w.co.x, w.co.y, w.co.z] ha) a h rfl
  · exact (List.nodup_append.1 hxyz).2.2 a h a ha rfl

include hdom ht heq hcfl hlf hms hmax hi0 hbx hby hbz hdim hn hw hbig hic

theorem eachPois_rk3 (hint : o.sel.integrator = "rk3ssp") (m : Mem A K) :
    RunsEach sz (program E o file w) m ti o.logFreq.natAbs o.saveEvery.natAbs
      (ssprk3Method fun _ => poisOps E.sn E.cs dom.xbeg dom.ybeg dom.zbeg (dom.box.dx dom.nx) dom.nx dom.ny dom.nz) u0
      (Rms E.rt (triples dom.nx dom.ny dom.nz)) (Extremes E.big E.tiny (triples dom.nx dom.ny dom.nz))
      (stepName o.base (max (Nat.log 10 o.maxSteps + 1) 4)) (stepName (finalBase o.base) (max (Nat.log 10 o.maxSteps + 1) 4))
      (vts3 E.io dom.xbeg dom.ybeg dom.zbeg (dom.box.dx dom.nx) dom.nx dom.ny dom.nz) := by
  obtain ⟨mc, nx, ny, nz, G, hS⟩ := setupEachPois (sz := sz) (E := E) heq hbx hby hbz hdim hn hw m
  obtain ⟨nn, hnn, hnm⟩ := names3 (o := o) hms hmax hi0 hbig
  obtain ⟨m1, i1, i2, i3⟩ := hic G hS.hGo hS.hGg mc
  rw [hS.hGg] at i2
  have key := run_each (se := o.saveEvery) (base := o.base) (o := ti)
    (rk3_each hS.hR hS.hwo hS.hvs (hS.view (rk3Do (⟨dom.nx, dom.ny, dom.nz, 2⟩ : Grid3).size
      (fun s r _ => G.poissonRHS E.sn E.cs (dom.box.dx dom.nx) ⟨s, r, w.co.x, w.co.y, w.co.z⟩) w.rk) keepDT) rfl rfl) hcfl hmax hlf (name := nn o.base)
    (fun k => hnn o.base _) (fname := nn (finalBase o.base)) (fun k => hnn (finalBase o.base) _) (h0 := ()) i1
    ⟨i2, fun a ha => i3 a fun h => (hS.hvs a ha).1 (by rw [h]; simp),
      fun a ha => i3 a fun h => hS.hap a (List.mem_append_left [w.co.xv, w.co.yv, w.co.zv] ha) (by rw [h]; simp)⟩
  exact key.rename hmax hi0 (fun fuel P h => (programPois_any hdom ht hS.hgk hS.hr hS.hG hS.hco).1 hint h)
    (hnm o.base) (hnm (finalBase o.base))

theorem eachPois_ode23 (hint : o.sel.integrator = "ode23") (m : Mem A K)
    (hz : ∀ a ∈ [w.rk.k1, w.rk.k2, w.rk.k3, w.rk.k4], ∀ n, m a n = 0) :
    RunsEach sz (program E o file w) m ti o.logFreq.natAbs o.saveEvery.natAbs
      (bs23Method (poisOps E.sn E.cs dom.xbeg dom.ybeg dom.zbeg (dom.box.dx dom.nx) dom.nx dom.ny dom.nz) (triples dom.nx dom.ny dom.nz)
        ((⟨dom.nx, dom.ny, dom.nz, 2⟩ : Grid3).size.toNat - (triples dom.nx dom.ny dom.nz).length) o.errTol o.minStep o.maxStep) u0
      (Rms E.rt (triples dom.nx dom.ny dom.nz)) (Extremes E.big E.tiny (triples dom.nx dom.ny dom.nz))
      (stepName o.base (max (Nat.log 10 o.maxSteps + 1) 4)) (stepName (finalBase o.base) (max (Nat.log 10 o.maxSteps + 1) 4))
      (vts3 E.io dom.xbeg dom.ybeg dom.zbeg (dom.box.dx dom.nx) dom.nx dom.ny dom.nz) := by
  obtain ⟨mc, nx, ny, nz, G, hS⟩ := setupEachPois (sz := sz) (E := E) heq hbx hby hbz hdim hn hw m
  obtain ⟨nn, hnn, hnm⟩ := names3 (o := o) hms hmax hi0 hbig
  obtain ⟨m1, i1, i2, i3⟩ := hic G hS.hGo hS.hGg mc
  rw [hS.hGg] at i2
  have hnd := hS.hGo.cells_nodup
  rw [hS.hGg] at hnd
  have hk : ∀ a ∈ [w.rk.k1, w.rk.k2, w.rk.k3, w.rk.k4], ∀ n, m1 a n = 0 := by
    intro a ha n
    have h1 : a ≠ w.rk.sol := by
      rintro rfl
      exact (List.nodup_cons.1 hS.hwo.1).1 (List.mem_append_right [w.rk.res] (List.mem_append_left [w.rk.stage] ha))
    have h2 : a ∉ [w.co.x, w.co.y, w.co.z, w.co.xv, w.co.yv, w.co.zv] := fun h =>
      hS.hap a h (List.mem_append_right [w.rk.sol, w.rk.res] (List.mem_append_left [w.rk.stage] ha))
    rw [i3 a h1, hS.frame a h2, hz a ha]
  have key := run_each (se := o.saveEvery) (base := o.base) (o := ti)
    (ode23_each hS.hR hS.hwo hS.hvs (cells := triples dom.nx dom.ny dom.nz) (fun c => mem_triples) hnd
      (hS.view (ode23Do _ _ _) ode23Next) rfl rfl o.errTol o.minStep o.maxStep) hcfl hmax hlf (name := nn o.base)
    (fun k => hnn o.base _) (fname := nn (finalBase o.base)) (fun k => hnn (finalBase o.base) _)
    (h0 := (ode23Init, PID.new o.errTol o.minStep o.maxStep)) i1
    ⟨i2, fun a ha => i3 a fun h => (hS.hvs a ha).1 (by rw [h]; simp),
      fun n _ _ _ => ⟨hk _ (by simp) n, hk _ (by simp) n, hk _ (by simp) n, hk _ (by simp) n⟩,
      fun h => absurd h (by simp [ode23Init]), ⟨rfl, rfl, rfl, rfl, rfl⟩,
      fun a ha => i3 a fun h => hS.hap a (List.mem_append_left [w.co.xv, w.co.yv, w.co.zv] ha) (by rw [h]; simp)⟩
  exact key.rename hmax hi0 (fun fuel P h => (programPois_any hdom ht hS.hgk hS.hr hS.hG hS.hco).2 hint h)
    (hnm o.base) (hnm (finalBase o.base))

end

end Madg
