/-
Runs of the program with the multigrid integrator.
-/
import Verif.Proofs.MGProg
import Verif.Props.FAS

set_option linter.unusedSectionVars false

namespace Madg
open Spec

/-! ### Transport -/

theorem Spec.RunsAs.mono {A K : Type} [DecidableEq A] [Field K] [LinearOrder K] {sz : A → Int}
    {run run' : Nat → Cmd A K (RunResult K)} {m m0 : Mem A K} {o : TimeOpts K} {lf se : Nat} {t d p r : Nat → K}
    {Q : Nat → K × K × K → Prop} {name fname : Int → Text} {file : Nat → Status K → VtsFile}
    (h : RunsAs sz run m o lf se t d p r Q name fname file)
    (hr : ∀ fuel R m', CDet sz (run fuel) m R m' → CDet sz (run' fuel) m0 R m') :
    RunsAs sz run' m0 o lf se t d p r Q name fname file := by
  obtain ⟨N, h1, h2, h3⟩ := h
  refine ⟨N, h1, fun fuel hf => ?_, fun fuel hf => ?_⟩
  · obtain ⟨v, m', a, b⟩ := h2 fuel hf
    exact ⟨v, m', a, hr _ _ _ b⟩
  · obtain ⟨m', b⟩ := h3 fuel hf
    exact ⟨m', hr _ _ _ b⟩

theorem MG.Implements.congr {A K C : Type} [DecidableEq A] [Field K] {M : MG A K} {P : Nat → C → Prop} {loc : Nat → C → Int}
    {F : Nat → (C → K) → C → K} {H : Nat → (C → K) → Int → K} {R T : Nat → (Int → K) → Int → K} {S S' : Fas C K}
    (h : M.Implements P loc F H R T S) (hF : ∀ ℓ, ℓ < M.nlev → ∀ u c, P ℓ c → S'.F ℓ u c = S.F ℓ u c)
    (hR : S'.R = S.R) (hT : S'.T = S.T) (hdt : ∀ ℓ, ℓ < M.nlev → S'.dt ℓ = S.dt ℓ) (hx : S'.relax = S.relax) :
    M.Implements P loc F H R T S' :=
  ⟨fun ℓ hℓ u c hc => (hF ℓ hℓ u c hc).trans (h.op ℓ hℓ u c hc), by rw [hR]; exact h.restr, by rw [hT]; exact h.prol,
    fun ℓ hℓ => (hdt ℓ hℓ).trans (h.dt ℓ hℓ), by rw [hx]; exact h.relax⟩

/-! ### No step of size zero -/

theorem fixed_ne_zero {o : TimeOpts ℝ} {f : Nat} {t d p r : Nat → ℝ} (hm : Marching o.tfinal o.t0 o.dt0 t d p)
    (hp : ∀ k, p (k + 1) = d k) (h0 : 0 < o.dt0) (hT : o.tfinal ≠ o.t0 + o.dt0) (k : Nat)
    (hk : ∀ j, 1 ≤ j → j ≤ k → ¬ MustEnd o f t p r j) : d k ≠ 0 := by
  have hl : ∀ i, 1 ≤ i → i < k → t i + p i < o.tfinal := by
    intro i h1 h2
    by_contra h
    exact hk (i + 1) (by omega) (by omega) (Or.inl ⟨by simpa using h1, by simpa using not_lt.1 h⟩)
  have hd : ∀ i, i < k → d i = o.dt0 := by
    intro i
    induction i with
    | zero => intro _; exact hm.d_zero
    | succ i ih =>
      intro hi
      rw [hm.d_succ, if_neg (not_le.2 (hl (i + 1) (by omega) hi)), hp, ih (by omega)]
  cases k with
  | zero => rw [hm.d_zero]; exact h0.ne'
  | succ k =>
    rw [hm.d_succ]
    split
    · rw [sub_ne_zero]
      cases k with
      | zero => rw [hm.t_succ, hm.t_zero, hm.d_zero]; exact hT
      | succ k =>
        have := hl (k + 1) (by omega) (by omega)
        rw [hp, ← hd k (by omega)] at *
        have e : t (k + 1 + 1) = t (k + 1) + d (k + 1) := hm.t_succ _
        have e2 := hd (k + 1) (by omega)
        have e3 := hd k (by omega)
        intro h
        rw [h, e, e2] at this
        linarith
    · rw [hp, hd k (by omega)]; exact h0.ne'

section
variable {A : Type} [DecidableEq A] {sz : A → Int} {E : Env ℝ} {o : RunOpts} {w : ProgArr A}

/-! ### Any hierarchy -/

section
variable {C : Type} {M : MG A ℝ} {scratch : A → Prop} {fx : A → Option (Int → ℝ)} {P : Nat → C → Prop}
  {loc : Nat → C → Int} {F : Nat → (C → ℝ) → C → ℝ} {H : Nat → (C → ℝ) → Int → ℝ} {R T : Nat → (Int → ℝ) → Int → ℝ}
  {V W : Nat → Int → Prop} (hM : M.Ok sz scratch fx P loc F H R T V W) {S : Fas C ℝ} (hS : M.Implements P loc F H R T S)
include hM hS

theorem mg_runs {vs : List A} (hvs : ∀ a ∈ vs, ¬ scratch a ∧ ∀ ℓ ρ, a ≠ M.arr ℓ ρ) {mc : Mem A ℝ}
    {nrm : (C → ℝ) → ℝ} {Qm : (C → ℝ) → ℝ × ℝ × ℝ → Prop} {fileOf : (C → ℝ) → Status ℝ → VtsFile}
    {L : Nat} (hL : L + 1 = M.nlev) {n : Nat} (hn : 1 ≤ n) {rt : ℝ → ℝ} {tol : ℝ} {maxCycles : Int}
    (hnrm : ∀ (μ : Mem A ℝ) r, (∀ c, P 0 c → μ (M.arr 0 .dstate) (loc 0 c) = r c) → M.norm rt μ = nrm r)
    {D : Sim A ℝ (MGReport ℝ)} (hV : ViewOk D sz (P 0) (loc 0) (M.arr 0 .state) (M.arr 0 .dstate)
      (fun m => ∀ a ∈ vs, m a = mc a) nrm Qm fileOf)
    (hdo : D.doStep = mgDo M (vCycle n L) rt tol maxCycles) (hnx : D.nextDT = keepDT) {ms : Nat} (hms : 0 < ms)
    (hname : D.name = fun b i => stepName3 b ms i)
    {ti : TimeOpts ℝ} (hcfl : ti.useCfl = false) {lf se : Int} (hlf : lf ≠ 0) {base : Text}
    (hmax : 0 < ti.maxSteps) (hi0 : 0 ≤ ti.initialStep) (hbig : ti.maxSteps < 10 ^ 17 ∧ ti.initialStep + 1 < 10 ^ 17)
    {t d p : Nat → ℝ} (hm : Marching ti.tfinal ti.t0 ti.dt0 t d p)
    (hp : ∀ k, p (k + 1) = d k) (hz : M.unsteady = true → 0 < ti.dt0 ∧ ti.tfinal ≠ ti.t0 + ti.dt0) {u0 : C → ℝ} {u s : Nat → C → ℝ} {c : Nat → Nat}
    (hr : FasRun S n L tol maxCycles.toNat nrm M.unsteady (fun _ => 1 / 1000000) d u0 u s c)
    {ic : Cmd A ℝ Unit} {m m1 : Mem A ℝ} (hic : CDet sz ic m () m1)
    (h1 : ∀ c, P 0 c → m1 (M.arr 0 .state) (loc 0 c) = u0 c) (h2 : ∀ a ∈ vs, m1 a = mc a) (h3 : Holds fx m1) :
    RunsAs sz (fun fuel => D.run ti lf se base ic mgInit fuel) m ti lf.natAbs se.natAbs t d p (fun k => nrm (s k))
      (fun k => Qm (u (k + 1))) (stepName base (max (Nat.log 10 ms + 1) 4))
      (stepName (finalBase base) (max (Nat.log 10 ms + 1) 4)) (fun k => fileOf (u (k + 1))) := by
  have hSim := mg_simOk hM hS hvs hL hn hnrm hV hdo hnx (t := t) hp hr
  obtain ⟨N, e1, -, e2, e3⟩ := run_ends (se := se) (base := base) hSim hm hcfl hlf hmax hi0
    (fun b i => stepName b (max (Nat.log 10 ms + 1) 4) i)
    (fun b i => by rw [hname]; exact stepName3_total _ (by exact_mod_cast hms) b i)
    (fun b i h1 h2 => by rw [hname]; exact stepName3_eq _ (by exact_mod_cast hms) b i h1 (by omega))
    (fun k hk hu => fixed_ne_zero hm hp (hz hu).1 (hz hu).2 k hk) hic (h0 := mgInit)
    ⟨fun c hc => by rw [h1 c hc, hr.start], h2, h3, fun ℓ _ => by rw [if_pos (Or.inl rfl)]; rfl⟩
  exact ⟨N, e1, fun fuel hf => e2 fuel hf, fun fuel hf => e3 fuel hf⟩

end

/-! ### Component creation -/

section
variable {file : Option VtsFile} {fuel : Nat} {dom : FileDomain ℝ} (hdom : o.domain E file = .ok dom) {ti : TimeOpts ℝ}
  (ht : (match file with | some f => setInitialTimeStep E.io f o.timeOpts | none => .ok o.timeOpts) = .ok ti)
  {Res : RunResult ℝ} {m mc m' : Mem A ℝ}
  {bx bY bz : BCName} (hgk : geomFactory o.sel = .ok (.cart3 bx bY bz))
  {G : Geom3} (hG : mkGeom3 ⟨dom.nx, dom.ny, dom.nz, 2⟩ bx.toBC bY.toBC bz.toBC = .ok G)
  (hco : Det sz ((⟨dom.nx, dom.ny, dom.nz, 2⟩ : Grid3).fillCoords dom.box w.co) m mc)
  (hi : o.sel.integrator = "bdf1" ∨ o.sel.integrator = "steady")
include hdom ht hgk hG hco hi

theorem program3_mg (hr : rhsFactory o.sel (.cart3 bx bY bz) = .ok .ch3) (hv : o.variant = 0 ∨ o.variant = 1 ∨ o.variant = 2)
    (hrun : CDet sz (mgRun E o dom.box w bx.toBC bY.toBC bz.toBC G ti
      (icOf E o file G.interior (.d3 ⟨dom.nx, dom.ny, dom.nz, 2⟩ w.rk.sol) w.rk.sol)
      (fun Gs dx => chMG o.mg.levels.toNat Gs dx o.variant o.par w.mgWk w.mgArr o.mg.interp o.mg.cfl o.mg.relax
            o.mg.coarseRelax (decide (o.sel.integrator ≠ "steady"))) fuel) mc Res m') :
    CDet sz (program E o file w fuel) m Res m' := by
  have hts := timeSetup_ok (E := E) ht (by rcases hi with h | h <;> rw [h] <;> decide)
  unfold program
  refine (CDet.ofExcept hdom m).bind ?_
  rw [hgk]
  refine (CDet.ret _ _).bind ?_
  refine (CDet.ofExcept hG m).bind ((CDet.ofHost hco).bind ?_)
  rw [hr]
  refine (CDet.ret _ _).bind ?_
  rw [if_neg (by simp), if_neg (by simp)]
  refine (CDet.ofExcept (show ctorCH3 o.variant = .ok () by unfold ctorCH3; rw [if_pos (by omega)]) mc).bind ?_
  refine (CDet.ofExcept hts mc).bind ?_
  dsimp only
  rw [if_neg (by rcases hi with h | h <;> rw [h] <;> decide), if_neg (by rcases hi with h | h <;> rw [h] <;> decide), if_pos hi]
  exact hrun

theorem program3_poisson (hr : rhsFactory o.sel (.cart3 bx bY bz) = .ok .poisson3)
    (hrun : CDet sz (mgRun E o dom.box w bx.toBC bY.toBC bz.toBC G ti
      (icPois E file G.interior (.d3 ⟨dom.nx, dom.ny, dom.nz, 2⟩ w.rk.sol) w.rk.sol)
      (fun Gs dx => poissonMG o.mg.levels.toNat Gs dx E.sn E.cs
            (fun ℓ => ![(w.mgCo ℓ).x, (w.mgCo ℓ).y, (w.mgCo ℓ).z]) w.mgArr o.mg.interp o.mg.cfl o.mg.relax o.mg.coarseRelax
            (decide (o.sel.integrator ≠ "steady"))) fuel) mc Res m') :
    CDet sz (program E o file w fuel) m Res m' := by
  have hts := timeSetup_ok (E := E) ht (by rcases hi with h | h <;> rw [h] <;> decide)
  unfold program
  refine (CDet.ofExcept hdom m).bind ?_
  rw [hgk]
  refine (CDet.ret _ _).bind ?_
  refine (CDet.ofExcept hG m).bind ((CDet.ofHost hco).bind ?_)
  rw [hr]
  refine (CDet.ret _ _).bind ?_
  rw [if_pos rfl]
  refine (CDet.ofExcept hts mc).bind ?_
  dsimp only
  rw [if_neg (by rcases hi with h | h <;> rw [h] <;> decide), if_neg (by rcases hi with h | h <;> rw [h] <;> decide), if_pos hi]
  exact hrun

end

/-! ### Both equations -/

theorem chFas_F_congr {g : Nat → Grid3} {bx bY bz : BCType} {dx dx' : Nat → ℝ} {p : CHParams ℝ} {mode : String} {cfl rf rc : ℝ}
    {ℓ : Nat} (h : dx' ℓ = dx ℓ) (u : Int × Int × Int → ℝ) (c : Int × Int × Int) :
    (chFas g bx bY bz dx' p mode cfl rf rc).F ℓ u c = (chFas g bx bY bz dx p mode cfl rf rc).F ℓ u c := by
  unfold chFas
  dsimp only
  rw [h]

theorem chFas_dt_congr {g : Nat → Grid3} {bx bY bz : BCType} {dx dx' : Nat → ℝ} {p : CHParams ℝ} {mode : String} {cfl rf rc : ℝ}
    {ℓ : Nat} (h : dx' ℓ = dx ℓ) :
    (chFas g bx bY bz dx' p mode cfl rf rc).dt ℓ = (chFas g bx bY bz dx p mode cfl rf rc).dt ℓ := by
  unfold chFas
  dsimp only
  rw [h]

/-- Right-hand side of the Poisson problem on level `ℓ` only uses the source where the coordinates were computed. -/
theorem poisRhs_congr_e (dx : ℝ) {ni nj nk : Int} {e e' : Int → Int → Int → ℝ}
    (h : ∀ i j k, (-1 ≤ i ∧ i < ni + 1) → (-1 ≤ j ∧ j < nj + 1) → (-1 ≤ k ∧ k < nk + 1) → e i j k = e' i j k)
    (u : Int → Int → Int → ℝ) {i j k : Int} (hi : 0 ≤ i ∧ i < ni) (hj : 0 ≤ j ∧ j < nj) (hk : 0 ≤ k ∧ k < nk) :
    poisRhs dx ni nj nk e u i j k = poisRhs dx ni nj nk e' u i j k := by
  have hx : ∀ a b c, (-1 ≤ a ∧ a < ni + 1) → (-1 ≤ b ∧ b < nj + 1) → (-1 ≤ c ∧ c < nk + 1) →
      extDirichlet ni nj nk e u a b c = extDirichlet ni nj nk e' u a b c := by
    intro a b c h1 h2 h3
    unfold extDirichlet
    split
    · rfl
    · exact h a b c h1 h2 h3
  unfold poisRhs lap3 d2x d2y d2z
  rw [h i j k (by omega) (by omega) (by omega)]
  congr 2
  repeat rw [hx _ _ _ (by omega) (by omega) (by omega)]

section
variable {file : Option VtsFile} {dom : FileDomain ℝ} (hdom : o.domain E file = .ok dom) {ti : TimeOpts ℝ}
  (ht : (match file with | some f => setInitialTimeStep E.io f o.timeOpts | none => .ok o.timeOpts) = .ok ti)
  (hcfl : ti.useCfl = false) (hlf : o.logFreq ≠ 0) (hms : 0 < o.maxSteps)
  (hmax : 0 < ti.maxSteps) (hi0 : 0 ≤ ti.initialStep) {bx bY bz : BCType}
  (hbx : (o.sel.bcx, bx) ∈ [("periodic", BCType.periodic), ("neumann", .neumann), ("dirichlet", .dirichlet)])
  (hby : (o.sel.bcy, bY) ∈ [("periodic", BCType.periodic), ("neumann", .neumann), ("dirichlet", .dirichlet)])
  (hbz : (o.sel.bcz, bz) ∈ [("periodic", BCType.periodic), ("neumann", .neumann), ("dirichlet", .dirichlet)])
  (hdim : o.sel.dimension = 3) (hbig : ti.maxSteps < 10 ^ 17 ∧ ti.initialStep + 1 < 10 ^ 17)
  {nl : Nat} (hnl : o.mg.levels = nl) (hl : 1 ≤ nl ∧ nl ≤ 6) {ns : Nat} (hns : o.mg.nsmooth = ns) (hn1 : 1 ≤ ns)
  (hmode : o.mg.interp = "nearest" ∨ o.mg.interp = "linear")
  (hd : 2 ^ (nl - 1) ∣ dom.nx ∧ 2 ^ (nl - 1) ∣ dom.ny ∧ 2 ^ (nl - 1) ∣ dom.nz)
  (hb : 2 ^ nl ≤ dom.nx ∧ 2 ^ nl ≤ dom.ny ∧ 2 ^ nl ≤ dom.nz) (hw : ArraysMG sz w nl dom.nx dom.ny dom.nz)
  (hi : o.sel.integrator = "bdf1" ∨ o.sel.integrator = "steady")
  (hz : o.sel.integrator ≠ "steady" → 0 < ti.dt0 ∧ ti.tfinal ≠ ti.t0 + ti.dt0)

include hbx hby hbz hdim hl hd hb hw in
theorem setupMG (m : Mem A ℝ) : ∃ b1 b2 b3 mc, bx = b1.toBC ∧ bY = b2.toBC ∧ bz = b3.toBC ∧
    geomFactory o.sel = .ok (.cart3 b1 b2 b3) ∧
    mkGeom3 ⟨dom.nx, dom.ny, dom.nz, 2⟩ bx bY bz = .ok (levelGeom dom.nx dom.ny dom.nz bx bY bz 0) ∧
    Det sz ((⟨dom.nx, dom.ny, dom.nz, 2⟩ : Grid3).fillCoords dom.box w.co) m mc ∧
    Centres dom.box (levelGrid ⟨dom.nx, dom.ny, dom.nz, 2⟩ 0) (w.mgCo 0) mc ∧
    ∀ (H : Type) (doStep : H → ℝ → ℝ → Cmd A ℝ H) (nextDT : H → ℝ → Cmd A ℝ (H × ℝ)),
      ViewOk (sim3 E (levelGeom dom.nx dom.ny dom.nz bx bY bz 0) (dom.box.dx dom.nx) w o.maxSteps doStep nextDT) sz
        (In3 dom.nx dom.ny dom.nz)
        (fun c : Int × Int × Int => (⟨dom.nx, dom.ny, dom.nz, 2⟩ : Grid3).at3 c.1 c.2.1 c.2.2) w.rk.sol w.rk.res
        (fun m' => ∀ a ∈ [w.co.xv, w.co.yv, w.co.zv], m' a = mc a) (rms3 E.rt dom.nx dom.ny dom.nz)
        (Monitors3 E.rt E.big E.tiny (dom.box.dx dom.nx) dom.nx dom.ny dom.nz)
        (vts3 E.io dom.xbeg dom.ybeg dom.zbeg (dom.box.dx dom.nx) dom.nx dom.ny dom.nz) := by
  obtain ⟨nx, ex, rfl⟩ := parseBC_name hbx
  obtain ⟨ny, ey, rfl⟩ := parseBC_name hby
  obtain ⟨nz, ez, rfl⟩ := parseBC_name hbz
  have hgk : geomFactory o.sel = .ok (.cart3 nx ny nz) := by
    unfold geomFactory
    rw [ex, ey, ez, hdim]; rfl
  have g0 : levelGrid ⟨dom.nx, dom.ny, dom.nz, 2⟩ 0 = ⟨dom.nx, dom.ny, dom.nz, 2⟩ := by simp [levelGrid]
  have hG := levelGeom_mk hl.1 hd hb nx.toBC ny.toBC nz.toBC (show 0 < nl by omega)
  have hn := (level_facts hl.1 hd hb).2 0 (by omega)
  have hco := hw.coords (show 0 < nl by omega)
  have hf := hw.fields 0 (by omega)
  rw [g0] at hG hn hco ⊢
  have hgo : (⟨dom.nx, dom.ny, dom.nz, 2⟩ : Grid3).Ok :=
    ⟨by dsimp only at hn ⊢; omega, by dsimp only at hn ⊢; omega, by dsimp only at hn ⊢; omega, by dsimp only; omega⟩
  obtain ⟨hGo, hGg, -⟩ := Geom3.ok_of_mk hgo hG
  obtain ⟨mc, c1, c2, c3, -⟩ := coords3_det hco dom.box m
  have hsz : ∀ ρ, sz (named w (.field 0 ρ)) = (⟨dom.nx, dom.ny, dom.nz, 2⟩ : Grid3).size := by
    intro ρ; rw [hf]; simp [Grid3.size]
  exact ⟨nx, ny, nz, mc, rfl, rfl, rfl, hgk, hG, c1, centres_of c3, fun H doStep nextDT =>
    view3 hn rfl hGo hGg (hsz .state) (hsz .dstate) hco.sizev c2 E _ doStep nextDT _⟩

include hdom ht hcfl hlf hms hmax hi0 hbx hby hbz hdim hbig hnl hl hns hn1 hmode hd hb hw hi hz

theorem run3_mg (heq : o.sel.equation = "cahn-hilliard") (hv : o.variant = 0 ∨ o.variant = 1 ∨ o.variant = 2)
    {u0 : Int × Int × Int → ℝ}
    (hic : ∀ (G : Geom3), G.Ok → G.g = ⟨dom.nx, dom.ny, dom.nz, 2⟩ → ∀ m : Mem A ℝ, ∃ m1,
      CDet sz (icOf E o file G.interior (.d3 ⟨dom.nx, dom.ny, dom.nz, 2⟩ w.rk.sol) w.rk.sol) m () m1 ∧
      (∀ c, In3 dom.nx dom.ny dom.nz c → m1 w.rk.sol (G.g.at3 c.1 c.2.1 c.2.2) = u0 c) ∧ ∀ b, b ≠ w.rk.sol → m1 b = m b)
    {t d p : Nat → ℝ} (hm : Marching ti.tfinal ti.t0 ti.dt0 t d p) (hp : ∀ k, p (k + 1) = d k)
    {u s : Nat → Int × Int × Int → ℝ} {c : Nat → Nat}
    (hr : FasRun (chFas (levelGrid ⟨dom.nx, dom.ny, dom.nz, 2⟩) bx bY bz (fun ℓ => dom.box.dx (dom.nx / 2 ^ ℓ)) o.par o.mg.interp
      o.mg.cfl o.mg.relax o.mg.coarseRelax) ns (nl - 1) o.mg.relTol o.mg.maxCycles.toNat (rms3 E.rt dom.nx dom.ny dom.nz)
      (decide (o.sel.integrator ≠ "steady")) (fun _ => 1 / 1000000) d u0 u s c) (m : Mem A ℝ) :
    RunsAs sz (program E o file w) m ti o.logFreq.natAbs o.saveEvery.natAbs t d p
      (fun k => rms3 E.rt dom.nx dom.ny dom.nz (s k))
      (fun k => Monitors3 E.rt E.big E.tiny (dom.box.dx dom.nx) dom.nx dom.ny dom.nz (u (k + 1)))
      (stepName o.base (max (Nat.log 10 o.maxSteps + 1) 4)) (stepName (finalBase o.base) (max (Nat.log 10 o.maxSteps + 1) 4))
      (fun k => vts3 E.io dom.xbeg dom.ybeg dom.zbeg (dom.box.dx dom.nx) dom.nx dom.ny dom.nz (u (k + 1))) := by
  obtain ⟨b1, b2, b3, mc, rfl, rfl, rfl, hgk, hG, hco, hce, hV⟩ := setupMG (E := E) hbx hby hbz hdim hl hd hb hw m
  have hrhs : rhsFactory o.sel (.cart3 b1 b2 b3) = .ok .ch3 := by
    unfold rhsFactory
    rw [if_pos heq, if_neg (by omega), if_pos hdim]
  obtain ⟨l, md, hbd, hGs, -, hfr⟩ := hw.build hl.1 hd hb dom.box b1.toBC b2.toBC b3.toBC mc
  obtain ⟨Gs, hGsd⟩ : ∃ Gs : Nat → Geom3, Gs = fun ℓ => (levelGeom dom.nx dom.ny dom.nz b1.toBC b2.toBC b3.toBC 0 :: l).getD ℓ
    (levelGeom dom.nx dom.ny dom.nz b1.toBC b2.toBC b3.toBC 0) := ⟨_, rfl⟩
  have hGs' : ∀ ℓ, ℓ < nl → Gs ℓ = levelGeom dom.nx dom.ny dom.nz b1.toBC b2.toBC b3.toBC ℓ := by rw [hGsd]; exact hGs
  have hH := hw.hier hl.1 hd hb hmode hv hGs'
  obtain ⟨dx, hdx⟩ : ∃ dx : Nat → ℝ, dx = fun ℓ => dom.box.dx (Gs ℓ).g.ni := ⟨_, rfl⟩
  have hdx' : ∀ ℓ, ℓ < nl → dx ℓ = dom.box.dx (dom.nx / 2 ^ ℓ) := by
    intro ℓ hℓ; rw [hdx]; dsimp only; rw [hGs' ℓ hℓ]; rfl
  obtain ⟨M, hMd⟩ : ∃ M, M = chMG nl Gs dx o.variant o.par w.mgWk w.mgArr o.mg.interp o.mg.cfl o.mg.relax o.mg.coarseRelax
      (decide (o.sel.integrator ≠ "steady")) := ⟨_, rfl⟩
  have hM := chMG_ok hH dx o.par o.mg.cfl o.mg.relax o.mg.coarseRelax (decide (o.sel.integrator ≠ "steady"))
  have hS0 := chMG_implements hH dx o.par o.mg.cfl o.mg.relax o.mg.coarseRelax (decide (o.sel.integrator ≠ "steady"))
  rw [← hMd] at hM hS0
  have hnlv : M.nlev = nl := by rw [hMd]; rfl
  have hS := hS0.congr
    (S' := chFas (levelGrid ⟨dom.nx, dom.ny, dom.nz, 2⟩) b1.toBC b2.toBC b3.toBC (fun ℓ => dom.box.dx (dom.nx / 2 ^ ℓ)) o.par
      o.mg.interp o.mg.cfl o.mg.relax o.mg.coarseRelax)
    (fun ℓ hℓ u c _ => chFas_F_congr (hdx' ℓ (hnlv ▸ hℓ)).symm u c) rfl rfl
    (fun ℓ hℓ => chFas_dt_congr (hdx' ℓ (hnlv ▸ hℓ)).symm) rfl
  have hN := chMG_norm hH dx o.par o.mg.cfl o.mg.relax o.mg.coarseRelax (decide (o.sel.integrator ≠ "steady")) M hMd
  have ha : M.arr = w.mgArr := by rw [hMd]; rfl
  have hun : M.unsteady = decide (o.sel.integrator ≠ "steady") := by rw [hMd]; rfl
  have hn2 := (level_facts hl.1 hd hb).2 0 (by omega)
  have g0 : levelGrid ⟨dom.nx, dom.ny, dom.nz, 2⟩ 0 = ⟨dom.nx, dom.ny, dom.nz, 2⟩ := by simp [levelGrid]
  rw [g0] at hn2
  have hgo : (⟨dom.nx, dom.ny, dom.nz, 2⟩ : Grid3).Ok :=
    ⟨by dsimp only at hn2 ⊢; omega, by dsimp only at hn2 ⊢; omega, by dsimp only at hn2 ⊢; omega, by dsimp only; omega⟩
  obtain ⟨hGo, hGg, -⟩ := Geom3.ok_of_mk hgo hG
  obtain ⟨m1, i1, i2, i3⟩ := hic _ hGo hGg md
  rw [hGg] at i2
  have hvs : ∀ a ∈ [w.co.xv, w.co.yv, w.co.zv], a ∈ (w.mgCo 0).all := by
    intro a h; simp only [List.mem_cons, List.not_mem_nil, or_false] at h
    rcases h with rfl | rfl | rfl
    · simp [CoordArr.all, ProgArr.mgCo]
    · simp [CoordArr.all, ProgArr.mgCo]
    · simp [CoordArr.all, ProgArr.mgCo]
  have key := mg_runs hM hS (vs := [w.co.xv, w.co.yv, w.co.zv]) (mc := mc)
    (fun a h => ⟨fun ⟨ℓ, x, e⟩ => hw.work_apart a (hvs a h) e, fun ℓ ρ => by rw [ha]; exact hw.field_apart a (hvs a h)⟩)
    (nrm := rms3 E.rt dom.nx dom.ny dom.nz) (L := nl - 1) (by rw [hnlv]; omega) hn1 (rt := E.rt) (tol := o.mg.relTol)
    (maxCycles := o.mg.maxCycles)
    (fun μ r h => by
      rw [hN, g0]
      unfold rms3
      congr 2
      refine sum3_congr fun x y z hx hy hz => ?_
      have := h (x, y, z) (by rw [g0]; exact ⟨hx, hy, hz⟩)
      rw [ha, g0] at this
      dsimp only at this
      rw [this])
    (D := sim3 E (levelGeom dom.nx dom.ny dom.nz b1.toBC b2.toBC b3.toBC 0) (dom.box.dx dom.nx) w o.maxSteps
      (mgDo M (vCycle ns (nl - 1)) E.rt o.mg.relTol o.mg.maxCycles) keepDT)
    (by rw [ha, g0]; exact hV _ _ _) rfl rfl hms rfl hcfl hlf (se := o.saveEvery) (base := o.base) hmax hi0 hbig hm hp
    (fun h => hz (by rw [hun] at h; exact of_decide_eq_true h)) (by rw [hun]; exact hr) i1
    (fun c hc => by rw [ha, g0]; rw [g0] at hc; exact i2 c hc)
    (fun a h => by
      rw [i3 a (hw.field_apart (j := 0) (ρ := .state) a (hvs a h)), hfr a fun ℓ h1 h2 =>
        hw.coord_apart (by omega) a (hvs a h)])
    (holds_none m1)
  refine key.mono fun fuel Res m' hrun => ?_
  refine program3_mg hdom ht hgk hG hco hi hrhs hv ?_
  unfold mgRun
  rw [hnl, hns, getMGCycle_eq (by omega) (by omega) (by omega), show ((nl : Int) - 1).toNat = nl - 1 by omega]
  refine (CDet.ofExcept rfl mc).bind ?_
  rw [show (nl : Int).toNat = nl by omega]
  refine hbd.bind ?_
  dsimp only
  rw [hMd, hdx, hGsd] at hrun
  have e0 : (levelGeom dom.nx dom.ny dom.nz b1.toBC b2.toBC b3.toBC 0).g.ni = dom.nx := by rw [hGg]
  rw [e0]
  exact hrun

theorem run3_poisson (heq : o.sel.equation = "poisson")
    {u0 : Int × Int × Int → ℝ}
    (hic : ∀ (G : Geom3), G.Ok → G.g = ⟨dom.nx, dom.ny, dom.nz, 2⟩ → ∀ m : Mem A ℝ, ∃ m1,
      CDet sz (icPois E file G.interior (.d3 ⟨dom.nx, dom.ny, dom.nz, 2⟩ w.rk.sol) w.rk.sol) m () m1 ∧
      (∀ c, In3 dom.nx dom.ny dom.nz c → m1 w.rk.sol (G.g.at3 c.1 c.2.1 c.2.2) = u0 c) ∧ ∀ b, b ≠ w.rk.sol → m1 b = m b)
    {t d p : Nat → ℝ} (hm : Marching ti.tfinal ti.t0 ti.dt0 t d p) (hp : ∀ k, p (k + 1) = d k)
    {u s : Nat → Int × Int × Int → ℝ} {c : Nat → Nat}
    (hr : FasRun (poisFas (levelGrid ⟨dom.nx, dom.ny, dom.nz, 2⟩)
        (fun ℓ i j k => E.sn (dom.xbeg + dom.box.dx (dom.nx / 2 ^ ℓ) * (i + 1 / 2)) *
          E.cs (dom.ybeg + dom.box.dx (dom.nx / 2 ^ ℓ) * (j + 1 / 2)) * E.cs (dom.zbeg + dom.box.dx (dom.nx / 2 ^ ℓ) * (k + 1 / 2)))
        (fun ℓ => dom.box.dx (dom.nx / 2 ^ ℓ)) o.mg.interp
      o.mg.cfl o.mg.relax o.mg.coarseRelax) ns (nl - 1) o.mg.relTol o.mg.maxCycles.toNat (rms3 E.rt dom.nx dom.ny dom.nz)
      (decide (o.sel.integrator ≠ "steady")) (fun _ => 1 / 1000000) d u0 u s c) (m : Mem A ℝ) :
    RunsAs sz (program E o file w) m ti o.logFreq.natAbs o.saveEvery.natAbs t d p
      (fun k => rms3 E.rt dom.nx dom.ny dom.nz (s k))
      (fun k => Monitors3 E.rt E.big E.tiny (dom.box.dx dom.nx) dom.nx dom.ny dom.nz (u (k + 1)))
      (stepName o.base (max (Nat.log 10 o.maxSteps + 1) 4)) (stepName (finalBase o.base) (max (Nat.log 10 o.maxSteps + 1) 4))
      (fun k => vts3 E.io dom.xbeg dom.ybeg dom.zbeg (dom.box.dx dom.nx) dom.nx dom.ny dom.nz (u (k + 1))) := by
  obtain ⟨b1, b2, b3, mc, rfl, rfl, rfl, hgk, hG, hco, hce, hV⟩ := setupMG (E := E) hbx hby hbz hdim hl hd hb hw m
  have hrhs : rhsFactory o.sel (.cart3 b1 b2 b3) = .ok .poisson3 := by
    unfold rhsFactory
    rw [if_neg (by rw [heq]; decide), if_pos heq]
  obtain ⟨l, md, hbd, hGs, hcs, hfr⟩ := hw.build hl.1 hd hb dom.box b1.toBC b2.toBC b3.toBC mc
  obtain ⟨Gs, hGsd⟩ : ∃ Gs : Nat → Geom3, Gs = fun ℓ => (levelGeom dom.nx dom.ny dom.nz b1.toBC b2.toBC b3.toBC 0 :: l).getD ℓ
    (levelGeom dom.nx dom.ny dom.nz b1.toBC b2.toBC b3.toBC 0) := ⟨_, rfl⟩
  have hGs' : ∀ ℓ, ℓ < nl → Gs ℓ = levelGeom dom.nx dom.ny dom.nz b1.toBC b2.toBC b3.toBC ℓ := by rw [hGsd]; exact hGs
  have hH := hw.phier hl.1 hd hb hmode hGs'
  obtain ⟨dx, hdx⟩ : ∃ dx : Nat → ℝ, dx = fun ℓ => dom.box.dx (Gs ℓ).g.ni := ⟨_, rfl⟩
  have hdx' : ∀ ℓ, ℓ < nl → dx ℓ = dom.box.dx (dom.nx / 2 ^ ℓ) := by
    intro ℓ hℓ; rw [hdx]; dsimp only; rw [hGs' ℓ hℓ]; rfl
  obtain ⟨M, hMd⟩ : ∃ M, M = poissonMG nl Gs dx E.sn E.cs (fun ℓ => ![(w.mgCo ℓ).x, (w.mgCo ℓ).y, (w.mgCo ℓ).z]) w.mgArr
      o.mg.interp o.mg.cfl o.mg.relax o.mg.coarseRelax (decide (o.sel.integrator ≠ "steady")) := ⟨_, rfl⟩
  have hcall : ∀ ℓ, ℓ < nl → Centres dom.box (levelGrid ⟨dom.nx, dom.ny, dom.nz, 2⟩ ℓ) (w.mgCo ℓ) md := by
    intro ℓ hℓ
    by_cases h0 : ℓ = 0
    · subst h0
      exact hce.congr fun a h => hfr a fun j h1 h2 => hw.coord_apart (by omega) a h
    · exact hcs ℓ (by omega) hℓ
  have hM := poissonMG_ok hH dx E.sn E.cs o.mg.cfl o.mg.relax o.mg.coarseRelax (decide (o.sel.integrator ≠ "steady")) md
  have hS := (poissonMG_implements hH dx E.sn E.cs o.mg.cfl o.mg.relax o.mg.coarseRelax
    (decide (o.sel.integrator ≠ "steady")) md).congr
    (S' := poisFas (levelGrid ⟨dom.nx, dom.ny, dom.nz, 2⟩)
        (fun ℓ i j k => E.sn (dom.xbeg + dom.box.dx (dom.nx / 2 ^ ℓ) * (i + 1 / 2)) *
          E.cs (dom.ybeg + dom.box.dx (dom.nx / 2 ^ ℓ) * (j + 1 / 2)) * E.cs (dom.zbeg + dom.box.dx (dom.nx / 2 ^ ℓ) * (k + 1 / 2)))
        (fun ℓ => dom.box.dx (dom.nx / 2 ^ ℓ)) o.mg.interp
      o.mg.cfl o.mg.relax o.mg.coarseRelax)
    (fun ℓ hℓ u c hc => by
      unfold poisFas; dsimp only; rw [hdx' ℓ hℓ]
      refine poisRhs_congr_e _ (fun i j k h1 h2 h3 => ?_) _ hc.1 hc.2.1 hc.2.2
      obtain ⟨e1, e2, e3⟩ := hcall ℓ hℓ i j k (by
        unfold Grid3.Pad
        have : (levelGrid ⟨dom.nx, dom.ny, dom.nz, 2⟩ ℓ).nhalo = 2 := rfl
        rw [this]; omega)
      unfold coordE
      dsimp only [Matrix.cons_val]
      rw [e1, e2, e3]
      rfl) rfl rfl
    (fun ℓ hℓ => by unfold poisFas; dsimp only; rw [hdx' ℓ hℓ]) rfl
  have hN : ∀ μ, M.norm E.rt μ = E.rt (sum3 (levelGrid ⟨dom.nx, dom.ny, dom.nz, 2⟩ 0).ni
      (levelGrid ⟨dom.nx, dom.ny, dom.nz, 2⟩ 0).nj (levelGrid ⟨dom.nx, dom.ny, dom.nz, 2⟩ 0).nk
      (fun i j k => μ (w.mgArr 0 .dstate) ((levelGrid ⟨dom.nx, dom.ny, dom.nz, 2⟩ 0).at3 i j k) ^ 2) /
      ((levelGrid ⟨dom.nx, dom.ny, dom.nz, 2⟩ 0).ni * (levelGrid ⟨dom.nx, dom.ny, dom.nz, 2⟩ 0).nj *
        (levelGrid ⟨dom.nx, dom.ny, dom.nz, 2⟩ 0).nk : ℝ)) := by
    intro μ
    obtain ⟨-, o, e, -⟩ := hH.levels 0 hH.pos
    rw [hMd]
    unfold MG.norm poissonMG
    dsimp only
    rw [o.int_sum, o.length_int', e]
  rw [← hMd] at hM hS
  have ha : M.arr = w.mgArr := by rw [hMd]; rfl
  have hnlv : M.nlev = nl := by rw [hMd]; rfl
  have hun : M.unsteady = decide (o.sel.integrator ≠ "steady") := by rw [hMd]; rfl
  have hn2 := (level_facts hl.1 hd hb).2 0 (by omega)
  have g0 : levelGrid ⟨dom.nx, dom.ny, dom.nz, 2⟩ 0 = ⟨dom.nx, dom.ny, dom.nz, 2⟩ := by simp [levelGrid]
  rw [g0] at hn2
  have hgo : (⟨dom.nx, dom.ny, dom.nz, 2⟩ : Grid3).Ok :=
    ⟨by dsimp only at hn2 ⊢; omega, by dsimp only at hn2 ⊢; omega, by dsimp only at hn2 ⊢; omega, by dsimp only; omega⟩
  obtain ⟨hGo, hGg, -⟩ := Geom3.ok_of_mk hgo hG
  obtain ⟨m1, i1, i2, i3⟩ := hic _ hGo hGg md
  rw [hGg] at i2
  have hvs : ∀ a ∈ [w.co.xv, w.co.yv, w.co.zv], a ∈ (w.mgCo 0).all := by
    intro a h; simp only [List.mem_cons, List.not_mem_nil, or_false] at h
    rcases h with rfl | rfl | rfl
    · simp [CoordArr.all, ProgArr.mgCo]
    · simp [CoordArr.all, ProgArr.mgCo]
    · simp [CoordArr.all, ProgArr.mgCo]
  have key := mg_runs hM hS (vs := [w.co.xv, w.co.yv, w.co.zv]) (mc := mc)
    (fun a h => ⟨id, fun ℓ ρ => by rw [ha]; exact hw.field_apart a (hvs a h)⟩)
    (nrm := rms3 E.rt dom.nx dom.ny dom.nz) (L := nl - 1) (by rw [hnlv]; omega) hn1 (rt := E.rt) (tol := o.mg.relTol)
    (maxCycles := o.mg.maxCycles)
    (fun μ r h => by
      rw [hN, g0]
      unfold rms3
      congr 2
      refine sum3_congr fun x y z hx hy hz => ?_
      have := h (x, y, z) (by rw [g0]; exact ⟨hx, hy, hz⟩)
      rw [ha, g0] at this
      dsimp only at this
      rw [this])
    (D := sim3 E (levelGeom dom.nx dom.ny dom.nz b1.toBC b2.toBC b3.toBC 0) (dom.box.dx dom.nx) w o.maxSteps
      (mgDo M (vCycle ns (nl - 1)) E.rt o.mg.relTol o.mg.maxCycles) keepDT)
    (by rw [ha, g0]; exact hV _ _ _) rfl rfl hms rfl hcfl hlf (se := o.saveEvery) (base := o.base) hmax hi0 hbig hm hp
    (fun h => hz (by rw [hun] at h; exact of_decide_eq_true h)) (by rw [hun]; exact hr) i1
    (fun c hc => by rw [ha, g0]; rw [g0] at hc; exact i2 c hc)
    (fun a h => by
      rw [i3 a (hw.field_apart (j := 0) (ρ := .state) a (hvs a h)), hfr a fun ℓ h1 h2 =>
        hw.coord_apart (by omega) a (hvs a h)])
    (fun a v e => by
      unfold coordFx at e
      split at e
      · next h =>
        cases e
        obtain ⟨ℓ, x, hx⟩ := h
        refine i3 a fun ea => ?_
        have : w.mgArr 0 .state = _ := ea.symm.trans hx
        exact hH.apart 0 .state ℓ x this
      · cases e)
  refine key.mono fun fuel Res m' hrun => ?_
  refine program3_poisson hdom ht hgk hG hco hi hrhs ?_
  unfold mgRun
  rw [hnl, hns, getMGCycle_eq (by omega) (by omega) (by omega), show ((nl : Int) - 1).toNat = nl - 1 by omega]
  refine (CDet.ofExcept rfl mc).bind ?_
  rw [show (nl : Int).toNat = nl by omega]
  refine hbd.bind ?_
  dsimp only
  rw [hMd, hdx, hGsd] at hrun
  have e0 : (levelGeom dom.nx dom.ny dom.nz b1.toBC b2.toBC b3.toBC 0).g.ni = dom.nx := by rw [hGg]
  rw [e0]
  exact hrun

end

end

end Madg
