/-
From the options to the run: initial condition, file names, the end of a run, and the program's component creation.
-/
import Verif.Proofs.ProgramCH
import Verif.Proofs.InitCond
import Verif.Props.FileName
import Verif.Props.Options

set_option linter.unusedSectionVars false

namespace Madg
open Spec

/-! ### Positions in the interior list -/

theorem getElem?_flatMap_const {α β : Type} (n : Nat) (f : α → List β) (b : Nat) (hb : b < n) :
    ∀ (l : List α), (∀ x ∈ l, (f x).length = n) → ∀ a : Nat, (l.flatMap f)[a * n + b]? = (l[a]?).bind fun x => (f x)[b]? := by
  intro l
  induction l with
  | nil => intro _ a; simp
  | cons x l ih =>
    intro h a
    have hx := h x (by simp)
    rw [List.flatMap_cons]
    cases a with
    | zero =>
      rw [List.getElem?_append_left (by omega)]
      simp
    | succ a =>
      rw [List.getElem?_append_right (by rw [hx, Nat.succ_mul]; omega), hx,
        show (a + 1) * n + b - n = a * n + b by rw [Nat.succ_mul]; omega, ih (fun y hy => h y (by simp [hy])) a]
      simp

theorem irange_getElem? (n i : Int) (h : 0 ≤ i ∧ i < n) : (irange 0 n)[i.toNat]? = some i := by
  unfold irange
  rw [List.getElem?_map, List.getElem?_range (by omega)]
  simp [Int.toNat_of_nonneg h.1]

theorem length_irange0 (n : Int) : (irange 0 n).length = n.toNat := by simp [irange]

theorem interior3_getD {G : Geom3} (hG : G.Ok) {i j k : Int} (h : G.g.Int3 i j k) :
    G.interior.getD ((i * G.g.nj + j) * G.g.nk + k).toNat 0 = G.g.at3 i j k := by
  obtain ⟨h1, h2, h3⟩ := h
  have e : ((i * G.g.nj + j) * G.g.nk + k).toNat = (i.toNat * G.g.nj.toNat + j.toNat) * G.g.nk.toNat + k.toNat := by
    obtain ⟨a, rfl⟩ := Int.eq_ofNat_of_zero_le h1.1
    obtain ⟨b, rfl⟩ := Int.eq_ofNat_of_zero_le h2.1
    obtain ⟨c, rfl⟩ := Int.eq_ofNat_of_zero_le h3.1
    obtain ⟨p, hp⟩ := Int.eq_ofNat_of_zero_le (show 0 ≤ G.g.nj by omega)
    obtain ⟨q, hq⟩ := Int.eq_ofNat_of_zero_le (show 0 ≤ G.g.nk by omega)
    rw [hp, hq]
    simp only [Int.toNat_natCast]
    exact_mod_cast Int.toNat_natCast ((a * p + b) * q + c)
  rw [hG.int, List.getD_eq_getElem?_getD, e]
  unfold Grid3.interiorVals
  have flat : ((irange 0 G.g.ni).flatMap fun i => (irange 0 G.g.nj).flatMap fun j => (irange 0 G.g.nk).map fun k => G.g.at3 i j k) =
      ((irange 0 G.g.ni).flatMap fun i => (irange 0 G.g.nj).map fun j => (i, j)).flatMap fun c =>
        (irange 0 G.g.nk).map fun k => G.g.at3 c.1 c.2 k := by
    simp only [List.flatMap_assoc, List.flatMap_map]
  rw [flat, getElem?_flatMap_const G.g.nk.toNat _ k.toNat (by omega) _ (fun x _ => by rw [List.length_map, length_irange0]),
    getElem?_flatMap_const G.g.nj.toNat _ j.toNat (by omega) _ (fun x _ => by rw [List.length_map, length_irange0]),
    irange_getElem? _ _ h1]
  simp only [Option.bind_some, List.getElem?_map, irange_getElem? _ _ h2, Option.map_some, irange_getElem? _ _ h3,
    Option.getD_some]

theorem interior2_getD {G : Geom2} (hG : G.Ok) {i j : Int} (h1 : 0 ≤ i ∧ i < G.g.ni) (h2 : 0 ≤ j ∧ j < G.g.ni) :
    G.interior.getD (i * G.g.ni + j).toNat 0 = G.g.at2 i j := by
  have e : (i * G.g.ni + j).toNat = i.toNat * G.g.ni.toNat + j.toNat := by
    obtain ⟨a, rfl⟩ := Int.eq_ofNat_of_zero_le h1.1
    obtain ⟨b, rfl⟩ := Int.eq_ofNat_of_zero_le h2.1
    obtain ⟨p, hp⟩ := Int.eq_ofNat_of_zero_le (show 0 ≤ G.g.ni by omega)
    rw [hp]
    simp only [Int.toNat_natCast]
    exact_mod_cast Int.toNat_natCast (a * p + b)
  rw [hG.int, List.getD_eq_getElem?_getD, e, List.getElem?_map]
  unfold box2
  rw [getElem?_flatMap_const G.g.ni.toNat _ j.toNat (by omega) _ (fun x _ => by rw [List.length_map, length_irange0]),
    irange_getElem? _ _ h1]
  simp only [Option.bind_some, List.getElem?_map, irange_getElem? _ _ h2, Option.map_some, Option.getD_some]

/-! ### The end of a run -/

section
variable {K : Type} [Arith K] [LT K] [DecidableLT K] [LE K] [DecidableLE K] [DecidableEq K] [Max K] [Min K]

theorem Spec.EndsAfter.bound {o : TimeOpts K} {f : Nat} {t p r : Nat → K} {N : Nat} (h : EndsAfter o f t p r N)
    (hm : o.maxSteps ≠ 0) : o.initialStep + N ≤ max o.maxSteps (o.initialStep + 1) := by
  obtain ⟨h1, h2, h3⟩ := h
  by_cases hN : N = 1
  · subst hN; simp
  · have := h3 (N - 1) (by omega) (by omega)
    unfold MustEnd StopAt at this
    push Not at this
    have := this.2.1 hm
    omega

theorem exists_end (o : TimeOpts K) (f : Nat) (t p r : Nat → K) (hm : 0 < o.maxSteps) : ∃ N, EndsAfter o f t p r N := by
  classical
  have hex : ∃ N : Nat, 1 ≤ N ∧ MustEnd o f t p r N :=
    ⟨(o.maxSteps - o.initialStep).toNat + 1, by omega, Or.inr (Or.inl ⟨by omega, by push_cast; omega⟩)⟩
  refine ⟨Nat.find hex, (Nat.find_spec hex).1, (Nat.find_spec hex).2, fun k h1 h2 h3 => Nat.find_min hex h2 ⟨h1, h3⟩⟩

theorem Spec.EndsAfter.unique {o : TimeOpts K} {f : Nat} {t p r : Nat → K} {N N' : Nat} (h : EndsAfter o f t p r N)
    (h' : EndsAfter o f t p r N') : N = N' := by
  rcases lt_trichotomy N N' with e | e | e
  · exact absurd h.2.1 (h'.2.2 N h.1 e)
  · exact e
  · exact absurd h'.2.1 (h.2.2 N' h'.1 e)

omit [Arith K] [LT K] [DecidableLT K] [LE K] [DecidableLE K] [DecidableEq K] [Max K] [Min K] in
theorem savedFiles_congr {F : Type} {i0 : Int} {s : Nat} {t d : Nat → K} {name name' : Int → Text} {file : Nat → Status K → F}
    {N : Nat} (h : ∀ k : Nat, k < N → name (i0 + k + 1) = name' (i0 + k + 1)) :
    savedFiles i0 s t d name file N = savedFiles i0 s t d name' file N := by
  unfold savedFiles
  refine List.map_congr_left fun k hk => ?_
  rw [h k (List.mem_range.1 (List.mem_filter.1 hk).1)]

end

section
variable {A K H : Type} [DecidableEq A] [Field K] [LinearOrder K] [IsStrictOrderedRing K]

/-- A run with a step limit ends, with names that follow a scheme below the limit. -/
theorem run_ends {S : Sim A K H} {sz : A → Int} {t d p r : Nat → K} {Q : Nat → K × K × K → Prop}
    {file : Nat → Status K → VtsFile} {Pre Post : Nat → H → Mem A K → Prop} {B : Nat → Prop} {o : TimeOpts K} {lf se : Int} {base : Text}
    (hS : SimOk S sz t d p r Q file Pre Post B) (hm : Marching o.tfinal o.t0 o.dt0 t d p) (hc : o.useCfl = false)
    (hf : lf ≠ 0) (hmax : 0 < o.maxSteps) (hi : 0 ≤ o.initialStep) (nm : Text → Int → Text)
    (hall : ∀ b i, ∃ n, S.name b i = .ok n)
    (hnm : ∀ b i, 0 ≤ i → i ≤ max o.maxSteps (o.initialStep + 1) → S.name b i = .ok (nm b i))
    (hB : ∀ k, (∀ j, 1 ≤ j → j ≤ k → ¬ MustEnd o lf.natAbs t p r j) → B k)
    {ic : Cmd A K Unit} {h0 : H} {m m1 : Mem A K} (hic : CDet sz ic m () m1) (hpre : Pre 0 h0 m1) :
    ∃ N, EndsAfter o lf.natAbs t p r N ∧ o.initialStep + N ≤ max o.maxSteps (o.initialStep + 1) ∧
      (∀ fuel, N ≤ fuel → ∃ v m', (∀ k, k < N → lf.natAbs ∣ k → Q k (v k)) ∧
        CDet sz (S.run o lf se base ic h0 fuel) m (.done
          (savedFiles o.initialStep se.natAbs t d (nm base) file N ++
            [(nm (finalBase base) (o.initialStep + N), file (N - 1) (finalStatus o.initialStep o.tfinal t d p N))])
          (reportRows o.initialStep lf.natAbs t d r v N)) m') ∧
      (∀ fuel, fuel < N → ∃ m', CDet sz (S.run o lf se base ic h0 fuel) m .outOfFuel m') := by
  choose nn hnn using hall
  obtain ⟨N, hN⟩ := exists_end o lf.natAbs t p r hmax
  have hb := hN.bound hmax.ne'
  have key := run_det (o := o) (se := se) (base := base) hS hm hc hf (name := nn base) (fun k => hnn base _) hB
    (fname := nn (finalBase base)) (fun k => hnn (finalBase base) _) hic hpre
  have heq : ∀ b i, 0 ≤ i → i ≤ max o.maxSteps (o.initialStep + 1) → nn b i = nm b i := fun b i h1 h2 =>
    Except.ok.inj ((hnn b i).symm.trans (hnm b i h1 h2))
  refine ⟨N, hN, hb, fun fuel hl => ?_, fun fuel hl => key.2 fuel fun k h1 h2 => hN.2.2 k h1 (by omega)⟩
  obtain ⟨v, m', h1, h2⟩ := key.1 N fuel hN hl
  refine ⟨v, m', h1, ?_⟩
  rw [← heq _ _ (by omega) hb, savedFiles_congr (name' := nn base) fun k hk => (heq base _ (by omega) (by omega)).symm]
  exact h2

end

/-! ### Names -/

theorem stepName3_total (ms : Int) (h : 0 < ms) (b : Text) (i : Int) : ∃ n, stepName3 b ms i = .ok n := by
  have e : iterWidth ms = .ok (Nat.log 10 ms.toNat + 1) := by unfold iterWidth; rw [if_neg (by omega)]
  unfold stepName3 fileName3
  rw [e]
  split <;> exact ⟨_, rfl⟩

theorem stepName2_total (ms : Int) (h : 0 < ms) (b : Text) (i : Int) : ∃ n, stepName2 b ms i = .ok n := by
  have e : iterWidth ms = .ok (Nat.log 10 ms.toNat + 1) := by unfold iterWidth; rw [if_neg (by omega)]
  unfold stepName2 fileName2
  rw [e]
  split <;> exact ⟨_, rfl⟩

theorem stepName3_eq (ms : Int) (h : 0 < ms) (b : Text) (i : Int) (h0 : 0 ≤ i) (h1 : i < 10 ^ 17) :
    stepName3 b ms i = .ok (stepName b (max (Nat.log 10 ms.toNat + 1) 4) i) := by
  unfold stepName3 stepName
  rw [if_pos h0, C68_name3 b ms h i.toNat (by omega)]

theorem stepName2_eq (ms : Int) (h : 0 < ms) (b : Text) (i : Int) (h0 : 0 ≤ i) (h1 : i < 10 ^ 6) :
    stepName2 b ms i = .ok (stepName b (Nat.log 10 ms.toNat + 1) i) := by
  unfold stepName2 stepName
  rw [if_pos h0, C68_name2 b ms h i.toNat (by omega)]

/-! ### Component creation -/

theorem parseBC_name {s : String} {b : BCType}
    (h : (s, b) ∈ [("periodic", BCType.periodic), ("neumann", .neumann), ("dirichlet", .dirichlet)]) :
    ∃ n, parseBC s = .ok n ∧ n.toBC = b := by
  simp only [List.mem_cons, Prod.mk.injEq, List.not_mem_nil, or_false] at h
  rcases h with ⟨rfl, rfl⟩ | ⟨rfl, rfl⟩ | ⟨rfl, rfl⟩
  · exact ⟨.periodic, rfl, rfl⟩
  · exact ⟨.neumann, rfl, rfl⟩
  · exact ⟨.dirichlet, rfl, rfl⟩

theorem timeSetup_ok {K : Type} [Arith K] [LT K] [DecidableLT K] [LE K] [DecidableLE K] [DecidableEq K] [Max K] [Min K] {o : RunOpts K} {E : Env K} {file : Option VtsFile} {ti : TimeOpts K}
    (ht : (match file with | some f => setInitialTimeStep E.io f o.timeOpts | none => .ok o.timeOpts) = .ok ti)
    (hi : o.sel.integrator ∈ ["rk3ssp", "ode23", "bdf1", "steady"]) : timeSetup o E file = .ok (ti, o.sel.integrator) := by
  have hl : (Registry.addAll (registeredIntegrators.map fun s => (s, s)) (fun _ => none)).lookup o.sel.integrator =
      .ok o.sel.integrator := by
    rw [C58_first_wins]
    simp only [List.mem_cons, List.not_mem_nil, or_false] at hi
    rcases hi with h | h | h | h <;> rw [h] <;> decide
  unfold timeSetup
  rw [hl]
  cases file with
  | none => cases ht; rfl
  | some f => simp only at ht; simp only [ht]; rfl

section
variable {A : Type} [DecidableEq A] {sz : A → Int} {E : Env ℝ} {o : RunOpts} {file : Option VtsFile} {w : ProgArr A}
  {fuel : Nat} {dom : FileDomain ℝ} (hdom : o.domain E file = .ok dom) {ti : TimeOpts ℝ}
  (ht : (match file with | some f => setInitialTimeStep E.io f o.timeOpts | none => .ok o.timeOpts) = .ok ti)
  {R : RunResult ℝ} {m mc m' : Mem A ℝ}
include hdom ht

section
variable {bx bY bz : BCName} (hgk : geomFactory o.sel = .ok (.cart3 bx bY bz))
  (hr : rhsFactory o.sel (.cart3 bx bY bz) = .ok .ch3) (hv : o.variant = 0 ∨ o.variant = 1 ∨ o.variant = 2)
  {G : Geom3} (hG : mkGeom3 ⟨dom.nx, dom.ny, dom.nz, 2⟩ bx.toBC bY.toBC bz.toBC = .ok G)
  (hco : Det sz ((⟨dom.nx, dom.ny, dom.nz, 2⟩ : Grid3).fillCoords dom.box w.co) m mc)
include hgk hr hv hG hco

theorem program3_rk3 (hi : o.sel.integrator = "rk3ssp")
    (hrun : CDet sz ((sim3 E G (dom.box.dx dom.nx) w o.maxSteps
      (rk3Do (⟨dom.nx, dom.ny, dom.nz, 2⟩ : Grid3).size
        (fun s r _ => G.evalRHS o.variant o.par (dom.box.dx dom.nx) ⟨s, r, w.l1, w.l2, w.l3, w.l4⟩) w.rk) keepDT).run ti
      o.logFreq o.saveEvery o.base (icOf E o file G.interior (.d3 ⟨dom.nx, dom.ny, dom.nz, 2⟩ w.rk.sol) w.rk.sol) () fuel)
      mc R m') : CDet sz (program E o file w fuel) m R m' := by
  have hts := timeSetup_ok (E := E) ht (by rw [hi]; decide)
  rw [hi] at hts
  unfold program
  refine (CDet.ofExcept hdom m).bind ?_
  rw [hgk]
  refine (CDet.ret _ _).bind ?_
  refine (CDet.ofExcept hG m).bind ((CDet.ofHost hco).bind ?_)
  rw [hr]
  refine (CDet.ret _ _).bind ?_
  rw [if_neg (by simp), if_neg (by simp)]
  refine (CDet.ofExcept (show ctorCH3 o.variant = .ok () by unfold ctorCH3; rw [if_pos (by omega)]) mc).bind ?_
  refine (CDet.ofExcept hts mc).bind ?_
  dsimp only
  rw [if_pos rfl]
  exact hrun

theorem program3_ode23 (hi : o.sel.integrator = "ode23")
    (hrun : CDet sz ((sim3 E G (dom.box.dx dom.nx) w o.maxSteps
      (ode23Do (⟨dom.nx, dom.ny, dom.nz, 2⟩ : Grid3).size
        (fun s r _ => G.evalRHS o.variant o.par (dom.box.dx dom.nx) ⟨s, r, w.l1, w.l2, w.l3, w.l4⟩) w.rk) ode23Next).run ti
      o.logFreq o.saveEvery o.base (icOf E o file G.interior (.d3 ⟨dom.nx, dom.ny, dom.nz, 2⟩ w.rk.sol) w.rk.sol)
      (ode23Init, PID.new o.errTol o.minStep o.maxStep) fuel) mc R m') : CDet sz (program E o file w fuel) m R m' := by
  have hts := timeSetup_ok (E := E) ht (by rw [hi]; decide)
  rw [hi] at hts
  unfold program
  refine (CDet.ofExcept hdom m).bind ?_
  rw [hgk]
  refine (CDet.ret _ _).bind ?_
  refine (CDet.ofExcept hG m).bind ((CDet.ofHost hco).bind ?_)
  rw [hr]
  refine (CDet.ret _ _).bind ?_
  rw [if_neg (by simp), if_neg (by simp)]
  refine (CDet.ofExcept (show ctorCH3 o.variant = .ok () by unfold ctorCH3; rw [if_pos (by omega)]) mc).bind ?_
  refine (CDet.ofExcept hts mc).bind ?_
  dsimp only
  rw [if_neg (by decide), if_pos rfl]
  exact hrun

end

section
variable (hgk : geomFactory o.sel = .ok .cart2) (hr : rhsFactory o.sel .cart2 = .ok .ch2)
  {G : Geom2} (hG : mkGeom2 dom.nx 2 = .ok G)
  (hco : Det sz ((⟨dom.nx, dom.nx, 2⟩ : Grid2).fillCoords dom.box w.co) m mc)
include hgk hr hG hco

theorem program2_rk3 (hi : o.sel.integrator = "rk3ssp")
    (hrun : CDet sz ((sim2 E G (dom.box.dx dom.nx) w o.maxSteps
      (rk3Do (⟨dom.nx, dom.nx, 2⟩ : Grid2).size
        (fun s r _ => G.evalRHS o.par (dom.box.dx dom.nx) ⟨s, r, w.l1, w.l2, w.l3, w.l4⟩) w.rk) keepDT).run ti
      o.logFreq o.saveEvery o.base (icOf E o file G.interior (.d2 ⟨dom.nx, dom.nx, 2⟩ w.rk.sol) w.rk.sol) () fuel)
      mc R m') : CDet sz (program E o file w fuel) m R m' := by
  have hts := timeSetup_ok (E := E) ht (by rw [hi]; decide)
  rw [hi] at hts
  unfold program
  refine (CDet.ofExcept hdom m).bind ?_
  rw [hgk]
  refine (CDet.ret _ _).bind ?_
  refine (CDet.ofExcept hG m).bind ((CDet.ofHost hco).bind ?_)
  rw [hr]
  refine (CDet.ret _ _).bind ?_
  rw [if_neg (by simp)]
  refine (CDet.ofExcept hts mc).bind ?_
  dsimp only
  rw [if_pos rfl]
  exact hrun

theorem program2_ode23 (hi : o.sel.integrator = "ode23")
    (hrun : CDet sz ((sim2 E G (dom.box.dx dom.nx) w o.maxSteps
      (ode23Do (⟨dom.nx, dom.nx, 2⟩ : Grid2).size
        (fun s r _ => G.evalRHS o.par (dom.box.dx dom.nx) ⟨s, r, w.l1, w.l2, w.l3, w.l4⟩) w.rk) ode23Next).run ti
      o.logFreq o.saveEvery o.base (icOf E o file G.interior (.d2 ⟨dom.nx, dom.nx, 2⟩ w.rk.sol) w.rk.sol)
      (ode23Init, PID.new o.errTol o.minStep o.maxStep) fuel) mc R m') : CDet sz (program E o file w fuel) m R m' := by
  have hts := timeSetup_ok (E := E) ht (by rw [hi]; decide)
  rw [hi] at hts
  unfold program
  refine (CDet.ofExcept hdom m).bind ?_
  rw [hgk]
  refine (CDet.ret _ _).bind ?_
  refine (CDet.ofExcept hG m).bind ((CDet.ofHost hco).bind ?_)
  rw [hr]
  refine (CDet.ret _ _).bind ?_
  rw [if_neg (by simp)]
  refine (CDet.ofExcept hts mc).bind ?_
  dsimp only
  rw [if_neg (by decide), if_pos rfl]
  exact hrun

end

end

end Madg
