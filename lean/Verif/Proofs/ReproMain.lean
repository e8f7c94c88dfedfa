/-
Two executions of the whole program compared, in any arithmetic.
-/
import Verif.Proofs.Repro

set_option linter.unusedSectionVars false
set_option linter.unusedVariables false

namespace Madg
open Spec
variable {A K : Type} [DecidableEq A] [Arith K] [LinearOrder K] [Pow K K] {sz : A → Int}

theorem Agree.exceptBind {α β β' : Type} {S : β → β' → Prop} {e : Except Err α} {f : α → Cmd A K β} {f' : α → Cmd A K β'}
    (h : ∀ x, e = .ok x → Agree sz S (f x) (f' x)) : Agree sz S ((Cmd.ofExcept e).bind f) ((Cmd.ofExcept e).bind f') := by
  rcases e with e | x
  · exact Agree.fail e
  · exact h x rfl

theorem Agree.setupBind {α β β' : Type} {S : β → β' → Prop} {e : Except SetupErr α} {f : α → Cmd A K β} {f' : α → Cmd A K β'}
    (h : ∀ x, e = .ok x → Agree sz S (f x) (f' x)) : Agree sz S ((Madg.ofSetup e).bind f) ((Madg.ofSetup e).bind f') := by
  rcases e with e | x
  · exact Agree.fail _
  · exact h x rfl

theorem Agree.hostBind {β : Type} {S : β → β → Prop} {h : Host A K} {f : Unit → Cmd A K β}
    (h0 : Agree sz Eq (Cmd.ofHost h) (Cmd.ofHost h)) (hf : ∀ x, Agree sz S (f x) (f x)) :
    Agree sz S ((Cmd.ofHost h).bind f) ((Cmd.ofHost h).bind f) :=
  h0.bind fun x y _ => hf x

/-- The explicit integrators around any equation. -/
theorem explicit3_agree {E : Env K} {o : RunOpts K} {G : Geom3} (hG : G.Ok) (h2 : G.g.nhalo = 2) {w : ProgArr A} {scratch : A → Prop}
    (hw : w.rk.Ok sz G.g.size scratch) {rhs : A → A → K → Host A K}
    (hr : ∀ s r t, s ≠ r → ¬ scratch s → ¬ scratch r → sz s = G.g.size → sz r = G.g.size → HDet sz (rhs s r t)) (dx : K)
    {ic : Cmd A K Unit} (hic : Agree sz Eq ic ic) {ti : TimeOpts K} (t1 : ti.relTol = 0) (t2 : ti.absTol = 0) (ms : Int)
    (base : Text) (fuel : Nat) :
    Agree sz SameResult
      ((sim3 E G dx w ms (rk3Do G.g.size rhs w.rk) keepDT).run ti o.logFreq o.saveEvery base ic () fuel)
      ((sim3 E G dx w ms (rk3Do G.g.size rhs w.rk) keepDT).run ti o.logFreq o.saveEvery base ic () fuel) ∧
    Agree sz SameResult
      ((sim3 E G dx w ms (ode23Do G.g.size rhs w.rk) ode23Next).run ti o.logFreq o.saveEvery base ic
        (ode23Init, PID.new o.errTol o.minStep o.maxStep) fuel)
      ((sim3 E G dx w ms (ode23Do G.g.size rhs w.rk) ode23Next).run ti o.logFreq o.saveEvery base ic
        (ode23Init, PID.new o.errTol o.minStep o.maxStep) fuel) := by
  have s1 := hw.size w.rk.sol (by simp)
  have s2 := hw.size w.rk.res (by simp)
  constructor
  · exact run_agree (sim3_agree E hG (by omega) dx s1 s2 ms (fun h t dt => rk3_agree hw hr h t dt)
      (fun h dt => Agree.ret rfl)) t1 t2 _ _ _ hic _ _
  · exact run_agree (sim3_agree E hG (by omega) dx s1 s2 ms (fun h t dt => ode23_agree hw hr h t dt)
      (fun h dt => ode23Next_agree h dt)) t1 t2 _ _ _ hic _ _

theorem explicit2_agree {E : Env K} {o : RunOpts K} {G : Geom2} (hG : G.Ok) (h2 : G.g.nhalo = 2) {w : ProgArr A} {scratch : A → Prop}
    (hw : w.rk.Ok sz G.g.size scratch) {rhs : A → A → K → Host A K}
    (hr : ∀ s r t, s ≠ r → ¬ scratch s → ¬ scratch r → sz s = G.g.size → sz r = G.g.size → HDet sz (rhs s r t)) (dx : K)
    {ic : Cmd A K Unit} (hic : Agree sz Eq ic ic) {ti : TimeOpts K} (t1 : ti.relTol = 0) (t2 : ti.absTol = 0) (ms : Int)
    (base : Text) (fuel : Nat) :
    Agree sz SameResult
      ((sim2 E G dx w ms (rk3Do G.g.size rhs w.rk) keepDT).run ti o.logFreq o.saveEvery base ic () fuel)
      ((sim2 E G dx w ms (rk3Do G.g.size rhs w.rk) keepDT).run ti o.logFreq o.saveEvery base ic () fuel) ∧
    Agree sz SameResult
      ((sim2 E G dx w ms (ode23Do G.g.size rhs w.rk) ode23Next).run ti o.logFreq o.saveEvery base ic
        (ode23Init, PID.new o.errTol o.minStep o.maxStep) fuel)
      ((sim2 E G dx w ms (ode23Do G.g.size rhs w.rk) ode23Next).run ti o.logFreq o.saveEvery base ic
        (ode23Init, PID.new o.errTol o.minStep o.maxStep) fuel) := by
  have s1 := hw.size w.rk.sol (by simp)
  have s2 := hw.size w.rk.res (by simp)
  constructor
  · exact run_agree (sim2_agree E hG (by omega) dx s1 s2 ms (fun h t dt => rk3_agree hw hr h t dt)
      (fun h dt => Agree.ret rfl)) t1 t2 _ _ _ hic _ _
  · exact run_agree (sim2_agree E hG (by omega) dx s1 s2 ms (fun h t dt => ode23_agree hw hr h t dt)
      (fun h dt => ode23Next_agree h dt)) t1 t2 _ _ _ hic _ _

theorem addAll_self (l : List String) : ∀ (r : Registry String), (∀ n s, r n = some s → s = n) →
    ∀ n s, Registry.addAll (l.map fun s => (s, s)) r n = some s → s = n := by
  induction l with
  | nil => intro r h; exact h
  | cons a l ih =>
    intro r h
    refine ih _ fun n s hs => ?_
    have hs' : mapInsert r a a n = some s := hs
    unfold mapInsert at hs'
    split at hs'
    · rename_i e
      cases hs'
      cases e2 : r a with
      | none => exact e.symm
      | some x => exact (h a x e2).trans e.symm
    · exact h n s hs'

theorem timeSetup_name {o : RunOpts K} {E : Env K} {file : Option VtsFile} {r : TimeOpts K × String}
    (h : timeSetup o E file = .ok r) : r.2 = o.sel.integrator := by
  have key : ∀ s, (Registry.addAll (registeredIntegrators.map fun s => (s, s)) (fun _ => none)).lookup o.sel.integrator = .ok s →
      s = o.sel.integrator := by
    intro s hs
    unfold Registry.lookup at hs
    split at hs
    · cases hs
    · rename_i f hf
      cases hs
      exact addAll_self _ _ (fun n s h => by cases h) _ _ hf
  unfold timeSetup at h
  rcases file with - | f
  · simp only [bind, Except.bind] at h
    split at h
    · cases h
    · rename_i e; cases h; exact key _ e
  · cases e : setInitialTimeStep E.io f o.timeOpts with
    | error x => dsimp only at h; rw [e] at h; cases h
    | ok t =>
      dsimp only at h
      rw [e] at h
      simp only [bind, Except.bind] at h
      split at h
      · cases h
      · rename_i e; cases h; exact key _ e

section
variable {E : Env K} {o : RunOpts K} {w : ProgArr A} {nx ny nz : Int}

theorem pois_parts (hw : ArraysPois sz w nx ny nz) :
    w.rk.Ok sz (⟨nx, ny, nz, 2⟩ : Grid3).size (fun a => a ∈ [w.co.x, w.co.y, w.co.z]) ∧
    ∀ s r, s ≠ r → s ∉ [w.co.x, w.co.y, w.co.z] → r ∉ [w.co.x, w.co.y, w.co.z] → sz s = (⟨nx, ny, nz, 2⟩ : Grid3).size →
      sz r = (⟨nx, ny, nz, 2⟩ : Grid3).size → PoisArr.Ok (⟨nx, ny, nz, 2⟩ : Grid3) sz ⟨s, r, w.co.x, w.co.y, w.co.z⟩ := by
  have hnd := hw.distinct
  have hc := hw.cells
  have e : (⟨nx, ny, nz, 2⟩ : Grid3).size = (nx + 4) * (ny + 4) * (nz + 4) := rfl
  rw [e]
  constructor
  · have h6 := hnd.sublist (List.drop_sublist 6 _)
    refine ⟨h6, fun a ha => hc a (List.mem_cons_of_mem _ (List.mem_cons_of_mem _ (List.mem_cons_of_mem _ ha))), ?_⟩
    have dj := List.disjoint_of_nodup_append (show ([w.co.x, w.co.y, w.co.z] ++ [w.co.xv, w.co.yv, w.co.zv, w.rk.sol, w.rk.res,
      w.rk.k1, w.rk.k2, w.rk.k3, w.rk.k4, w.rk.stage]).Nodup from hnd)
    exact fun a ha hs => dj hs (List.mem_cons_of_mem _ (List.mem_cons_of_mem _ (List.mem_cons_of_mem _ ha)))
  · intro s r hsr hs hr h1 h2
    simp only [List.mem_cons, List.not_mem_nil, or_false, not_or] at hs hr
    exact ⟨hsr, ⟨Ne.symm hs.1, Ne.symm hs.2.1, Ne.symm hs.2.2⟩, ⟨Ne.symm hr.1, Ne.symm hr.2.1, Ne.symm hr.2.2⟩, h1, h2,
      hc _ (by simp), hc _ (by simp), hc _ (by simp)⟩

theorem ch_parts {N : Int}
    (hn : [w.rk.sol, w.rk.res, w.rk.k1, w.rk.k2, w.rk.k3, w.rk.k4, w.rk.stage, w.l1, w.l2, w.l3, w.l4].Nodup)
    (hc : ∀ a ∈ [w.rk.sol, w.rk.res, w.rk.k1, w.rk.k2, w.rk.k3, w.rk.k4, w.rk.stage, w.l1, w.l2, w.l3, w.l4], sz a = N) :
    w.rk.Ok sz N (fun a => a ∈ [w.l1, w.l2, w.l3, w.l4]) ∧
    ∀ s r, s ≠ r → s ∉ [w.l1, w.l2, w.l3, w.l4] → r ∉ [w.l1, w.l2, w.l3, w.l4] → sz s = N → sz r = N →
      [s, r, w.l1, w.l2, w.l3, w.l4].Nodup ∧ ∀ a ∈ [s, r, w.l1, w.l2, w.l3, w.l4], sz a = N := by
  constructor
  · have h7 := hn.sublist (List.take_sublist 7 _)
    refine ⟨h7, fun a ha => hc a (by simp only [List.mem_cons, List.not_mem_nil, or_false] at ha ⊢; tauto), ?_⟩
    have dj := List.disjoint_of_nodup_append (show ([w.rk.sol, w.rk.res, w.rk.k1, w.rk.k2, w.rk.k3, w.rk.k4, w.rk.stage] ++
      [w.l1, w.l2, w.l3, w.l4]).Nodup from hn)
    exact fun a ha hs => dj ha hs
  · intro s r hsr hs hr h1 h2
    simp only [List.nodup_cons, List.mem_cons, not_or, List.not_mem_nil, not_false_eq_true, List.nodup_nil, and_true] at hn hs hr ⊢
    refine ⟨⟨⟨hsr, hs⟩, hr, by tauto⟩, ?_⟩
    rintro a (rfl | rfl | rfl | rfl | rfl | rfl | h)
    · exact h1
    · exact h2
    all_goals first | exact h.elim | exact hc _ (by simp)

end

theorem program_agree {E : Env K} {o : RunOpts K} {file : Option VtsFile} {w : ProgArr A}
    (hw : ∀ d, o.domain E file = .ok d → Allocated sz w o d) (h1 : o.relTol = 0) (h2 : o.absTol = 0)
    (hint : o.sel.integrator ≠ "bdf1" ∧ o.sel.integrator ≠ "steady") (fuel : Nat) :
    Agree sz SameResult (program E o file w fuel) (program E o file w fuel) := by
  unfold program
  refine Agree.exceptBind fun dom hdom => Agree.setupBind fun gk hgk => ?_
  have hA := hw dom hdom
  have hgd : (gk = .cart2 ∧ o.sel.dimension = 2) ∨ ((∃ a b c, gk = .cart3 a b c) ∧ o.sel.dimension = 3) := by
    unfold geomFactory at hgk
    cases e1 : parseBC o.sel.bcx with
    | error x => rw [e1] at hgk; cases hgk
    | ok x =>
      rw [e1] at hgk
      cases e2 : parseBC o.sel.bcy with
      | error x => rw [e2] at hgk; cases hgk
      | ok y =>
        rw [e2] at hgk
        cases e3 : parseBC o.sel.bcz with
        | error x => rw [e3] at hgk; cases hgk
        | ok z =>
          rw [e3] at hgk
          simp only [Except.bind] at hgk
          split at hgk
          · rename_i h; cases hgk; exact Or.inl ⟨rfl, h⟩
          · split at hgk
            · rename_i h; cases hgk; exact Or.inr ⟨⟨_, _, _, rfl⟩, h⟩
            · cases hgk
  rcases hgd with ⟨rfl, hd⟩ | ⟨⟨bx, bY, bz, rfl⟩, hd⟩
  · obtain ⟨hn, ha⟩ := hA.two hd
    dsimp only
    refine Agree.exceptBind fun G hG => ?_
    obtain ⟨hGo, hg⟩ := Geom2.ok_of_mk (by omega) (by omega) hG
    refine Agree.hostBind (Agree.ofSingles [_, _]) fun _ => Agree.setupBind fun rk hrk => ?_
    split
    · exact Agree.ret trivial
    · refine Agree.exceptBind fun ti hti => ?_
      obtain ⟨t1, t2⟩ := timeSetup_tol hti
      have t3 := timeSetup_name hti
      obtain ⟨p1, p2⟩ := ch_parts (w := w) (sz := sz) (N := (⟨dom.nx, dom.nx, 2⟩ : Grid2).size) (by have h := ha.distinct.sublist (List.drop_sublist 4 _); exact h)
        (fun a ha' => ha.cells a (by simp only [List.mem_cons, List.not_mem_nil, or_false] at ha' ⊢; tauto))
      rw [← hg] at p1 p2 ⊢
      obtain ⟨q1, q2⟩ := explicit2_agree (E := E) (o := o) hGo (by rw [hg]) p1
        (rhs := fun s r _ => G.evalRHS o.par (dom.box.dx dom.nx) ⟨s, r, w.l1, w.l2, w.l3, w.l4⟩)
        (fun s r t hsr hs hr s1 s2 => by
          obtain ⟨n1, n2⟩ := p2 s r hsr hs hr s1 s2
          exact evalRHS2_hdet hGo n1 n2 (by rw [hg]) (by rw [hg]; exact hn) _ _) (dom.box.dx dom.nx)
        (icOf_agree E o file G.interior w.rk.sol (.d2 G.g w.rk.sol)) (t1.trans h1) (t2.trans h2) o.maxSteps o.base fuel
      split
      · exact q1
      · split
        · exact q2
        · rw [if_neg (by rw [t3]; rintro (h | h); exacts [hint.1 h, hint.2 h])]
          exact Agree.ret trivial
  · obtain ⟨hn, ha, hc⟩ := hA.three hd
    dsimp only
    refine Agree.exceptBind fun G hG => ?_
    obtain ⟨hGo, hg, -, -, -⟩ := Geom3.ok_of_mk ⟨by dsimp only; omega, by dsimp only; omega, by dsimp only; omega, by dsimp only; omega⟩ hG
    refine Agree.hostBind (Agree.ofSingles [_, _]) fun _ => Agree.setupBind fun rk hrk => ?_
    split
    · refine Agree.exceptBind fun ti hti => ?_
      obtain ⟨t1, t2⟩ := timeSetup_tol hti
      have t3 := timeSetup_name hti
      obtain ⟨p1, p2⟩ := pois_parts ha
      rw [← hg] at p1 p2 ⊢
      obtain ⟨q1, q2⟩ := explicit3_agree (E := E) (o := o) hGo (by rw [hg]) p1
        (rhs := fun s r _ => G.poissonRHS E.sn E.cs (dom.box.dx dom.nx) ⟨s, r, w.co.x, w.co.y, w.co.z⟩)
        (fun s r t hsr hs hr s1 s2 => poisson_hdet hGo (p2 s r hsr hs hr s1 s2) (by rw [hg]; exact (by decide : (1 : Int) ≤ 2)) (by rw [hg]; exact hn.1)
          (by rw [hg]; exact hn.2.1) (by rw [hg]; exact hn.2.2) _ _ _) (dom.box.dx dom.nx)
        (icPois_agree E file hGo (p1.size w.rk.sol (by simp)) (.d3 G.g w.rk.sol)) (t1.trans h1) (t2.trans h2) o.maxSteps o.base fuel
      split
      · exact q1
      · split
        · exact q2
        · rw [if_neg (by rw [t3]; rintro (h | h); exacts [hint.1 h, hint.2 h])]
          exact Agree.ret trivial
    · rename_i hp
      split
      · exact Agree.ret trivial
      · rename_i hch
        have heq : o.sel.equation = "cahn-hilliard" := by
          by_contra hne
          unfold rhsFactory at hrk
          rw [if_neg hne] at hrk
          split at hrk
          · cases hrk; exact hp rfl
          · cases hrk
        refine Agree.exceptBind fun _ hv => Agree.exceptBind fun ti hti => ?_
        have hc := hc heq
        obtain ⟨t1, t2⟩ := timeSetup_tol hti
        have t3 := timeSetup_name hti
        obtain ⟨p1, p2⟩ := ch_parts (w := w) (sz := sz) (N := (⟨dom.nx, dom.ny, dom.nz, 2⟩ : Grid3).size) (by have h := hc.distinct.sublist (List.drop_sublist 6 _); exact h)
          (fun a ha' => hc.cells a (by simp only [List.mem_cons, List.not_mem_nil, or_false] at ha' ⊢; tauto))
        rw [← hg] at p1 p2 ⊢
        obtain ⟨q1, q2⟩ := explicit3_agree (E := E) (o := o) hGo (by rw [hg]) p1
          (rhs := fun s r _ => G.evalRHS o.variant o.par (dom.box.dx dom.nx) ⟨s, r, w.l1, w.l2, w.l3, w.l4⟩)
          (fun s r t hsr hs hr s1 s2 => fun m => by
            obtain ⟨n1, n2⟩ := p2 s r hsr hs hr s1 s2
            obtain ⟨m', d, -⟩ := evalRHS_detA hGo (sz := sz) (w := ⟨s, r, w.l1, w.l2, w.l3, w.l4⟩) ⟨n1, n2⟩ (by rw [hg]) (by rw [hg]; exact hn.1)
              (by rw [hg]; exact hn.2.1) (by rw [hg]; exact hn.2.2) hv o.par (dom.box.dx dom.nx) m
            exact ⟨m', d⟩) (dom.box.dx dom.nx)
          (icOf_agree E o file G.interior w.rk.sol (.d3 G.g w.rk.sol)) (t1.trans h1) (t2.trans h2) o.maxSteps o.base fuel
        split
        · exact q1
        · split
          · exact q2
          · rw [if_neg (by rw [t3]; rintro (h | h); exacts [hint.1 h, hint.2 h])]
            exact Agree.ret trivial

end Madg
