/-
C73, C74: a run of the PETSc time integrator as seen by observers, and its stopping rule and settings.
-/
import Verif.Model.PetscSession
import Verif.Props.Jacobian
import Verif.Props.Observer

set_option linter.unusedSectionVars false

namespace Madg
namespace Spec
variable {A K : Type} [Field K]

/-- Values on a three-dimensional index set. -/
abbrev Fld (K : Type) := Int → Int → Int → K

/-- What a run of library events amounts to: contents of the library's vectors by cell, the values shown as current solution
and residual, and the values in the halo of the solution. -/
structure TsView (A K : Type) where
  vec : A → Fld K
  sol : Fld K
  res : Fld K
  halo : Fld K

/-- An entry of the record: solution and residual shown to observers, or the values in and around the grid at which a
Jacobian was assembled. -/
inductive TsSeen (K : Type) where
  | shown (sol res : Fld K)
  | assembled (sol halo : Fld K)

/-- Periodic continuation of cell values. -/
def periodic (ni nj nk : Int) (u : Fld K) : Fld K := fun a b d => u (wrapIdx ni a) (wrapIdx nj b) (wrapIdx nk d)

/-- Effect of one event. The right-hand side is evaluated on the periodic continuation of the vector passed in. The library
addresses its vectors by position, numbered with the last direction fastest. -/
def TsView.step [DecidableEq A] (ni nj nk : Int) (p : CHParams K) (dx : K) (s : TsView A K) : TsEvent A K → TsView A K
  | .library x f => { s with vec := fun a => if a = x then fun i j k => f ((i * nj + j) * nk + k) else s.vec a }
  | .rhs x r =>
      { vec := fun a => if a = r then chRhs3 p dx (periodic ni nj nk (s.vec x)) else s.vec a
        sol := s.vec x
        res := chRhs3 p dx (periodic ni nj nk (s.vec x))
        halo := periodic ni nj nk (s.vec x) }
  | .jacobian x => { s with sol := s.vec x }
  | .monitor _ => s

/-- Final view and record of a list of events. -/
def TsView.run [DecidableEq A] (ni nj nk : Int) (p : CHParams K) (dx : K) : TsView A K → List (TsEvent A K) →
    TsView A K × List (TsSeen K)
  | s, [] => (s, [])
  | s, e :: es =>
    let s' := s.step ni nj nk p dx e
    let r := TsView.run ni nj nk p dx s' es
    (r.1, match e with
      | .monitor _ => .shown s'.sol s'.res :: r.2
      | .jacobian _ => .assembled s'.sol s'.halo :: r.2
      | _ => r.2)

/-- Events use the library's own vectors, the two vectors of a right-hand-side call differ; the library may also overwrite
the stored Jacobian values. -/
def TsOk (L : A → Prop) (vals : A) : TsEvent A K → Prop
  | .library x _ => L x ∨ x = vals
  | .rhs x r => L x ∧ L r ∧ x ≠ r
  | .jacobian x => L x
  | .monitor _ => True

end Spec

open Spec

section
variable {A K : Type} [DecidableEq A] [Field K]

/-- The memory agrees with a view: every library vector, solution and residual on the cells, halo values around them. -/
def TsRep (g : Grid3) (w : CHArr A) (L : A → Prop) (m : Mem A K) (s : TsView A K) : Prop :=
  ∀ i j k, -2 ≤ i → i < g.ni + 2 → -2 ≤ j → j < g.nj + 2 → -2 ≤ k → k < g.nk + 2 →
    if (0 ≤ i ∧ i < g.ni) ∧ (0 ≤ j ∧ j < g.nj) ∧ (0 ≤ k ∧ k < g.nk) then
      (∀ x, L x → m x (cellNo g.nj g.nk i j k) = s.vec x i j k) ∧
      m w.c (g.at3 i j k) = s.sol i j k ∧ m w.r (g.at3 i j k) = s.res i j k
    else m w.c (g.at3 i j k) = s.halo i j k

/-- A memory in the record agrees with its entry. -/
def TsMatch (g : Grid3) (C : TsCtx A K) (vals : A) (m : Mem A K) : TsSeen K → Prop
  | .shown sol res => ∀ i j k, (0 ≤ i ∧ i < g.ni) → (0 ≤ j ∧ j < g.nj) → (0 ≤ k ∧ k < g.nk) →
      m C.w.c (g.at3 i j k) = sol i j k ∧ m C.w.r (g.at3 i j k) = res i j k
  | .assembled sol halo => ∀ (v : Int → K) i j k, (0 ≤ i ∧ i < g.ni) → (0 ≤ j ∧ j < g.nj) → (0 ≤ k ∧ k < g.nk) →
      mulVec (g.ni * g.nj * g.nk) (dense C.M (m vals)) v (cellNo g.nj g.nk i j k) =
        chLin3 C.p C.dx
          (fun a b d => if (0 ≤ a ∧ a < g.ni) ∧ (0 ≤ b ∧ b < g.nj) ∧ (0 ≤ d ∧ d < g.nk) then sol a b d else halo a b d)
          (fun a b d => v (cellNo g.nj g.nk (wrapIdx g.ni a) (wrapIdx g.nj b) (wrapIdx g.nk d))) i j k

variable (g : Grid3) (hn : 5 ≤ g.ni ∧ 5 ≤ g.nj ∧ 5 ≤ g.nk) (hh : g.nhalo = 2) (C : TsCtx A K)
  (hG : mkGeom3 g .periodic .periodic .periodic = .ok C.G) (hvar : C.var = 0 ∨ C.var = 1 ∨ C.var = 2)
  (sz : A → Int) (vals : A)
  (hw : [C.w.c, C.w.r, C.w.lapRhs, C.w.lapArg, C.w.bihar, C.w.lin, vals].Nodup)
  (hsz : ∀ a ∈ [C.w.c, C.w.r, C.w.lapRhs, C.w.lapArg, C.w.bihar, C.w.lin], sz a = g.size)
  (hM : g.createSparse vals = .ok C.M) (hsv : sz vals = 25 * (g.ni * g.nj * g.nk))
  (L : A → Prop) (hL : ∀ x, L x → sz x = g.ni * g.nj * g.nk ∧
    x ∉ [C.w.c, C.w.r, C.w.lapRhs, C.w.lapArg, C.w.bihar, C.w.lin, vals])

include hw hL in
theorem ts_disjoint (x : A) (hx : L x) : x ≠ C.w.c ∧ x ≠ C.w.r ∧ x ≠ vals ∧ C.w.c ≠ vals ∧ C.w.r ≠ vals ∧ C.w.r ≠ C.w.c ∧
    [C.w.c, x, vals].Nodup ∧ x ∉ [C.w.c, C.w.r, C.w.lapRhs, C.w.lapArg, C.w.bihar, C.w.lin] := by
  have h := (hL x hx).2
  simp only [List.nodup_cons, List.mem_cons, List.not_mem_nil, or_false, not_or, List.nodup_nil, and_true,
    not_false_eq_true] at hw h ⊢
  obtain ⟨⟨h1, -, -, -, -, h2⟩, ⟨-, -, -, -, h3⟩, -⟩ := hw
  obtain ⟨a, b, c, d, e, f, q⟩ := h
  exact ⟨a, b, q, h2, h3, Ne.symm h1, ⟨⟨Ne.symm a, h2⟩, q⟩, a, b, c, d, e, f⟩

include hw hL in
theorem ts_disjoint2 (x r : A) (hx : L x) (hr : L r) (hxr : x ≠ r) :
    [C.w.c, C.w.r, C.w.lapRhs, C.w.lapArg, C.w.bihar, C.w.lin, x, r].Nodup := by
  have e : [C.w.c, C.w.r, C.w.lapRhs, C.w.lapArg, C.w.bihar, C.w.lin, x, r] =
    [C.w.c, C.w.r, C.w.lapRhs, C.w.lapArg, C.w.bihar, C.w.lin] ++ [x, r] := rfl
  have e' : [C.w.c, C.w.r, C.w.lapRhs, C.w.lapArg, C.w.bihar, C.w.lin, vals] =
    [C.w.c, C.w.r, C.w.lapRhs, C.w.lapArg, C.w.bihar, C.w.lin] ++ [vals] := rfl
  have h1 := (ts_disjoint C sz vals hw L hL (g := g) x hx).2.2.2.2.2.2.2
  have h2 := (ts_disjoint C sz vals hw L hL (g := g) r hr).2.2.2.2.2.2.2
  rw [e] 
  rw [e'] at hw
  refine List.nodup_append.2 ⟨(List.nodup_append.1 hw).1, by simpa using hxr, ?_⟩
  intro a ha b hb hab
  rcases List.mem_cons.1 hb with rfl | hb
  · exact h1 (hab ▸ ha)
  · rcases List.mem_cons.1 hb with rfl | hb
    · exact h2 (hab ▸ ha)
    · simp at hb

theorem tsRep_library (x : A) (f : Int → K) (hx : x ≠ C.w.c ∧ x ≠ C.w.r) (m : Mem A K) (s : TsView A K)
    (hrep : TsRep g C.w L m s) :
    TsRep g C.w L (fun a => if a = x then f else m a) (s.step g.ni g.nj g.nk C.p C.dx (.library x f)) := by
  intro i j k i0 i1 j0 j1 k0 k1
  have := hrep i j k i0 i1 j0 j1 k0 k1
  split at this
  · rw [if_pos ‹_›]
    refine ⟨fun y hy => ?_, ?_, ?_⟩
    · simp only [TsView.step]
      split
      · rfl
      · exact this.1 y hy
    · simp only [if_neg (Ne.symm hx.1)]; exact this.2.1
    · simp only [if_neg (Ne.symm hx.2)]; exact this.2.2
  · rw [if_neg ‹_›]
    simp only [if_neg (Ne.symm hx.1)]; exact this

include hn hh hG hvar hw hsz hL in
theorem tsRep_rhs (x r : A) (hx : L x) (hr : L r) (hxr : x ≠ r) (m : Mem A K) (s : TsView A K)
    (hrep : TsRep g C.w L m s) :
    ∃ m', Det sz (C.host (.rhs x r)) m m' ∧ TsRep g C.w L m' (s.step g.ni g.nj g.nk C.p C.dx (.rhs x r)) := by
  have hw' := ts_disjoint2 g C sz vals hw L hL x r hx hr hxr
  obtain ⟨m1, d1, ex, er, ec, ef, ew⟩ := C64_petsc_rhs g hn hh C.G hG C.var hvar C.w x r hw' sz hsz (hL x hx).1
    (hL r hr).1 C.p C.dx m
  have hper : (fun a b d => m x (cellNo g.nj g.nk (wrapIdx g.ni a) (wrapIdx g.nj b) (wrapIdx g.nk d))) =
      periodic g.ni g.nj g.nk (s.vec x) := by
    funext a b d
    have ha := wrapIdx_range (n := g.ni) a (by omega)
    have hb := wrapIdx_range (n := g.nj) b (by omega)
    have hd := wrapIdx_range (n := g.nk) d (by omega)
    have := hrep (wrapIdx g.ni a) (wrapIdx g.nj b) (wrapIdx g.nk d) (by omega) (by omega) (by omega) (by omega)
      (by omega) (by omega)
    rw [if_pos ⟨ha, hb, hd⟩] at this
    exact this.1 x hx
  rw [hper] at er
  refine ⟨m1, d1, ?_⟩
  intro i j k i0 i1 j0 j1 k0 k1
  have := hrep i j k i0 i1 j0 j1 k0 k1
  have hc := congrFun (congrFun (congrFun hper i) j) k
  split at this
  · rename_i hin
    have hwr : periodic g.ni g.nj g.nk (s.vec x) i j k = s.vec x i j k := by
      unfold periodic
      rw [wrapIdx_of_int hin.1.1 hin.1.2, wrapIdx_of_int hin.2.1.1 hin.2.1.2, wrapIdx_of_int hin.2.2.1 hin.2.2.2]
    rw [if_pos hin]
    refine ⟨fun y hy => ?_, ?_, ?_⟩
    · simp only [TsView.step]
      by_cases hyr : y = r
      · rw [if_pos hyr, hyr, er i j k hin.1 hin.2.1 hin.2.2]
      · rw [if_neg hyr, ef y, this.1 y hy]
        have h2 := (ts_disjoint g C sz vals hw L hL y hy).2.2.2.2.2.2.2
        have e : [C.w.c, C.w.r, C.w.lapRhs, C.w.lapArg, C.w.bihar, C.w.lin, r] =
          [C.w.c, C.w.r, C.w.lapRhs, C.w.lapArg, C.w.bihar, C.w.lin] ++ [r] := rfl
        rw [e, List.mem_append, not_or]
        exact ⟨h2, by simpa using hyr⟩
    · rw [ec i j k i0 i1 j0 j1 k0 k1]; exact hc.trans hwr
    · rw [ew i j k hin.1 hin.2.1 hin.2.2, er i j k hin.1 hin.2.1 hin.2.2]; rfl
  · rw [if_neg ‹_›, ec i j k i0 i1 j0 j1 k0 k1]; exact hc

include hn hh hG hw hsz hM hsv hL in
theorem tsRep_jacobian (x : A) (hx : L x) (m : Mem A K) (s : TsView A K) (hrep : TsRep g C.w L m s) :
    ∃ m', Det sz (C.host (.jacobian x)) m m' ∧ TsRep g C.w L m' (s.step g.ni g.nj g.nk C.p C.dx (.jacobian x)) ∧
      TsMatch g C vals m' (.assembled (s.vec x) s.halo) := by
  obtain ⟨-, -, -, hcv, hrv, hrc, hw', -⟩ := ts_disjoint g C sz vals hw L hL x hx
  obtain ⟨m1, m2, d, ⟨fv, fc⟩, ei, eh, eo⟩ := petscJacobian_op g hn (by omega) C.G hG sz C.w.c x vals hw'
    (hsz _ (by simp)) (hL x hx).1 hsv C.M hM C.p C.dx m
  refine ⟨m2, d, ?_, ?_⟩
  · intro i j k i0 i1 j0 j1 k0 k1
    have := hrep i j k i0 i1 j0 j1 k0 k1
    split at this
    · rename_i hin
      rw [if_pos hin]
      refine ⟨fun y hy => ?_, ?_, ?_⟩
      · obtain ⟨hyc, -, hyv, -⟩ := ts_disjoint g C sz vals hw L hL y hy
        rw [fv y hyv, fc y hyc, this.1 y hy]; rfl
      · rw [fv _ hcv, ei i j k hin, this.1 x hx]; rfl
      · rw [fv _ hrv, fc _ hrc, this.2.2]; rfl
    · rename_i hout
      rw [if_neg hout, fv _ hcv, eh i j k (by unfold Grid3.Pad; omega) hout, this]; rfl
  · intro v i j k hi hj hk
    rw [eo v i j k hi hj hk]
    refine chLin3_congr (fun a b d ha hb hd => ?_)
    have := hrep (i + a) (j + b) (k + d) (by omega) (by omega) (by omega) (by omega) (by omega) (by omega)
    split at this
    · rename_i hin
      rw [if_pos hin, ei _ _ _ hin, this.1 x hx]
    · rename_i hout
      rw [if_neg hout, eh _ _ _ (by unfold Grid3.Pad; omega) hout, this]

include hn hh hG hvar hw hsz hM hsv hL

theorem tsRun_refines (es : List (TsEvent A K)) (hes : ∀ e ∈ es, TsOk L vals e) (m : Mem A K) (s : TsView A K)
    (hrep : TsRep g C.w L m s) :
    ∃ m' log, (∀ lg o, TsOut sz C es m lg o ↔ lg = log ∧ o = .ok m') ∧
      TsRep g C.w L m' (s.run g.ni g.nj g.nk C.p C.dx es).1 ∧
      List.Forall₂ (TsMatch g C vals) log (s.run g.ni g.nj g.nk C.p C.dx es).2 := by
  induction es generalizing m s with
  | nil =>
    refine ⟨m, [], fun lg o => ⟨?_, ?_⟩, hrep, .nil⟩
    · rintro ⟨⟩; exact ⟨rfl, rfl⟩
    · rintro ⟨rfl, rfl⟩; exact .done m
  | cons e es ih =>
    have hes' : ∀ e' ∈ es, TsOk L vals e' := fun e' h => hes e' (List.mem_cons_of_mem _ h)
    have he := hes e List.mem_cons_self
    cases e with
    | library x f =>
      have hx : x ≠ C.w.c ∧ x ≠ C.w.r := by
        rcases he with h | rfl
        · have := ts_disjoint g C sz vals hw L hL x h
          exact ⟨this.1, this.2.1⟩
        · have e' : [C.w.c, C.w.r, C.w.lapRhs, C.w.lapArg, C.w.bihar, C.w.lin, x] =
            [C.w.c, C.w.r, C.w.lapRhs, C.w.lapArg, C.w.bihar, C.w.lin] ++ [x] := rfl
          rw [e'] at hw
          have h3 := (List.nodup_append.1 hw).2.2
          exact ⟨fun h => h3 C.w.c (by simp) x (by simp) h.symm, fun h => h3 C.w.r (by simp) x (by simp) h.symm⟩
      obtain ⟨m', log, h1, h2, h3⟩ := ih hes' _ _ (tsRep_library g C L x f hx m s hrep)
      refine ⟨m', log, fun lg o => ?_, h2, h3⟩
      rw [← h1]
      exact ⟨fun h => by cases h; assumption, fun h => .library x f es m lg o h⟩
    | rhs x r =>
      obtain ⟨m1, d1, hr⟩ := tsRep_rhs g hn hh C hG hvar sz vals hw hsz L hL x r he.1 he.2.1 he.2.2 m s hrep
      obtain ⟨m', log, h1, h2, h3⟩ := ih hes' m1 _ hr
      refine ⟨m', log, fun lg o => ?_, h2, h3⟩
      rw [← h1]
      constructor
      · intro h
        cases h with
        | rhs _ _ _ _ m2 _ _ ha hb =>
          have := (d1 _).1 ha
          injection this with this
          subst this
          exact hb
        | rhsFault _ _ _ _ e ha => have := (d1 _).1 ha; simp at this
      · exact fun h => .rhs x r es m m1 lg o ((d1 _).2 rfl) h
    | jacobian x =>
      obtain ⟨m2, d, hr, hj⟩ := tsRep_jacobian g hn hh C hG sz vals hw hsz hM hsv L hL x he m s hrep
      obtain ⟨m', log, h1, h2, h3⟩ := ih hes' m2 _ hr
      refine ⟨m', m2 :: log, fun lg o => ?_, h2, .cons hj h3⟩
      constructor
      · intro h
        cases h with
        | jacobian _ _ _ m3 lg' _ ha hb =>
          have := (d _).1 ha
          injection this with this
          subst this
          obtain ⟨rfl, rfl⟩ := (h1 _ _).1 hb
          exact ⟨rfl, rfl⟩
        | jacobianFault _ _ _ e ha => have := (d _).1 ha; simp at this
      · rintro ⟨rfl, rfl⟩
        exact .jacobian x es m m2 log _ ((d _).2 rfl) ((h1 _ _).2 ⟨rfl, rfl⟩)
    | monitor v =>
      obtain ⟨m', log, h1, h2, h3⟩ := ih hes' m s hrep
      refine ⟨m', m :: log, fun lg o => ?_, h2, .cons ?_ h3⟩
      · constructor
        · intro h
          cases h with
          | monitor _ _ _ lg' _ hb =>
            obtain ⟨rfl, rfl⟩ := (h1 _ _).1 hb
            exact ⟨rfl, rfl⟩
        · rintro ⟨rfl, rfl⟩
          exact .monitor v es m log _ ((h1 _ _).2 ⟨rfl, rfl⟩)
      · intro i j k hi hj hk
        have := hrep i j k (by omega) (by omega) (by omega) (by omega) (by omega) (by omega)
        rw [if_pos ⟨hi, hj, hk⟩] at this
        exact this.2

/-- The view a memory gives at the start of a session. -/
def tsView (g : Grid3) (w : CHArr A) (m : Mem A K) : TsView A K where
  vec x i j k := m x (cellNo g.nj g.nk i j k)
  sol i j k := m w.c (g.at3 i j k)
  res i j k := m w.r (g.at3 i j k)
  halo i j k := m w.c (g.at3 i j k)

omit hn hh hG hvar hw hsz hM hsv hL in
theorem tsRep_tsView (m : Mem A K) : TsRep g C.w L m (tsView g C.w m) := by
  intro i j k _ _ _ _ _ _
  split
  · exact ⟨fun _ _ => rfl, rfl, rfl⟩
  · rfl

/-- Whatever callbacks the library makes, in whatever order and with whichever of its vectors, no callback faults, the result
and everything observers and the assembled Jacobians show do not depend on thread scheduling, and they are those of the
abstract run: each right-hand side callback stores the right-hand side of the vector passed to it, observers are shown the
vector last passed to any callback and the residual of the vector last passed to a right-hand side callback, and each
Jacobian is the linearisation at the vector passed in, continued into the halo by the last right-hand side vector. -/
theorem C73_session (es : List (TsEvent A K)) (hes : ∀ e ∈ es, TsOk L vals e) (m : Mem A K) :
    ∃ m' log, (∀ lg o, TsOut sz C es m lg o ↔ lg = log ∧ o = .ok m') ∧
      TsRep g C.w L m' ((tsView g C.w m).run g.ni g.nj g.nk C.p C.dx es).1 ∧
      List.Forall₂ (TsMatch g C vals) log ((tsView g C.w m).run g.ni g.nj g.nk C.p C.dx es).2 :=
  tsRun_refines g hn hh C hG hvar sz vals hw hsz hM hsv L hL es hes m _ (tsRep_tsView g C L m)

/-- A whole solve: the session starts with the initial state in the solution vector, and at the end the interior of the state
is the final solution vector, whatever was evaluated last; the halo is left as the session left it. -/
theorem C73_solve (es : List (TsEvent A K)) (hes : ∀ e ∈ es, TsOk L vals e) (soln : A) (hs : L soln) (m : Mem A K) :
    ∃ m0 m1 m' log, (∀ lg o, petscSolve sz C soln es m lg o ↔ lg = log ∧ o = .ok m') ∧
      (∀ i j k, (0 ≤ i ∧ i < g.ni) → (0 ≤ j ∧ j < g.nj) → (0 ≤ k ∧ k < g.nk) →
        m0 soln (cellNo g.nj g.nk i j k) = m C.w.c (g.at3 i j k)) ∧
      (∀ b, b ≠ soln → m0 b = m b) ∧
      TsOut sz C es m0 log (.ok m1) ∧
      (∀ i j k, (0 ≤ i ∧ i < g.ni) → (0 ≤ j ∧ j < g.nj) → (0 ≤ k ∧ k < g.nk) →
        m' C.w.c (g.at3 i j k) = m1 soln (cellNo g.nj g.nk i j k)) ∧
      (∀ n, (∀ i j k, (0 ≤ i ∧ i < g.ni) → (0 ≤ j ∧ j < g.nj) → (0 ≤ k ∧ k < g.nk) → g.at3 i j k ≠ n) →
        m' C.w.c n = m1 C.w.c n) ∧
      ∀ b, b ≠ C.w.c → m' b = m1 b := by
  have hne := (ts_disjoint g C sz vals hw L hL soln hs).1
  obtain ⟨m0, d0, e0, f0⟩ := C64_state_to_vec (K := K) g (by omega) (by omega) .periodic .periodic .periodic C.G hG sz C.w.c soln
    hne (hsz _ (by simp)) (hL soln hs).1 m
  obtain ⟨m1, log, h1, -, -⟩ := C73_session g hn hh C hG hvar sz vals hw hsz hM hsv L hL es hes m0
  obtain ⟨m2, d2, e2, o2, f2⟩ := C64_vec_to_state (K := K) g (by omega) (by omega) .periodic .periodic .periodic C.G hG sz C.w.c
    soln hne (hsz _ (by simp)) (hL soln hs).1 m1
  refine ⟨m0, m1, m2, log, fun lg o => ?_, e0, f0, (h1 _ _).2 ⟨rfl, rfl⟩, e2, o2, f2⟩
  constructor
  · rintro (⟨e, he, -⟩ | ⟨ma, ha, (⟨e, he, -⟩ | ⟨mb, hb, hc⟩)⟩)
    · have := (d0 _).1 he; simp at this
    · have := (d0 _).1 ha
      injection this with this
      subst this
      have := ((h1 _ _).1 he).2; simp at this
    · have := (d0 _).1 ha
      injection this with this
      subst this
      obtain ⟨rfl, h⟩ := (h1 _ _).1 hb
      injection h with h
      subst h
      exact ⟨rfl, (d2 _).1 hc⟩
  · rintro ⟨rfl, rfl⟩
    exact Or.inr ⟨m0, (d0 _).2 rfl, Or.inr ⟨m1, (h1 _ _).2 ⟨rfl, rfl⟩, (d2 _).2 rfl⟩⟩

end

section
variable {A K : Type} [DecidableEq A] [Field K]

theorem Spec.TsView.run_append (ni nj nk : Int) (p : CHParams K) (dx : K) (s : TsView A K) (es fs : List (TsEvent A K)) :
    s.run ni nj nk p dx (es ++ fs) = (((s.run ni nj nk p dx es).1.run ni nj nk p dx fs).1,
      (s.run ni nj nk p dx es).2 ++ ((s.run ni nj nk p dx es).1.run ni nj nk p dx fs).2) := by
  induction es generalizing s with
  | nil => simp [TsView.run]
  | cons e es ih =>
    simp only [List.cons_append, TsView.run, ih]
    cases e <;> simp

/-- Events that call neither the right-hand side nor the Jacobian leave solution and residual as they are. -/
theorem Spec.TsView.run_quiet (ni nj nk : Int) (p : CHParams K) (dx : K) (s : TsView A K) (es : List (TsEvent A K))
    (h : ∀ e ∈ es, (∃ x f, e = .library x f) ∨ ∃ v, e = .monitor v) :
    (s.run ni nj nk p dx es).1.sol = s.sol ∧ (s.run ni nj nk p dx es).1.res = s.res := by
  induction es generalizing s with
  | nil => exact ⟨rfl, rfl⟩
  | cons e es ih =>
    have := ih (s.step ni nj nk p dx e) fun e' h' => h e' (List.mem_cons_of_mem _ h')
    rcases h e List.mem_cons_self with ⟨x, f, rfl⟩ | ⟨v, rfl⟩ <;> exact this

theorem Spec.TsView.run_halo (ni nj nk : Int) (p : CHParams K) (dx : K) (s : TsView A K) (es : List (TsEvent A K))
    (h : ∀ e ∈ es, ∀ x r, e ≠ .rhs x r) : (s.run ni nj nk p dx es).1.halo = s.halo := by
  induction es generalizing s with
  | nil => rfl
  | cons e es ih =>
    have := ih (s.step ni nj nk p dx e) fun e' h' => h e' (List.mem_cons_of_mem _ h')
    simp only [TsView.run, this]
    cases e with
    | rhs x r => exact absurd rfl (h _ List.mem_cons_self x r)
    | _ => rfl

theorem tsOut_append_det {sz : A → Int} {C : TsCtx A K} {es fs : List (TsEvent A K)} {m m1 : Mem A K} {log1 : List (Mem A K)}
    (h : ∀ lg o, TsOut sz C es m lg o ↔ lg = log1 ∧ o = .ok m1) (lg : List (Mem A K)) (o : Outcome A K) :
    TsOut sz C (es ++ fs) m lg o ↔ ∃ l', lg = log1 ++ l' ∧ TsOut sz C fs m1 l' o := by
  have fwd : ∀ (es : List (TsEvent A K)) (m : Mem A K) lg o, TsOut sz C (es ++ fs) m lg o →
      (∃ l1 l2 m1, TsOut sz C es m l1 (.ok m1) ∧ TsOut sz C fs m1 l2 o ∧ lg = l1 ++ l2) ∨
      ∃ e, TsOut sz C es m lg (.fault e) ∧ o = .fault e := by
    intro es
    induction es with
    | nil => exact fun m lg o h => Or.inl ⟨[], lg, m, .done m, h, rfl⟩
    | cons e es ih =>
      intro m lg o h
      cases h with
      | library x f _ _ _ _ h =>
        rcases ih _ _ _ h with ⟨l1, l2, m1, a, b, c⟩ | ⟨e, a, b⟩
        · exact Or.inl ⟨l1, l2, m1, .library _ _ _ _ _ _ a, b, c⟩
        · exact Or.inr ⟨e, .library _ _ _ _ _ _ a, b⟩
      | rhs x r _ _ m2 _ _ h1 h =>
        rcases ih _ _ _ h with ⟨l1, l2, m1, a, b, c⟩ | ⟨e, a, b⟩
        · exact Or.inl ⟨l1, l2, m1, .rhs _ _ _ _ _ _ _ h1 a, b, c⟩
        · exact Or.inr ⟨e, .rhs _ _ _ _ _ _ _ h1 a, b⟩
      | rhsFault x r _ _ e h1 => exact Or.inr ⟨e, .rhsFault _ _ _ _ _ h1, rfl⟩
      | jacobian x _ _ m2 lg' _ h1 h =>
        rcases ih _ _ _ h with ⟨l1, l2, m1, a, b, rfl⟩ | ⟨e, a, b⟩
        · exact Or.inl ⟨m2 :: l1, l2, m1, .jacobian _ _ _ _ _ _ h1 a, b, rfl⟩
        · exact Or.inr ⟨e, .jacobian _ _ _ _ _ _ h1 a, b⟩
      | jacobianFault x _ _ e h1 => exact Or.inr ⟨e, .jacobianFault _ _ _ _ h1, rfl⟩
      | monitor v _ _ lg' _ h =>
        rcases ih _ _ _ h with ⟨l1, l2, m1, a, b, rfl⟩ | ⟨e, a, b⟩
        · exact Or.inl ⟨m :: l1, l2, m1, .monitor _ _ _ _ _ a, b, rfl⟩
        · exact Or.inr ⟨e, .monitor _ _ _ _ _ a, b⟩
  have bwd : ∀ (es : List (TsEvent A K)) (m : Mem A K) l1 o1, TsOut sz C es m l1 o1 → ∀ m1, o1 = .ok m1 → ∀ l2 o,
      TsOut sz C fs m1 l2 o → TsOut sz C (es ++ fs) m (l1 ++ l2) o := by
    intro es m l1 o1 h
    induction h with
    | done m => intro m1 h l2 o h2; injection h with h; subst h; exact h2
    | library x f es m log o h ih => exact fun m1 hm l2 o h2 => .library _ _ _ _ _ _ (ih m1 hm l2 o h2)
    | rhs x r es m m1 log o h1 h ih => exact fun m1 hm l2 o h2 => .rhs _ _ _ _ _ _ _ h1 (ih m1 hm l2 o h2)
    | rhsFault x r es m e h1 => exact fun m1 hm => by simp at hm
    | jacobian x es m m1 log o h1 h ih => exact fun m1 hm l2 o h2 => .jacobian _ _ _ _ _ _ h1 (ih m1 hm l2 o h2)
    | jacobianFault x es m e h1 => exact fun m1 hm => by simp at hm
    | monitor v es m log o h ih => exact fun m1 hm l2 o h2 => .monitor _ _ _ _ _ (ih m1 hm l2 o h2)
  constructor
  · intro hh
    rcases fwd es m lg o hh with ⟨l1, l2, m2, a, b, rfl⟩ | ⟨e, a, -⟩
    · obtain ⟨rfl, h2⟩ := (h _ _).1 a
      injection h2 with h2
      subst h2
      exact ⟨l2, rfl, b⟩
    · have := ((h _ _).1 a).2; simp at this
  · rintro ⟨l', rfl, h2⟩
    exact bwd es m log1 _ ((h _ _).2 ⟨rfl, rfl⟩) m1 rfl l' o h2

theorem forall2_snoc {α β : Type} {R : α → β → Prop} {l : List α} {l' : List β} {b : β} (h : List.Forall₂ R l (l' ++ [b])) :
    ∃ a l0, l = l0 ++ [a] ∧ R a b := by
  induction l' generalizing l with
  | nil =>
    cases h with
    | cons hab ht => cases ht; exact ⟨_, [], rfl, hab⟩
  | cons x xs ih =>
    cases h with
    | cons hab ht =>
      obtain ⟨a, l0, rfl, hr⟩ := ih ht
      exact ⟨a, _ :: l0, rfl, hr⟩

end

section
variable {A K : Type} [DecidableEq A] [Field K]
variable (g : Grid3) (hn : 5 ≤ g.ni ∧ 5 ≤ g.nj ∧ 5 ≤ g.nk) (hh : g.nhalo = 2) (C : TsCtx A K)
  (hG : mkGeom3 g .periodic .periodic .periodic = .ok C.G) (hvar : C.var = 0 ∨ C.var = 1 ∨ C.var = 2)
  (sz : A → Int) (vals : A)
  (hw : [C.w.c, C.w.r, C.w.lapRhs, C.w.lapArg, C.w.bihar, C.w.lin, vals].Nodup)
  (hsz : ∀ a ∈ [C.w.c, C.w.r, C.w.lapRhs, C.w.lapArg, C.w.bihar, C.w.lin], sz a = g.size)
  (hM : g.createSparse vals = .ok C.M) (hsv : sz vals = 25 * (g.ni * g.nj * g.nk))
  (L : A → Prop) (hL : ∀ x, L x → sz x = g.ni * g.nj * g.nk ∧
    x ∉ [C.w.c, C.w.r, C.w.lapRhs, C.w.lapArg, C.w.bihar, C.w.lin, vals])
include hn hh hG hvar hw hsz hM hsv hL

/-- What observers are shown. Let a callback be made with vector `x` after any events `pre`, then nothing but library work
before the monitor call. The observers then see the values `x` had at that callback, not those of the vector `v` the
library passes to the monitor. After a right-hand side callback they see the residual of the same values. -/
theorem C73_shown_is_last_argument (pre lib : List (TsEvent A K)) (cb : TsEvent A K) (x v : A)
    (hcb : cb = .jacobian x ∨ ∃ r, cb = .rhs x r) (hlib : ∀ e ∈ lib, ∃ y f, e = .library y f)
    (hok : ∀ e ∈ pre ++ cb :: lib, TsOk L vals e) (m : Mem A K) :
    ∃ m1 m2 mm log1 log2, (∀ lg o, TsOut sz C pre m lg o ↔ lg = log1 ∧ o = .ok m1) ∧
      (∀ lg o, TsOut sz C (pre ++ (cb :: (lib ++ [.monitor v]))) m lg o ↔ lg = log2 ++ [mm] ∧ o = .ok m2) ∧
      ∀ i j k, (0 ≤ i ∧ i < g.ni) → (0 ≤ j ∧ j < g.nj) → (0 ≤ k ∧ k < g.nk) →
        mm C.w.c (g.at3 i j k) = m1 x (cellNo g.nj g.nk i j k) ∧
        ((∃ r, cb = .rhs x r) → mm C.w.r (g.at3 i j k) = chRhs3 C.p C.dx (fun a b d =>
          m1 x (cellNo g.nj g.nk (wrapIdx g.ni a) (wrapIdx g.nj b) (wrapIdx g.nk d))) i j k) := by
  obtain ⟨m1, log1, h1, r1, -⟩ := C73_session g hn hh C hG hvar sz vals hw hsz hM hsv L hL pre
    (fun e he => hok e (List.mem_append_left _ he)) m
  obtain ⟨m2, log, h2, -, f2⟩ := C73_session g hn hh C hG hvar sz vals hw hsz hM hsv L hL (pre ++ (cb :: (lib ++ [.monitor v])))
    (by
      intro e he
      rw [show pre ++ (cb :: (lib ++ [.monitor v])) = (pre ++ cb :: lib) ++ [.monitor v] by simp] at he
      rcases List.mem_append.1 he with he | he
      · exact hok e he
      · rw [List.mem_singleton.1 he]; trivial) m
  have hx : L x := by
    have := hok cb (by simp)
    rcases hcb with rfl | ⟨r, rfl⟩
    · exact this
    · exact this.1
  rw [TsView.run_append] at f2
  generalize hs1 : ((tsView g C.w m).run g.ni g.nj g.nk C.p C.dx pre).1 = s1 at r1 f2
  have hq := TsView.run_quiet g.ni g.nj g.nk C.p C.dx (s1.step g.ni g.nj g.nk C.p C.dx cb) lib
    fun e he => Or.inl (hlib e he)
  have hshape : ∃ pr, (s1.run g.ni g.nj g.nk C.p C.dx (cb :: (lib ++ [.monitor v]))).2 =
      pr ++ [.shown (s1.step g.ni g.nj g.nk C.p C.dx cb).sol (s1.step g.ni g.nj g.nk C.p C.dx cb).res] := by
    have hl : ((s1.step g.ni g.nj g.nk C.p C.dx cb).run g.ni g.nj g.nk C.p C.dx (lib ++ [.monitor v])).2 =
        ((s1.step g.ni g.nj g.nk C.p C.dx cb).run g.ni g.nj g.nk C.p C.dx lib).2 ++
          [.shown (s1.step g.ni g.nj g.nk C.p C.dx cb).sol (s1.step g.ni g.nj g.nk C.p C.dx cb).res] := by
      rw [TsView.run_append, ← hq.1, ← hq.2]; rfl
    rcases hcb with rfl | ⟨r, rfl⟩
    · exact ⟨_ :: _, congrArg (List.cons _) hl⟩
    · exact ⟨_, hl⟩
  obtain ⟨pr, hpr⟩ := hshape
  rw [hpr, ← List.append_assoc] at f2
  obtain ⟨mm, l0, rfl, hm⟩ := forall2_snoc f2
  refine ⟨m1, m2, mm, log1, l0, h1, h2, fun i j k hi hj hk => ?_⟩
  have hv : ∀ i j k, (0 ≤ i ∧ i < g.ni) → (0 ≤ j ∧ j < g.nj) → (0 ≤ k ∧ k < g.nk) →
      s1.vec x i j k = m1 x (cellNo g.nj g.nk i j k) := by
    intro i j k hi hj hk
    have := r1 i j k (by omega) (by omega) (by omega) (by omega) (by omega) (by omega)
    rw [if_pos ⟨hi, hj, hk⟩] at this
    exact (this.1 x hx).symm
  have hm' := hm i j k hi hj hk
  rw [hm'.1, hm'.2]
  constructor
  · rw [← hv i j k hi hj hk]
    rcases hcb with rfl | ⟨r, rfl⟩ <;> rfl
  · rintro ⟨r, rfl⟩
    show chRhs3 _ _ (periodic g.ni g.nj g.nk (s1.vec x)) i j k = _
    congr 1
    funext a b d
    exact hv _ _ _ (wrapIdx_range a (by omega)) (wrapIdx_range b (by omega)) (wrapIdx_range d (by omega))

/-- Before the first callback observers see the initial state, and as residual whatever the residual array held. -/
theorem C73_shown_initially (lib : List (TsEvent A K)) (v : A) (hlib : ∀ e ∈ lib, ∃ y f, e = .library y f)
    (hok : ∀ e ∈ lib, TsOk L vals e) (m : Mem A K) :
    ∃ m2 mm log2, (∀ lg o, TsOut sz C (lib ++ [.monitor v]) m lg o ↔ lg = log2 ++ [mm] ∧ o = .ok m2) ∧
      ∀ i j k, (0 ≤ i ∧ i < g.ni) → (0 ≤ j ∧ j < g.nj) → (0 ≤ k ∧ k < g.nk) →
        mm C.w.c (g.at3 i j k) = m C.w.c (g.at3 i j k) ∧ mm C.w.r (g.at3 i j k) = m C.w.r (g.at3 i j k) := by
  obtain ⟨m2, log, h2, -, f2⟩ := C73_session g hn hh C hG hvar sz vals hw hsz hM hsv L hL (lib ++ [.monitor v])
    (by
      intro e he
      rcases List.mem_append.1 he with he | he
      · exact hok e he
      · rw [List.mem_singleton.1 he]; trivial) m
  have hq := TsView.run_quiet g.ni g.nj g.nk C.p C.dx (tsView g C.w m) lib fun e he => Or.inl (hlib e he)
  simp only [TsView.run_append, TsView.run, TsView.step, hq.1, hq.2] at f2
  obtain ⟨mm, l0, rfl, hm⟩ := forall2_snoc f2
  exact ⟨m2, mm, l0, h2, fun i j k hi hj hk => hm i j k hi hj hk⟩

/-- So a solution accepted after the last callback is not what observers see: for any two contents that differ in a cell there
is a session in which the vector handed to the monitor holds the second and the observers are shown the first. -/
theorem C73_accepted_not_shown (v r : A) (hv : L v) (hr : L r) (hvr : v ≠ r) (f f' : Int → K) (i j k : Int)
    (hi : 0 ≤ i ∧ i < g.ni) (hj : 0 ≤ j ∧ j < g.nj) (hk : 0 ≤ k ∧ k < g.nk)
    (hne : f (cellNo g.nj g.nk i j k) ≠ f' (cellNo g.nj g.nk i j k)) (m : Mem A K) :
    ∃ m2 mm, (∀ lg o, TsOut sz C [.library v f, .rhs v r, .library v f', .monitor v] m lg o ↔ lg = [mm] ∧ o = .ok m2) ∧
      mm v = f' ∧ mm C.w.c (g.at3 i j k) ≠ mm v (cellNo g.nj g.nk i j k) := by
  obtain ⟨m1, m2, mm, log1, log2, h1, h2, h3⟩ := C73_shown_is_last_argument g hn hh C hG hvar sz vals hw hsz hM hsv L hL
    [.library v f] [.library v f'] (.rhs v r) v v (Or.inr ⟨r, rfl⟩) (fun e he => ⟨v, f', List.mem_singleton.1 he⟩)
    (by
      intro e he
      simp only [List.cons_append, List.nil_append, List.mem_cons, List.not_mem_nil, or_false] at he
      rcases he with rfl | rfl | rfl
      · exact Or.inl hv
      · exact ⟨hv, hr, hvr⟩
      · exact Or.inl hv) m
  have e1 : m1 = fun a => if a = v then f else m a := by
    have := (h1 _ _).1 (.library v f [] m [] (.ok _) (.done _))
    injection this.2 with h
    exact h.symm
  have hrun := (h2 _ _).2 ⟨rfl, rfl⟩
  have hlog : log2 = [] ∧ mm v = f' := by
    generalize hlg : log2 ++ [mm] = lg at hrun
    cases hrun with
    | library _ _ _ _ _ _ ha =>
      cases ha with
      | rhs _ _ _ _ ma _ _ _ hb =>
        cases hb with
        | library _ _ _ _ _ _ hc =>
          cases hc with
          | monitor _ _ _ lg' _ hd =>
            cases hd
            have hl := congrArg List.length hlg
            have : log2 = [] := by
              cases log2 with
              | nil => rfl
              | cons _ _ => simp at hl
            subst this
            simp only [List.nil_append, List.cons.injEq, and_true] at hlg
            exact ⟨rfl, by rw [hlg]; simp⟩
  obtain ⟨rfl, hmv⟩ := hlog
  refine ⟨m2, mm, h2, hmv, ?_⟩
  rw [(h3 i j k hi hj hk).1, hmv, e1]
  simpa using hne

end

section
variable {A : Type} [DecidableEq A]
variable (g : Grid3) (hn : 5 ≤ g.ni ∧ 5 ≤ g.nj ∧ 5 ≤ g.nk) (hh : g.nhalo = 2) (C : TsCtx A ℝ)
  (hG : mkGeom3 g .periodic .periodic .periodic = .ok C.G) (hvar : C.var = 0 ∨ C.var = 1 ∨ C.var = 2)
  (sz : A → Int) (vals : A)
  (hw : [C.w.c, C.w.r, C.w.lapRhs, C.w.lapArg, C.w.bihar, C.w.lin, vals].Nodup)
  (hsz : ∀ a ∈ [C.w.c, C.w.r, C.w.lapRhs, C.w.lapArg, C.w.bihar, C.w.lin], sz a = g.size)
  (hM : g.createSparse vals = .ok C.M) (hsv : sz vals = 25 * (g.ni * g.nj * g.nk))
  (L : A → Prop) (hL : ∀ x, L x → sz x = g.ni * g.nj * g.nk ∧
    x ∉ [C.w.c, C.w.r, C.w.lapRhs, C.w.lapArg, C.w.bihar, C.w.lin, vals])
include hn hh hG hvar hw hsz hM hsv hL

/-- In a session the Jacobian callback is exact whenever the vector passed to it holds the values the vector of the most
recent right-hand side callback held, whatever happened before and in between. -/
theorem C26_session (pre mid : List (TsEvent A ℝ)) (y r x : A) (hmid : ∀ e ∈ mid, ∀ a b, e ≠ .rhs a b)
    (hok : ∀ e ∈ pre ++ (.rhs y r :: (mid ++ [.jacobian x])), TsOk L vals e) (m : Mem A ℝ) :
    ∃ m1 m2 mj log1 log2 log, (∀ lg o, TsOut sz C pre m lg o ↔ lg = log1 ∧ o = .ok m1) ∧
      (∀ lg o, TsOut sz C (pre ++ (.rhs y r :: mid)) m lg o ↔ lg = log2 ∧ o = .ok m2) ∧
      (∀ lg o, TsOut sz C (pre ++ (.rhs y r :: (mid ++ [.jacobian x]))) m lg o ↔ lg = log ++ [mj] ∧ o = .ok mj) ∧
      ((∀ i j k, (0 ≤ i ∧ i < g.ni) → (0 ≤ j ∧ j < g.nj) → (0 ≤ k ∧ k < g.nk) →
          m2 x (cellNo g.nj g.nk i j k) = m1 y (cellNo g.nj g.nk i j k)) →
        ∀ (v : Int → ℝ) i j k, (0 ≤ i ∧ i < g.ni) → (0 ≤ j ∧ j < g.nj) → (0 ≤ k ∧ k < g.nk) →
          HasDerivAt (fun t : ℝ => chRhs3 C.p C.dx (fun a b d =>
              m2 x (cellNo g.nj g.nk (wrapIdx g.ni a) (wrapIdx g.nj b) (wrapIdx g.nk d)) +
              t * v (cellNo g.nj g.nk (wrapIdx g.ni a) (wrapIdx g.nj b) (wrapIdx g.nk d))) i j k)
            (mulVec (g.ni * g.nj * g.nk) (dense C.M (mj vals)) v (cellNo g.nj g.nk i j k)) 0) := by
  have hy : L y := (hok (.rhs y r) (by simp)).1
  have hx : L x := hok (.jacobian x) (by simp)
  obtain ⟨m1, log1, h1, r1, -⟩ := C73_session g hn hh C hG hvar sz vals hw hsz hM hsv L hL pre
    (fun e he => hok e (List.mem_append_left _ he)) m
  obtain ⟨m2, log2, h2, r2, f2⟩ := C73_session g hn hh C hG hvar sz vals hw hsz hM hsv L hL (pre ++ (.rhs y r :: mid))
    (fun e he => hok e (by
      rw [show pre ++ (.rhs y r :: (mid ++ [.jacobian x])) = (pre ++ .rhs y r :: mid) ++ [.jacobian x] by simp]
      exact List.mem_append_left _ he)) m
  have e12 := TsView.run_append g.ni g.nj g.nk C.p C.dx (tsView g C.w m) pre (.rhs y r :: mid)
  generalize ((tsView g C.w m).run g.ni g.nj g.nk C.p C.dx (pre ++ (.rhs y r :: mid))) = s2 at r2 f2 e12
  generalize ((tsView g C.w m).run g.ni g.nj g.nk C.p C.dx pre) = s1 at r1 e12
  have hhalo : s2.1.halo = periodic g.ni g.nj g.nk (s1.1.vec y) := by
    rw [e12]
    show ((s1.1.step g.ni g.nj g.nk C.p C.dx (.rhs y r)).run g.ni g.nj g.nk C.p C.dx mid).1.halo = _
    rw [TsView.run_halo _ _ _ _ _ _ _ hmid]
    rfl
  obtain ⟨mj, dj, -, hj⟩ := tsRep_jacobian g hn hh C hG sz vals hw hsz hM hsv L hL x hx m2 s2.1 r2
  refine ⟨m1, m2, mj, log1, log2, log2, h1, h2, fun lg o => ?_, fun heq v i j k hi hj' hk => ?_⟩
  · rw [show pre ++ (.rhs y r :: (mid ++ [.jacobian x])) = (pre ++ .rhs y r :: mid) ++ [.jacobian x] by simp,
      tsOut_append_det h2]
    constructor
    · rintro ⟨l', rfl, h⟩
      cases h with
      | jacobian _ _ _ m3 lg' _ ha hb =>
        have := (dj _).1 ha
        injection this with this
        subst this
        cases hb
        exact ⟨rfl, rfl⟩
      | jacobianFault _ _ _ e ha => have := (dj _).1 ha; simp at this
    · rintro ⟨rfl, rfl⟩
      exact ⟨[mj], rfl, .jacobian x [] m2 mj [] _ ((dj _).2 rfl) (.done _)⟩
  · rw [hj v i j k hi hj' hk]
    have hvx : ∀ i j k, (0 ≤ i ∧ i < g.ni) → (0 ≤ j ∧ j < g.nj) → (0 ≤ k ∧ k < g.nk) →
        s2.1.vec x i j k = m2 x (cellNo g.nj g.nk i j k) := by
      intro i j k hi hj hk
      have := r2 i j k (by omega) (by omega) (by omega) (by omega) (by omega) (by omega)
      rw [if_pos ⟨hi, hj, hk⟩] at this
      exact (this.1 x hx).symm
    have hvy : ∀ i j k, (0 ≤ i ∧ i < g.ni) → (0 ≤ j ∧ j < g.nj) → (0 ≤ k ∧ k < g.nk) →
        s1.1.vec y i j k = m1 y (cellNo g.nj g.nk i j k) := by
      intro i j k hi hj hk
      have := r1 i j k (by omega) (by omega) (by omega) (by omega) (by omega) (by omega)
      rw [if_pos ⟨hi, hj, hk⟩] at this
      exact (this.1 y hy).symm
    have hfield : (fun a b d => if (0 ≤ a ∧ a < g.ni) ∧ (0 ≤ b ∧ b < g.nj) ∧ (0 ≤ d ∧ d < g.nk) then s2.1.vec x a b d
        else s2.1.halo a b d) =
        fun a b d => m2 x (cellNo g.nj g.nk (wrapIdx g.ni a) (wrapIdx g.nj b) (wrapIdx g.nk d)) := by
      funext a b d
      split
      · rename_i hin
        rw [wrapIdx_of_int hin.1.1 hin.1.2, wrapIdx_of_int hin.2.1.1 hin.2.1.2, wrapIdx_of_int hin.2.2.1 hin.2.2.2,
          hvx a b d hin.1 hin.2.1 hin.2.2]
      · rw [hhalo]
        have ha := wrapIdx_range (n := g.ni) a (by omega)
        have hb := wrapIdx_range (n := g.nj) b (by omega)
        have hd := wrapIdx_range (n := g.nk) d (by omega)
        rw [heq _ _ _ ha hb hd, ← hvy _ _ _ ha hb hd]
        rfl
    rw [hfield]
    exact chRhs3_hasDeriv C.p C.dx _ _ i j k

end

/-! ### C74 -/

section
variable {K : Type} [Field K] [LinearOrder K]

namespace Spec

/-- First entry of that name, if any. -/
def firstNamed (mon : List (String × K)) (name : String) : Option K := (mon.find? fun kv => kv.1 = name).map (·.2)

end Spec

theorem monEntry_eq (mon : List (String × K)) (name : String) :
    monEntry mon name = match firstNamed mon name with | some v => .ok v | none => .error .abort := by
  induction mon with
  | nil => rfl
  | cons kv rest ih =>
    unfold monEntry firstNamed
    rw [List.find?_cons]
    by_cases h : kv.1 = name
    · simp [h]
    · simp only [h, if_false, decide_false]
      rw [ih]; rfl

/-- The stop decision of the PETSc integrator: with both tolerances off it never stops and never fails; an enabled tolerance
whose entry is missing from the monitor ends the program; otherwise it stops exactly if an enabled tolerance is reached,
equality included. -/
theorem C74_post_step (absTol relTol : K) (mon : List (String × K)) :
    (((absTol ≠ 0 ∧ firstNamed mon "abs_res" = none) ∨ (relTol ≠ 0 ∧ firstNamed mon "rel_res" = none)) →
      petscPostStep absTol relTol mon = .error .abort) ∧
    ((absTol ≠ 0 → firstNamed mon "abs_res" ≠ none) → (relTol ≠ 0 → firstNamed mon "rel_res" ≠ none) →
      ∃ b, petscPostStep absTol relTol mon = .ok b ∧
        (b = true ↔ (absTol ≠ 0 ∧ ∃ v, firstNamed mon "abs_res" = some v ∧ v ≤ absTol) ∨
          (relTol ≠ 0 ∧ ∃ v, firstNamed mon "rel_res" = some v ∧ v ≤ relTol))) := by
  unfold petscPostStep
  rw [monEntry_eq, monEntry_eq]
  cases ha : firstNamed mon "abs_res" <;> cases hr : firstNamed mon "rel_res" <;>
    by_cases h1 : absTol = 0 <;> by_cases h2 : relTol = 0 <;>
    simp [h1, h2, Except.map, Except.bind]

theorem native_stop {W : Type} (E : LoopEnv W K) (o : TimeOpts K) (mx r : K) (hE : ∀ w, E.resmon w = (residRecord mx r).1)
    (hcfl : o.useCfl = false) (hm : o.maxSteps = 0) (hrel : o.relTol = 0) (ha : o.absTol ≠ 0) (l : LoopSt W K) :
    ∃ w dt prop last stop, nextTimestep E o l = .ok (w, dt, prop, last, stop) ∧ (stop = true ↔ r < o.absTol) := by
  unfold nextTimestep relStop
  rcases hE' : E.nextDT l.w l.dt with ⟨w, prop⟩
  simp only [hcfl, hm, hrel, hE]
  unfold residRecord
  dsimp only
  rw [if_neg (by simp), if_pos ha, if_neg (fun h : (0 : K) ≠ 0 => h rfl)]
  split_ifs <;> exact ⟨_, _, _, _, _, rfl, by simp⟩

/-- The two families of integrators stop differently. Let `r` be the residual norm just recorded by the driver's residual
observer, `mx` the largest one before, and let the absolute tolerance be the only criterion. The native loop stops for
`r < tol`; the PETSc one for `r ≤ tol`, and if every residual so far was zero, for `1 ≤ tol`. -/
theorem C74_absolute_tests {W : Type} (E : LoopEnv W K) (o : TimeOpts K) (mx r : K) (h0 : 0 ≤ mx) (hr : 0 ≤ r)
    (hE : ∀ w, E.resmon w = (residRecord mx r).1) (hcfl : o.useCfl = false) (hm : o.maxSteps = 0) (hrel : o.relTol = 0)
    (ha : o.absTol ≠ 0) (l : LoopSt W K) :
    (petscPostStep o.absTol o.relTol (residRecord mx r).1 = .ok true ↔
      (if mx = 0 ∧ r = 0 then 1 ≤ o.absTol else r ≤ o.absTol)) ∧
    ∃ w dt prop last stop, nextTimestep E o l = .ok (w, dt, prop, last, stop) ∧ (stop = true ↔ r < o.absTol) := by
  refine ⟨?_, native_stop E o mx r hE hcfl hm hrel ha l⟩
  have hmax : max mx r ≠ 0 ↔ ¬ (mx = 0 ∧ r = 0) := by
    constructor
    · rintro h ⟨rfl, rfl⟩; simp at h
    · intro h h'
      have h1 : mx ≤ 0 := h' ▸ le_max_left mx r
      have h2 : r ≤ 0 := h' ▸ le_max_right mx r
      exact h ⟨le_antisymm h1 h0, le_antisymm h2 hr⟩
  unfold residRecord
  dsimp only
  rw [hrel, stdMax_eq]
  by_cases h : mx = 0 ∧ r = 0
  · have hm : ¬ (max mx r ≠ 0) := fun h' => (hmax.1 h') h
    rw [if_neg hm, if_pos h]
    simp [petscPostStep, monEntry, ha, Except.map, Except.bind]
  · rw [if_pos (hmax.2 h), if_neg h]
    simp [petscPostStep, monEntry, ha, Except.map, Except.bind]

/-- A stationary state never satisfies a PETSc tolerance below one, although its residual is zero; the native loop stops
there. -/
theorem C74_zero_residual {W : Type} (E : LoopEnv W K) (o : TimeOpts K) (hE : ∀ w, E.resmon w = (residRecord (0 : K) 0).1)
    (hcfl : o.useCfl = false) (hm : o.maxSteps = 0) (hrel : o.relTol = 0) (ha : 0 < o.absTol) (h1 : o.absTol < 1)
    (l : LoopSt W K) :
    petscPostStep o.absTol o.relTol (residRecord 0 (0 : K)).1 = .ok false ∧
      ∃ w dt prop last, nextTimestep E o l = .ok (w, dt, prop, last, true) := by
  constructor
  · simp [petscPostStep, residRecord, stdMax_eq, monEntry, ha.ne', hrel, Except.map, Except.bind, h1]
  · obtain ⟨w, dt, prop, last, stop, e, hs⟩ := native_stop E o 0 0 hE hcfl hm hrel ha.ne' l
    rw [hs.2 ha] at e
    exact ⟨w, dt, prop, last, e⟩

/-- Settings passed on: start time and step number always; step limits and error tolerance exactly for adaptive runs; a
maximum of zero steps or a final time of zero means no limit. The step size of a fixed-step run is the option, also after a
restart that has set another initial step. -/
theorem C74_settings (o : TimeOpts K) (ad : Bool) (rel lo hi optDt : K) :
    ∀ S, S = petscSettings o ad rel lo hi optDt → S.t0 = o.t0 ∧ S.step0 = o.initialStep ∧
      (S.maxSteps = none ↔ o.maxSteps = 0) ∧ (∀ n, S.maxSteps = some n → n = o.maxSteps) ∧
      (S.maxTime = none ↔ o.tfinal = 0) ∧ (∀ t, S.maxTime = some t → t = o.tfinal) ∧
      (ad = true → S.dt = o.dt0 ∧ S.adaptive = some (lo, hi, rel)) ∧
      (ad = false → S.dt = optDt ∧ S.adaptive = none) := by
  rintro S rfl
  unfold petscSettings
  refine ⟨rfl, rfl, ?_, ?_, ?_, ?_, ?_, ?_⟩ <;> dsimp only
  · by_cases h : o.maxSteps = 0 <;> simp [h]
  · intro n h; split at h <;> simp_all
  · by_cases h : o.tfinal = 0 <;> simp [h]
  · intro t h; split at h <;> simp_all
  · rintro rfl; simp
  · rintro rfl; simp

/-- A fixed-step restart whose file carries another step size than the option does not continue with it. -/
theorem C74_restart_step (o : TimeOpts K) (rel lo hi optDt : K) (h : o.dt0 ≠ optDt) :
    (petscSettings o false rel lo hi optDt).dt ≠ o.dt0 := fun h' => h (by rw [← h']; simp [petscSettings])

end

example : ∃ (absTol relTol : ℚ) (mon : List (String × ℚ)), absTol ≠ 0 ∧ relTol ≠ 0 ∧ firstNamed mon "abs_res" ≠ none ∧
    firstNamed mon "rel_res" ≠ none :=
  ⟨1 / 10, 1 / 10, [("res_c", 1), ("abs_res", 1), ("rel_res", 1)], by norm_num, by norm_num, by simp [firstNamed], by simp [firstNamed]⟩

example : ∃ (E E' : LoopEnv Unit ℚ) (o : TimeOpts ℚ), (∀ w, E.resmon w = (residRecord 2 1).1) ∧
    (∀ w, E'.resmon w = (residRecord 0 0).1) ∧ o.useCfl = false ∧ o.maxSteps = 0 ∧ o.relTol = 0 ∧ 0 < o.absTol ∧
    o.absTol < 1 :=
  ⟨⟨fun _ _ _ => .ok (), fun _ d => ((), d), fun _ _ _ _ => .ok (), fun _ => (residRecord 2 1).1⟩,
    ⟨fun _ _ _ => .ok (), fun _ d => ((), d), fun _ _ _ _ => .ok (), fun _ => (residRecord 0 0).1⟩,
    ⟨0, 1, 1 / 1000, false, 0, 0, 0, 1 / 10⟩, fun _ => rfl, fun _ => rfl, rfl, rfl, rfl, by norm_num, by norm_num⟩

example : ∃ (o : TimeOpts ℚ) (d : ℚ), o.dt0 ≠ d := ⟨⟨0, 1, 1 / 1000, false, 10, 0, 0, 0⟩, 1, by norm_num⟩

/-- The hypotheses of the session theorems hold together: state arrays `0..5`, Jacobian values `8`, library vectors `6`, `7`
and `9` on a `5 × 5 × 6` grid, with a session of every kind of event. -/
example : ∃ (C : TsCtx Nat ℝ) (sz : Nat → Int) (L : Nat → Prop) (es : List (TsEvent Nat ℝ)),
    mkGeom3 ⟨5, 5, 6, 2⟩ .periodic .periodic .periodic = .ok C.G ∧ (C.var = 0 ∨ C.var = 1 ∨ C.var = 2) ∧
    [C.w.c, C.w.r, C.w.lapRhs, C.w.lapArg, C.w.bihar, C.w.lin, 8].Nodup ∧
    (∀ a ∈ [C.w.c, C.w.r, C.w.lapRhs, C.w.lapArg, C.w.bihar, C.w.lin], sz a = (Grid3.mk 5 5 6 2).size) ∧
    (Grid3.mk 5 5 6 2).createSparse 8 = .ok C.M ∧ sz 8 = 25 * (5 * 5 * 6) ∧
    (∀ x, L x → sz x = 5 * 5 * 6 ∧ x ∉ [C.w.c, C.w.r, C.w.lapRhs, C.w.lapArg, C.w.bihar, C.w.lin, 8]) ∧
    (∀ e ∈ es, TsOk L 8 e) ∧ es.length = 5 ∧ L 6 ∧ L 7 :=
  ⟨⟨_, 1, ⟨1, 1, 0⟩, 1, ⟨0, 1, 2, 3, 4, 5⟩, _⟩,
    fun a => if a = 6 ∨ a = 7 ∨ a = 9 then 150 else if a = 8 then 25 * 150 else (Grid3.mk 5 5 6 2).size,
    fun a => a = 6 ∨ a = 7 ∨ a = 9,
    [.library 6 fun n => (n : ℝ), .rhs 6 7, .jacobian 6, .library 8 fun _ => 0, .monitor 9],
    mkGeom3_ok ⟨by decide, by decide, by decide, by decide⟩ _ _ _, by decide, by decide, by decide,
    createSparse_ok ⟨by decide, by decide, by decide, by decide⟩ ⟨by decide, by decide, by decide⟩ 8, rfl,
    (by rintro x (rfl | rfl | rfl) <;> decide),
    (by
      intro e he
      simp only [List.mem_cons, List.not_mem_nil, or_false] at he
      rcases he with rfl | rfl | rfl | rfl | rfl
      · exact Or.inl (Or.inl rfl)
      · exact ⟨Or.inl rfl, Or.inr (Or.inl rfl), by decide⟩
      · exact Or.inl rfl
      · exact Or.inr rfl
      · trivial), rfl, Or.inl rfl, Or.inr (Or.inl rfl)⟩

end Madg
