/-
C93: runs repeated on the same machine, in floating-point arithmetic.
-/
import Verif.Model.Rounded
import Verif.Proofs.ReproMain
import Verif.Props.Program

set_option linter.unusedSectionVars false
set_option linter.unusedVariables false

namespace Madg
open Spec
variable {A K : Type} [DecidableEq A]

section
variable [Arith K]

variable [LinearOrder K] [Pow K K] in
/-- C93. In any arithmetic whatever, such as one that rounds every result: if no convergence tolerance is set, as is the default,
any two executions of the program with the explicit integrators, started with the same options, restart file, random draws and
memory, end alike, however their loops are scheduled and in whatever order their sums are formed, and there is such an execution. Either both fail with the
same error, or both write the same files with the same names, leave the same contents in every array, and log the same rows
except for the columns formed by summing over all cells. -/
theorem C93_reproducible (sz : A → Int) (E : Env K) (o : RunOpts K) (file : Option VtsFile) (w : ProgArr A) (fuel : Nat)
    (hw : ∀ d, o.domain E file = .ok d → Allocated sz w o d) (hrel : o.relTol = 0) (habs : o.absTol = 0)
    (hint : o.sel.integrator ∉ ["bdf1", "steady"]) (m : Mem A K) :
    (∃ r, CmdOut sz (program E o file w fuel) m r) ∧
    ∀ r r', CmdOut sz (program E o file w fuel) m r → CmdOut sz (program E o file w fuel) m r' → SameEnd r r' := by
  have ag := program_agree (E := E) (file := file) hw hrel habs (by simpa using hint) fuel
  refine ⟨ag.exL m, fun r r' h h' => ?_⟩
  have := ag.same m r r' h h'
  rcases r with e | ⟨x, m1⟩ <;> rcases r' with e' | ⟨x', m1'⟩
  · exact this
  · exact this.elim
  · exact this.elim
  · exact this

/-- C93. In any arithmetic the second and third implementation of the Cahn–Hilliard right-hand side give the same result in every
interior cell, to the last bit, on every schedule. -/
theorem C93_fused_variants (g : Grid3) (bx bY bz : BCType) (G : Geom3) (hG : mkGeom3 g bx bY bz = .ok G) (sz : A → Int)
    (c r a1 a2 a3 a4 r' : A) (hnd : [c, r, a1, a2, a3, a4].Nodup) (hnd' : [c, r', a1, a2, a3, a4].Nodup)
    (hsz : ∀ x ∈ [c, r, r', a1, a2, a3, a4], sz x = g.size) (hn : 2 ≤ g.nhalo) (hi : 1 ≤ g.ni ∧ g.nhalo ≤ g.ni)
    (hj : 1 ≤ g.nj ∧ g.nhalo ≤ g.nj) (hk : 1 ≤ g.nk ∧ g.nhalo ≤ g.nk) (p : CHParams K) (dx : K) (m : Mem A K) :
    ∃ m1 m2, Det sz (G.evalRHS 1 p dx ⟨c, r, a1, a2, a3, a4⟩) m m1 ∧ Det sz (G.evalRHS 2 p dx ⟨c, r', a1, a2, a3, a4⟩) m m2 ∧
      ∀ i j k, (0 ≤ i ∧ i < g.ni) → (0 ≤ j ∧ j < g.nj) → (0 ≤ k ∧ k < g.nk) → m1 r (g.at3 i j k) = m2 r' (g.at3 i j k) := by
  obtain ⟨hGo, rfl, -, -, -⟩ := Geom3.ok_of_mk ⟨hi.1, hj.1, hk.1, by omega⟩ hG
  obtain ⟨m1, d1, f1⟩ := evalRHS_detA hGo (sz := sz) (w := ⟨c, r, a1, a2, a3, a4⟩)
    ⟨hnd, fun x hx => hsz x (by simp only [List.mem_cons, List.not_mem_nil, or_false] at hx ⊢; tauto)⟩ hn hi.2 hj.2 hk.2
    (v := 1) (by decide) p dx m
  obtain ⟨m2, d2, f2⟩ := evalRHS_detA hGo (sz := sz) (w := ⟨c, r', a1, a2, a3, a4⟩)
    ⟨hnd', fun x hx => hsz x (by simp only [List.mem_cons, List.not_mem_nil, or_false] at hx ⊢; tauto)⟩ hn hi.2 hj.2 hk.2
    (v := 2) (by decide) p dx m
  exact ⟨m1, m2, d1, d2, fun i j k a b c => (f1.rhs i j k ⟨a, b, c⟩).trans (f2.rhs i j k ⟨a, b, c⟩).symm⟩

end

example (m : Mem Nat (Fl binary64.round)) : ∃ G, mkGeom3 ⟨2, 3, 4, 2⟩ .periodic .neumann .periodic = .ok G ∧
    ∃ m1 m2, Det (fun _ => 336) (G.evalRHS 1 ⟨1, 2, 3⟩ (1 / 2) ⟨0, 1, 2, 3, 4, 5⟩) m m1 ∧
      Det (fun _ => 336) (G.evalRHS 2 ⟨1, 2, 3⟩ (1 / 2) ⟨0, 6, 2, 3, 4, 5⟩) m m2 ∧
      ∀ i j k, (0 ≤ i ∧ i < 2) → (0 ≤ j ∧ j < 3) → (0 ≤ k ∧ k < 4) →
        m1 1 ((⟨2, 3, 4, 2⟩ : Grid3).at3 i j k) = m2 6 ((⟨2, 3, 4, 2⟩ : Grid3).at3 i j k) := by
  have e := mkGeom3_ok (g := ⟨2, 3, 4, 2⟩) ⟨by decide, by decide, by decide, by decide⟩ .periodic .neumann .periodic
  exact ⟨_, e, C93_fused_variants _ _ _ _ _ e (fun _ => 336) 0 1 2 3 4 5 6 (by decide) (by decide) (fun _ _ => by decide)
    (by decide) (by decide) (by decide) (by decide) _ _ m⟩

/-! ### What is not reproducible -/

/-- Five cells with the values 1 and four times `2^-27`. -/
def fiveCells : Mem Unit (Fl binary64.round) := fun _ n => ⟨if n = 0 then 1 else 1 / 2 ^ 27⟩

theorem comb2 {op : K → K → K} (x y : K) : Comb op [x, y] (op x y) :=
  .node [x] [y] _ _ _ (.leaf x) (.leaf y) (.refl _)

/-- C93. The summed columns are not reproducible: in double precision there are cell values and a tolerance for which two
executions of the residual norm differ, one lying below the tolerance and the other not. So with a tolerance set even the number of
steps may depend on the order in which threads finish. -/
theorem C93_sum_depends_on_order : ∃ (l : List Int) (m : Mem Unit (Fl binary64.round)) (x y tol : Fl binary64.round),
    CmdOut (fun _ => 5) (residNorm id l ()) m (.ok (x, m)) ∧ CmdOut (fun _ => 5) (residNorm id l ()) m (.ok (y, m)) ∧
      x < tol ∧ ¬ y < tol := by
  let q : Fl binary64.round := ⟨1 / 2 ^ 54⟩
  have q1 : binary64.round ((1 / 2 ^ 27) ^ 2) = 1 / 2 ^ 54 := by decide +kernel
  have q0 : binary64.round (1 ^ 2) = 1 := by decide +kernel
  have run : List.Forall₂ (fun p x => Prog.run (fun _ => 5) p fiveCells = .ok (x, fiveCells))
      (redIdx [0, 1, 2, 3, 4] fun n => (Prog.rd () n).bind fun v => .pure (v ^ 2)) [⟨1⟩, q, q, q, q] := by
    have b : ∀ n : Int, 0 < n → n < 5 → Prog.run (fun _ => 5) ((Prog.rd () n).bind fun v => .pure (v ^ 2)) fiveCells =
        .ok (q, fiveCells) := by
      intro n h0 h1
      have hb : InB (fun _ : Unit => (5 : Int)) () n := ⟨by omega, h1⟩
      rw [run_bind_ok (run_rd hb fiveCells)]
      have : fiveCells () n ^ 2 = q := by
        unfold fiveCells
        rw [if_neg (by omega)]
        exact congrArg Fl.mk q1
      rw [this]; rfl
    rw [redIdx_eq_map]
    refine .cons ?_ (.cons (b 1 (by decide) (by decide)) (.cons (b 2 (by decide) (by decide))
      (.cons (b 3 (by decide) (by decide)) (.cons (b 4 (by decide) (by decide)) .nil))))
    have hb : InB (fun _ : Unit => (5 : Int)) () 0 := by decide
    rw [run_bind_ok (run_rd hb fiveCells)]
    have : fiveCells () 0 ^ 2 = ⟨1⟩ := by
      unfold fiveCells
      rw [if_pos rfl]
      exact congrArg Fl.mk q0
    rw [this]; rfl
  have len : (([0, 1, 2, 3, 4] : List Int).length : Fl binary64.round) = ⟨5⟩ := by
    have : binary64.round 5 = 5 := by decide +kernel
    exact congrArg Fl.mk this
  have out : ∀ s, Comb (· + ·) [0, ⟨1⟩, q, q, q, q] s →
      CmdOut (fun _ => 5) (residNorm id [0, 1, 2, 3, 4] ()) fiveCells (.ok (s / ⟨5⟩, fiveCells)) := by
    intro s hs
    refine CmdOut.reduce _ _ _ _ _ _ s _ run hs ?_
    rw [len]
    exact CmdOut.ret _ _
  have a1 : (0 : Fl binary64.round) + ⟨1⟩ = ⟨1⟩ := by
    have : binary64.round (0 + 1) = 1 := by decide +kernel
    exact congrArg Fl.mk this
  have a2 : (⟨1⟩ : Fl binary64.round) + q = ⟨1⟩ := by
    have : binary64.round (1 + 1 / 2 ^ 54) = 1 := by decide +kernel
    exact congrArg Fl.mk this
  have a3 : q + q = ⟨1 / 2 ^ 53⟩ := by
    have : binary64.round (1 / 2 ^ 54 + 1 / 2 ^ 54) = 1 / 2 ^ 53 := by decide +kernel
    exact congrArg Fl.mk this
  have a4 : (⟨1 / 2 ^ 53⟩ : Fl binary64.round) + ⟨1 / 2 ^ 53⟩ = ⟨1 / 2 ^ 52⟩ := by
    have : binary64.round (1 / 2 ^ 53 + 1 / 2 ^ 53) = 1 / 2 ^ 52 := by decide +kernel
    exact congrArg Fl.mk this
  have a5 : (⟨1⟩ : Fl binary64.round) + ⟨1 / 2 ^ 52⟩ = ⟨1 + 1 / 2 ^ 52⟩ := by
    have : binary64.round (1 + 1 / 2 ^ 52) = 1 + 1 / 2 ^ 52 := by decide +kernel
    exact congrArg Fl.mk this
  have c1 : Comb (· + ·) [0, (⟨1⟩ : Fl binary64.round)] ⟨1⟩ := by have := comb2 (op := (· + ·)) (0 : Fl binary64.round) ⟨1⟩; rwa [a1] at this
  have left : Comb (· + ·) [0, (⟨1⟩ : Fl binary64.round), q, q, q, q] ⟨1⟩ := by
    have step : ∀ l : List (Fl binary64.round), Comb (· + ·) l ⟨1⟩ → Comb (· + ·) (l ++ [q]) ⟨1⟩ := by
      intro l h
      have := Comb.node (op := (· + ·)) l [q] _ _ _ h (.leaf q) (.refl _)
      rwa [a2] at this
    exact step _ (step _ (step _ (step _ c1)))
  have right : Comb (· + ·) [0, (⟨1⟩ : Fl binary64.round), q, q, q, q] ⟨1 + 1 / 2 ^ 52⟩ := by
    have h2 : Comb (· + ·) [q, q] (⟨1 / 2 ^ 53⟩ : Fl binary64.round) := by have := comb2 (op := (· + ·)) q q; rwa [a3] at this
    have h4 : Comb (· + ·) [q, q, q, q] (⟨1 / 2 ^ 52⟩ : Fl binary64.round) := by
      have := Comb.node (op := (· + ·)) [q, q] [q, q] _ _ _ h2 h2 (.refl _)
      rwa [a4] at this
    have := Comb.node (op := (· + ·)) [0, ⟨1⟩] [q, q, q, q] _ _ _ c1 h4 (.refl _)
    rwa [a5] at this
  refine ⟨[0, 1, 2, 3, 4], fiveCells, _, _, _, out _ left, out _ right, ?_, lt_irrefl _⟩
  have : binary64.round (1 / 5) < binary64.round ((1 + 1 / 2 ^ 52) / 5) := by decide +kernel
  exact this

/-! ### A case -/

/-- Options of a run in double precision: two-dimensional, 3 by 3 cells. -/
def demoFl (integrator : String) : RunOpts (Fl binary64.round) where
  sel := ⟨2, "periodic", "neumann", "periodic", "cahn-hilliard", integrator, false⟩
  nx := 3
  ny := 3
  nz := 3
  box := ⟨0, 1, 0, 0⟩
  variant := 1
  par := ⟨1, 1, 1⟩
  t0 := 0
  tfinal := 1
  dt0 := 1 / 10
  useCfl := false
  maxSteps := 100
  relTol := 0
  absTol := 0
  errTol := 1
  minStep := 0
  maxStep := 1
  logFreq := 1
  saveEvery := 5
  logFile := ['l']
  solFile := ['s']
  mg := ⟨1, 1, 1, 0, 1, 1, 1, "linear"⟩

example [Pow (Fl binary64.round) (Fl binary64.round)] (E : Env (Fl binary64.round)) (m : Mem Nat (Fl binary64.round))
    (i : String) (hi : i = "rk3ssp" ∨ i = "ode23") :
    (∃ r, CmdOut (demoSize 64 49) (program E (demoFl i) none demoArr 1000) m r) ∧
    ∀ r r', CmdOut (demoSize 64 49) (program E (demoFl i) none demoArr 1000) m r →
      CmdOut (demoSize 64 49) (program E (demoFl i) none demoArr 1000) m r' → SameEnd r r' := by
  refine C93_reproducible _ E _ none _ _ (fun d hd => ?_) rfl rfl (by rcases hi with rfl | rfl <;> simp [demoFl]) m
  cases hd
  exact ⟨fun _ => ⟨by simp [demoFl], ⟨by simp [demoArr], by simp [demoArr, demoSize, demoFl], by simp [demoArr, demoSize, demoFl]⟩⟩,
    fun h => by simp [demoFl] at h⟩

end Madg
