/-
Two executions of host code compared: what does not depend on the arithmetic being associative.
-/
import Verif.Proofs.Single
import Verif.Proofs.Reduce
import Verif.Model.Program

set_option linter.unusedSectionVars false

namespace Madg
variable {A K α β α' β' : Type} [DecidableEq A]

/-- A host routine that is safe and has one result from every memory. -/
def HDet (sz : A → Int) (h : Host A K) : Prop := ∀ m, ∃ m', Det sz h m m'

theorem HDet.nil (sz : A → Int) : HDet sz ([] : Host A K) := fun m => ⟨m, det_nil sz m⟩

theorem HDet.append {sz : A → Int} {h1 h2 : Host A K} (d1 : HDet sz h1) (d2 : HDet sz h2) : HDet sz (h1 ++ h2) := by
  intro m
  obtain ⟨m1, e1⟩ := d1 m
  obtain ⟨m2, e2⟩ := d2 m1
  exact ⟨m2, det_append e1 e2⟩

/-- Two outcomes are the same error, or normal with the same memory and related results. -/
def SameOut (R : α → α' → Prop) : Except Err (α × Mem A K) → Except Err (α' × Mem A K) → Prop
  | .ok r, .ok r' => R r.1 r'.1 ∧ r.2 = r'.2
  | .error e, .error e' => e = e'
  | _, _ => False

/-- Both routines have executions from every memory, and all of them end the same way, with results related by `R`. -/
structure Agree (sz : A → Int) (R : α → α' → Prop) (c : Cmd A K α) (c' : Cmd A K α') : Prop where
  exL : ∀ m, ∃ o, CmdOut sz c m o
  exR : ∀ m, ∃ o, CmdOut sz c' m o
  same : ∀ m o o', CmdOut sz c m o → CmdOut sz c' m o' → SameOut R o o'

variable {sz : A → Int}

theorem Agree.ret {R : α → α' → Prop} {x : α} {y : α'} (h : R x y) : Agree (K := K) sz R (.ret x) (.ret y) := by
  refine ⟨fun m => ⟨_, .ret _ _⟩, fun m => ⟨_, .ret _ _⟩, ?_⟩
  intro m o o' h1 h2
  cases h1; cases h2
  exact ⟨h, rfl⟩

theorem Agree.fail {R : α → α' → Prop} (e : Err) : Agree (K := K) sz R (.fail e) (.fail e) := by
  refine ⟨fun m => ⟨_, .fail _ _⟩, fun m => ⟨_, .fail _ _⟩, ?_⟩
  intro m o o' h1 h2
  cases h1; cases h2
  exact rfl

theorem Agree.bind {R : α → α' → Prop} {S : β → β' → Prop} {c : Cmd A K α} {c' : Cmd A K α'} {f : α → Cmd A K β}
    {f' : α' → Cmd A K β'} (h : Agree sz R c c') (hf : ∀ x y, R x y → Agree sz S (f x) (f' y)) :
    Agree sz S (c.bind f) (c'.bind f') := by
  refine ⟨fun m => ?_, fun m => ?_, ?_⟩
  · obtain ⟨o, ho⟩ := h.exL m
    obtain ⟨o', ho'⟩ := h.exR m
    have hs := h.same m o o' ho ho'
    rcases o with e | ⟨x, m1⟩
    · exact ⟨_, cmdOut_bind.2 (Or.inr ⟨e, ho, rfl⟩)⟩
    · rcases o' with e' | ⟨y, m2⟩
      · exact hs.elim
      · obtain ⟨p, hp⟩ := (hf x y hs.1).exL m1
        exact ⟨p, cmdOut_bind.2 (Or.inl ⟨x, m1, ho, hp⟩)⟩
  · obtain ⟨o, ho⟩ := h.exL m
    obtain ⟨o', ho'⟩ := h.exR m
    have hs := h.same m o o' ho ho'
    rcases o' with e | ⟨y, m2⟩
    · exact ⟨_, cmdOut_bind.2 (Or.inr ⟨e, ho', rfl⟩)⟩
    · rcases o with e' | ⟨x, m1⟩
      · exact hs.elim
      · obtain ⟨p, hp⟩ := (hf x y hs.1).exR m2
        exact ⟨p, cmdOut_bind.2 (Or.inl ⟨y, m2, ho', hp⟩)⟩
  intro m o o' h1 h2
  rw [cmdOut_bind] at h1 h2
  rcases h1 with ⟨x, m1, a1, b1⟩ | ⟨e, a1, rfl⟩
  · rcases h2 with ⟨y, m2, a2, b2⟩ | ⟨e, a2, rfl⟩
    · obtain ⟨hr, rfl⟩ := h.same m _ _ a1 a2
      exact (hf x y hr).same _ _ _ b1 b2
    · exact (h.same m _ _ a1 a2).elim
  · rcases h2 with ⟨y, m2, a2, b2⟩ | ⟨e', a2, rfl⟩
    · exact (h.same m _ _ a1 a2).elim
    · exact h.same m _ _ a1 a2

theorem Agree.mono {R S : α → α' → Prop} {c : Cmd A K α} {c' : Cmd A K α'} (h : Agree sz R c c') (hs : ∀ x y, R x y → S x y) :
    Agree sz S c c' := by
  refine ⟨h.exL, h.exR, ?_⟩
  intro m o o' h1 h2
  have := h.same m o o' h1 h2
  rcases o with e | r <;> rcases o' with e' | r'
  · exact this
  · exact this.elim
  · exact this.elim
  · exact ⟨hs _ _ this.1, this.2⟩

/-- Code with a single outcome. -/
theorem Agree.of_eq {c : Cmd A K α} (h : ∀ m, ∃ o0, ∀ o, CmdOut sz c m o ↔ o = o0) : Agree sz Eq c c := by
  have ex : ∀ m, ∃ o, CmdOut sz c m o := fun m => (h m).imp fun o0 h0 => (h0 o0).2 rfl
  refine ⟨ex, ex, ?_⟩
  intro m o o' h1 h2
  obtain ⟨o0, h0⟩ := h m
  rw [(h0 o).1 h1, (h0 o').1 h2]
  rcases o0 with e | r
  · exact rfl
  · exact ⟨rfl, rfl⟩

theorem Agree.ofProg (p : Prog A K α) : Agree sz Eq (Cmd.ofProg p) (Cmd.ofProg p) :=
  Agree.of_eq fun m => ⟨p.run sz m, fun _ => cmdOut_ofProg⟩

theorem Agree.ofExcept (e : Except Err α) : Agree (K := K) sz Eq (Cmd.ofExcept e) (Cmd.ofExcept e) := by
  rcases e with e | x
  · exact Agree.fail e
  · exact Agree.ret rfl

theorem Agree.ofSetup (e : Except SetupErr α) : Agree (K := K) sz Eq (Madg.ofSetup e) (Madg.ofSetup e) := by
  rcases e with e | x
  · exact Agree.fail _
  · exact Agree.ret rfl

theorem Agree.ofHost {h : Host A K} (hd : HDet sz h) : Agree sz Eq (Cmd.ofHost h) (Cmd.ofHost h) := by
  refine Agree.of_eq fun m => ?_
  obtain ⟨m', d⟩ := hd m
  exact ⟨.ok ((), m'), CDet.ofHost d⟩

/-- Sequential loops, whether they succeed or not. -/
theorem Agree.ofSingles (ps : List (Prog A K Unit)) :
    Agree sz Eq (Cmd.ofHost (ps.map fun p => [p])) (Cmd.ofHost (ps.map fun p => [p])) := by
  induction ps with
  | nil => exact Agree.ret rfl
  | cons p ps ih =>
    have ex : ∀ m, ∃ o, CmdOut sz (Cmd.ofHost ((p :: ps).map fun p => [p])) m o := by
      intro m
      cases hr : p.run sz m with
      | error e => exact ⟨_, .loopFault _ _ _ e ((kernelOut_single _ _ _ _).2 (by rw [hr]; rfl))⟩
      | ok r =>
        obtain ⟨o, ho⟩ := ih.exL r.2
        exact ⟨o, .loop _ _ _ _ _ ((kernelOut_single _ _ _ _).2 (by rw [hr]; rfl)) ho⟩
    refine ⟨ex, ex, ?_⟩
    intro m o o' h1 h2
    simp only [List.map_cons, Cmd.ofHost] at h1 h2
    cases h1 with
    | loop _ _ _ m1 _ k1 r1 =>
      rw [kernelOut_single] at k1
      cases h2 with
      | loop _ _ _ m2 _ k2 r2 =>
        rw [kernelOut_single] at k2
        have := k1.trans k2.symm
        cases this
        exact ih.same _ _ _ r1 r2
      | loopFault _ _ _ e k2 =>
        rw [kernelOut_single] at k2
        cases k1.trans k2.symm
    | loopFault _ _ _ e k1 =>
      rw [kernelOut_single] at k1
      cases h2 with
      | loop _ _ _ m2 _ k2 r2 =>
        rw [kernelOut_single] at k2
        cases k1.trans k2.symm
      | loopFault _ _ _ e k2 =>
        rw [kernelOut_single] at k2
        cases k1.trans k2.symm
        exact rfl

theorem reduce_ex (op : K → K → K) (init : K) (ps : List (Prog A K K))
    (hrun : ∀ p ∈ ps, ∀ m, ∃ x, p.run sz m = .ok (x, m)) (m : Mem A K) : ∃ o, CmdOut sz (Cmd.reduceOf op init ps) m o := by
  have hx : ∃ xs, List.Forall₂ (fun p x => Prog.run sz p m = .ok (x, m)) ps xs := by
    induction ps with
    | nil => exact ⟨[], .nil⟩
    | cons p ps ih =>
      obtain ⟨x, h⟩ := hrun p (by simp) m
      obtain ⟨xs, h'⟩ := ih fun q hq => hrun q (List.mem_cons_of_mem _ hq)
      exact ⟨x :: xs, .cons h h'⟩
  obtain ⟨xs, hx⟩ := hx
  exact ⟨_, .reduce _ _ _ _ _ xs _ _ hx (comb_foldl op init xs) (.ret _ _)⟩

/-- A reduction whose bodies succeed: the memory is unchanged; the value depends on the order of combination. -/
theorem Agree.reduceAny (op : K → K → K) (init : K) (ps : List (Prog A K K))
    (hrun : ∀ p ∈ ps, ∀ m, ∃ x, p.run sz m = .ok (x, m)) :
    Agree sz (fun _ _ => True) (Cmd.reduceOf op init ps) (Cmd.reduceOf op init ps) := by
  refine ⟨reduce_ex op init ps hrun, reduce_ex op init ps hrun, ?_⟩
  intro m o o' h1 h2
  have no : ∀ p ∈ ps, ∀ e, p.run sz m ≠ .error e := by
    intro p hp e h
    obtain ⟨x, hx⟩ := hrun p hp m
    rw [hx] at h; cases h
  cases h1 with
  | reduce _ _ _ _ _ xs r _ hx hr hk =>
    cases hk
    cases h2 with
    | reduce _ _ _ _ _ xs' r' _ hx' hr' hk' => cases hk'; exact ⟨trivial, rfl⟩
    | reduceFault _ _ _ _ _ p hp e hf => exact (no p hp e hf).elim
  | reduceFault _ _ _ _ _ p hp e hf => exact (no p hp e hf).elim

theorem forall2_run_unique {ps : List (Prog A K K)} {m : Mem A K} {xs ys : List K}
    (hx : List.Forall₂ (fun p x => Prog.run sz p m = .ok (x, m)) ps xs)
    (hy : List.Forall₂ (fun p x => Prog.run sz p m = .ok (x, m)) ps ys) : xs = ys := by
  induction hx generalizing ys with
  | nil => cases hy; rfl
  | cons h _ ih =>
    cases hy with
    | cons h' hy' =>
      have := h.symm.trans h'
      simp only [Except.ok.injEq, Prod.mk.injEq, and_true] at this
      rw [this, ih hy']

/-- The same for an operation that is associative and commutative: the value is determined as well. -/
theorem Agree.reduceAC {op : K → K → K} (ha : ∀ a b c, op (op a b) c = op a (op b c)) (hc : ∀ a b, op a b = op b a)
    (init : K) (ps : List (Prog A K K)) (hrun : ∀ p ∈ ps, ∀ m, ∃ x, p.run sz m = .ok (x, m)) :
    Agree sz Eq (Cmd.reduceOf op init ps) (Cmd.reduceOf op init ps) := by
  refine ⟨reduce_ex op init ps hrun, reduce_ex op init ps hrun, ?_⟩
  intro m o o' h1 h2
  have no : ∀ p ∈ ps, ∀ e, p.run sz m ≠ .error e := by
    intro p hp e h
    obtain ⟨x, hx⟩ := hrun p hp m
    rw [hx] at h; cases h
  cases h1 with
  | reduce _ _ _ _ _ xs r _ hx hr hk =>
    cases hk
    cases h2 with
    | reduce _ _ _ _ _ xs' r' _ hx' hr' hk' =>
      cases hk'
      obtain rfl := forall2_run_unique hx hx'
      exact ⟨hr.unique ha hc hr', rfl⟩
    | reduceFault _ _ _ _ _ p hp e hf => exact (no p hp e hf).elim
  | reduceFault _ _ _ _ _ p hp e hf => exact (no p hp e hf).elim

end Madg
