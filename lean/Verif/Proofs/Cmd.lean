/-
Deterministic host code: sequencing, loops and reductions.
-/
import Verif.Model.Cmd
import Verif.Proofs.Sched

set_option linter.unusedSectionVars false

namespace Madg
variable {A K α β : Type} [DecidableEq A]

/-! ### Reductions -/

theorem Comb.value {op : K → K → K} (ha : ∀ a b c, op (op a b) c = op a (op b c)) (hc : ∀ a b, op a b = op b a)
    {l : List K} {r : K} (h : Comb op l r) : l.foldr (fun x acc => some (acc.elim x (op x))) none = some r := by
  have key : ∀ {l r}, Comb op l r → ∀ acc : Option K,
      l.foldr (fun x acc => some (acc.elim x (op x))) acc = some (acc.elim r (op r)) := by
    intro l r h
    induction h with
    | leaf x => intro acc; rfl
    | node xs ys zs a b hx hy hp ihx ihy =>
      intro acc
      have : LeftCommutative (fun (x : K) (acc : Option K) => some (acc.elim x (op x))) :=
        ⟨fun x y acc => by
          cases acc with
          | none => simp only [Option.elim]; rw [hc]
          | some z => simp only [Option.elim]; rw [← ha, ← ha, hc x y]⟩
      rw [← hp.foldr_eq, List.foldr_append, ihy, ihx]
      cases acc with
      | none => rfl
      | some z => simp only [Option.elim]; rw [ha]
  exact key h none

theorem Comb.unique {op : K → K → K} (ha : ∀ a b c, op (op a b) c = op a (op b c)) (hc : ∀ a b, op a b = op b a)
    {l : List K} {r r' : K} (h : Comb op l r) (h' : Comb op l r') : r = r' :=
  Option.some.inj ((h.value ha hc).symm.trans (h'.value ha hc))

theorem comb_foldl (op : K → K → K) (init : K) (xs : List K) : Comb op (init :: xs) (xs.foldl op init) := by
  have key : ∀ (xs done : List K) (a : K), Comb op done a → Comb op (done ++ xs) (xs.foldl op a) := by
    intro xs
    induction xs with
    | nil => intro done a h; simpa using h
    | cons x xs ih =>
      intro done a h
      have := ih (done ++ [x]) (op a x) (.node _ _ _ _ _ h (.leaf x) (List.Perm.refl _))
      simpa using this
  exact key xs [init] init (.leaf init)

theorem comb_iff {op : K → K → K} (ha : ∀ a b c, op (op a b) c = op a (op b c)) (hc : ∀ a b, op a b = op b a)
    (init : K) (xs : List K) (r : K) : Comb op (init :: xs) r ↔ r = xs.foldl op init :=
  ⟨fun h => h.unique ha hc (comb_foldl op init xs), fun h => h ▸ comb_foldl op init xs⟩

/-! ### Sequencing -/

theorem cmdOut_bind {sz : A → Int} {c : Cmd A K α} {f : α → Cmd A K β} {m : Mem A K}
    {o : Except Err (β × Mem A K)} :
    CmdOut sz (c.bind f) m o ↔ (∃ x m1, CmdOut sz c m (.ok (x, m1)) ∧ CmdOut sz (f x) m1 o) ∨
      (∃ e, CmdOut sz c m (.error e) ∧ o = .error e) := by
  induction c generalizing m with
  | ret x =>
    constructor
    · intro h; exact Or.inl ⟨x, m, .ret x m, h⟩
    · rintro (⟨y, m1, h, h'⟩ | ⟨e, h, _⟩)
      · cases h; exact h'
      · cases h
  | fail e =>
    constructor
    · intro h
      cases h
      exact Or.inr ⟨e, .fail e m, rfl⟩
    · rintro (⟨y, m1, h, h'⟩ | ⟨e', h, rfl⟩)
      · cases h
      · cases h; exact .fail e m
  | loop ps k ih =>
    constructor
    · intro h
      cases h with
      | loop _ _ _ m1 _ h hk =>
        rcases ih.1 hk with ⟨x, m2, h1, h2⟩ | ⟨e, h1, rfl⟩
        · exact Or.inl ⟨x, m2, .loop _ _ _ _ _ h h1, h2⟩
        · exact Or.inr ⟨e, .loop _ _ _ _ _ h h1, rfl⟩
      | loopFault _ _ _ e h => exact Or.inr ⟨e, .loopFault _ _ _ e h, rfl⟩
    · rintro (⟨x, m2, h, h2⟩ | ⟨e, h, rfl⟩)
      · cases h with
        | loop _ _ _ m1 _ h hk => exact .loop _ _ _ _ _ h (ih.2 (Or.inl ⟨x, m2, hk, h2⟩))
      · cases h with
        | loop _ _ _ m1 _ h hk => exact .loop _ _ _ _ _ h (ih.2 (Or.inr ⟨e, hk, rfl⟩))
        | loopFault _ _ _ _ h => exact .loopFault _ _ _ e h
  | reduce op init ps k ih =>
    constructor
    · intro h
      cases h with
      | reduce _ _ _ _ _ xs r _ hx hr hk =>
        rcases (ih r).1 hk with ⟨x, m2, h1, h2⟩ | ⟨e, h1, rfl⟩
        · exact Or.inl ⟨x, m2, .reduce _ _ _ _ _ xs r _ hx hr h1, h2⟩
        · exact Or.inr ⟨e, .reduce _ _ _ _ _ xs r _ hx hr h1, rfl⟩
      | reduceFault _ _ _ _ _ p hp e hf => exact Or.inr ⟨e, .reduceFault _ _ _ _ _ p hp e hf, rfl⟩
    · rintro (⟨x, m2, h, h2⟩ | ⟨e, h, rfl⟩)
      · cases h with
        | reduce _ _ _ _ _ xs r _ hx hr hk =>
          exact .reduce _ _ _ _ _ xs r _ hx hr ((ih r).2 (Or.inl ⟨x, m2, hk, h2⟩))
      · cases h with
        | reduce _ _ _ _ _ xs r _ hx hr hk =>
          exact .reduce _ _ _ _ _ xs r _ hx hr ((ih r).2 (Or.inr ⟨e, hk, rfl⟩))
        | reduceFault _ _ _ _ _ p hp _ hf => exact .reduceFault _ _ _ _ _ p hp e hf
  | load a i k ih =>
    constructor
    · intro h
      cases h with
      | load _ _ _ _ _ h hk =>
        rcases (ih _).1 hk with ⟨x, m2, h1, h2⟩ | ⟨e, h1, rfl⟩
        · exact Or.inl ⟨x, m2, .load _ _ _ _ _ h h1, h2⟩
        · exact Or.inr ⟨e, .load _ _ _ _ _ h h1, rfl⟩
      | loadFault _ _ _ _ h => exact Or.inr ⟨_, .loadFault _ _ _ _ h, rfl⟩
    · rintro (⟨x, m2, h, h2⟩ | ⟨e, h, rfl⟩)
      · cases h with
        | load _ _ _ _ _ h hk => exact .load _ _ _ _ _ h ((ih _).2 (Or.inl ⟨x, m2, hk, h2⟩))
      · cases h with
        | load _ _ _ _ _ h hk => exact .load _ _ _ _ _ h ((ih _).2 (Or.inr ⟨e, hk, rfl⟩))
        | loadFault _ _ _ _ h => exact .loadFault _ _ _ _ h
  | store a i v k ih =>
    constructor
    · intro h
      cases h with
      | store _ _ _ _ _ _ h hk =>
        rcases ih.1 hk with ⟨x, m2, h1, h2⟩ | ⟨e, h1, rfl⟩
        · exact Or.inl ⟨x, m2, .store _ _ _ _ _ _ h h1, h2⟩
        · exact Or.inr ⟨e, .store _ _ _ _ _ _ h h1, rfl⟩
      | storeFault _ _ _ _ _ h => exact Or.inr ⟨_, .storeFault _ _ _ _ _ h, rfl⟩
    · rintro (⟨x, m2, h, h2⟩ | ⟨e, h, rfl⟩)
      · cases h with
        | store _ _ _ _ _ _ h hk => exact .store _ _ _ _ _ _ h (ih.2 (Or.inl ⟨x, m2, hk, h2⟩))
      · cases h with
        | store _ _ _ _ _ _ h hk => exact .store _ _ _ _ _ _ h (ih.2 (Or.inr ⟨e, hk, rfl⟩))
        | storeFault _ _ _ _ _ h => exact .storeFault _ _ _ _ _ h

/-- Sequential host code has the one outcome of running it. -/
theorem cmdOut_ofProg {sz : A → Int} {p : Prog A K α} {m : Mem A K} {o : Except Err (α × Mem A K)} :
    CmdOut sz (Cmd.ofProg p) m o ↔ o = p.run sz m := by
  induction p generalizing m with
  | pure x =>
    constructor
    · intro h; cases h; rfl
    · rintro rfl; exact .ret _ _
  | fail e =>
    constructor
    · intro h; cases h; rfl
    · rintro rfl; exact .fail _ _
  | load a i k ih =>
    simp only [Prog.run]
    by_cases hb : InB sz a i
    · rw [if_pos hb]
      constructor
      · intro h
        cases h with
        | load _ _ _ _ _ h hk => exact (ih _).1 hk
        | loadFault _ _ _ _ h => exact absurd hb h
      · intro h; exact .load _ _ _ _ _ hb ((ih _).2 h)
    · rw [if_neg hb]
      constructor
      · intro h
        cases h with
        | load _ _ _ _ _ h hk => exact absurd h hb
        | loadFault _ _ _ _ h => rfl
      · rintro rfl; exact .loadFault _ _ _ _ hb
  | store a i v k ih =>
    simp only [Prog.run]
    by_cases hb : InB sz a i
    · rw [if_pos hb]
      constructor
      · intro h
        cases h with
        | store _ _ _ _ _ _ h hk => exact ih.1 hk
        | storeFault _ _ _ _ _ h => exact absurd hb h
      · intro h; exact .store _ _ _ _ _ _ hb (ih.2 h)
    · rw [if_neg hb]
      constructor
      · intro h
        cases h with
        | store _ _ _ _ _ _ h hk => exact absurd h hb
        | storeFault _ _ _ _ _ h => rfl
      · rintro rfl; exact .storeFault _ _ _ _ _ hb

theorem CDet.ofProg {sz : A → Int} {p : Prog A K α} {m m' : Mem A K} {x : α} (h : p.run sz m = .ok (x, m')) :
    CDet sz (Cmd.ofProg p) m x m' := by
  intro o; rw [cmdOut_ofProg, h]

theorem CDet.ret {sz : A → Int} (x : α) (m : Mem A K) : CDet sz (.ret x) m x m := by
  intro o
  constructor
  · intro h; cases h; rfl
  · rintro rfl; exact .ret x m

theorem CDet.bind {sz : A → Int} {c : Cmd A K α} {f : α → Cmd A K β} {m m1 m2 : Mem A K} {x : α} {y : β}
    (h1 : CDet sz c m x m1) (h2 : CDet sz (f x) m1 y m2) : CDet sz (c.bind f) m y m2 := by
  intro o
  rw [cmdOut_bind]
  constructor
  · rintro (⟨x', m1', h, h'⟩ | ⟨e, h, rfl⟩)
    · have := (h1 _).1 h
      cases this
      exact (h2 o).1 h'
    · have := (h1 _).1 h
      cases this
  · rintro rfl
    exact Or.inl ⟨x, m1, (h1 _).2 rfl, (h2 _).2 rfl⟩

theorem CDet.unique {sz : A → Int} {c : Cmd A K α} {m m1 m2 : Mem A K} {x y : α}
    (h1 : CDet sz c m x m1) (h2 : CDet sz c m y m2) : x = y ∧ m1 = m2 := by
  have := (h2 _).1 ((h1 _).2 rfl)
  cases this
  exact ⟨rfl, rfl⟩

theorem cmdOut_ofHost {sz : A → Int} {h : Host A K} {m : Mem A K} {o : Except Err (Unit × Mem A K)} :
    CmdOut sz (Cmd.ofHost h) m o ↔ (∃ m', HostOut sz h m (.ok m') ∧ o = .ok ((), m')) ∨
      (∃ e, HostOut sz h m (.fault e) ∧ o = .error e) := by
  induction h generalizing m with
  | nil =>
    constructor
    · intro h; cases h; exact Or.inl ⟨m, rfl, rfl⟩
    · rintro (⟨m', h, rfl⟩ | ⟨e, h, rfl⟩)
      · cases h; exact .ret _ _
      · cases h
  | cons ps h ih =>
    constructor
    · intro hc
      cases hc with
      | loop _ _ _ m1 _ h hk =>
        rcases ih.1 hk with ⟨m2, h1, rfl⟩ | ⟨e, h1, rfl⟩
        · exact Or.inl ⟨m2, Or.inl ⟨m1, h, h1⟩, rfl⟩
        · exact Or.inr ⟨e, Or.inl ⟨m1, h, h1⟩, rfl⟩
      | loopFault _ _ _ e h => exact Or.inr ⟨e, Or.inr ⟨e, h, rfl⟩, rfl⟩
    · rintro (⟨m', h | h, rfl⟩ | ⟨e, h | h, rfl⟩)
      · obtain ⟨m1, h1, h2⟩ := h
        exact .loop _ _ _ _ _ h1 (ih.2 (Or.inl ⟨m', h2, rfl⟩))
      · obtain ⟨e, _, h2⟩ := h; cases h2
      · obtain ⟨m1, h1, h2⟩ := h
        exact .loop _ _ _ _ _ h1 (ih.2 (Or.inr ⟨e, h2, rfl⟩))
      · obtain ⟨e', h1, h2⟩ := h
        cases h2
        exact .loopFault _ _ _ _ h1

theorem CDet.ofHost {sz : A → Int} {h : Host A K} {m m' : Mem A K} (hd : Det sz h m m') :
    CDet sz (Cmd.ofHost h) m () m' := by
  intro o
  rw [cmdOut_ofHost]
  constructor
  · rintro (⟨m1, h1, rfl⟩ | ⟨e, h1, rfl⟩)
    · have := (hd _).1 h1; cases this; rfl
    · have := (hd _).1 h1; cases this
  · rintro rfl
    exact Or.inl ⟨m', (hd _).2 rfl, rfl⟩

/-- A reduction whose bodies all succeed on `m` is deterministic for associative commutative operations. -/
theorem CDet.reduce {sz : A → Int} {op : K → K → K} (ha : ∀ a b c, op (op a b) c = op a (op b c))
    (hc : ∀ a b, op a b = op b a) {ι : Type} (is : List ι) (body : ι → Prog A K K) (val : ι → K) (init : K)
    (m : Mem A K) (hrun : ∀ i ∈ is, (body i).run sz m = .ok (val i, m)) :
    CDet sz (Cmd.reduceOf op init (is.map body)) m ((is.map val).foldl op init) m := by
  have hf : List.Forall₂ (fun p x => Prog.run sz p m = .ok (x, m)) (is.map body) (is.map val) := by
    rw [List.forall₂_map_left_iff, List.forall₂_map_right_iff, List.forall₂_same]
    exact hrun
  intro o
  constructor
  · intro h
    cases h with
    | reduce _ _ _ _ _ xs r _ hx hr hk =>
      have e : xs = is.map val := by
        clear hr hk hrun
        generalize is.map body = ps at hf hx
        generalize is.map val = ys at hf
        induction hf generalizing xs with
        | nil => cases hx; rfl
        | cons h _ ih =>
          cases hx with
          | cons h' hx' =>
            rw [ih _ hx']
            have := h.symm.trans h'
            simp only [Except.ok.injEq, Prod.mk.injEq, and_true] at this
            rw [this]
      subst e
      cases hk
      rw [(comb_iff ha hc _ _ _).1 hr]
    | reduceFault _ _ _ _ _ p hp e hf' =>
      obtain ⟨i, hi, rfl⟩ := List.mem_map.1 hp
      rw [hrun i hi] at hf'
      cases hf'
  · rintro rfl
    exact .reduce _ _ _ _ _ _ _ _ hf (comb_foldl _ _ _) (.ret _ _)

end Madg
