/-
A single sequential program has exactly the outcome of running it.
-/
import Verif.Proofs.CSR

namespace Madg
variable {A K : Type} [DecidableEq A]

/-- Outcome of a sequential run. -/
def outOf {α : Type} : Except Err (α × Mem A K) → Outcome A K
  | .ok r => .ok r.2
  | .error e => .fault e

theorem step_single {sz : A → Int} {p : Prog A K Unit} {m : Mem A K} {x : Pool A K × Mem A K} (h : Step sz ([p], m) x) :
    (∃ a i k, p = .load a i k ∧ InB sz a i ∧ x = ([k (m a i)], m)) ∨
    (∃ a i v k, p = .store a i v k ∧ InB sz a i ∧ x = ([k], m.set a i v)) := by
  generalize hq : ([p], m) = q at h
  cases h with
  | load pre post a i k m' hb =>
    obtain ⟨e, rfl⟩ := Prod.mk.inj hq
    rcases pre with _ | ⟨p0, pre⟩
    · simp only [List.nil_append, List.cons.injEq] at e
      obtain ⟨rfl, rfl⟩ := e
      exact Or.inl ⟨a, i, k, rfl, hb, rfl⟩
    · simp at e
  | store pre post a i v k m' hb =>
    obtain ⟨e, rfl⟩ := Prod.mk.inj hq
    rcases pre with _ | ⟨p0, pre⟩
    · simp only [List.nil_append, List.cons.injEq] at e
      obtain ⟨rfl, rfl⟩ := e
      exact Or.inr ⟨a, i, v, k, rfl, hb, rfl⟩
    · simp at e

theorem idx_single {α : Type} {p a b : α} {x y : Nat} (hx : [p][x]? = some a) (hy : [p][y]? = some b) : x = y := by
  have h1 := (List.getElem?_eq_some_iff.1 hx).1
  have h2 := (List.getElem?_eq_some_iff.1 hy).1
  simp only [List.length_cons, List.length_nil] at h1 h2
  omega

theorem kernelOut_step {sz : A → Int} {p q : Prog A K Unit} {m m' : Mem A K} (hs : Step sz ([p], m) ([q], m'))
    (hu : ∀ x, Step sz ([p], m) x → x = ([q], m')) (hp : p ≠ .pure ()) (hf : ∀ e, ¬ p.Faults sz e) (o : Outcome A K) :
    KernelOut sz [p] m o ↔ KernelOut sz [q] m' o := by
  constructor
  · rintro (⟨qs, m2, h, hd⟩ | ⟨qs, m2, h, r, hr, e, he⟩ | ⟨qs, m2, h, x, y, hxy, p', q', hp', hq', a, i, w, w', h1, h2, h3⟩)
    · rcases Relation.ReflTransGen.cases_head h with h' | ⟨x, h1, h2⟩
      · cases h'
        exact absurd (hd p (by simp)) hp
      · rw [hu x h1] at h2
        exact .done qs m2 h2 hd
    · rcases Relation.ReflTransGen.cases_head h with h' | ⟨x, h1, h2⟩
      · cases h'
        rw [List.mem_singleton] at hr
        subst hr
        exact absurd he (hf e)
      · rw [hu x h1] at h2
        exact .fault qs m2 h2 r hr e he
    · rcases Relation.ReflTransGen.cases_head h with h' | ⟨z, h4, h5⟩
      · cases h'
        exact absurd (idx_single hp' hq') hxy
      · rw [hu z h4] at h5
        exact .race qs m2 h5 x y hxy p' q' hp' hq' a i w w' h1 h2 h3
  · rintro (⟨qs, m2, h, hd⟩ | ⟨qs, m2, h, r, hr, e, he⟩ | ⟨qs, m2, h, x, y, hxy, p', q', hp', hq', a, i, w, w', h1, h2, h3⟩)
    · exact .done qs m2 (h.head hs) hd
    · exact .fault qs m2 (h.head hs) r hr e he
    · exact .race qs m2 (h.head hs) x y hxy p' q' hp' hq' a i w w' h1 h2 h3

theorem kernelOut_stuck {sz : A → Int} {p : Prog A K Unit} {m : Mem A K} (hn : ∀ x, ¬ Step sz ([p], m) x) (o : Outcome A K) :
    KernelOut sz [p] m o ↔ (p = .pure () ∧ o = .ok m) ∨ ∃ e, p.Faults sz e ∧ o = .fault e := by
  constructor
  · rintro (⟨qs, m2, h, hd⟩ | ⟨qs, m2, h, r, hr, e, he⟩ | ⟨qs, m2, h, x, y, hxy, p', q', hp', hq', a, i, w, w', h1, h2, h3⟩)
    · rcases Relation.ReflTransGen.cases_head h with h' | ⟨x, h1, h2⟩
      · cases h'
        exact Or.inl ⟨hd p (by simp), rfl⟩
      · exact absurd h1 (hn x)
    · rcases Relation.ReflTransGen.cases_head h with h' | ⟨x, h1, h2⟩
      · cases h'
        rw [List.mem_singleton] at hr
        subst hr
        exact Or.inr ⟨e, he, rfl⟩
      · exact absurd h1 (hn x)
    · rcases Relation.ReflTransGen.cases_head h with h' | ⟨z, h4, h5⟩
      · cases h'
        exact absurd (idx_single hp' hq') hxy
      · exact absurd h4 (hn z)
  · rintro (⟨rfl, rfl⟩ | ⟨e, he, rfl⟩)
    · exact .done [.pure ()] m .refl (by simp)
    · exact .fault [p] m .refl p (by simp) e he

/-- One program in the pool: the set of outcomes is the outcome of the sequential run. -/
theorem kernelOut_single (sz : A → Int) (p : Prog A K Unit) (m : Mem A K) (o : Outcome A K) :
    KernelOut sz [p] m o ↔ o = outOf (p.run sz m) := by
  induction p generalizing m with
  | pure x =>
    rw [kernelOut_stuck]
    · constructor
      · rintro (⟨-, rfl⟩ | ⟨e, he, -⟩)
        · rfl
        · exact he.elim
      · rintro rfl; exact Or.inl ⟨rfl, rfl⟩
    · intro x h
      rcases step_single h with ⟨a, i, k, e, -⟩ | ⟨a, i, v, k, e, -⟩ <;> cases e
  | load a i k ih =>
    by_cases hb : InB sz a i
    · rw [kernelOut_step (q := k (m a i)) (m' := m) (.load [] [] a i k m hb), ih, Prog.run, if_pos hb]
      · intro x h
        rcases step_single h with ⟨a, i, k, e, -, rfl⟩ | ⟨a, i, v, k, e, -⟩ <;> cases e
        rfl
      · exact fun e => by cases e
      · exact fun e h => h.1 hb
    · rw [kernelOut_stuck, Prog.run, if_neg hb]
      · constructor
        · rintro (⟨e, -⟩ | ⟨e, he, rfl⟩)
          · cases e
          · rw [he.2]; rfl
        · rintro rfl
          exact Or.inr ⟨.outOfBounds, ⟨hb, rfl⟩, rfl⟩
      · intro x h
        rcases step_single h with ⟨a, i, k, e, h, -⟩ | ⟨a, i, v, k, e, -⟩ <;> cases e
        exact hb h
  | store a i v k ih =>
    by_cases hb : InB sz a i
    · rw [kernelOut_step (q := k) (m' := m.set a i v) (.store [] [] a i v k m hb), ih, Prog.run, if_pos hb]
      · intro x h
        rcases step_single h with ⟨a, i, k, e, -⟩ | ⟨a, i, v, k, e, -, rfl⟩ <;> cases e
        rfl
      · exact fun e => by cases e
      · exact fun e h => h.1 hb
    · rw [kernelOut_stuck, Prog.run, if_neg hb]
      · constructor
        · rintro (⟨e, -⟩ | ⟨e, he, rfl⟩)
          · cases e
          · rw [he.2]; rfl
        · rintro rfl
          exact Or.inr ⟨.outOfBounds, ⟨hb, rfl⟩, rfl⟩
      · intro x h
        rcases step_single h with ⟨a, i, k, e, -⟩ | ⟨a, i, v, k, e, h, -⟩ <;> cases e
        exact hb h
  | fail e =>
    rw [kernelOut_stuck]
    · constructor
      · rintro (⟨h, -⟩ | ⟨e', he, rfl⟩)
        · cases h
        · rw [show e' = e from he]; rfl
      · rintro rfl; exact Or.inr ⟨e, rfl, rfl⟩
    · intro x h
      rcases step_single h with ⟨a, i, k, e, -⟩ | ⟨a, i, v, k, e, -⟩ <;> cases e

theorem det_single {sz : A → Int} {p : Prog A K Unit} {m m' : Mem A K} (h : p.run sz m = .ok ((), m')) : Det sz [[p]] m m' :=
  det_cons (fun o => by rw [kernelOut_single, h]; rfl) (det_nil sz m')

theorem run_bind_ok {α β : Type} {sz : A → Int} {p : Prog A K α} {f : α → Prog A K β} {m m' : Mem A K} {x : α}
    (h : p.run sz m = .ok (x, m')) : (p.bind f).run sz m = (f x).run sz m' := by
  rw [run_bind, h]; rfl

theorem run_rd {sz : A → Int} {a : A} {i : Int} (h : InB sz a i) (m : Mem A K) : (Prog.rd a i : Prog A K K).run sz m = .ok (m a i, m) := by
  simp only [Prog.rd, Prog.run, if_pos h]

theorem run_wr {sz : A → Int} {a : A} {i : Int} (h : InB sz a i) (v : K) (m : Mem A K) :
    (Prog.wr a i v : Prog A K Unit).run sz m = .ok ((), m.set a i v) := by
  simp only [Prog.wr, Prog.run, if_pos h]

end Madg
