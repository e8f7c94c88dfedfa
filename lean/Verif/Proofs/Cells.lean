/-
Loops in which each iteration writes one location of its own.
-/
import Verif.Proofs.Sched

set_option linter.unusedSectionVars false

namespace Madg
variable {A K C : Type} [DecidableEq A]

open Classical in
/-- Memory after writing `f c` at `loc c` for every `c` with `P c`. -/
noncomputable def Mem.upd (loc : C → A × Int) (P : C → Prop) (f : C → K) (m : Mem A K) : Mem A K :=
  fun b n => if h : ∃ c, P c ∧ loc c = (b, n) then f h.choose else m b n

theorem Mem.upd_hit {loc : C → A × Int} {P : C → Prop} {f : C → K} {m : Mem A K} {c : C} {b : A} {n : Int}
    (inj : ∀ c', P c' → loc c' = loc c → c' = c) (hc : P c) (hl : loc c = (b, n)) :
    m.upd loc P f b n = f c := by
  have h : ∃ c, P c ∧ loc c = (b, n) := ⟨c, hc, hl⟩
  rw [Mem.upd, dif_pos h]
  congr 1
  exact inj _ h.choose_spec.1 (h.choose_spec.2.trans hl.symm)

theorem Mem.upd_miss {loc : C → A × Int} {P : C → Prop} {f : C → K} {m : Mem A K} {b : A} {n : Int}
    (h : ∀ c, P c → loc c ≠ (b, n)) : m.upd loc P f b n = m b n := by
  rw [Mem.upd, dif_neg]
  rintro ⟨c, hc, hl⟩
  exact h c hc hl

theorem Mem.upd_ne {loc : C → A × Int} {P : C → Prop} {f : C → K} {m : Mem A K} {b : A}
    (h : ∀ c, P c → (loc c).1 ≠ b) : m.upd loc P f b = m b := by
  funext n
  exact Mem.upd_miss fun c hc hl => h c hc (by rw [hl])

theorem Mem.upd_congr {loc : C → A × Int} {P Q : C → Prop} {f g : C → K} {m : Mem A K}
    (hPQ : ∀ c, P c ↔ Q c) (hfg : ∀ c, P c → f c = g c) :
    m.upd loc P f = m.upd loc Q g := by
  have : P = Q := funext fun c => propext (hPQ c)
  subst this
  funext b n
  unfold Mem.upd
  split
  · next h => exact hfg _ h.choose_spec.1
  · rfl

/-- Loop in which iteration `c` stores only at `loc c`, loads nothing another iteration stores, and leaves
`f c` there. -/
theorem det_cells {sz : A → Int} {cs : List C} {body : C → Prog A K Unit} (hnd : cs.Nodup)
    (loc : C → A × Int) (f : C → K) (m : Mem A K)
    (inj : ∀ c ∈ cs, ∀ c' ∈ cs, loc c = loc c' → c = c')
    (hfoot : ∀ c ∈ cs, (body c).Foot sz (fun a n => ∀ c' ∈ cs, c' ≠ c → loc c' ≠ (a, n))
      (fun a n => loc c = (a, n)))
    (hval : ∀ c ∈ cs, (body c).exec m (loc c).1 (loc c).2 = f c) :
    Det sz [cs.map body] m (m.upd loc (· ∈ cs) f) := by
  refine det_pool _ _ hnd hfoot ?_ ?_ ?_
  · intro c hc c' hc' hne a n hl
    refine ⟨fun hr => hr c hc hne hl, fun hl' => hne (inj c hc c' hc' (hl.trans hl'.symm))⟩
  · intro c hc a n hl
    rw [Mem.upd_hit (fun c' hc' h => inj c' hc' c hc h) hc hl, ← hval c hc, hl]
  · intro a n hno
    exact Mem.upd_miss hno

/-- The same with sequential inner loops. -/
theorem det_cells_nested {T U : Type} {sz : A → Int} {ts : List T} {us : T → List U}
    {body : T → U → Prog A K Unit} (hnd : ts.Nodup) (hndu : ∀ t ∈ ts, (us t).Nodup)
    (loc : T × U → A × Int) (f : T × U → K) (m : Mem A K)
    (inj : ∀ c : T × U, c.1 ∈ ts → c.2 ∈ us c.1 → ∀ c' : T × U, c'.1 ∈ ts → c'.2 ∈ us c'.1 →
      loc c = loc c' → c = c')
    (hfoot : ∀ c : T × U, c.1 ∈ ts → c.2 ∈ us c.1 → (body c.1 c.2).Foot sz
      (fun a n => ∀ c' : T × U, c'.1 ∈ ts → c'.2 ∈ us c'.1 → c' ≠ c → loc c' ≠ (a, n))
      (fun a n => loc c = (a, n)))
    (hval : ∀ c : T × U, c.1 ∈ ts → c.2 ∈ us c.1 →
      (body c.1 c.2).exec m (loc c).1 (loc c).2 = f c) :
    Det sz [ts.map (fun t => Prog.forEach (us t) (body t))] m
      (m.upd loc (fun c => c.1 ∈ ts ∧ c.2 ∈ us c.1) f) := by
  refine det_pool_nested
    (fun t u a n => ∀ c' : T × U, c'.1 ∈ ts → c'.2 ∈ us c'.1 → c' ≠ (t, u) → loc c' ≠ (a, n))
    (fun t u a n => loc (t, u) = (a, n)) hnd hndu (fun t ht u hu => hfoot (t, u) ht hu) ?_ ?_ ?_
  · intro t ht u hu t' ht' u' hu' hne a n hl
    have hne' : (t, u) ≠ (t', u') := fun h => hne (by simpa using h)
    exact ⟨fun hr => hr (t, u) ht hu hne' hl, fun hl' =>
      hne' (inj (t, u) ht hu (t', u') ht' hu' (hl.trans hl'.symm))⟩
  · intro t ht u hu a n hl
    rw [Mem.upd_hit (c := (t, u)) (fun c' hc' h => inj c' hc'.1 hc'.2 (t, u) ht hu h) ⟨ht, hu⟩ hl,
      ← hval (t, u) ht hu, hl]
  · intro a n hno
    exact Mem.upd_miss fun c hc => hno c.1 hc.1 c.2 hc.2

theorem Prog.bind_assoc {A K α β γ : Type} (p : Prog A K α) (f : α → Prog A K β) (g : β → Prog A K γ) :
    (p.bind f).bind g = p.bind (fun x => (f x).bind g) := by
  induction p with
  | pure x => rfl
  | load a i k ih => simp only [Prog.bind, ih]
  | store a i v k ih => simp only [Prog.bind, ih]
  | fail e => rfl

theorem Prog.bind_pure_unit {A K : Type} (p : Prog A K Unit) : p.bind (fun _ => .pure ()) = p := by
  induction p with
  | pure x => rfl
  | load a i k ih => simp only [Prog.bind, ih]
  | store a i v k ih => simp only [Prog.bind, ih]
  | fail e => rfl

theorem forEach_append {A K ι : Type} (xs ys : List ι) (f : ι → Prog A K Unit) :
    Prog.forEach (xs ++ ys) f = (Prog.forEach xs f).bind (fun _ => Prog.forEach ys f) := by
  induction xs with
  | nil => rfl
  | cons x xs ih => simp only [List.cons_append, Prog.forEach, Prog.bind_assoc, ih]

theorem forEach_flatMap {A K ι κ : Type} (xs : List ι) (g : ι → List κ) (f : κ → Prog A K Unit) :
    Prog.forEach (xs.flatMap g) f = Prog.forEach xs (fun x => Prog.forEach (g x) f) := by
  induction xs with
  | nil => rfl
  | cons x xs ih => simp only [List.flatMap_cons, forEach_append, Prog.forEach, ih]

theorem forEach_map {A K ι κ : Type} (xs : List ι) (g : ι → κ) (f : κ → Prog A K Unit) :
    Prog.forEach (xs.map g) f = Prog.forEach xs (fun x => f (g x)) := by
  induction xs with
  | nil => rfl
  | cons x xs ih => simp only [List.map_cons, Prog.forEach, ih]

end Madg
