/-
Schedule independence of race-free parallel loops.
-/
import Verif.Model.Prog
import Mathlib.Data.List.Forall2
import Mathlib.Data.List.Nodup
import Mathlib.Data.List.Perm.Basic
import Mathlib.Order.WellFounded

set_option linter.unusedSectionVars false

namespace Madg
open Relation

section
variable {A K α β : Type}

@[simp] theorem Prog.pure_bind' (x : α) (f : α → Prog A K β) : (Prog.pure x).bind f = f x := rfl
@[simp] theorem Prog.monad_bind (p : Prog A K α) (f : α → Prog A K β) : (p >>= f) = p.bind f := rfl
@[simp] theorem Prog.monad_pure (x : α) : (pure x : Prog A K α) = Prog.pure x := rfl
@[simp] theorem Prog.rd_bind (a : A) (i : Int) (f : K → Prog A K β) :
    (Prog.rd a i).bind f = .load a i f := rfl
@[simp] theorem Prog.wr_bind (a : A) (i : Int) (v : K) (f : Unit → Prog A K β) :
    (Prog.wr a i v).bind f = .store a i v (f ()) := rfl

theorem Prog.idx_of_some {l : List Int} {i : Nat} {n : Int} (h : l[i]? = some n) :
    (Prog.idx l i : Prog A K Int) = .pure n := by simp [Prog.idx, h]

/-- Footprint: all loads are in `R`, all stores in `W`, all accesses in bounds, no failure. -/
def Prog.Foot (sz : A → Int) (R W : A → Int → Prop) : Prog A K α → Prop
  | .pure _ => True
  | .load a i k => InB sz a i ∧ R a i ∧ ∀ v, (k v).Foot sz R W
  | .store a i _ k => InB sz a i ∧ W a i ∧ k.Foot sz R W
  | .fail _ => False

theorem Prog.Foot.bind {sz : A → Int} {R W : A → Int → Prop} {p : Prog A K α} {f : α → Prog A K β}
    (hp : p.Foot sz R W) (hf : ∀ x, (f x).Foot sz R W) : (p.bind f).Foot sz R W := by
  induction p with
  | pure x => exact hf x
  | load a i k ih => exact ⟨hp.1, hp.2.1, fun v => ih v (hp.2.2 v)⟩
  | store a i v k ih => exact ⟨hp.1, hp.2.1, ih hp.2.2⟩
  | fail e => exact hp.elim

theorem Prog.Foot.mono {sz : A → Int} {R W R' W' : A → Int → Prop} {p : Prog A K α}
    (hp : p.Foot sz R W) (hR : ∀ a i, R a i → R' a i) (hW : ∀ a i, W a i → W' a i) :
    p.Foot sz R' W' := by
  induction p with
  | pure x => trivial
  | load a i k ih => exact ⟨hp.1, hR _ _ hp.2.1, fun v => ih v (hp.2.2 v)⟩
  | store a i v k ih => exact ⟨hp.1, hW _ _ hp.2.1, ih hp.2.2⟩
  | fail e => exact hp.elim

theorem Prog.Foot.forEach {ι : Type} {sz : A → Int} {R W : A → Int → Prop} {xs : List ι}
    {f : ι → Prog A K Unit} (hf : ∀ x ∈ xs, (f x).Foot sz R W) : (Prog.forEach xs f).Foot sz R W := by
  induction xs with
  | nil => trivial
  | cons x xs ih =>
    exact Prog.Foot.bind (hf x (by simp)) (fun _ => ih (fun y hy => hf y (by simp [hy])))

end

variable {A K α β : Type} [DecidableEq A]

/-- Effect on memory of running alone, ignoring faults (only used under `Foot`). -/
def Prog.exec : Prog A K α → Mem A K → Mem A K
  | .pure _, m => m
  | .load a i k, m => (k (m a i)).exec m
  | .store a i v k, m => k.exec (m.set a i v)
  | .fail _, m => m

theorem Mem.set_same (m : Mem A K) (a : A) (i : Int) (v : K) : m.set a i v a i = v := by simp [Mem.set]
theorem Mem.set_of_ne (m : Mem A K) {a b : A} {i j : Int} (v : K) (h : ¬ (b = a ∧ j = i)) :
    m.set a i v b j = m b j := by simp [Mem.set, h]

theorem Prog.run_eq_exec {sz : A → Int} {R W : A → Int → Prop} {p : Prog A K Unit}
    (hp : p.Foot sz R W) (m : Mem A K) : p.run sz m = .ok ((), p.exec m) := by
  induction p generalizing m with
  | pure x => rfl
  | load a i k ih => simp only [Prog.run, if_pos hp.1, Prog.exec]; exact ih _ (hp.2.2 _) m
  | store a i v k ih => simp only [Prog.run, if_pos hp.1, Prog.exec]; exact ih hp.2.2 _
  | fail e => exact hp.elim

theorem Prog.exec_frame {sz : A → Int} {R W : A → Int → Prop} {p : Prog A K α}
    (hp : p.Foot sz R W) (m : Mem A K) {a : A} {i : Int} (h : ¬ W a i) : p.exec m a i = m a i := by
  induction p generalizing m with
  | pure x => rfl
  | load b j k ih => exact ih _ (hp.2.2 _) m
  | store b j v k ih =>
    rw [Prog.exec, ih hp.2.2, Mem.set_of_ne]
    rintro ⟨rfl, rfl⟩; exact h hp.2.1
  | fail e => exact hp.elim

theorem Prog.exec_congr {sz : A → Int} {R W : A → Int → Prop} {p : Prog A K α}
    (hp : p.Foot sz R W) (m m' : Mem A K) (hm : ∀ a i, R a i ∨ W a i → m a i = m' a i)
    {a : A} {i : Int} (h : W a i) : p.exec m a i = p.exec m' a i := by
  induction p generalizing m m' with
  | pure x => exact hm a i (.inr h)
  | load b j k ih =>
    simp only [Prog.exec]
    rw [hm b j (.inl hp.2.1)]; exact ih _ (hp.2.2 _) m m' hm
  | store b j v k ih =>
    refine ih hp.2.2 _ _ ?_
    intro c l hc
    by_cases e : c = b ∧ l = j
    · simp [Mem.set, e]
    · rw [Mem.set_of_ne _ _ e, Mem.set_of_ne _ _ e]; exact hm c l hc
  | fail e => exact hp.elim

theorem Prog.exec_bind {sz : A → Int} {R W : A → Int → Prop} {p : Prog A K Unit}
    (hp : p.Foot sz R W) (f : Unit → Prog A K β) (m : Mem A K) :
    (p.bind f).exec m = (f ()).exec (p.exec m) := by
  induction p generalizing m with
  | pure x => rfl
  | load b j k ih => exact ih _ (hp.2.2 _) m
  | store b j v k ih => exact ih hp.2.2 _
  | fail e => exact hp.elim

/-- Splitting a `Forall₂` at the element of the right list that takes a step. -/
theorem forall₂_split {T P : Type} {r : T → P → Prop} {ts : List T} {pre post : List P} {q : P}
    (h : List.Forall₂ r ts (pre ++ q :: post)) :
    ∃ t1 t t2, ts = t1 ++ t :: t2 ∧ List.Forall₂ r t1 pre ∧ r t q ∧ List.Forall₂ r t2 post := by
  induction pre generalizing ts with
  | nil =>
    cases h with
    | cons h1 h2 => exact ⟨[], _, _, rfl, .nil, h1, h2⟩
  | cons p pre ih =>
    cases h with
    | @cons t _ ts' _ h1 h2 =>
      obtain ⟨t1, u, t2, rfl, ha, hb, hc⟩ := ih h2
      exact ⟨t :: t1, u, t2, rfl, .cons h1 ha, hb, hc⟩

theorem forall₂_append_cons {T P : Type} {r : T → P → Prop} {t1 t2 : List T} {t : T} {pre post : List P}
    {q : P} (h1 : List.Forall₂ r t1 pre) (h : r t q) (h2 : List.Forall₂ r t2 post) :
    List.Forall₂ r (t1 ++ t :: t2) (pre ++ q :: post) := by
  induction h1 with
  | nil => exact .cons h h2
  | cons a _ ih => exact .cons a ih

theorem forall₂_imp_mem {T P : Type} {r s : T → P → Prop} {ts : List T} {ps : List P}
    (h : List.Forall₂ r ts ps) (hrs : ∀ t ∈ ts, ∀ p, r t p → s t p) : List.Forall₂ s ts ps := by
  induction h with
  | nil => exact .nil
  | cons a _ ih =>
    exact .cons (hrs _ (by simp) _ a) (ih (fun t ht p => hrs t (by simp [ht]) p))

section Main
variable {T : Type} (sz : A → Int) (ts : List T) (body : T → Prog A K Unit)
  (R W : T → A → Int → Prop) (m0 : Mem A K)

/-- What holds in every reachable configuration. -/
def SchedInv (c : Pool A K × Mem A K) : Prop :=
  List.Forall₂ (fun t p => p.Foot sz (R t) (W t) ∧
      ∀ a i, W t a i → p.exec c.2 a i = (body t).exec m0 a i) ts c.1 ∧
  ∀ a i, (∀ t ∈ ts, ¬ W t a i) → c.2 a i = m0 a i

variable {sz ts body R W m0}

theorem schedInv_step (hnd : ts.Nodup)
    (hdisj : ∀ t ∈ ts, ∀ t' ∈ ts, t ≠ t' → ∀ a i, W t a i → ¬ R t' a i ∧ ¬ W t' a i)
    {c c' : Pool A K × Mem A K} (hI : SchedInv sz ts body R W m0 c) (hs : Step sz c c') :
    SchedInv sz ts body R W m0 c' := by
  obtain ⟨hF, hU⟩ := hI
  cases hs with
  | load pre post a i k m h =>
    obtain ⟨t1, t, t2, rfl, h1, ⟨hf, he⟩, h2⟩ := forall₂_split hF
    exact ⟨forall₂_append_cons h1 ⟨hf.2.2 _, he⟩ h2, hU⟩
  | store pre post a i v k m h =>
    obtain ⟨t1, t, t2, rfl, h1, ⟨hf, he⟩, h2⟩ := forall₂_split hF
    have hnd' := List.nodup_append.1 hnd
    have hne : ∀ t' ∈ t1 ++ t2, t ≠ t' := by
      intro t' ht' e
      subst e
      rcases List.mem_append.1 ht' with h' | h'
      · exact hnd'.2.2 t h' t (by simp) rfl
      · exact (List.nodup_cons.1 hnd'.2.1).1 h'
    have key : ∀ t' ∈ t1 ++ t2, ∀ p : Prog A K Unit,
        (p.Foot sz (R t') (W t') ∧ ∀ b j, W t' b j → p.exec m b j = (body t').exec m0 b j) →
        (p.Foot sz (R t') (W t') ∧
          ∀ b j, W t' b j → p.exec (m.set a i v) b j = (body t').exec m0 b j) := by
      rintro t' ht' p ⟨hp, hpe⟩
      refine ⟨hp, fun b j hb => ?_⟩
      rw [← hpe b j hb]
      refine Prog.exec_congr hp _ _ ?_ hb
      intro c l hc
      apply Mem.set_of_ne
      rintro ⟨rfl, rfl⟩
      have ht'' : t' ∈ t1 ++ t :: t2 := by
        rcases List.mem_append.1 ht' with h' | h' <;> simp [h']
      have := hdisj t (by simp) t' ht'' (hne t' ht') c l hf.2.1
      rcases hc with hc | hc
      · exact this.1 hc
      · exact this.2 hc
    refine ⟨forall₂_append_cons (forall₂_imp_mem h1 fun t' ht' => key t' (by simp [ht']))
      ⟨hf.2.2, he⟩ (forall₂_imp_mem h2 fun t' ht' => key t' (by simp [ht'])), ?_⟩
    intro b j hb
    show m.set a i v b j = m0 b j
    rw [Mem.set_of_ne]
    · exact hU b j hb
    · rintro ⟨rfl, rfl⟩
      exact hb t (by simp) hf.2.1

theorem schedInv_reach (hnd : ts.Nodup)
    (hdisj : ∀ t ∈ ts, ∀ t' ∈ ts, t ≠ t' → ∀ a i, W t a i → ¬ R t' a i ∧ ¬ W t' a i)
    {c c' : Pool A K × Mem A K} (hI : SchedInv sz ts body R W m0 c)
    (hs : ReflTransGen (Step sz) c c') : SchedInv sz ts body R W m0 c' := by
  induction hs with
  | refl => exact hI
  | tail _ h ih => exact schedInv_step hnd hdisj ih h

theorem schedInv_init (hfoot : ∀ t ∈ ts, (body t).Foot sz (R t) (W t)) :
    SchedInv sz ts body R W m0 (ts.map body, m0) := by
  refine ⟨?_, fun _ _ _ => rfl⟩
  simp only
  induction ts with
  | nil => exact .nil
  | cons t ts ih =>
    exact .cons ⟨hfoot t (by simp), fun _ _ _ => rfl⟩ (ih fun t ht => hfoot t (by simp [ht]))

end Main

/-- Progress: a pool all of whose threads have footprints either is finished or can step. -/
theorem exists_reach_done {T : Type} {sz : A → Int} {R W : T → A → Int → Prop} (ts : List T)
    (pre ps : Pool A K) (hpre : ∀ q ∈ pre, q = .pure ())
    (hfoot : List.Forall₂ (fun t p => p.Foot sz (R t) (W t)) ts ps) (m : Mem A K) :
    ∃ qs m', ReflTransGen (Step sz) (pre ++ ps, m) (qs, m') ∧ ∀ q ∈ qs, q = .pure () := by
  induction hfoot generalizing pre m with
  | nil => exact ⟨_, m, .refl, by simpa using hpre⟩
  | @cons t p ts ps hp hps ih =>
    clear hps
    induction p generalizing m with
    | pure x =>
      have := ih (pre ++ [.pure ()]) (by
        intro q hq; rcases List.mem_append.1 hq with h | h
        · exact hpre q h
        · simpa using h) m
      simpa using this
    | load a i k ihk =>
      obtain ⟨qs, m', h, hd⟩ := ihk (m a i) (hp.2.2 _) m
      exact ⟨qs, m', .head (.load pre ps a i k m hp.1) h, hd⟩
    | store a i v k ihk =>
      obtain ⟨qs, m', h, hd⟩ := ihk hp.2.2 (m.set a i v)
      exact ⟨qs, m', .head (.store pre ps a i v k m hp.1) h, hd⟩
    | fail e => exact hp.elim

theorem foot_not_faults {sz : A → Int} {R W : A → Int → Prop} {p : Prog A K Unit}
    (hp : p.Foot sz R W) (e : Err) : ¬ p.Faults sz e := by
  cases p with
  | pure x => exact id
  | load a i k => exact fun h => h.1 hp.1
  | store a i v k => exact fun h => h.1 hp.1
  | fail e' => exact hp.elim

theorem forall₂_mem_right {T P : Type} {r : T → P → Prop} {ts : List T} {ps : List P}
    (h : List.Forall₂ r ts ps) {p : P} (hp : p ∈ ps) : ∃ t ∈ ts, r t p := by
  induction h with
  | nil => simp at hp
  | @cons t q ts ps a _ ih =>
    rcases List.mem_cons.1 hp with rfl | hp
    · exact ⟨t, by simp, a⟩
    · obtain ⟨u, hu, hr⟩ := ih hp; exact ⟨u, by simp [hu], hr⟩

theorem forall₂_mem_left {T P : Type} {r : T → P → Prop} {ts : List T} {ps : List P}
    (h : List.Forall₂ r ts ps) {t : T} (ht : t ∈ ts) : ∃ p ∈ ps, r t p := by
  induction h with
  | nil => simp at ht
  | @cons u q ts ps a _ ih =>
    rcases List.mem_cons.1 ht with rfl | ht
    · exact ⟨q, by simp, a⟩
    · obtain ⟨p, hp, hr⟩ := ih ht; exact ⟨p, by simp [hp], hr⟩

theorem forall₂_getElem? {T P : Type} {r : T → P → Prop} {ts : List T} {ps : List P} (h : List.Forall₂ r ts ps) :
    ∀ {n : Nat} {p : P}, ps[n]? = some p → ∃ t, ts[n]? = some t ∧ r t p := by
  induction h with
  | nil => intro n p hp; simp at hp
  | @cons u q ts ps a _ ih =>
    intro n p hp
    cases n with
    | zero => simp only [List.getElem?_cons_zero, Option.some.injEq] at hp ⊢; subst hp; exact ⟨u, rfl, a⟩
    | succ n => simp only [List.getElem?_cons_succ] at hp ⊢; exact ih hp

theorem foot_access {sz : A → Int} {R W : A → Int → Prop} {p : Prog A K Unit} (hp : p.Foot sz R W) {a : A} {i : Int} {w : Bool}
    (h : p.access = some (a, i, w)) : (w = true → W a i) ∧ (w = false → R a i) := by
  cases p with
  | pure x => cases h
  | load b j k => cases h; exact ⟨fun h => by simp at h, fun _ => hp.2.1⟩
  | store b j v k => cases h; exact ⟨fun _ => hp.2.1, fun h => by simp at h⟩
  | fail e' => exact hp.elim

/-- Outcome of a race-free loop over all schedules. -/
theorem kernelOut_iff {T : Type} {sz : A → Int} {ts : List T} {body : T → Prog A K Unit}
    {R W : T → A → Int → Prop} (hnd : ts.Nodup)
    (hfoot : ∀ t ∈ ts, (body t).Foot sz (R t) (W t))
    (hdisj : ∀ t ∈ ts, ∀ t' ∈ ts, t ≠ t' → ∀ a i, W t a i → ¬ R t' a i ∧ ¬ W t' a i)
    {m m' : Mem A K}
    (hW : ∀ t ∈ ts, ∀ a i, W t a i → m' a i = (body t).exec m a i)
    (hU : ∀ a i, (∀ t ∈ ts, ¬ W t a i) → m' a i = m a i) (o : Outcome A K) :
    KernelOut sz (ts.map body) m o ↔ o = .ok m' := by
  have hreach : ∀ c, ReflTransGen (Step sz) (ts.map body, m) c → SchedInv sz ts body R W m c :=
    fun c h => schedInv_reach hnd hdisj (schedInv_init hfoot) h
  have huniq : ∀ qs m1, ReflTransGen (Step sz) (ts.map body, m) (qs, m1) →
      (∀ q ∈ qs, q = .pure ()) → m1 = m' := by
    intro qs m1 h hd
    obtain ⟨hF, hU1⟩ := hreach _ h
    funext a i
    by_cases hex : ∃ t ∈ ts, W t a i
    · obtain ⟨t, ht, hw⟩ := hex
      obtain ⟨p, hp, -, he⟩ := forall₂_mem_left hF ht
      rw [hW t ht a i hw, ← he a i hw, hd p hp]; rfl
    · have hno : ∀ t ∈ ts, ¬ W t a i := fun t ht hw => hex ⟨t, ht, hw⟩
      rw [hU a i hno]; exact hU1 a i hno
  constructor
  · intro h
    cases h with
    | done qs m1 h hd => rw [huniq qs m1 h hd]
    | fault qs m1 h q hq e hf =>
      obtain ⟨t, -, hft, -⟩ := forall₂_mem_right (hreach _ h).1 hq
      exact (foot_not_faults hft e hf).elim
    | race qs m1 h x y hxy p q hp hq a i w w' hpa hqa hw =>
      exfalso
      obtain ⟨t, ht, hft, -⟩ := forall₂_getElem? (hreach _ h).1 hp
      obtain ⟨t', ht', hft', -⟩ := forall₂_getElem? (hreach _ h).1 hq
      have hne : t ≠ t' := by
        rintro rfl
        obtain ⟨hx, hx'⟩ := List.getElem?_eq_some_iff.1 ht
        obtain ⟨hy, hy'⟩ := List.getElem?_eq_some_iff.1 ht'
        exact hxy ((hnd.getElem_inj_iff).1 (hx'.trans hy'.symm))
      have m1 := List.mem_of_getElem? ht
      have m2 := List.mem_of_getElem? ht'
      have f1 := foot_access hft hpa
      have f2 := foot_access hft' hqa
      rcases hw with rfl | rfl
      · have d := hdisj t m1 t' m2 hne a i (f1.1 rfl)
        cases w' with
        | true => exact d.2 (f2.1 rfl)
        | false => exact d.1 (f2.2 rfl)
      · have d := hdisj t' m2 t m1 (Ne.symm hne) a i (f2.1 rfl)
        cases w with
        | true => exact d.2 (f1.1 rfl)
        | false => exact d.1 (f1.2 rfl)
  · rintro rfl
    have h0 : List.Forall₂ (fun t p => Prog.Foot sz (R t) (W t) p) ts (ts.map body) := by
      have := (schedInv_init (m0 := m) hfoot).1
      exact forall₂_imp_mem this (fun t _ p h => h.1)
    obtain ⟨qs, m1, h, hd⟩ := exists_reach_done ts [] (ts.map body) (by simp) h0 m
    have := huniq qs m1 h hd
    subst this
    exact .done qs m1 h hd

/-! ### Termination: no schedule is infinite -/

/-- One step ignoring which value a load returns. -/
inductive PStep : Prog A K Unit → Prog A K Unit → Prop
  | load (a i) (k : K → Prog A K Unit) (v) : PStep (k v) (.load a i k)
  | store (a i v) (k : Prog A K Unit) : PStep k (.store a i v k)

theorem PStep.acc (p : Prog A K Unit) : Acc (PStep (A := A) (K := K)) p := by
  induction p with
  | pure x => exact ⟨_, fun q h => by cases h⟩
  | load a i k ih => exact ⟨_, fun q h => by cases h with | load _ _ _ v => exact ih v⟩
  | store a i v k ih => exact ⟨_, fun q h => by cases h with | store => exact ih⟩
  | fail e => exact ⟨_, fun q h => by cases h⟩

/-- One thread of a list steps. -/
inductive LStep : List (Prog A K Unit) → List (Prog A K Unit) → Prop
  | head {q p} (ps) : PStep q p → LStep (q :: ps) (p :: ps)
  | tail (p) {qs ps} : LStep qs ps → LStep (p :: qs) (p :: ps)

theorem LStep.acc (ps : List (Prog A K Unit)) : Acc (LStep (A := A) (K := K)) ps := by
  induction ps with
  | nil => exact ⟨_, fun q h => by cases h⟩
  | cons p ps ih =>
    have hp := PStep.acc p
    induction hp generalizing ps with
    | intro p _ ihp =>
      induction ih with
      | intro ps hps ihps =>
        refine ⟨_, fun q h => ?_⟩
        cases h with
        | head _ h => exact ihp _ h ps ⟨_, hps⟩
        | tail _ h => exact ihps _ h

theorem lstep_of_step {sz : A → Int} {c c' : Pool A K × Mem A K} (h : Step sz c c') :
    LStep c'.1 c.1 := by
  have aux : ∀ (pre : Pool A K) {q p : Prog A K Unit} (post), PStep q p →
      LStep (pre ++ q :: post) (pre ++ p :: post) := by
    intro pre q p post h
    induction pre with
    | nil => exact .head _ h
    | cons x pre ih => exact .tail _ ih
  cases h with
  | load pre post a i k m _ => exact aux pre post (.load a i k _)
  | store pre post a i v k m _ => exact aux pre post (.store a i v k)

/-- The step relation, reversed, is well founded: there is no infinite schedule. -/
theorem step_wf (sz : A → Int) :
    WellFounded (fun c' c : Pool A K × Mem A K => Step sz c c') :=
  (InvImage.wf (fun c : Pool A K × Mem A K => c.1) ⟨LStep.acc⟩).mono
    (fun _ _ h => lstep_of_step h)

/-! ### Determinism of host routines -/

theorem det_nil (sz : A → Int) (m : Mem A K) : Det sz [] m m := fun _ => Iff.rfl

theorem det_cons {sz : A → Int} {ps : Pool A K} {h : Host A K} {m m1 m2 : Mem A K}
    (h1 : ∀ o, KernelOut sz ps m o ↔ o = .ok m1) (h2 : Det sz h m1 m2) : Det sz (ps :: h) m m2 := by
  intro o
  simp only [HostOut]
  constructor
  · rintro (⟨m', hk, ho⟩ | ⟨e, hk, rfl⟩)
    · have := (h1 _).1 hk; cases this; exact (h2 o).1 ho
    · have := (h1 _).1 hk; cases this
  · rintro rfl
    exact .inl ⟨m1, (h1 _).2 rfl, (h2 _).2 rfl⟩

theorem hostOut_append {sz : A → Int} {g h : Host A K} {m : Mem A K} {o : Outcome A K} :
    HostOut sz (g ++ h) m o ↔
      (∃ m1, HostOut sz g m (.ok m1) ∧ HostOut sz h m1 o) ∨ (∃ e, HostOut sz g m (.fault e) ∧ o = .fault e) := by
  induction g generalizing m with
  | nil => simp [HostOut]
  | cons ps g ih =>
    simp only [List.cons_append, HostOut, ih]
    constructor
    · rintro (⟨m1, hk, ⟨m2, h1, h2⟩ | ⟨e, h1, rfl⟩⟩ | ⟨e, hk, rfl⟩)
      · exact .inl ⟨m2, .inl ⟨m1, hk, h1⟩, h2⟩
      · exact .inr ⟨e, .inl ⟨m1, hk, h1⟩, rfl⟩
      · exact .inr ⟨e, .inr ⟨e, hk, rfl⟩, rfl⟩
    · rintro (⟨m2, ⟨m1, hk, h1⟩ | ⟨e, hk, h1⟩, h2⟩ | ⟨e, ⟨m1, hk, h1⟩ | ⟨e', hk, h1⟩, rfl⟩)
      · exact .inl ⟨m1, hk, .inl ⟨m2, h1, h2⟩⟩
      · cases h1
      · exact .inl ⟨m1, hk, .inr ⟨e, h1, rfl⟩⟩
      · cases h1; exact .inr ⟨e, hk, rfl⟩

theorem det_append {sz : A → Int} {g h : Host A K} {m m1 m2 : Mem A K}
    (h1 : Det sz g m m1) (h2 : Det sz h m1 m2) : Det sz (g ++ h) m m2 := by
  intro o
  rw [hostOut_append]
  constructor
  · rintro (⟨m', hk, ho⟩ | ⟨e, hk, rfl⟩)
    · have := (h1 _).1 hk; cases this; exact (h2 o).1 ho
    · have := (h1 _).1 hk; cases this
  · rintro rfl
    exact .inl ⟨m1, (h1 _).2 rfl, (h2 _).2 rfl⟩

theorem Det.unique {sz : A → Int} {h : Host A K} {m m1 m2 : Mem A K}
    (h1 : Det sz h m m1) (h2 : Det sz h m m2) : m1 = m2 := by
  have := (h2 _).1 ((h1 _).2 rfl); cases this; rfl

/-- A race-free loop as a one-loop host routine. -/
theorem det_pool {T : Type} {sz : A → Int} {ts : List T} {body : T → Prog A K Unit}
    (R W : T → A → Int → Prop) (hnd : ts.Nodup)
    (hfoot : ∀ t ∈ ts, (body t).Foot sz (R t) (W t))
    (hdisj : ∀ t ∈ ts, ∀ t' ∈ ts, t ≠ t' → ∀ a i, W t a i → ¬ R t' a i ∧ ¬ W t' a i)
    {m m' : Mem A K}
    (hW : ∀ t ∈ ts, ∀ a i, W t a i → m' a i = (body t).exec m a i)
    (hU : ∀ a i, (∀ t ∈ ts, ¬ W t a i) → m' a i = m a i) :
    Det sz [ts.map body] m m' :=
  det_cons (kernelOut_iff hnd hfoot hdisj hW hU) (det_nil _ _)

/-- Sequential loop over iterations with disjoint footprints. -/
theorem exec_forEach {T : Type} {sz : A → Int} {ts : List T} {body : T → Prog A K Unit}
    {R W : T → A → Int → Prop} (hnd : ts.Nodup)
    (hfoot : ∀ t ∈ ts, (body t).Foot sz (R t) (W t))
    (hdisj : ∀ t ∈ ts, ∀ t' ∈ ts, t ≠ t' → ∀ a i, W t a i → ¬ R t' a i ∧ ¬ W t' a i)
    (m : Mem A K) :
    (∀ t ∈ ts, ∀ a i, W t a i → (Prog.forEach ts body).exec m a i = (body t).exec m a i) ∧
    (∀ a i, (∀ t ∈ ts, ¬ W t a i) → (Prog.forEach ts body).exec m a i = m a i) := by
  induction ts generalizing m with
  | nil => exact ⟨by simp, fun _ _ _ => rfl⟩
  | cons t ts ih =>
    have hnd' := List.nodup_cons.1 hnd
    obtain ⟨ih1, ih2⟩ := ih hnd'.2 (fun u hu => hfoot u (by simp [hu]))
      (fun u hu u' hu' => hdisj u (by simp [hu]) u' (by simp [hu'])) ((body t).exec m)
    have hft := hfoot t (by simp)
    have hunf : (Prog.forEach (t :: ts) body).exec m = (Prog.forEach ts body).exec ((body t).exec m) :=
      Prog.exec_bind hft _ m
    rw [hunf]
    constructor
    · intro u hu a i hw
      rcases List.mem_cons.1 hu with rfl | hu
      · exact ih2 a i (fun u' hu' hw' => (hdisj u' (by simp [hu']) u (by simp)
          (by rintro rfl; exact hnd'.1 hu') a i hw').2 hw)
      · rw [ih1 u hu a i hw]
        refine Prog.exec_congr (hfoot u (by simp [hu])) _ _ ?_ hw
        intro b j hb
        refine Prog.exec_frame hft m (fun hw' => ?_)
        have := hdisj t (by simp) u (by simp [hu]) (by rintro rfl; exact hnd'.1 hu) b j hw'
        rcases hb with hb | hb
        · exact this.1 hb
        · exact this.2 hb
    · intro a i hno
      rw [ih2 a i (fun u hu => hno u (by simp [hu]))]
      exact Prog.exec_frame hft m (hno t (by simp))

/-- A parallel loop whose bodies are sequential inner loops, with footprints per (outer, inner) index. -/
theorem det_pool_nested {T U : Type} {sz : A → Int} {ts : List T} {us : T → List U}
    {body : T → U → Prog A K Unit}
    (R W : T → U → A → Int → Prop) (hnd : ts.Nodup) (hndu : ∀ t ∈ ts, (us t).Nodup)
    (hfoot : ∀ t ∈ ts, ∀ u ∈ us t, (body t u).Foot sz (R t u) (W t u))
    (hdisj : ∀ t ∈ ts, ∀ u ∈ us t, ∀ t' ∈ ts, ∀ u' ∈ us t', ¬ (t = t' ∧ u = u') →
      ∀ a i, W t u a i → ¬ R t' u' a i ∧ ¬ W t' u' a i)
    {m m' : Mem A K}
    (hW : ∀ t ∈ ts, ∀ u ∈ us t, ∀ a i, W t u a i → m' a i = (body t u).exec m a i)
    (hU : ∀ a i, (∀ t ∈ ts, ∀ u ∈ us t, ¬ W t u a i) → m' a i = m a i) :
    Det sz [ts.map (fun t => Prog.forEach (us t) (body t))] m m' := by
  refine det_pool (fun t a i => ∃ u ∈ us t, R t u a i) (fun t a i => ∃ u ∈ us t, W t u a i) hnd
    ?_ ?_ ?_ ?_
  · intro t ht
    exact Prog.Foot.forEach fun u hu => (hfoot t ht u hu).mono (fun a i h => ⟨u, hu, h⟩)
      (fun a i h => ⟨u, hu, h⟩)
  · rintro t ht t' ht' hne a i ⟨u, hu, hw⟩
    exact ⟨fun ⟨u', hu', h⟩ => (hdisj t ht u hu t' ht' u' hu' (fun e => hne e.1) a i hw).1 h,
      fun ⟨u', hu', h⟩ => (hdisj t ht u hu t' ht' u' hu' (fun e => hne e.1) a i hw).2 h⟩
  · rintro t ht a i ⟨u, hu, hw⟩
    rw [hW t ht u hu a i hw]
    exact ((exec_forEach (hndu t ht) (hfoot t ht) (fun u hu u' hu' hne =>
      hdisj t ht u hu t ht u' hu' (fun e => hne e.2)) m).1 u hu a i hw).symm
  · intro a i hno
    exact hU a i fun t ht u hu hw => hno t ht ⟨u, hu, hw⟩

end Madg
