/-
Option precedence.
-/
import Verif.Spec.Options
import Mathlib.Data.List.Nodup
import Mathlib.Tactic.Set

set_option linter.unusedSectionVars false
set_option linter.unusedVariables false

namespace Madg
open Spec
variable {N T V F : Type} [DecidableEq N]

theorem given_nil (n : N) : given ([] : List (N × T)) n = none := rfl

theorem given_cons (e : N × T) (l : List (N × T)) (n : N) : given (e :: l) n = if e.1 = n then some e.2 else given l n := by
  unfold given
  rw [List.find?_cons]
  by_cases h : e.1 = n
  · simp [h]
  · simp [h]

theorem given_isSome (l : List (N × T)) (n : N) : (given l n).isSome = true ↔ n ∈ l.map Prod.fst := by
  induction l with
  | nil => simp [given_nil]
  | cons e l ih =>
    rw [given_cons, List.map_cons, List.mem_cons, ← ih]
    by_cases h : e.1 = n
    · simp [h]
    · simp [h, Ne.symm h]

theorem given_none (l : List (N × T)) (n : N) : given l n = none ↔ n ∉ l.map Prod.fst := by
  rw [← given_isSome]; cases given l n <;> simp

theorem given_mem {l : List (N × T)} {n : N} {t : T} (h : given l n = some t) : (n, t) ∈ l := by
  induction l with
  | nil => cases h
  | cons e l ih =>
    rw [given_cons] at h
    by_cases q : e.1 = n
    · rw [if_pos q] at h; cases h; subst q; exact List.mem_cons_self
    · rw [if_neg q] at h; exact List.mem_cons_of_mem _ (ih h)

/-- The entries a store call takes are fine. -/
def GivenFine (d : OptDecl N T V F) (final : N → Bool) (l : List (N × T)) : Prop :=
  (∀ e ∈ l, final e.1 = false → (d.conv e.1 e.2).isSome = true) ∧ ((l.filter (fun e => !final e.1)).map Prod.fst).Nodup

theorem GivenFine.cons_final {d : OptDecl N T V F} {final : N → Bool} {e : N × T} {l : List (N × T)} (h : final e.1 = true) :
    GivenFine d final (e :: l) ↔ GivenFine d final l := by
  unfold GivenFine
  rw [List.filter_cons_of_neg (by simp [h])]
  refine and_congr_left fun _ => ⟨fun q x hx => q x (List.mem_cons_of_mem _ hx), fun q x hx => ?_⟩
  rcases List.mem_cons.1 hx with rfl | hx
  · intro c; rw [h] at c; cases c
  · exact q x hx

theorem GivenFine.cons_new {d : OptDecl N T V F} {final : N → Bool} {e : N × T} {l : List (N × T)} (h : final e.1 = false) :
    GivenFine d final (e :: l) ↔ (d.conv e.1 e.2).isSome = true ∧ e.1 ∉ l.map Prod.fst ∧ GivenFine d final l := by
  unfold GivenFine
  rw [List.filter_cons_of_pos (by simp [h]), List.map_cons, List.nodup_cons]
  have hm : e.1 ∈ (l.filter (fun e => !final e.1)).map Prod.fst ↔ e.1 ∈ l.map Prod.fst := by
    simp only [List.mem_map, List.mem_filter]
    constructor
    · rintro ⟨a, ⟨ha, -⟩, q⟩; exact ⟨a, ha, q⟩
    · rintro ⟨a, ha, q⟩; exact ⟨a, ⟨ha, by rw [q, h]; rfl⟩, q⟩
  rw [hm]
  constructor
  · rintro ⟨q, r, s⟩
    exact ⟨q e List.mem_cons_self h, r, fun x hx => q x (List.mem_cons_of_mem _ hx), s⟩
  · rintro ⟨q, r, s, t⟩
    refine ⟨fun x hx => ?_, r, t⟩
    rcases List.mem_cons.1 hx with rfl | hx
    · exact fun _ => q
    · exact s x hx

/-- The first part of a store call. -/
theorem storeGiven_spec (d : OptDecl N T V F) (final : N → Bool) (l : List (N × T)) : ∀ (vm : N → Option (V × Bool)) (new : N → Bool),
    (GivenFine d final l → (∀ n ∈ l.map Prod.fst, final n = false → ∀ v, vm n ≠ some (v, false)) →
      ∃ vm' new', storeGiven d final l vm new = .ok (vm', new') ∧
        (∀ n, vm' n = if final n then vm n else match given l n with
          | some t => (d.conv n t).map fun v => (v, false)
          | none => vm n) ∧
        (∀ n, new' n = (new n || (!final n && (given l n).isSome)))) ∧
    (∀ r, storeGiven d final l vm new = .ok r → GivenFine d final l ∧ ∀ n ∈ l.map Prod.fst, final n = false → ∀ v, vm n ≠ some (v, false)) := by
  induction l with
  | nil =>
    intro vm new
    refine ⟨fun _ _ => ⟨vm, new, rfl, fun n => ?_, fun n => ?_⟩, fun r _ => ⟨⟨by simp, by simp⟩, by simp⟩⟩
    · simp [given_nil]
    · simp [given_nil]
  | cons e l ih =>
    intro vm new
    obtain ⟨n, t⟩ := e
    by_cases hf : final n = true
    · have eq : storeGiven d final ((n, t) :: l) vm new = storeGiven d final l vm new := by
        rw [storeGiven, if_pos hf]
      rw [eq, GivenFine.cons_final hf]
      refine ⟨fun hF hv => ?_, fun r hr => ?_⟩
      · obtain ⟨vm', new', q, r, s⟩ := (ih vm new).1 hF (fun m hm => hv m (List.mem_cons_of_mem _ hm))
        refine ⟨vm', new', q, fun m => ?_, fun m => ?_⟩
        · rw [r, given_cons]
          by_cases hm : n = m
          · subst hm; simp only [hf, if_true]
          · rw [if_neg hm]
        · rw [s, given_cons]
          by_cases hm : n = m
          · subst hm; simp [hf]
          · rw [if_neg hm]
      · obtain ⟨a, b⟩ := (ih vm new).2 r hr
        refine ⟨a, fun m hm hfm => ?_⟩
        rcases List.mem_cons.1 hm with h | h
        · subst h; simp only [hf] at hfm; cases hfm
        · exact b m h hfm
    · have hf' : final n = false := by simpa using hf
      rw [GivenFine.cons_new hf']
      refine ⟨?_, fun r hr => ?_⟩
      · rintro ⟨hc, hn, hF⟩ hv
        obtain ⟨v, hv'⟩ := Option.isSome_iff_exists.1 hc
        dsimp only at hv' hn
        have eq : storeGiven d final ((n, t) :: l) vm new =
            storeGiven d final l (mapSet vm n (v, false)) (fun i => i = n || new i) := by
          rw [storeGiven, if_neg hf]
          have := hv n List.mem_cons_self hf'
          rcases hx : vm n with _ | ⟨u, b⟩
          · dsimp only; rw [hv']
          · cases b with
            | false => exact absurd hx (this u)
            | true => dsimp only; rw [hv']
        rw [eq]
        obtain ⟨vm', new', q, r, s⟩ := (ih (mapSet vm n (v, false)) (fun i => i = n || new i)).1 hF (fun m hm hfm u => by
          have : m ≠ n := fun h => hn (h ▸ hm)
          unfold mapSet
          rw [if_neg this]
          exact hv m (List.mem_cons_of_mem _ hm) hfm u)
        refine ⟨vm', new', q, fun m => ?_, fun m => ?_⟩
        · rw [r, given_cons]
          by_cases hm : n = m
          · subst hm
            rw [(given_none l n).2 hn]
            simp [hf', hv', mapSet]
          · simp only [if_neg hm, mapSet, if_neg (Ne.symm hm)]
        · rw [s, given_cons]
          by_cases hm : n = m
          · subst hm; simp [hf']
          · simp [hm, Ne.symm hm]
      · rw [storeGiven, if_neg hf] at hr
        have key : (∀ v, vm n ≠ some (v, false)) ∧ ∃ v, d.conv n t = some v ∧
            storeGiven d final l (mapSet vm n (v, false)) (fun i => i = n || new i) = .ok r := by
          rcases hx : vm n with _ | ⟨u, b⟩
          · rw [hx] at hr; dsimp only at hr
            refine ⟨fun v => (by simp), ?_⟩
            rcases hc : d.conv n t with _ | v
            · rw [hc] at hr; cases hr
            · rw [hc] at hr; exact ⟨v, rfl, hr⟩
          · cases b with
            | false => rw [hx] at hr; cases hr
            | true =>
              rw [hx] at hr; dsimp only at hr
              refine ⟨fun v => (by simp), ?_⟩
              rcases hc : d.conv n t with _ | v
              · rw [hc] at hr; cases hr
              · rw [hc] at hr; exact ⟨v, rfl, hr⟩
        obtain ⟨k1, v, k2, k3⟩ := key
        obtain ⟨a, b⟩ := (ih _ _).2 r k3
        have hn : n ∉ l.map Prod.fst := fun hm => b n hm hf' v (by unfold mapSet; rw [if_pos rfl])
        refine ⟨⟨by dsimp only; rw [k2]; rfl, hn, a⟩, fun m hm hfm u => ?_⟩
        rcases List.mem_cons.1 hm with h | h
        · dsimp only at h; subst h; exact k1 u
        · have := b m h hfm u
          have ne : m ≠ n := fun q => hn (q ▸ h)
          unfold mapSet at this
          rwa [if_neg ne] at this

theorem store_ok_iff (d : OptDecl N T V F) (l : List (N × T)) (s : OptState N V) (s' : OptState N V)
    (hs : ∀ n, s.final n = false → ∀ v, s.vm n ≠ some (v, false)) :
    store d l s = .ok s' ↔ (∀ e ∈ l, d.known e.1 = true) ∧ GivenFine d s.final l ∧
      s' = ⟨fun n => if s.final n then (match s.vm n with
              | some x => some x
              | none => if d.known n then (d.default n).map (fun v => (v, true)) else none)
            else match given l n with
              | some t => (d.conv n t).map fun v => (v, false)
              | none => match s.vm n with
                | some x => some x
                | none => if d.known n then (d.default n).map (fun v => (v, true)) else none,
          fun n => s.final n || (given l n).isSome, s.vars⟩ := by
  unfold store
  by_cases hk : l.all (fun e => d.known e.1) = true
  · rw [if_pos hk]
    have hk' : ∀ e ∈ l, d.known e.1 = true := by simpa using hk
    have sp := storeGiven_spec d s.final l s.vm (fun _ => false)
    constructor
    · intro h
      rcases hg : storeGiven d s.final l s.vm (fun _ => false) with e | r
      · rw [hg] at h; cases h
      · have hF := (sp.2 r hg).1
        obtain ⟨vm', new', q, r1, r2⟩ := sp.1 hF (fun n _ => hs n)
        rw [q] at h
        dsimp only at h
        refine ⟨hk', hF, ?_⟩
        injection h with h
        rw [← h]
        congr 1
        · funext n
          rw [r1]
          by_cases hf : s.final n = true
          · simp only [hf, if_true]; rfl
          · simp only [hf]
            rcases hgv : given l n with _ | t
            · rfl
            · obtain ⟨v, hv⟩ := Option.isSome_iff_exists.1 (hF.1 _ (given_mem hgv) (by simpa using hf))
              dsimp only at hv
              simp [hv]
        · funext n
          rw [r2]
          cases s.final n <;> simp
    · rintro ⟨-, hF, rfl⟩
      obtain ⟨vm', new', q, r1, r2⟩ := sp.1 hF (fun n _ => hs n)
      rw [q]
      dsimp only
      congr 2
      · funext n
        rw [r1]
        by_cases hf : s.final n = true
        · simp only [hf, if_true]; rfl
        · simp only [hf]
          rcases hgv : given l n with _ | t
          · rfl
          · obtain ⟨v, hv⟩ := Option.isSome_iff_exists.1 (hF.1 _ (given_mem hgv) (by simpa using hf))
            dsimp only at hv
            simp [hv]
      · funext n
        rw [r2]
        cases s.final n <;> simp
  · rw [if_neg hk]
    constructor
    · intro h; cases h
    · rintro ⟨h, -⟩; exact absurd (by simpa using h) hk

theorem notify_vars (s : OptState N V) (n : N) : (notify s).vars n = ((s.vm n).map Prod.fst).or (s.vars n) := by
  unfold notify
  dsimp only
  cases s.vm n <;> rfl

/-- Both sources: what is stored, and when. -/
theorem parse_ok_iff (d : OptDecl N T V F) (files : F → Option (List (N × T))) (prev : N → Option V) (cmd : List (N × T))
    (hdef : ∀ n v, d.default n = some v → d.known n = true) (hh : d.default d.help = none) (s : OptState N V) :
    parseInputOptions d files prev cmd = .ok s →
      Accepted d files prev cmd ∧ ∀ n, s.vars n = effective d cmd (configOf d files prev cmd) prev n := by
  intro h
  unfold parseInputOptions at h
  have hdk : ∀ n, (if d.known n = true then (d.default n).map (fun v => (v, true)) else none) = (d.default n).map (fun v => (v, true)) := by
    intro n
    cases hd : d.default n with
    | none => simp
    | some v => simp [hdef n v hd]
  rcases h0 : store d cmd ⟨fun _ => none, fun _ => false, prev⟩ with e | s0
  · rw [h0] at h; cases h
  rw [h0] at h
  dsimp only at h
  obtain ⟨k0, f0, e0⟩ := (store_ok_iff d cmd _ s0 (by simp)).1 h0
  simp only [Bool.false_eq_true, if_false, hdk, Bool.false_or] at e0
  -- conversions on the command line succeed
  have c0 : ∀ n t, given cmd n = some t → ∃ v, d.conv n t = some v := fun n t hg =>
    Option.isSome_iff_exists.1 (f0.1 _ (given_mem hg) rfl)
  have v0 : ∀ n, (notify s0).vars n = effective d cmd [] prev n := by
    intro n
    rw [notify_vars, e0]
    dsimp only
    unfold effective
    rcases hg : given cmd n with _ | t
    · simp only [given_nil]
      cases d.default n <;> rfl
    · obtain ⟨v, hv⟩ := c0 n t hg
      simp [hv]
  have hcfg : (((notify s0).vars d.config).bind d.path |>.bind files).getD [] = configOf d files prev cmd := by
    rw [v0]; rfl
  rw [hcfg] at h
  set cfg := configOf d files prev cmd with hc
  rcases h1 : store d cfg (notify s0) with e | s2
  · rw [h1] at h; cases h
  rw [h1] at h
  dsimp only at h
  have vm0 : ∀ n, (notify s0).vm n = match given cmd n with
      | some t => (d.conv n t).map (fun v => (v, false))
      | none => (d.default n).map (fun v => (v, true)) := by
    intro n; unfold notify; rw [e0]
  have fin0 : ∀ n, (notify s0).final n = (given cmd n).isSome := by
    intro n; unfold notify; rw [e0]
  have ex0 : ∀ n, (notify s0).final n = false → ∀ v, (notify s0).vm n ≠ some (v, false) := by
    intro n hf v q
    rw [fin0] at hf
    rw [vm0] at q
    rcases hg : given cmd n with _ | t
    · rw [hg] at q; cases hd : d.default n <;> rw [hd] at q <;> cases q
    · rw [hg] at hf; cases hf
  obtain ⟨k1, f1, e1⟩ := (store_ok_iff d cfg _ s2 ex0).1 h1
  have c1 : ∀ n t, given cmd n = none → given cfg n = some t → ∃ v, d.conv n t = some v := fun n t hn hg =>
    Option.isSome_iff_exists.1 (f1.1 _ (given_mem hg) (by rw [fin0]; dsimp only; rw [hn]; rfl))
  have vm2 : ∀ n, s2.vm n = match given cmd n with
      | some t => (d.conv n t).map (fun v => (v, false))
      | none => match given cfg n with
        | some t => (d.conv n t).map (fun v => (v, false))
        | none => (d.default n).map (fun v => (v, true)) := by
    intro n
    rw [e1]
    dsimp only
    rw [fin0, vm0, hdk]
    rcases hg : given cmd n with _ | t
    · simp only [Option.isSome_none, Bool.false_eq_true, if_false]
      rcases hg' : given cfg n with _ | t
      · cases d.default n <;> rfl
      · rfl
    · obtain ⟨v, hv⟩ := c0 n t hg
      simp [hv]
  have v2 : ∀ n, (notify s2).vars n = effective d cmd cfg prev n := by
    intro n
    have p1 : s2.vars n = effective d cmd [] prev n := by rw [e1]; exact v0 n
    rw [notify_vars, vm2, p1]
    unfold effective
    rcases hg : given cmd n with _ | t
    · simp only [given_nil]
      rcases hg' : given cfg n with _ | t
      · cases d.default n <;> rfl
      · obtain ⟨v, hv⟩ := c1 n t hg hg'
        simp [hv]
    · obtain ⟨v, hv⟩ := c0 n t hg
      simp [hv]
  have hvm : (notify s2).vm = s2.vm := rfl
  rw [hvm, v2] at h
  by_cases hhelp : (s2.vm d.help).isSome = true
  · rw [if_pos hhelp] at h; cases h
  rw [if_neg hhelp] at h
  have hs : s = notify s2 ∧ ∀ f, (effective d cmd cfg prev d.config).bind d.path = some f → (files f).isSome = true := by
    rcases hp : (effective d cmd cfg prev d.config).bind d.path with _ | f
    · rw [hp] at h; dsimp only at h
      injection h with h
      exact ⟨h.symm, fun f q => by cases q⟩
    · rw [hp] at h; dsimp only at h
      by_cases hf : (files f).isSome = true
      · rw [if_pos hf] at h
        injection h with h
        exact ⟨h.symm, fun g q => by cases q; exact hf⟩
      · rw [if_neg hf] at h; cases h
  have hnohelp : given cmd d.help = none ∧ given cfg d.help = none := by
    rw [vm2] at hhelp
    rcases hg : given cmd d.help with _ | t
    · rw [hg] at hhelp
      dsimp only at hhelp
      rcases hg' : given cfg d.help with _ | t
      · exact ⟨rfl, rfl⟩
      · obtain ⟨v, hv⟩ := c1 _ t hg hg'
        rw [hg'] at hhelp; simp [hv] at hhelp
    · obtain ⟨v, hv⟩ := c0 _ t hg
      rw [hg] at hhelp; simp [hv] at hhelp
  refine ⟨⟨?_, ?_, ?_, ?_, ?_, hnohelp, hs.2⟩, fun n => by rw [hs.1, v2]⟩
  · rintro e (he | he)
    · exact k0 e he
    · exact k1 e he
  · have := f0.2
    simpa using this
  · have := f1.2
    have q : (fun e : N × T => !(notify s0).final e.1) = fun e => (given cmd e.1).isNone := by
      funext e; rw [fin0]; cases given cmd e.1 <;> rfl
    rw [q] at this; exact this
  · intro e he; exact f0.1 e he rfl
  · intro e he hn
    exact f1.1 e he (by rw [fin0, hn]; rfl)

/-- Accepted sources are accepted. -/
theorem parse_accepts (d : OptDecl N T V F) (files : F → Option (List (N × T))) (prev : N → Option V) (cmd : List (N × T))
    (hdef : ∀ n v, d.default n = some v → d.known n = true) (hh : d.default d.help = none)
    (hA : Accepted d files prev cmd) : ∃ s, parseInputOptions d files prev cmd = .ok s := by
  have hdk : ∀ n, (if d.known n = true then (d.default n).map (fun v => (v, true)) else none) = (d.default n).map (fun v => (v, true)) := by
    intro n
    cases hd : d.default n with
    | none => simp
    | some v => simp [hdef n v hd]
  have f0 : GivenFine d (fun _ => false) cmd := ⟨fun e he _ => hA.value e he, by simpa using hA.once⟩
  have c0 : ∀ n t, given cmd n = some t → ∃ v, d.conv n t = some v := fun n t hg =>
    Option.isSome_iff_exists.1 (hA.value _ (given_mem hg))
  obtain ⟨s0, h0, e0⟩ : ∃ s0, store d cmd ⟨fun _ => none, fun _ => false, prev⟩ = .ok s0 ∧ _ :=
    ⟨_, (store_ok_iff d cmd ⟨fun _ => none, fun _ => false, prev⟩ _ (by simp)).2 ⟨fun e he => hA.known e (Or.inl he), f0, rfl⟩, rfl⟩
  simp only [Bool.false_eq_true, if_false, hdk, Bool.false_or] at e0
  replace e0 := e0.symm
  have vm0 : ∀ n, (notify s0).vm n = match given cmd n with
      | some t => (d.conv n t).map (fun v => (v, false))
      | none => (d.default n).map (fun v => (v, true)) := by
    intro n; unfold notify; rw [e0]
  have fin0 : ∀ n, (notify s0).final n = (given cmd n).isSome := by
    intro n; unfold notify; rw [e0]
  have v0 : ∀ n, (notify s0).vars n = effective d cmd [] prev n := by
    intro n
    rw [notify_vars, e0]
    dsimp only
    unfold effective
    rcases hg : given cmd n with _ | t
    · simp only [given_nil]
      cases d.default n <;> rfl
    · obtain ⟨v, hv⟩ := c0 n t hg
      simp [hv]
  have ex0 : ∀ n, (notify s0).final n = false → ∀ v, (notify s0).vm n ≠ some (v, false) := by
    intro n hf v q
    rw [fin0] at hf
    rw [vm0] at q
    rcases hg : given cmd n with _ | t
    · rw [hg] at q; cases hd : d.default n <;> rw [hd] at q <;> cases q
    · rw [hg] at hf; cases hf
  have f1 : GivenFine d (notify s0).final (configOf d files prev cmd) := by
    refine ⟨fun e he hf => hA.valueConfig e he ?_, ?_⟩
    · rw [fin0] at hf; cases hg : given cmd e.1 <;> simp_all
    · have q : (fun e : N × T => !(notify s0).final e.1) = fun e => (given cmd e.1).isNone := by
        funext e; rw [fin0]; cases given cmd e.1 <;> rfl
      rw [q]; exact hA.onceConfig
  obtain ⟨s2, h2⟩ : ∃ s2, store d (configOf d files prev cmd) (notify s0) = .ok s2 :=
    ⟨_, (store_ok_iff d _ (notify s0) _ ex0).2 ⟨fun e he => hA.known e (Or.inr he), f1, rfl⟩⟩
  obtain ⟨-, -, e2⟩ := (store_ok_iff d _ (notify s0) _ ex0).1 h2
  have vmh : s2.vm d.help = none := by
    rw [e2]
    dsimp only
    rw [fin0, hA.noHelp.1]
    simp only [Option.isSome_none, Bool.false_eq_true, if_false]
    rw [hA.noHelp.2, vm0, hA.noHelp.1, hh]
    simp
  have vcfg : (notify s2).vars d.config = effective d cmd (configOf d files prev cmd) prev d.config := by
    have p1 : s2.vars d.config = effective d cmd [] prev d.config := by rw [e2]; exact v0 _
    rw [notify_vars, p1, e2]
    dsimp only
    rw [fin0, vm0, hdk]
    unfold effective
    rcases hg : given cmd d.config with _ | t
    · simp only [Option.isSome_none, Bool.false_eq_true, if_false, given_nil]
      rcases hg' : given (configOf d files prev cmd) d.config with _ | t
      · cases d.default d.config <;> rfl
      · obtain ⟨v, hv⟩ := Option.isSome_iff_exists.1 (hA.valueConfig _ (given_mem hg') hg)
        dsimp only at hv
        simp [hv]
    · obtain ⟨v, hv⟩ := c0 _ t hg
      simp [hv]
  have hcfg : (((notify s0).vars d.config).bind d.path |>.bind files).getD [] = configOf d files prev cmd := by
    rw [v0]; rfl
  unfold parseInputOptions
  rw [h0]
  dsimp only
  rw [hcfg, h2]
  dsimp only
  have hvm : (notify s2).vm = s2.vm := rfl
  rw [hvm, vmh, vcfg, if_neg (by simp)]
  rcases hp : (effective d cmd (configOf d files prev cmd) prev d.config).bind d.path with _ | f
  · exact ⟨_, rfl⟩
  · dsimp only
    rw [if_pos (hA.exists_ f hp)]
    exact ⟨_, rfl⟩

end Madg
