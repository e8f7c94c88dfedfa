/-
How a program start without a run ends.
-/
import Verif.Proofs.Options
import Verif.Spec.OptExit

namespace Madg
open Spec
variable {N T V F : Type} [DecidableEq N]

theorem storeGiven_error (d : OptDecl N T V F) (final : N → Bool) (l : List (N × T)) : ∀ (vm : N → Option (V × Bool)) (new : N → Bool) (e : OptErr),
    storeGiven d final l vm new = .error e → e ≠ .help ∧ e ≠ .noConfig := by
  induction l with
  | nil => intro vm new e h; cases h
  | cons x l ih =>
    obtain ⟨n, t⟩ := x
    intro vm new e h
    unfold storeGiven at h
    split at h
    · exact ih _ _ _ h
    · split at h
      · cases h; exact ⟨by decide, by decide⟩
      · split at h
        · cases h; exact ⟨by decide, by decide⟩
        · exact ih _ _ _ h

theorem store_error (d : OptDecl N T V F) (l : List (N × T)) (s : OptState N V) :
    store d l s ≠ .error .help ∧ store d l s ≠ .error .noConfig := by
  unfold store
  split
  · cases h : storeGiven d s.final l s.vm (fun _ => false) with
    | error e =>
      have := storeGiven_error d s.final l _ _ e h
      exact ⟨fun q => by cases q; exact this.1 rfl, fun q => by cases q; exact this.2 rfl⟩
    | ok x => exact ⟨(fun q => (by cases q)), (fun q => (by cases q))⟩
  · exact ⟨(fun q => (by cases q)), (fun q => (by cases q))⟩


theorem readable_of_error (d : OptDecl N T V F) (files : F → Option (List (N × T))) (prev : N → Option V) (cmd : List (N × T))
    (hdef : ∀ n v, d.default n = some v → d.known n = true) (e : OptErr) (he : e = .help ∨ e = .noConfig)
    (h : parseInputOptions d files prev cmd = .error e) : Readable d files prev cmd := by
  unfold parseInputOptions at h
  have hdk : ∀ n, (if d.known n = true then (d.default n).map (fun v => (v, true)) else none) = (d.default n).map (fun v => (v, true)) := by
    intro n
    cases hd : d.default n with
    | none => simp
    | some v => simp [hdef n v hd]
  rcases h0 : store d cmd ⟨fun _ => none, fun _ => false, prev⟩ with e0 | s0
  · rw [h0] at h
    cases h
    rcases he with rfl | rfl
    · exact absurd h0 (store_error d _ _).1
    · exact absurd h0 (store_error d _ _).2
  rw [h0] at h
  dsimp only at h
  obtain ⟨k0, f0, e0⟩ := (store_ok_iff d cmd _ s0 (by simp)).1 h0
  simp only [Bool.false_eq_true, if_false, hdk, Bool.false_or] at e0
  -- conversions on the command line succeed
  have c0 : ∀ n t, given cmd n = some t → ∃ v, d.conv n t = some v := fun n t hg =>
    Option.isSome_iff_exists.1 (f0.1 _ (given_mem hg) rfl)
  have v0 : ∀ n, (notify s0).vars n = effective d cmd [] prev n := by
    intro n
    rw [notify_vars, e0]
    dsimp only
    unfold effective
    rcases hg : given cmd n with _ | t
    · simp only [given_nil]
      cases d.default n <;> rfl
    · obtain ⟨v, hv⟩ := c0 n t hg
      simp [hv]
  have hcfg : (((notify s0).vars d.config).bind d.path |>.bind files).getD [] = configOf d files prev cmd := by
    rw [v0]; rfl
  rw [hcfg] at h
  set cfg := configOf d files prev cmd with hc
  rcases h1 : store d cfg (notify s0) with e0 | s2
  · rw [h1] at h
    cases h
    rcases he with rfl | rfl
    · exact absurd h1 (store_error d _ _).1
    · exact absurd h1 (store_error d _ _).2
  rw [h1] at h
  dsimp only at h
  have vm0 : ∀ n, (notify s0).vm n = match given cmd n with
      | some t => (d.conv n t).map (fun v => (v, false))
      | none => (d.default n).map (fun v => (v, true)) := by
    intro n; unfold notify; rw [e0]; dsimp only; cases given cmd n <;> rfl
  have fin0 : ∀ n, (notify s0).final n = (given cmd n).isSome := by
    intro n; unfold notify; rw [e0]
  have ex0 : ∀ n, (notify s0).final n = false → ∀ v, (notify s0).vm n ≠ some (v, false) := by
    intro n hf v q
    rw [fin0] at hf
    rw [vm0] at q
    rcases hg : given cmd n with _ | t
    · rw [hg] at q; cases hd : d.default n <;> rw [hd] at q <;> cases q
    · rw [hg] at hf; cases hf
  obtain ⟨k1, f1, e1⟩ := (store_ok_iff d cfg _ s2 ex0).1 h1
  refine ⟨?_, ?_, ?_, ?_, ?_⟩
  · rintro e (he | he)
    · exact k0 e he
    · exact k1 e he
  · have := f0.2
    simpa using this
  · have := f1.2
    have q : (fun e : N × T => !(notify s0).final e.1) = fun e => (given cmd e.1).isNone := by
      funext e; rw [fin0]; cases given cmd e.1 <;> rfl
    rw [q] at this; exact this
  · intro e he; exact f0.1 e he rfl
  · intro e he hn
    exact f1.1 e he (by rw [fin0, hn]; rfl)

theorem parse_readable (d : OptDecl N T V F) (files : F → Option (List (N × T))) (prev : N → Option V) (cmd : List (N × T))
    (hdef : ∀ n v, d.default n = some v → d.known n = true) (hh : d.default d.help = none) (hA : Readable d files prev cmd) :
    ((given cmd d.help ≠ none ∨ given (configOf d files prev cmd) d.help ≠ none) →
      parseInputOptions d files prev cmd = .error .help) ∧
    (given cmd d.help = none → given (configOf d files prev cmd) d.help = none →
      ∀ f, (effective d cmd (configOf d files prev cmd) prev d.config).bind d.path = some f → files f = none →
        parseInputOptions d files prev cmd = .error .noConfig) := by
  have hdk : ∀ n, (if d.known n = true then (d.default n).map (fun v => (v, true)) else none) = (d.default n).map (fun v => (v, true)) := by
    intro n
    cases hd : d.default n with
    | none => simp
    | some v => simp [hdef n v hd]
  have f0 : GivenFine d (fun _ => false) cmd := ⟨fun e he _ => hA.value e he, by simpa using hA.once⟩
  have c0 : ∀ n t, given cmd n = some t → ∃ v, d.conv n t = some v := fun n t hg =>
    Option.isSome_iff_exists.1 (hA.value _ (given_mem hg))
  obtain ⟨s0, h0, e0⟩ : ∃ s0, store d cmd ⟨fun _ => none, fun _ => false, prev⟩ = .ok s0 ∧ _ :=
    ⟨_, (store_ok_iff d cmd ⟨fun _ => none, fun _ => false, prev⟩ _ (by simp)).2 ⟨fun e he => hA.known e (Or.inl he), f0, rfl⟩, rfl⟩
  simp only [Bool.false_eq_true, if_false, hdk, Bool.false_or] at e0
  replace e0 := e0.symm
  have vm0 : ∀ n, (notify s0).vm n = match given cmd n with
      | some t => (d.conv n t).map (fun v => (v, false))
      | none => (d.default n).map (fun v => (v, true)) := by
    intro n; unfold notify; rw [e0]; dsimp only; cases given cmd n <;> rfl
  have fin0 : ∀ n, (notify s0).final n = (given cmd n).isSome := by
    intro n; unfold notify; rw [e0]
  have v0 : ∀ n, (notify s0).vars n = effective d cmd [] prev n := by
    intro n
    rw [notify_vars, e0]
    dsimp only
    unfold effective
    rcases hg : given cmd n with _ | t
    · simp only [given_nil]
      cases d.default n <;> rfl
    · obtain ⟨v, hv⟩ := c0 n t hg
      simp [hv]
  have ex0 : ∀ n, (notify s0).final n = false → ∀ v, (notify s0).vm n ≠ some (v, false) := by
    intro n hf v q
    rw [fin0] at hf
    rw [vm0] at q
    rcases hg : given cmd n with _ | t
    · rw [hg] at q; cases hd : d.default n <;> rw [hd] at q <;> cases q
    · rw [hg] at hf; cases hf
  have f1 : GivenFine d (notify s0).final (configOf d files prev cmd) := by
    refine ⟨fun e he hf => hA.valueConfig e he ?_, ?_⟩
    · rw [fin0] at hf; cases hg : given cmd e.1 <;> simp_all
    · have q : (fun e : N × T => !(notify s0).final e.1) = fun e => (given cmd e.1).isNone := by
        funext e; rw [fin0]; cases given cmd e.1 <;> rfl
      rw [q]; exact hA.onceConfig
  obtain ⟨s2, h2⟩ : ∃ s2, store d (configOf d files prev cmd) (notify s0) = .ok s2 :=
    ⟨_, (store_ok_iff d _ (notify s0) _ ex0).2 ⟨fun e he => hA.known e (Or.inr he), f1, rfl⟩⟩
  obtain ⟨-, -, e2⟩ := (store_ok_iff d _ (notify s0) _ ex0).1 h2
  have vmh : given cmd d.help = none → given (configOf d files prev cmd) d.help = none → s2.vm d.help = none := by
    intro n1 n2
    rw [e2]
    dsimp only
    rw [fin0, n1]
    simp only [Option.isSome_none, Bool.false_eq_true, if_false]
    rw [n2, vm0, n1, hh]
    simp
  have vmh' : (given cmd d.help ≠ none ∨ given (configOf d files prev cmd) d.help ≠ none) → (s2.vm d.help).isSome = true := by
    intro n1
    rw [e2]
    dsimp only
    rw [fin0]
    rcases hg : given cmd d.help with _ | t
    · simp only [Option.isSome_none, Bool.false_eq_true, if_false]
      rcases hg' : given (configOf d files prev cmd) d.help with _ | t
      · rcases n1 with n1 | n1
        · exact absurd hg n1
        · exact absurd hg' n1
      · obtain ⟨v, hv⟩ := Option.isSome_iff_exists.1 (hA.valueConfig _ (given_mem hg') hg)
        dsimp only at hv
        simp [hv]
    · obtain ⟨v, hv⟩ := c0 _ t hg
      rw [vm0, hg]
      simp [hv]
  have vcfg : (notify s2).vars d.config = effective d cmd (configOf d files prev cmd) prev d.config := by
    have p1 : s2.vars d.config = effective d cmd [] prev d.config := by rw [e2]; exact v0 _
    rw [notify_vars, p1, e2]
    dsimp only
    rw [fin0, vm0, hdk]
    unfold effective
    rcases hg : given cmd d.config with _ | t
    · simp only [Option.isSome_none, Bool.false_eq_true, if_false, given_nil]
      rcases hg' : given (configOf d files prev cmd) d.config with _ | t
      · cases d.default d.config <;> rfl
      · obtain ⟨v, hv⟩ := Option.isSome_iff_exists.1 (hA.valueConfig _ (given_mem hg') hg)
        dsimp only at hv
        simp [hv]
    · obtain ⟨v, hv⟩ := c0 _ t hg
      simp [hv]
  have hcfg : (((notify s0).vars d.config).bind d.path |>.bind files).getD [] = configOf d files prev cmd := by
    rw [v0]; rfl
  unfold parseInputOptions
  rw [h0]
  dsimp only
  rw [hcfg, h2]
  dsimp only
  have hvm : (notify s2).vm = s2.vm := rfl
  rw [hvm, vcfg]
  refine ⟨fun n1 => by rw [if_pos (vmh' n1)], fun n1 n2 f hf hn => ?_⟩
  rw [vmh n1 n2, if_neg (by simp), hf]
  dsimp only
  rw [hn]
  rfl

theorem parse_help_iff (d : OptDecl N T V F) (files : F → Option (List (N × T))) (prev : N → Option V) (cmd : List (N × T))
    (hdef : ∀ n v, d.default n = some v → d.known n = true) (hh : d.default d.help = none) :
    parseInputOptions d files prev cmd = .error .help ↔ Readable d files prev cmd ∧
      (given cmd d.help ≠ none ∨ given (configOf d files prev cmd) d.help ≠ none) := by
  refine ⟨fun h => ?_, fun h => (parse_readable d files prev cmd hdef hh h.1).1 h.2⟩
  have hr := readable_of_error d files prev cmd hdef _ (.inl rfl) h
  refine ⟨hr, ?_⟩
  by_contra hc
  rw [not_or, not_not, not_not] at hc
  by_cases hA : ∀ f, (effective d cmd (configOf d files prev cmd) prev d.config).bind d.path = some f → (files f).isSome = true
  · obtain ⟨s, hs⟩ := parse_accepts d files prev cmd hdef hh ⟨hr.known, hr.once, hr.onceConfig, hr.value, hr.valueConfig, hc, hA⟩
    rw [h] at hs
    cases hs
  · rw [not_forall] at hA
    obtain ⟨f, hf⟩ := hA
    rw [Classical.not_imp] at hf
    have := (parse_readable d files prev cmd hdef hh hr).2 hc.1 hc.2 f hf.1 (by simpa using hf.2)
    rw [h] at this
    cases this

theorem parse_noConfig_iff (d : OptDecl N T V F) (files : F → Option (List (N × T))) (prev : N → Option V) (cmd : List (N × T))
    (hdef : ∀ n v, d.default n = some v → d.known n = true) (hh : d.default d.help = none) :
    parseInputOptions d files prev cmd = .error .noConfig ↔ Readable d files prev cmd ∧
      given cmd d.help = none ∧ given (configOf d files prev cmd) d.help = none ∧
      ∃ f, (effective d cmd (configOf d files prev cmd) prev d.config).bind d.path = some f ∧ files f = none := by
  refine ⟨fun h => ?_, fun ⟨h, h1, h2, f, h3, h4⟩ => (parse_readable d files prev cmd hdef hh h).2 h1 h2 f h3 h4⟩
  have hr := readable_of_error d files prev cmd hdef _ (.inr rfl) h
  have hc : given cmd d.help = none ∧ given (configOf d files prev cmd) d.help = none := by
    by_contra hc
    rw [not_and_or] at hc
    have := (parse_readable d files prev cmd hdef hh hr).1 hc
    rw [h] at this
    cases this
  refine ⟨hr, hc.1, hc.2, ?_⟩
  by_contra hn
  obtain ⟨s, hs⟩ := parse_accepts d files prev cmd hdef hh ⟨hr.known, hr.once, hr.onceConfig, hr.value, hr.valueConfig, hc, fun f hf => by
    by_contra hx
    exact hn ⟨f, hf, by simpa using hx⟩⟩
  rw [h] at hs
  cases hs

end Madg
