/-
C112: the machine report at the start of every run, and the words passed to PETSc.
-/
import Verif.Proofs.Machine

namespace Madg
open Spec

/-- C112. The processor reported is the text after the second blank of the first line of `/proc/cpuinfo` that begins with
`model name`, with all its blanks. -/
theorem C112_processor (pre post : List Text) (b r : Text) (hb : ' ' ∉ b)
    (hn : ∀ x ∈ pre ++ ("model name".toList ++ b ++ ' ' :: r) :: post, '\n' ∉ x) (hpre : ∀ x ∈ pre, ¬ "model name".toList <+: x) :
    processorModel (some (fileOf (pre ++ ("model name".toList ++ b ++ ' ' :: r) :: post))) = r := by
  rw [processorModel_lines hn hpre ⟨b ++ ' ' :: r, by rw [List.append_assoc]⟩]
  have e : "model name".toList ++ b ++ ' ' :: r = "model".toList ++ ' ' :: (("name".toList ++ b) ++ ' ' :: r) := by
    have : "model name".toList = "model".toList ++ ' ' :: "name".toList := by decide
    rw [this]; simp
  rw [e]
  exact modelOf_text (by decide) (by
    rw [List.mem_append, not_or]
    exact ⟨by decide, hb⟩)

example : processorModel (some "vendor_id\t: X\nmodel name\t: Some CPU  @ 3 GHz\nmodel name\t: Other\n".toList) = "Some CPU  @ 3 GHz".toList := by
  have := C112_processor ["vendor_id\t: X".toList] ["model name\t: Other".toList] "\t:".toList "Some CPU  @ 3 GHz".toList (by decide)
    (by decide +kernel) (by decide +kernel)
  exact Eq.trans (congrArg (fun t => processorModel (some t)) (by decide +kernel)) this

/-- C112. Nothing is found without such a line, or if the first such line has no blank after its name, even if a later one has. -/
theorem C112_processor_unknown (ls : List Text) (hn : ∀ x ∈ ls, '\n' ∉ x) (h : (∀ x ∈ ls, ¬ "model name".toList <+: x) ∨
      ∃ (pre post : List Text) (b : Text), ls = pre ++ ("model name".toList ++ b) :: post ∧ ' ' ∉ b ∧
        ∀ x ∈ pre, ¬ "model name".toList <+: x) :
    processorModel (some (fileOf ls)) = "not found".toList := by
  rcases h with h | ⟨pre, post, b, rfl, hb, hpre⟩
  · unfold processorModel fileOf
    dsimp only
    rw [linesGo_lines _ hn, List.find?_eq_none.2]
    intro x hx q
    exact h x hx (List.prefix_iff_eq_take.2 (of_decide_eq_true q).symm)
  · rw [processorModel_lines hn hpre ⟨b, rfl⟩]
    have e : "model name".toList ++ b = "model".toList ++ ' ' :: ("name".toList ++ b) := by
      have : "model name".toList = "model".toList ++ ' ' :: "name".toList := by decide
      rw [this]; simp
    rw [e]
    exact modelOf_short (by decide) (by
      rw [List.mem_append, not_or]
      exact ⟨by decide, hb⟩)

example : processorModel (some (fileOf ["model name\t:".toList, "model name\t: Second".toList])) = "not found".toList :=
  C112_processor_unknown _ (by decide +kernel) (Or.inr ⟨[], _, "\t:".toList, rfl, by decide, by simp⟩)

/-- C112. The host name is reported exactly if it is shorter than the buffer, whatever the buffer contains; a longer one leaves the buffer
without terminator, and reading it is undefined. -/
theorem C112_host (name buf : Text) (h : '\x00' ∉ name) :
    hostName name buf = if name.length < buf.length then .ok name else .error .outOfBounds := by
  unfold hostName getHostName cString
  by_cases hl : name.length < buf.length
  · rw [if_pos hl]
    have e : (name ++ ['\x00']).take buf.length = name ++ ['\x00'] := List.take_of_length_le (by simp; omega)
    rw [e, if_pos (by simp)]
    have t : ∀ (n : Text) (s : Text), '\x00' ∉ n → (n ++ '\x00' :: s).takeWhile (· != '\x00') = n := by
      intro n
      induction n with
      | nil => intro s _; rfl
      | cons c n ih =>
        intro s hc
        rw [List.mem_cons, not_or] at hc
        rw [List.cons_append, List.takeWhile_cons, if_pos (by simpa using Ne.symm hc.1), ih s hc.2]
    rw [List.append_assoc]
    exact congrArg _ (t name _ h)
  · rw [if_neg hl]
    have e : (name ++ ['\x00']).take buf.length = name.take buf.length := List.take_append_of_le_length (by omega)
    rw [e, List.drop_eq_nil_of_le (by omega), List.append_nil, if_neg]
    rw [List.contains_iff_mem]
    exact fun q => h (List.mem_of_mem_take q)

/-- Linux allows host names of 64 characters, as long as the buffer. -/
example (buf : Text) (h : buf.length = 64) : hostName (List.replicate 64 'a') buf = .error .outOfBounds ∧
    hostName (List.replicate 63 'a') buf = .ok (List.replicate 63 'a') := by
  rw [C112_host _ _ (by decide), C112_host _ _ (by decide), h]
  exact ⟨rfl, rfl⟩

/-- C112. PETSc gets the program name and then the words of the option, whatever the spaces between them. -/
theorem C112_petsc_words (t : Text) (ws : List Text) : petscArgs t = "maDG".toList :: ws ↔ Words t ws := by
  rw [words_iff]
  unfold petscArgs
  constructor
  · intro h; injection h
  · intro h; rw [h]

/-- Quotation marks do not keep words together. -/
example : petscArgs "-ts_type  bdf\t'a b'".toList = ["maDG".toList, "-ts_type".toList, "bdf".toList, "'a".toList, "b'".toList] := by
  rw [C112_petsc_words, words_iff]
  decide +kernel

/-- C112. The command line in the log consists of exactly the arguments passed on: its words are these arguments. -/
theorem C112_petsc_logged (t : Text) : Words (petscCommand t) (petscArgs t) ∧
    ∀ t', petscCommand t' = petscCommand t → petscArgs t' = petscArgs t := by
  have key : ∀ t, Words (petscCommand t) (petscArgs t) := fun t => by
    unfold petscCommand
    rw [foldl_words, List.nil_append]
    refine words_join fun w hw => ?_
    rcases List.mem_cons.1 hw with rfl | h
    · refine ⟨by decide, ?_⟩
      intro c hc q
      rw [← isCSpace_iff] at q
      revert c
      decide
    · exact words_mem ((words_iff t _).2 rfl) w h
  refine ⟨key t, fun t' h => ?_⟩
  have h1 := key t'
  rw [h, words_iff] at h1
  rw [← h1, ← (words_iff _ _).1 (key t)]

end Madg
