/-
Helper lemmas for the machine report and the words passed to PETSc.
-/
import Verif.Model.Machine
import Verif.Spec.Machine
import Verif.Proofs.Settings

namespace Madg
open Spec

theorem isCSpace_iff (c : Char) : isCSpace c = true ↔ SpaceC c := by
  have h11 : c = '\x0b' ↔ c.toNat = 11 := ⟨fun h => by rw [h]; rfl, fun h => by rw [← Char.ofNat_toNat c, h]⟩
  have h12 : c = '\x0c' ↔ c.toNat = 12 := ⟨fun h => by rw [h]; rfl, fun h => by rw [← Char.ofNat_toNat c, h]⟩
  unfold isCSpace SpaceC
  simp only [Bool.or_eq_true, beq_iff_eq, h11, h12]
  tauto

theorem wordsGo_space {s t : Text} (hs : ∀ c ∈ s, SpaceC c) : wordsGo [] (s ++ t) = wordsGo [] t := by
  induction s with
  | nil => rfl
  | cons c s ih =>
    have h := (isCSpace_iff c).2 (hs c (by simp))
    show (if isCSpace c then if ([] : Text) = [] then wordsGo [] (s ++ t) else _ else _) = _
    rw [if_pos h, if_pos rfl]
    exact ih fun c hc => hs c (by simp [hc])

theorem wordsGo_word {w : Text} (hw : ∀ c ∈ w, ¬ SpaceC c) : ∀ cur t : Text, wordsGo cur (w ++ t) = wordsGo (cur ++ w) t := by
  induction w with
  | nil => intro cur t; rw [List.append_nil]; rfl
  | cons c w ih =>
    intro cur t
    have h : ¬ isCSpace c = true := fun h => hw c (by simp) ((isCSpace_iff c).1 h)
    show (if isCSpace c then _ else wordsGo (cur ++ [c]) (w ++ t)) = _
    rw [if_neg h, ih (fun c hc => hw c (by simp [hc])), List.append_assoc]
    rfl

theorem words_go {t : Text} {ws : List Text} (h : Words t ws) : wordsGo [] t = ws := by
  induction h with
  | @blank s hs =>
    have := wordsGo_space (t := []) hs
    rw [List.append_nil] at this
    rw [this]; rfl
  | @last s w hs hw =>
    have := wordsGo_word hw.2 [] []
    rw [List.append_nil, List.nil_append] at this
    rw [wordsGo_space hs, this]
    show (if w = [] then [] else [w]) = _
    rw [if_neg hw.1]
  | @cons s w t b ws hs hw hb h ih =>
    rw [List.append_assoc, wordsGo_space hs, wordsGo_word hw.2, List.nil_append]
    show (if isCSpace b then if w = [] then wordsGo [] t else w :: wordsGo [] t else _) = _
    rw [if_pos ((isCSpace_iff b).2 hb), if_neg hw.1, ih]

theorem words_space {c : Char} (hc : SpaceC c) {t : Text} {ws : List Text} (h : Words t ws) : Words (c :: t) ws := by
  have add : ∀ {s : Text}, (∀ x ∈ s, SpaceC x) → ∀ x ∈ c :: s, SpaceC x := fun hs x hx => by
    rcases List.mem_cons.1 hx with rfl | h
    · exact hc
    · exact hs x h
  cases h with
  | blank hs => exact .blank (add hs)
  | last hs hw => exact .last (s := c :: _) (add hs) hw
  | cons hs hw hb h => exact .cons (s := c :: _) (add hs) hw hb h

/-- The words exist. -/
theorem words_exist (t : Text) : ∃ ws, Words t ws ∧
    ∀ w : Text, w ≠ [] → (∀ c ∈ w, ¬ SpaceC c) → ∃ ws', Words (w ++ t) ws' := by
  induction t with
  | nil => exact ⟨[], .blank (by simp), fun w h1 h2 => ⟨[w], by rw [List.append_nil]; exact .last (s := []) (by simp) ⟨h1, h2⟩⟩⟩
  | cons c t ih =>
    obtain ⟨ws, h, f⟩ := ih
    by_cases hc : SpaceC c
    · exact ⟨ws, words_space hc h, fun w h1 h2 => ⟨w :: ws, .cons (s := []) (by simp) ⟨h1, h2⟩ hc h⟩⟩
    · have one : ∀ x ∈ [c], ¬ SpaceC x := fun x hx => by rw [List.mem_singleton.1 hx]; exact hc
      obtain ⟨ws', h'⟩ := f [c] (by simp) one
      refine ⟨ws', h', fun w h1 h2 => ?_⟩
      obtain ⟨ws2, h3⟩ := f (w ++ [c]) (by simp) (fun x hx => by
        rcases List.mem_append.1 hx with h | h
        · exact h2 x h
        · exact one x h)
      exact ⟨ws2, by rw [List.append_assoc] at h3; exact h3⟩

theorem words_iff (t : Text) (ws : List Text) : Words t ws ↔ wordsGo [] t = ws := by
  refine ⟨words_go, fun h => ?_⟩
  obtain ⟨ws', h', -⟩ := words_exist t
  rw [← h, words_go h']
  exact h'

theorem words_mem {t : Text} {ws : List Text} (h : Words t ws) : ∀ w ∈ ws, w ≠ [] ∧ ∀ c ∈ w, ¬ SpaceC c := by
  induction h with
  | blank => simp
  | last hs hw => intro w h; rw [List.mem_singleton.1 h]; exact hw
  | cons hs hw hb h ih =>
    intro w h
    rcases List.mem_cons.1 h with rfl | h
    · exact hw
    · exact ih w h

theorem words_join {ws : List Text} (h : ∀ w ∈ ws, w ≠ [] ∧ ∀ c ∈ w, ¬ SpaceC c) : Words (ws.flatMap fun w => w ++ [' ']) ws := by
  induction ws with
  | nil => exact .blank (by simp)
  | cons w ws ih =>
    have := Words.cons (s := []) (by simp) (h w (by simp)) (b := ' ') (Or.inl rfl) (ih fun x hx => h x (by simp [hx]))
    simpa using this

theorem foldl_words (ws : List Text) : ∀ s : Text, ws.foldl (fun s w => s ++ (w ++ [' '])) s = s ++ ws.flatMap fun w => w ++ [' '] := by
  induction ws with
  | nil => intro s; simp
  | cons w ws ih => intro s; rw [List.foldl_cons, ih]; simp

theorem splitBlanks_word {a : Text} (ha : ' ' ∉ a) : ∀ cur t : Text, splitBlanks cur (a ++ t) = splitBlanks (cur ++ a) t := by
  induction a with
  | nil => intro cur t; rw [List.append_nil]; rfl
  | cons c a ih =>
    intro cur t
    rw [List.mem_cons, not_or] at ha
    show (if c = ' ' then _ else splitBlanks (cur ++ [c]) (a ++ t)) = _
    rw [if_neg (Ne.symm ha.1), ih ha.2, List.append_assoc]
    rfl

theorem splitBlanks_ne (t : Text) : ∀ cur, splitBlanks cur t ≠ [] := by
  induction t with
  | nil => intro cur; exact List.cons_ne_nil _ _
  | cons c t ih =>
    intro cur
    unfold splitBlanks
    split
    · exact List.cons_ne_nil _ _
    · exact ih _

/-- Joining the pieces with blanks gives the text back. -/
theorem splitBlanks_join (t : Text) : ∀ cur w : Text, ∀ ws, splitBlanks cur t = w :: ws →
    ws.foldl (fun s x => s ++ [' '] ++ x) w = cur ++ t := by
  have shift : ∀ (ws : List Text) (a b : Text), ws.foldl (fun s x => s ++ [' '] ++ x) (a ++ b) = a ++ ws.foldl (fun s x => s ++ [' '] ++ x) b := by
    intro ws
    induction ws with
    | nil => intro a b; rfl
    | cons x ws ih =>
      intro a b
      rw [List.foldl_cons, List.foldl_cons, List.append_assoc, List.append_assoc, ih a, ← List.append_assoc b]
  induction t with
  | nil =>
    intro cur w ws h
    cases h
    rw [List.append_nil]; rfl
  | cons c t ih =>
    intro cur w ws h
    unfold splitBlanks at h
    by_cases hc : c = ' '
    · rw [if_pos hc] at h
      obtain ⟨w', ws', e⟩ : ∃ w' ws', splitBlanks [] t = w' :: ws' := by
        cases q : splitBlanks [] t with
        | nil => exact absurd q (splitBlanks_ne t [])
        | cons a b => exact ⟨a, b, rfl⟩
      cases h
      have := ih [] w' ws' e
      rw [e, List.foldl_cons, shift ws' (cur ++ [' ']) w', this, hc]
      simp
    · rw [if_neg hc] at h
      rw [ih _ _ _ h]
      simp

theorem modelOf_text {a b r : Text} (ha : ' ' ∉ a) (hb : ' ' ∉ b) : modelOf (a ++ ' ' :: (b ++ ' ' :: r)) = r := by
  have e : splitBlanks [] (a ++ ' ' :: (b ++ ' ' :: r)) = a :: b :: splitBlanks [] r := by
    rw [splitBlanks_word ha, List.nil_append]
    show (if ' ' = ' ' then a :: splitBlanks [] (b ++ ' ' :: r) else _) = _
    rw [if_pos rfl, splitBlanks_word hb, List.nil_append]
    rfl
  unfold modelOf
  rw [e]
  cases q : splitBlanks [] r with
  | nil => exact absurd q (splitBlanks_ne r [])
  | cons w ws => exact splitBlanks_join r [] w ws q

theorem modelOf_short {a b : Text} (ha : ' ' ∉ a) (hb : ' ' ∉ b) : modelOf (a ++ ' ' :: b) = "not found".toList := by
  have e : splitBlanks [] (a ++ ' ' :: b) = [a, b] := by
    rw [splitBlanks_word ha, List.nil_append]
    show (if ' ' = ' ' then a :: splitBlanks [] b else _) = _
    have := splitBlanks_word hb [] []
    rw [List.append_nil, List.nil_append] at this
    rw [if_pos rfl, this]
    rfl
  unfold modelOf
  rw [e]
  rfl

theorem processorModel_lines {pre post : List Text} {l : Text} (hn : ∀ x ∈ pre ++ l :: post, '\n' ∉ x)
    (hpre : ∀ x ∈ pre, ¬ "model name".toList <+: x) (hl : "model name".toList <+: l) :
    processorModel (some (fileOf (pre ++ l :: post))) = modelOf l := by
  unfold processorModel fileOf
  dsimp only
  rw [linesGo_lines _ hn, List.find?_append]
  have t : ∀ x : Text, decide (x.take 10 = "model name".toList) = true ↔ "model name".toList <+: x := fun x => by
    rw [decide_eq_true_iff, List.prefix_iff_eq_take]
    exact eq_comm
  have n : pre.find? (fun l => decide (l.take 10 = "model name".toList)) = none := List.find?_eq_none.2 fun x hx => by
    rw [t]; exact hpre x hx
  have p : (l :: post).find? (fun l => decide (l.take 10 = "model name".toList)) = some l := by
    unfold List.find?
    rw [(t l).2 hl]
  rw [n, Option.none_or, p]

end Madg
