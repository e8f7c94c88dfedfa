/-
Words of a text.
-/
import Mathlib.Data.List.Basic

namespace Madg.Spec

/-- Blank, tab, line breaks, vertical tab, form feed. -/
def SpaceC (c : Char) : Prop := c = ' ' ∨ c = '\t' ∨ c = '\n' ∨ c = '\r' ∨ c.toNat = 11 ∨ c.toNat = 12

/-- `ws` are the words of the text: the longest pieces without space. -/
inductive Words : List Char → List (List Char) → Prop where
  | blank {s : List Char} (hs : ∀ c ∈ s, SpaceC c) : Words s []
  | last {s w : List Char} (hs : ∀ c ∈ s, SpaceC c) (hw : w ≠ [] ∧ ∀ c ∈ w, ¬ SpaceC c) : Words (s ++ w) [w]
  | cons {s w t : List Char} {b : Char} {ws : List (List Char)} (hs : ∀ c ∈ s, SpaceC c) (hw : w ≠ [] ∧ ∀ c ∈ w, ¬ SpaceC c)
      (hb : SpaceC b) (h : Words t ws) : Words (s ++ w ++ b :: t) (w :: ws)

/-- A text as a file of lines. -/
def fileOf (ls : List (List Char)) : List Char := ls.flatMap fun l => l ++ ['\n']

end Madg.Spec
