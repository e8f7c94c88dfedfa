/-
Specification vocabulary for the log: lines of a text, rows, the expected sequence of records.
-/
import Verif.Model.Logger

namespace Madg.Spec

/-- Lines of a text (a final newline ends with an empty line). -/
def lines : Text → List Text
  | [] => [[]]
  | c :: t => if c = '\n' then [] :: lines t else
    match lines t with
    | [] => [[c]]
    | l :: r => (c :: l) :: r

/-- A row: a blank, then every value with five decimals in a column of thirteen characters, right aligned. -/
def logRow (vs : List (Text × ℚ)) : Text := ' ' :: vs.flatMap fun p => List.leftpad 13 ' ' (sci 5 p.2)

/-- What the first rows are preceded by: the column names. -/
def logIntro (vs : List (Text × ℚ)) : List LogRec :=
  [.text .warning "#\n# Logger outputs: ".toList, .text .warning (vs.flatMap fun p => p.1 ++ [' '])]

/-- Records expected for time steps `0, …, n - 1` when step `i` shows `vs i` and one step in `f` is logged: the names
once, a heading before rows 0, 50, 100, …, and one row per logged step. -/
def logRecords (f : Int) (vs : Nat → List (Text × ℚ)) (n : Nat) : List LogRec :=
  (List.range n).flatMap fun (i : Nat) =>
    if f ∣ (i : Int) then
      (if i = 0 then logIntro (vs 0) else []) ++
        (if 50 * f ∣ (i : Int) then [.heading .warning ((vs 0).map Prod.fst)] else []) ++ [.text .warning (logRow (vs i))]
    else []

/-- A number whose printed form (five decimals) leaves room for a blank in a column of thirteen characters. -/
def LogFits (v : ℚ) : Prop :=
  v = 0 ∨ ((10 : ℚ) ^ (-99 : Int) ≤ |v| ∧ |v| < (10 : ℚ) ^ 99) ∨ ((10 : ℚ) ^ (-999 : Int) ≤ v ∧ v < (10 : ℚ) ^ 999)

/-- Calls that bear on what is shown: the severity filter and the on/off switch. -/
inductive LevelOp where
  | setLevel (l : LogLevel)
  | openFile (l : LogLevel)
  | closeFile
  | switch (on : Bool)

end Madg.Spec
