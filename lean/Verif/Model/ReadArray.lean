/-
Matrix files: file_io/read_csr_matrix.{hpp,cpp}.

A file is `none` if it cannot be opened, otherwise its whitespace separated tokens.  `boost::lexical_cast` is a
parameter: `none` means that it throws `bad_lexical_cast`.
-/
import Verif.Model.CSR

namespace Madg

/-- `filein >> string_input` (file_io/read_csr_matrix.hpp:21, 26): at the end of the file the extraction fails in the
sentry and the string keeps its previous contents.  State: remaining tokens and the current string. -/
def readToken (st : List String × String) : List String × String :=
  match st.1 with
  | [] => ([], st.2)
  | t :: ts => (ts, t)

/-- The loop of `readArray` (file_io/read_csr_matrix.hpp:25-28). -/
def readLoop {T : Type} (parse : String → Option T) : Nat → List String × String → Except Err (List T)
  | 0, _ => .ok []
  | n + 1, st =>
    let st' := readToken st
    match parse st'.2 with
    | none => .error .thrown
    | some v =>
      match readLoop parse n st' with
      | .error e => .error e
      | .ok vs => .ok (v :: vs)

/-- `readArray` (file_io/read_csr_matrix.hpp:12-32).  `reserve` with a negative count throws `length_error`. -/
def readArray {T : Type} (parseInt : String → Option Int) (parse : String → Option T) :
    Option (List String) → Except Err (List T)
  | none => .ok []
  | some toks =>
    let st := readToken (toks, "")
    match parseInt st.2 with
    | none => .error .thrown
    | some n => if n < 0 then .error .thrown else readLoop parse n.toNat st

/-- `readCSRMatrix` (file_io/read_csr_matrix.cpp:7-44): the matrix with its values as a list.  Reading `col_index[i]`
beyond its end is undefined.  An absent row file gives `nrows = -1`, for which the array allocation is not modelled;
it is reported as an error. -/
def readCSR {A T : Type} (parseInt : String → Option Int) (parse : String → Option T) (vals : A)
    (rowFile colFile valFile : Option (List String)) : Except Err (CSR A × List T) :=
  match readArray parseInt parseInt rowFile with
  | .error e => .error e
  | .ok rs =>
    match readArray parseInt parseInt colFile with
    | .error e => .error e
    | .ok cs =>
      match readArray parseInt parse valFile with
      | .error e => .error e
      | .ok vs =>
        if rs.length = 0 then .error .abort
        else if cs.length < vs.length then .error .outOfBounds
        else .ok (⟨rs.length - 1, rs.length - 1, rs, cs.take vs.length, vals⟩, vs)

end Madg
