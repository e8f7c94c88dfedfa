/-
Reading matrix files (C32).
-/
import Verif.Model.ReadArray
import Mathlib.Data.List.Basic
import Mathlib.Algebra.Order.Group.Unbundled.Int

namespace Madg
variable {T : Type}

theorem readLoop_ok (parse : String → Option T) (ts : List String) (vs : List T) (extra : List String) (cur : String)
    (h : ts.map parse = vs.map some) : readLoop parse vs.length (ts ++ extra, cur) = .ok vs := by
  induction vs generalizing ts cur with
  | nil => rfl
  | cons v vs ih =>
    cases ts with
    | nil => simp at h
    | cons t ts =>
      simp only [List.map_cons, List.cons.injEq] at h
      have := ih ts t h.2
      simp [readLoop, readToken, h.1, this]

theorem readLoop_eof (parse : String → Option T) (n : Nat) (cur : String) (v : T) (h : parse cur = some v) :
    readLoop parse n ([], cur) = .ok (List.replicate n v) := by
  induction n with
  | zero => rfl
  | succ n ih => simp [readLoop, readToken, h, ih, List.replicate_succ]

/-- A file holding the count and one token per element reads back as the array, for every array length and every
number format that parses back; anything after the last element is ignored. -/
theorem C32_round_trip (parseInt : String → Option Int) (parse : String → Option T) (printInt : Int → String)
    (print : T → String) (hi : ∀ n, parseInt (printInt n) = some n) (hp : ∀ v, parse (print v) = some v)
    (vs : List T) (extra : List String) :
    readArray parseInt parse (some (printInt vs.length :: vs.map print ++ extra)) = .ok vs := by
  have := readLoop_ok parse (vs.map print) vs extra (printInt vs.length) (by simp [hp])
  simp only [readArray, readToken, List.cons_append, hi]
  rw [if_neg (by omega), Int.toNat_natCast]
  exact this

/-- A file cut off after `vs` although the header announces `n` more elements is accepted without complaint: the
missing positions repeat the last element read. -/
theorem C32_truncated (parseInt : String → Option Int) (parse : String → Option T) (printInt : Int → String)
    (print : T → String) (hi : ∀ n, parseInt (printInt n) = some n) (hp : ∀ v, parse (print v) = some v)
    (vs : List T) (last : T) (n : Nat) :
    readArray parseInt parse (some (printInt ((vs.length : Int) + 1 + n) :: (vs ++ [last]).map print)) =
      .ok (vs ++ [last] ++ List.replicate n last) := by
  have key : ∀ (vs : List T) (cur : String), readLoop parse (vs.length + 1 + n) ((vs ++ [last]).map print, cur) =
      .ok (vs ++ [last] ++ List.replicate n last) := by
    intro vs
    induction vs with
    | nil =>
      intro cur
      have e := readLoop_eof parse n (print last) last (hp last)
      rw [List.length_nil, Nat.zero_add, Nat.add_comm]
      simp [readLoop, readToken, hp, e]
    | cons v vs ih =>
      intro cur
      have e := ih (print v)
      rw [List.length_cons, show vs.length + 1 + 1 + n = (vs.length + 1 + n) + 1 by omega]
      simp only [readLoop, readToken, List.cons_append, List.map_cons, hp]
      rw [e]
  simp only [readArray, readToken, hi]
  rw [if_neg (by omega), show ((vs.length : Int) + 1 + n).toNat = vs.length + 1 + n by omega]
  exact key vs _

/-- With no element at all the header itself is read again: the count is repeated as if it were the data. -/
theorem C32_truncated_header (parseInt : String → Option Int) (printInt : Int → String)
    (hi : ∀ n, parseInt (printInt n) = some n) (n : Nat) :
    readArray parseInt parseInt (some [printInt n]) = .ok (List.replicate n (n : Int)) := by
  simp only [readArray, readToken, hi]
  rw [if_neg (by omega), Int.toNat_natCast]
  exact readLoop_eof parseInt n (printInt n) n (hi n)

/-- A missing file reads as the empty array, an empty file throws. -/
theorem C32_missing_and_empty (parseInt : String → Option Int) (parse : String → Option T) (h : parseInt "" = none) :
    readArray parseInt parse none = .ok [] ∧ readArray parseInt parse (some []) = .error .thrown := by
  refine ⟨rfl, ?_⟩
  simp [readArray, readToken, h]

/-- The three files of a matrix give back its row pointers, column indices and values. -/
theorem C32_matrix_round_trip {A : Type} (parseInt : String → Option Int) (parse : String → Option T)
    (printInt : Int → String) (print : T → String) (hi : ∀ n, parseInt (printInt n) = some n)
    (hp : ∀ v, parse (print v) = some v) (vals : A) (rs cs : List Int) (vs : List T) (hr : rs ≠ [])
    (hc : cs.length = vs.length) :
    readCSR parseInt parse vals (some (printInt rs.length :: rs.map printInt)) (some (printInt cs.length :: cs.map printInt))
        (some (printInt vs.length :: vs.map print)) =
      .ok (⟨rs.length - 1, rs.length - 1, rs, cs, vals⟩, vs) := by
  have e1 := C32_round_trip parseInt parseInt printInt printInt hi hi rs []
  have e2 := C32_round_trip parseInt parseInt printInt printInt hi hi cs []
  have e3 := C32_round_trip parseInt parse printInt print hi hp vs []
  rw [List.append_nil] at e1 e2 e3
  have h0 : rs.length ≠ 0 := by simpa using hr
  simp only [readCSR, e1, e2, e3]
  rw [if_neg h0, if_neg (by omega), ← hc, List.take_length]

/-- A column file shorter than the value file is read past its end. -/
theorem C32_short_columns {A : Type} (parseInt : String → Option Int) (parse : String → Option T)
    (printInt : Int → String) (print : T → String) (hi : ∀ n, parseInt (printInt n) = some n)
    (hp : ∀ v, parse (print v) = some v) (vals : A) (rs cs : List Int) (vs : List T) (hr : rs ≠ [])
    (hc : cs.length < vs.length) :
    readCSR parseInt parse vals (some (printInt rs.length :: rs.map printInt)) (some (printInt cs.length :: cs.map printInt))
        (some (printInt vs.length :: vs.map print)) = .error .outOfBounds := by
  have e1 := C32_round_trip parseInt parseInt printInt printInt hi hi rs []
  have e2 := C32_round_trip parseInt parseInt printInt printInt hi hi cs []
  have e3 := C32_round_trip parseInt parse printInt print hi hp vs []
  rw [List.append_nil] at e1 e2 e3
  have h0 : rs.length ≠ 0 := by simpa using hr
  simp only [readCSR, e1, e2, e3]
  rw [if_neg h0, if_pos hc]

/-- A number format meeting the hypotheses: unary digits with a sign. -/
def unaryPrint (n : Int) : String := String.ofList ((if n < 0 then '-' else '+') :: List.replicate n.natAbs '1')
def unaryParse (s : String) : Option Int :=
  match s.toList with
  | [] => none
  | c :: cs => some (if c = '-' then -(cs.length : Int) else cs.length)

theorem unary_round_trip (n : Int) : unaryParse (unaryPrint n) = some n := by
  unfold unaryParse unaryPrint
  by_cases h : n < 0
  · simp [h, abs_of_neg]
  · simp [h, abs_of_nonneg (not_lt.1 h)]

example : unaryParse "" = none := by simp [unaryParse]
example : readArray unaryParse unaryParse (some ([3, -7, 2, 5].map unaryPrint)) = .ok [-7, 2, 5] :=
  C32_round_trip unaryParse unaryParse unaryPrint unaryPrint unary_round_trip unary_round_trip [-7, 2, 5] []
example : readArray unaryParse unaryParse (some ([4, -7, 2].map unaryPrint)) = .ok [-7, 2, 2, 2] :=
  C32_truncated unaryParse unaryParse unaryPrint unaryPrint unary_round_trip unary_round_trip [-7] 2 2

end Madg
