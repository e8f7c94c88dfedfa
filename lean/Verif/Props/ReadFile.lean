/-
Arbitrary solution files: which are accepted (C61), and what single precision builds read (C60).
-/
import Verif.Props.VTK

set_option linter.unusedSectionVars false
set_option linter.unusedVariables false

namespace Madg
open Spec

/-! ### Accepted files -/

section
variable {K : Type} [Field K] [LinearOrder K]

/-- The blank-separated words of the extent attribute are integers beginning with these six. -/
def Spec.Extents (f : VtsFile) (a b c d e h : Int) : Prop :=
  ∃ ta tb tc td te th r, splitCompress isBlank (trimIf isBlank f.extent) = ta :: tb :: tc :: td :: te :: th :: r ∧
    readInt ta = some a ∧ readInt tb = some b ∧ readInt tc = some c ∧ readInt td = some d ∧ readInt te = some e ∧
    readInt th = some h

theorem castIntAt_inv {l : List Text} {n : Nat} {v : Int} (h : castIntAt l n = .ok v) :
    ∃ t, l[n]? = some t ∧ readInt t = some v := by
  unfold castIntAt at h
  split at h
  · cases h
  · next t ht =>
    split at h
    · next i hi => cases h; exact ⟨t, ht, hi⟩
    · cases h

theorem castIntAt_of {l : List Text} {n : Nat} {t : Text} {v : Int} (h : l[n]? = some t) (hv : readInt t = some v) :
    castIntAt l n = .ok v := by
  unfold castIntAt; rw [h]; dsimp only; rw [hv]

theorem castReal_inv {io : RealText K} {t : Text} {v : K} (h : castReal io t = .ok v) : io.parse t = some v := by
  unfold castReal at h
  split at h
  · next w hw => cases h; exact hw
  · cases h

theorem readPoints_inv (io : RealText K) : ∀ (n : Nat) (l : List Text) (xyz : List (K × K × K)), l.length ≤ n →
    readPoints io l = .ok xyz → l.map io.parse = xyz.flatMap fun q => [some q.1, some q.2.1, some q.2.2] := by
  intro n
  induction n with
  | zero =>
    intro l xyz hl h
    have : l = [] := List.length_eq_zero_iff.1 (by omega)
    subst this
    rw [readPoints] at h
    cases h; rfl
  | succ n ih =>
    intro l xyz hl h
    cases l with
    | nil => rw [readPoints] at h; cases h; rfl
    | cons a r =>
      rw [readPoints.eq_2] at h
      cases h1 : castReal io a with
      | error e => rw [h1] at h; cases h
      | ok x =>
        rw [h1] at h
        cases r with
        | nil => cases h
        | cons b r =>
          dsimp only at h
          cases h2 : castReal io b with
          | error e => rw [h2] at h; cases h
          | ok y =>
            rw [h2] at h
            cases r with
            | nil => cases h
            | cons c r =>
              dsimp only at h
              cases h3 : castReal io c with
              | error e => rw [h3] at h; cases h
              | ok z =>
                rw [h3] at h
                dsimp only at h
                cases h4 : readPoints io r with
                | error e => rw [h4] at h; cases h
                | ok q =>
                  rw [h4] at h
                  cases h
                  simp only [List.length_cons] at hl
                  have := ih r q (by omega) h4
                  simp [castReal_inv h1, castReal_inv h2, castReal_inv h3, this]

theorem minElem_inv {l : List K} {v : K} (h : minElem l = .ok v) : v ∈ l ∧ ∀ y ∈ l, v ≤ y := by
  cases l with
  | nil => cases h
  | cons x l => cases h; exact ⟨(foldl_min_spec l x).2, (foldl_min_spec l x).1⟩

theorem maxElem_inv {l : List K} {v : K} (h : maxElem l = .ok v) : v ∈ l ∧ ∀ y ∈ l, y ≤ v := by
  cases l with
  | nil => cases h
  | cons x l => cases h; exact ⟨(foldl_max_spec l x).2, (foldl_max_spec l x).1⟩

theorem bind_ok_inv {α β : Type} {x : Except Err α} {f : α → Except Err β} {b : β} (h : (x >>= f) = .ok b) :
    ∃ a, x = .ok a ∧ f a = .ok b := by
  cases x with
  | error e => cases h
  | ok a => exact ⟨a, rfl, h⟩

theorem fatalAssert_inv {p : Prop} [Decidable p] {u : Unit} (h : fatalAssert (decide p) = .ok u) : p := by
  unfold fatalAssert at h
  split at h
  · next hp => exact of_decide_eq_true hp
  · cases h

theorem list_six {α : Type} {l : List α} {a b c d e f : α} (h0 : l[0]? = some a) (h1 : l[1]? = some b) (h2 : l[2]? = some c)
    (h3 : l[3]? = some d) (h4 : l[4]? = some e) (h5 : l[5]? = some f) : l = a :: b :: c :: d :: e :: f :: l.drop 6 := by
  rcases l with _ | ⟨x0, _ | ⟨x1, _ | ⟨x2, _ | ⟨x3, _ | ⟨x4, _ | ⟨x5, l⟩⟩⟩⟩⟩⟩
  · cases h0
  · cases h1
  · cases h2
  · cases h3
  · cases h4
  · cases h5
  · cases h0; cases h1; cases h2; cases h3; cases h4; cases h5; rfl

/-- Every file that the reader accepts, whoever wrote it, has extents starting at zero in all directions, exactly one point
per vertex of the grid it describes, and reports the attained minima and the maximum of its point coordinates. -/
theorem C61_accepted (io : RealText K) (f : VtsFile) (D : FileDomain K) (h : getCartesianDomain io f = .ok D) :
    Extents f 0 D.nx 0 D.ny 0 D.nz ∧
    ∃ xyz : List (K × K × K),
      (tokensOf f.points).map io.parse = xyz.flatMap (fun q => [some q.1, some q.2.1, some q.2.2]) ∧
      (xyz.length : Int) = (D.nx + 1) * (D.ny + 1) * (D.nz + 1) ∧
      ((∃ q ∈ xyz, q.1 = D.xbeg) ∧ ∀ q ∈ xyz, D.xbeg ≤ q.1) ∧ ((∃ q ∈ xyz, q.1 = D.xend) ∧ ∀ q ∈ xyz, q.1 ≤ D.xend) ∧
      ((∃ q ∈ xyz, q.2.1 = D.ybeg) ∧ ∀ q ∈ xyz, D.ybeg ≤ q.2.1) ∧ ((∃ q ∈ xyz, q.2.2 = D.zbeg) ∧ ∀ q ∈ xyz, D.zbeg ≤ q.2.2) := by
  unfold getCartesianDomain at h
  dsimp only at h
  obtain ⟨xb, hxb, h⟩ := bind_ok_inv h
  obtain ⟨xe, hxe, h⟩ := bind_ok_inv h
  obtain ⟨yb, hyb, h⟩ := bind_ok_inv h
  obtain ⟨ye, hye, h⟩ := bind_ok_inv h
  obtain ⟨zb, hzb, h⟩ := bind_ok_inv h
  obtain ⟨ze, hze, h⟩ := bind_ok_inv h
  obtain ⟨_, f1, h⟩ := bind_ok_inv h
  obtain ⟨_, f2, h⟩ := bind_ok_inv h
  obtain ⟨_, f3, h⟩ := bind_ok_inv h
  have hh := h
  clear h
  have e1 := fatalAssert_inv f1
  have e2 := fatalAssert_inv f2
  have e3 := fatalAssert_inv f3
  subst e1 e2 e3
  have key : ∃ D' : FileDomain K, D' = D ∧ D'.nx = xe ∧ D'.ny = ye ∧ D'.nz = ze ∧
      (((tokensOf f.points).length / 3 : Nat) : Int) = (xe + 1) * (ye + 1) * (ze + 1) ∧ ∃ xyz, readPoints io (tokensOf f.points) = .ok xyz ∧
      minElem (xyz.map (·.1)) = .ok D'.xbeg ∧ maxElem (xyz.map (·.1)) = .ok D'.xend ∧
      minElem (xyz.map (·.2.1)) = .ok D'.ybeg ∧ minElem (xyz.map (·.2.2)) = .ok D'.zbeg := by
    by_cases hz : ze = 0
    · rw [if_pos hz] at hh
      obtain ⟨_, f4, h⟩ := bind_ok_inv hh
      obtain ⟨xyz, hp, h⟩ := bind_ok_inv h
      obtain ⟨x1, g1, h⟩ := bind_ok_inv h
      obtain ⟨x2, g2, h⟩ := bind_ok_inv h
      obtain ⟨x3, g3, h⟩ := bind_ok_inv h
      obtain ⟨x4, g4, h⟩ := bind_ok_inv h
      cases h
      refine ⟨_, rfl, rfl, rfl, by simp [hz], ?_, xyz, hp, g1, g2, g3, g4⟩
      rw [fatalAssert_inv f4, hz]; ring
    · rw [if_neg hz] at hh
      obtain ⟨_, f4, h⟩ := bind_ok_inv hh
      obtain ⟨xyz, hp, h⟩ := bind_ok_inv h
      obtain ⟨x1, g1, h⟩ := bind_ok_inv h
      obtain ⟨x2, g2, h⟩ := bind_ok_inv h
      obtain ⟨x3, g3, h⟩ := bind_ok_inv h
      obtain ⟨x4, g4, h⟩ := bind_ok_inv h
      cases h
      exact ⟨_, rfl, rfl, rfl, by simp [hz], fatalAssert_inv f4, xyz, hp, g1, g2, g3, g4⟩
  obtain ⟨D', rfl, rfl, rfl, rfl, hcnt, xyz, hp, g1, g2, g3, g4⟩ := key
  constructor
  · obtain ⟨t0, a0, b0⟩ := castIntAt_inv hxb
    obtain ⟨t1, a1, b1⟩ := castIntAt_inv hxe
    obtain ⟨t2, a2, b2⟩ := castIntAt_inv hyb
    obtain ⟨t3, a3, b3⟩ := castIntAt_inv hye
    obtain ⟨t4, a4, b4⟩ := castIntAt_inv hzb
    obtain ⟨t5, a5, b5⟩ := castIntAt_inv hze
    refine ⟨t0, t1, t2, t3, t4, t5, (splitCompress isBlank (trimIf isBlank f.extent)).drop 6, ?_, b0, b1, b2, b3, b4, b5⟩
    generalize splitCompress isBlank (trimIf isBlank f.extent) = l at *
    clear hxb hxe hyb hye hzb hze b0 b1 b2 b3 b4 b5 g1 g2 g3 g4 hp hcnt f1 f2 f3
    exact list_six a0 a1 a2 a3 a4 a5
  · have hm := readPoints_inv io _ _ _ le_rfl hp
    have hlen : (tokensOf f.points).length = 3 * xyz.length := by
      have := congrArg List.length hm
      rw [List.length_map] at this
      rw [this]
      clear this hm hp hcnt g1 g2 g3 g4
      induction xyz with
      | nil => rfl
      | cons q l ih => rw [List.flatMap_cons, List.length_append, ih]; simp; ring
    have mm : ∀ {φ : K × K × K → K} {w : K}, w ∈ xyz.map φ → ∃ q ∈ xyz, φ q = w := fun h => List.mem_map.1 h
    have ml : ∀ {φ : K × K × K → K} {r : K → Prop}, (∀ y ∈ xyz.map φ, r y) → ∀ q ∈ xyz, r (φ q) := fun h q hq =>
      h _ (List.mem_map_of_mem hq)
    refine ⟨xyz, hm, ?_, ⟨mm (minElem_inv g1).1, ml (minElem_inv g1).2⟩, ⟨mm (maxElem_inv g2).1, ml (maxElem_inv g2).2⟩,
      ⟨mm (minElem_inv g3).1, ml (minElem_inv g3).2⟩, ⟨mm (minElem_inv g4).1, ml (minElem_inv g4).2⟩⟩
    rw [← hcnt, hlen, Nat.mul_div_cancel_left _ (by decide)]

/-- Extents that start elsewhere, or a number of points that does not fit, end the program with an error message. -/
theorem C61_rejected (io : RealText K) (f : VtsFile) (a b c d e h : Int) (hx : Extents f a b c d e h)
    (hbad : ¬ (a = 0 ∧ c = 0 ∧ e = 0) ∨ (((tokensOf f.points).length / 3 : Nat) : Int) ≠ (b + 1) * (d + 1) * (h + 1)) :
    getCartesianDomain io f = .error .abort := by
  obtain ⟨ta, tb, tc, td, te, th, r, hl, h0, h1, h2, h3, h4, h5⟩ := hx
  unfold getCartesianDomain
  dsimp only
  rw [hl, castIntAt_of (n := 0) rfl h0, castIntAt_of (n := 1) rfl h1, castIntAt_of (n := 2) rfl h2, castIntAt_of (n := 3) rfl h3,
    castIntAt_of (n := 4) rfl h4, castIntAt_of (n := 5) rfl h5]
  simp only [bind, Except.bind]
  unfold fatalAssert
  by_cases ha : a = 0
  · by_cases hc : c = 0
    · by_cases he : e = 0
      · subst ha hc he
        have hb := hbad.resolve_left (by simp)
        simp only [decide_true, if_true]
        by_cases hz : h = 0
        · subst hz
          have : ¬ ((((tokensOf f.points).length / 3 : Nat) : Int) = (b + 1) * (d + 1)) := fun q => hb (by rw [q]; ring)
          simp only [if_true, this, decide_false]
          rfl
        · simp only [hz, if_false, hb, decide_false]
          rfl
      · simp [ha, hc, he]
    · simp [ha, hc]
  · simp [ha]

end

/-- A plane of four points is accepted; extents that start elsewhere meet the hypotheses of the second theorem. -/
example : ∃ D : FileDomain ℚ, getCartesianDomain ⟨fun _ => [], fun _ => [], fun t => (readInt t).map fun n => (n : ℚ)⟩
    ⟨"0 1 0 1 0 0".toList, [], "0 0 0 1 0 0 0 1 0 1 1 0".toList, []⟩ = .ok D := ⟨_, rfl⟩
example : Extents ⟨"0 1 0 1 1 2".toList, [], [], []⟩ 0 1 0 1 1 2 :=
  ⟨['0'], ['1'], ['0'], ['1'], ['1'], ['2'], [], rfl, rfl, rfl, rfl, rfl, rfl, rfl⟩

/-! ### Single precision -/

theorem FloatFmt.ulp_le (F : FloatFmt) {r : ℚ} (hr : r ≠ 0) :
    (2 : ℚ) ^ F.ulpExp r ≤ 2 * |r| / 2 ^ F.prec + (2 : ℚ) ^ F.emin := by
  have h2 : (0 : ℚ) < (2 : ℚ) ^ F.emin := zpow_pos (by norm_num) _
  have hl := Int.zpow_log_le_self (b := 2) (by decide) (abs_pos.2 hr)
  push_cast at hl
  have e : (2 : ℚ) ^ (Int.log 2 |r| + 1 - F.prec) = 2 * (2 : ℚ) ^ Int.log 2 |r| / 2 ^ F.prec := by
    rw [zpow_sub₀ (by norm_num), zpow_add_one₀ (by norm_num), zpow_natCast]; ring
  have hp : (0 : ℚ) < 2 ^ F.prec := by positivity
  have h3 : 2 * (2 : ℚ) ^ Int.log 2 |r| / 2 ^ F.prec ≤ 2 * |r| / 2 ^ F.prec := by gcongr
  have h4 : (0 : ℚ) ≤ 2 * |r| / 2 ^ F.prec := by positivity
  unfold FloatFmt.ulpExp
  rcases le_total (Int.log 2 |r| + 1 - F.prec) F.emin with h | h
  · rw [max_eq_right h]; linarith
  · rw [max_eq_left h, e]; linarith

/-- Rounding error: half a unit in the last place. -/
theorem FloatFmt.round_err (F : FloatFmt) (r : ℚ) : |F.round r - r| ≤ |r| / 2 ^ F.prec + (2 : ℚ) ^ F.emin / 2 := by
  have h2 : (0 : ℚ) < (2 : ℚ) ^ F.emin := zpow_pos (by norm_num) _
  unfold FloatFmt.round
  by_cases hr : r = 0
  · subst hr; simp; positivity
  · rw [if_neg hr]
    have hu : (0 : ℚ) < (2 : ℚ) ^ F.ulpExp r := zpow_pos (by norm_num) _
    have h := roundEven_err (r / (2 : ℚ) ^ F.ulpExp r)
    have e : (roundEven (r / (2 : ℚ) ^ F.ulpExp r) : ℚ) * (2 : ℚ) ^ F.ulpExp r - r =
        -((r / (2 : ℚ) ^ F.ulpExp r - roundEven (r / (2 : ℚ) ^ F.ulpExp r)) * (2 : ℚ) ^ F.ulpExp r) := by
      field_simp; ring
    rw [e, abs_neg, abs_mul, abs_of_pos hu]
    have := F.ulp_le hr
    calc _ ≤ 1 / 2 * (2 : ℚ) ^ F.ulpExp r := by gcongr
      _ ≤ 1 / 2 * (2 * |r| / 2 ^ F.prec + (2 : ℚ) ^ F.emin) := by gcongr
      _ = _ := by ring

/-- A rounded number is a number of the format. -/
theorem FloatFmt.round_isFloat (F : FloatFmt) (hp : 1 ≤ F.prec) (r : ℚ) : IsFloat F (F.round r) := by
  unfold FloatFmt.round
  by_cases hr : r = 0
  · rw [if_pos hr]; exact ⟨0, F.emin, by simp, le_rfl, by simp⟩
  · rw [if_neg hr]
    have hu : (0 : ℚ) < (2 : ℚ) ^ F.ulpExp r := zpow_pos (by norm_num) _
    have hl := Int.lt_zpow_succ_log_self (b := 2) (by decide) |r|
    push_cast at hl
    have hle : (2 : ℚ) ^ (Int.log 2 |r| + 1) ≤ 2 ^ F.prec * (2 : ℚ) ^ F.ulpExp r := by
      rw [← zpow_natCast, ← zpow_add₀ (by norm_num)]
      refine zpow_le_zpow_right₀ (by norm_num) ?_
      unfold FloatFmt.ulpExp
      have := le_max_left (Int.log 2 |r| + 1 - (F.prec : Int)) F.emin
      omega
    have hq : |r / (2 : ℚ) ^ F.ulpExp r| < 2 ^ F.prec := by
      rw [abs_div, abs_of_pos hu, div_lt_iff₀ hu]; linarith
    obtain ⟨q1, q2⟩ := abs_lt.1 hq
    have b1 : roundEven (r / (2 : ℚ) ^ F.ulpExp r) ≤ 2 ^ F.prec := roundEven_le_int (by push_cast; linarith)
    have b2 : -2 ^ F.prec ≤ roundEven (r / (2 : ℚ) ^ F.ulpExp r) := roundEven_mono_int (by push_cast; linarith)
    generalize roundEven (r / (2 : ℚ) ^ F.ulpExp r) = N at b1 b2
    have hemin : F.emin ≤ F.ulpExp r := le_max_right _ _
    by_cases hN : |N| < 2 ^ F.prec
    · exact ⟨N, F.ulpExp r, hN, hemin, rfl⟩
    · have hpow : (2 : Int) ^ F.prec = 2 * 2 ^ (F.prec - 1) := by
        rw [← pow_succ', Nat.sub_add_cancel hp]
      have hpos : (0 : Int) < 2 ^ (F.prec - 1) := by positivity
      have hab : |N| = 2 ^ F.prec := le_antisymm (abs_le.2 ⟨b2, b1⟩) (not_lt.1 hN)
      have : ∃ s : Int, (s = 1 ∨ s = -1) ∧ N = 2 * (s * 2 ^ (F.prec - 1)) := by
        rcases abs_choice N with h | h
        · exact ⟨1, Or.inl rfl, by rw [h] at hab; rw [hab, hpow]; ring⟩
        · exact ⟨-1, Or.inr rfl, by rw [h] at hab; rw [hpow] at hab; linarith⟩
      obtain ⟨s, hs, rfl⟩ := this
      refine ⟨s * 2 ^ (F.prec - 1), F.ulpExp r + 1, ?_, by omega, ?_⟩
      · rw [abs_mul, abs_of_pos hpos, hpow]
        rcases hs with rfl | rfl <;> simp
      · rw [zpow_add_one₀ (by norm_num)]; push_cast; ring

/-- Relative error of the printed decimal number. -/
theorem sciDec_err (p : Nat) (x : ℚ) : |sciDec p x - x| ≤ |x| / (2 * 10 ^ p) := by
  have key : ∀ y : ℚ, 0 < y → |sciVal p (sciRound p y) - y| ≤ y / (2 * 10 ^ p) := by
    intro y hy
    have h1 := (sciRound_spec p hy).2.2
    have h2 := Int.zpow_log_le_self (b := 10) (by decide) hy
    push_cast at h2
    rw [abs_sub_comm]
    refine h1.trans ?_
    rw [zpow_sub₀ (by norm_num), zpow_natCast]
    have h3 : (0 : ℚ) < (10 : ℚ) ^ p := by positivity
    calc (1 : ℚ) / 2 * ((10 : ℚ) ^ Int.log 10 y / 10 ^ p) ≤ 1 / 2 * (y / 10 ^ p) := by gcongr
      _ = _ := by field_simp
  unfold sciDec
  rcases lt_trichotomy x 0 with h | h | h
  · rw [if_neg h.ne, if_pos h, abs_of_neg h]
    have := key (-x) (by linarith)
    rw [show -sciVal p (sciRound p (-x)) - x = -(sciVal p (sciRound p (-x)) - -x) by ring, abs_neg]
    exact this
  · subst h; simp
  · rw [if_neg h.ne', if_neg (by linarith), abs_of_pos h]
    exact key x h

/-- Whatever a single precision build reads is a single precision number. -/
theorem C60_single_values (t : Text) (v : ℚ) (h : floatText.parse t = some v) : IsFloat binary32 v := by
  have h' : (readFloat binary64 t).map binary32.round = some v := h
  obtain ⟨w, -, rfl⟩ := Option.map_eq_some_iff.1 h'
  exact binary32.round_isFloat (by decide) w

/-- Although single precision values are not restored exactly, every one comes back with a relative error of at most `2^-23`
(for numbers below the normal range, an error of at most `2^-149` is added). -/
theorem C60_single_error (x : ℚ) : ∃ v, floatText.parse (floatText.full x) = some v ∧
    |v - x| ≤ |x| / 2 ^ 23 + (2 : ℚ) ^ (-149 : Int) := by
  refine ⟨binary32.round (binary64.round (sciDec 7 x)), ?_, ?_⟩
  · show (readFloat binary64 (sci 7 x)).map binary32.round = _
    unfold readFloat
    rw [readDec_sci]; rfl
  · have h1 := sciDec_err 7 x
    have h2 := binary64.round_err (sciDec 7 x)
    have h3 := binary32.round_err (binary64.round (sciDec 7 x))
    generalize sciDec 7 x = d at *
    generalize binary64.round d = e at *
    generalize binary32.round e = v at *
    have p64 : binary64.prec = 53 := rfl
    have p32 : binary32.prec = 24 := rfl
    have e64 : (2 : ℚ) ^ binary64.emin / 2 ≤ (2 : ℚ) ^ (-149 : Int) / 1024 := by
      have hle : (2 : ℚ) ^ binary64.emin ≤ (2 : ℚ) ^ (-159 : Int) := zpow_le_zpow_right₀ (by norm_num) (by decide)
      have h : (2 : ℚ) ^ (-149 : Int) = (2 : ℚ) ^ (-159 : Int) * 1024 := by
        rw [show (-149 : Int) = -159 + 10 by norm_num, zpow_add₀ (by norm_num)]; norm_num
      have : (0 : ℚ) < (2 : ℚ) ^ (-159 : Int) := zpow_pos (by norm_num) _
      rw [h, mul_div_cancel_right₀ _ (by norm_num)]
      have h0 : (0 : ℚ) < (2 : ℚ) ^ binary64.emin := zpow_pos (by norm_num) _
      exact (half_le_self h0.le).trans hle
    have e32 : (2 : ℚ) ^ binary32.emin = (2 : ℚ) ^ (-149 : Int) := rfl
    rw [p64] at h2
    rw [p32, e32] at h3
    have hη : (0 : ℚ) < (2 : ℚ) ^ (-149 : Int) := zpow_pos (by norm_num) _
    generalize (2 : ℚ) ^ (-149 : Int) = η at *
    have hd : |d| ≤ |x| + |d - x| := by
      have := abs_add_le x (d - x); rwa [add_sub_cancel] at this
    have he : |e| ≤ |d| + |e - d| := by
      have := abs_add_le d (e - d); rwa [add_sub_cancel] at this
    have ht : |v - x| ≤ |v - e| + |e - d| + |d - x| := by
      have a1 := abs_add_le (v - e) (e - d)
      have a2 := abs_add_le (v - d) (d - x)
      rw [sub_add_sub_cancel] at a1 a2
      linarith
    have hx := abs_nonneg x
    norm_num at h1 h2 h3 e64 ⊢
    linarith

example : ∃ x : ℚ, IsFloat binary32 x ∧ x ≠ 0 := ⟨1, ⟨1, 0, by decide, by decide, by norm_num⟩, by norm_num⟩

end Madg
