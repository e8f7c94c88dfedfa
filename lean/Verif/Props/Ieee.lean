/-
C105: results in rounded arithmetic hold for floating-point numbers with overflow, infinities and NaN.
-/
import Verif.Proofs.IeeeRun
import Verif.Props.RoundPois

set_option linter.unusedSectionVars false

namespace Madg
open Spec

section
variable {F : IeeeFmt}

/-- C105. Operations on ordinary numbers round the exact result once, if that is not too large; whole numbers likewise. -/
theorem C105_operations (hp : 1 ≤ F.prec) (a b : Ieee F) (ha : Ordinary a) (hb : Ordinary b) (rnd : ℚ → ℚ)
    (hrnd : rnd = F.toFloatFmt.round) :
    (|rnd (value a + value b)| < (2 : ℚ) ^ F.emax → Ordinary (a + b) ∧ value (a + b) = rnd (value a + value b)) ∧
    (|rnd (value a - value b)| < (2 : ℚ) ^ F.emax → Ordinary (a - b) ∧ value (a - b) = rnd (value a - value b)) ∧
    (|rnd (value a * value b)| < (2 : ℚ) ^ F.emax → Ordinary (a * b) ∧ value (a * b) = rnd (value a * value b)) ∧
    (value b ≠ 0 → |rnd (value a / value b)| < (2 : ℚ) ^ F.emax → Ordinary (a / b) ∧ value (a / b) = rnd (value a / value b)) ∧
    (∀ n : Nat, |rnd (value a ^ n)| < (2 : ℚ) ^ F.emax → Ordinary (a ^ n) ∧ value (a ^ n) = rnd (value a ^ n)) ∧
    (∀ n : Int, |rnd n| < (2 : ℚ) ^ F.emax → Ordinary (n : Ieee F) ∧ value (n : Ieee F) = rnd n) ∧
    (Ordinary (-a) ∧ value (-a) = -value a) := by
  subst hrnd
  exact ⟨Ieee.add_ordinary hp ha hb, Ieee.sub_ordinary hp ha hb, Ieee.mul_ordinary hp ha hb, Ieee.div_ordinary hp ha hb,
    Ieee.pow_ordinary hp ha, fun n => Ieee.ofRat_ordinary hp false, Ieee.neg_ordinary ha⟩

/-- C105. Comparisons of ordinary numbers compare their values. -/
theorem C105_comparisons (a b : Ieee F) (ha : Ordinary a) (hb : Ordinary b) :
    (a < b ↔ value a < value b) ∧ (a ≤ b ↔ value a ≤ value b) := ⟨Ieee.lt_ordinary ha hb, Ieee.le_ordinary ha hb⟩

/-- C105. A result that is too large is infinite, with the sign of the exact result. -/
theorem C105_too_large (a b : Ieee F) (ha : Ordinary a) (hb : Ordinary b) (rnd : ℚ → ℚ) (hrnd : rnd = F.toFloatFmt.round) :
    ((2 : ℚ) ^ F.emax ≤ |rnd (value a + value b)| → a + b = .inf (decide (value a + value b < 0))) ∧
    ((2 : ℚ) ^ F.emax ≤ |rnd (value a * value b)| → a * b = .inf (decide (value a * value b < 0))) ∧
    (value b ≠ 0 → (2 : ℚ) ^ F.emax ≤ |rnd (value a / value b)| → a / b = .inf (decide (value a / value b < 0))) := by
  subst hrnd
  have pos : (0 : ℚ) < 2 ^ F.emax := zpow_pos (by norm_num) _
  have key : ∀ (n : Bool) (q : ℚ), (2 : ℚ) ^ F.emax ≤ |F.toFloatFmt.round q| → (Ieee.ofRat n q : Ieee F) = .inf (decide (q < 0)) := by
    intro n q h
    have h0 : F.toFloatFmt.round q ≠ 0 := fun e => by rw [e, abs_zero] at h; linarith
    have h1 : q ≠ 0 := fun e => h0 (by rw [e, FloatFmt.round_zero])
    unfold Ieee.ofRat
    rw [if_neg h1, if_neg h0, if_pos h]
  have lt : ∀ {c : Ieee F}, Ordinary c → ¬ (2 : ℚ) ^ F.emax ≤ |F.toFloatFmt.round (value c)| := fun hc => by
    rw [Ieee.round_value hc]
    exact not_le.2 (Ieee.value_lt hc)
  have zr : ¬ (2 : ℚ) ^ F.emax ≤ |F.toFloatFmt.round 0| := by rw [FloatFmt.round_zero, abs_zero]; exact not_le.2 pos
  refine ⟨fun h => ?_, fun h => ?_, fun h0 h => ?_⟩
  · cases a with
    | nan => exact ha.elim
    | inf s => exact ha.elim
    | zero s =>
      rw [show value (.zero s : Ieee F) + value b = value b from zero_add _] at h
      exact absurd h (lt hb)
    | num x =>
      cases b with
      | nan => exact hb.elim
      | inf s => exact hb.elim
      | zero s =>
        rw [show value (.num x : Ieee F) + value (.zero s : Ieee F) = value (.num x : Ieee F) from add_zero _] at h
        exact absurd h (lt ha)
      | num y => exact key _ _ h
  · cases a with
    | nan => exact ha.elim
    | inf s => exact ha.elim
    | zero s =>
      rw [show value (.zero s : Ieee F) * value b = 0 from zero_mul _] at h
      exact absurd h zr
    | num x =>
      cases b with
      | nan => exact hb.elim
      | inf s => exact hb.elim
      | zero s =>
        rw [show value (.num x : Ieee F) * value (.zero s : Ieee F) = 0 from mul_zero _] at h
        exact absurd h zr
      | num y => exact key _ _ h
  · cases b with
    | nan => exact hb.elim
    | inf s => exact hb.elim
    | zero s => exact absurd rfl h0
    | num y =>
      cases a with
      | nan => exact ha.elim
      | inf s => exact ha.elim
      | zero s =>
        rw [show value (.zero s : Ieee F) / value (.num y : Ieee F) = 0 from zero_div _] at h
        exact absurd h zr
      | num x => exact key _ _ h

theorem ofRat_ne_nan (n : Bool) (q : ℚ) : (Ieee.ofRat n q : Ieee F) ≠ .nan := by
  unfold Ieee.ofRat
  split
  · simp
  · split
    · simp
    · split <;> simp

/-- C105. The operations that turn numbers into NaN are exactly: the difference of equal infinities, zero times an infinity, zero
divided by zero and the quotient of infinities. -/
theorem C105_invalid (a b : Ieee F) :
    (a + b = .nan ↔ a = .nan ∨ b = .nan ∨ ∃ s, a = .inf s ∧ b = .inf (!s)) ∧
    (a - b = .nan ↔ a = .nan ∨ b = .nan ∨ ∃ s, a = .inf s ∧ b = .inf s) ∧
    (a * b = .nan ↔ a = .nan ∨ b = .nan ∨ (∃ s t, a = .inf s ∧ b = .zero t) ∨ ∃ s t, a = .zero s ∧ b = .inf t) ∧
    (a / b = .nan ↔ a = .nan ∨ b = .nan ∨ (∃ s t, a = .inf s ∧ b = .inf t) ∨ ∃ s t, a = .zero s ∧ b = .zero t) := by
  have add : ∀ a b : Ieee F, Ieee.add a b = .nan ↔ a = .nan ∨ b = .nan ∨ ∃ s, a = .inf s ∧ b = .inf (!s) := by
    intro a b
    cases a with
    | nan => simp [Ieee.nan_add]
    | inf s =>
      cases b with
      | nan => simp [Ieee.add_nan]
      | inf t => cases s <;> cases t <;> simp [Ieee.add]
      | zero t => simp [Ieee.add]
      | num y => simp [Ieee.add]
    | zero s => cases b <;> simp [Ieee.add]
    | num x => cases b <;> simp [Ieee.add, ofRat_ne_nan]
  refine ⟨add a b, ?_, ?_, ?_⟩
  · show Ieee.add a (Ieee.neg b) = .nan ↔ _
    rw [add]
    cases b <;> simp [Ieee.neg]
  · show Ieee.mul a b = .nan ↔ _
    cases a <;> cases b <;> simp [Ieee.mul, ofRat_ne_nan]
  · show Ieee.div a b = .nan ↔ _
    cases a <;> cases b <;> simp [Ieee.div, ofRat_ne_nan]

end

section
variable {F : IeeeFmt} {u τ : ℚ} (hr : Rounds F.toFloatFmt.round u τ) (hp : 4 ≤ F.prec) (he : F.emin ≤ 0) (hm : 8 ≤ F.emax)
include hr hp he hm

/-- C105. The convergence of `C104_converges` for floating-point numbers: under its conditions nothing overflows, and every state of
either explicit method consists of ordinary numbers close to the solution. `L` bounds the coordinates, `n` the numbers of cells. -/
theorem C105_converges (sn cs : Ieee F → Ieee F) (hsn : UnitFn sn) (hcs : UnitFn cs)
    (xb yb zb dx : Ieee F) (L n : ℚ) (hxb : Ordinary xb ∧ |value xb| ≤ L) (hyb : Ordinary yb ∧ |value yb| ≤ L)
    (hzb : Ordinary zb ∧ |value zb| ≤ L) (hdx : Ordinary dx) (h0 : 0 < value dx) (h1 : value dx ≤ 1) (hτ : 256 * τ ≤ value dx ^ 2)
    (nx ny nz : Int) (hn : 1 ≤ nx ∧ 1 ≤ ny ∧ 1 ≤ nz) (hnn : (nx : ℚ) + 1 ≤ n ∧ (ny : ℚ) + 1 ≤ n ∧ (nz : ℚ) + 1 ≤ n)
    (hX : 16 * (L + 4 * n) < (2 : ℚ) ^ F.emax) (us : Int × Int × Int → ℚ)
    (hus : PoisSolves (value dx) nx ny nz (prescribedValue sn cs xb yb zb dx) us)
    (H : ℚ) (hH : H = ((nz : ℚ) + 1) * value dx) (hXH : 2 ^ 47 * ((1 + 3 / 8 * H ^ 2) / value dx ^ 2) < (2 : ℚ) ^ F.emax)
    (dmin : ℚ) (hm0 : 0 < dmin) (hmin : dmin ≤ value dx ^ 2 / 6) (hκ : 120 * ((1 + u) ^ 34 - 1) * H ^ 2 ≤ dmin)
    (t d : Nat → Ieee F) (s : Nat → Int × Int × Int → Ieee F)
    (hs : s = iterates (ssprk3Method fun _ => poisOps sn cs xb yb zb dx nx ny nz).step t d (fun _ => 0) ∨
      s = iterates (fun _ dt y c => y c + dt * bs23Slope (poisOps sn cs xb yb zb dx nx ny nz) dt y c) t d (fun _ => 0))
    (k : Nat) (hd : ∀ i, i < k → Ordinary (d i) ∧ dmin ≤ value (d i) ∧ value (d i) ≤ value dx ^ 2 / 6)
    (hl : Ordinary (d k) ∧ 0 ≤ value (d k) ∧ value (d k) ≤ value dx ^ 2 / 6) (c : Int × Int × Int) (hc : In3 nx ny nz c) :
    Ordinary (s (k + 1) c) ∧ |value (s (k + 1) c) - us c| ≤ (1 + 3 / 8 * H ^ 2) *
      (2 * (1 - 8 * dmin / (3 * H ^ 2)) ^ k + 120 * ((1 + u) ^ 34 - 1) * H ^ 2 / dmin) := by
  have d2 : 0 < value dx ^ 2 := by positivity
  have d21 : value dx ^ 2 ≤ 1 := pow_le_one₀ h0.le h1
  have hsame := same_poisOps hr hp he hm hsn hcs hxb hyb hzb hdx h0 h1 hτ hn hnn hX
  have hus' : PoisSolves (asFl dx).val nx ny nz (prescribed (liftFn sn) (liftFn cs) (asFl xb) (asFl yb) (asFl zb) (asFl dx)) us := by
    intro i j k hi hj hk
    have fx := fun i h => (same_fn_centre hr hp he hm hsn hcs hxb hyb hzb hdx h0 h1 hτ hn hnn hX hsn hxb (i := i) h hnn.1).val
    have fy := fun i h => (same_fn_centre hr hp he hm hsn hcs hxb hyb hzb hdx h0 h1 hτ hn hnn hX hcs hyb (i := i) h hnn.2.1).val
    have fz := fun i h => (same_fn_centre hr hp he hm hsn hcs hxb hyb hzb hdx h0 h1 hτ hn hnn hX hcs hzb (i := i) h hnn.2.2).val
    have e : ∀ i j k : Int, -1 ≤ i ∧ i ≤ nx → -1 ≤ j ∧ j ≤ ny → -1 ≤ k ∧ k ≤ nz →
        prescribed (liftFn sn) (liftFn cs) (asFl xb) (asFl yb) (asFl zb) (asFl dx) i j k = prescribedValue sn cs xb yb zb dx i j k := by
      intro i j k h1 h2 h3
      unfold prescribed prescribedValue
      rw [fx i h1, fy j h2, fz k h3]
    rw [← hus i j k hi hj hk]
    unfold poisRhs
    rw [e i j k (by omega) (by omega) (by omega)]
    congr 1
    have ee : ∀ a b c : Int, -1 ≤ a ∧ a ≤ nx → -1 ≤ b ∧ b ≤ ny → -1 ≤ c ∧ c ≤ nz →
        extDirichlet nx ny nz (prescribed (liftFn sn) (liftFn cs) (asFl xb) (asFl yb) (asFl zb) (asFl dx)) (fun i j k => us (i, j, k)) a b c =
        extDirichlet nx ny nz (prescribedValue sn cs xb yb zb dx) (fun i j k => us (i, j, k)) a b c := by
      intro a b c h1 h2 h3
      unfold extDirichlet
      rw [e a b c h1 h2 h3]
    unfold lap3 d2x d2y d2z
    rw [ee _ _ _ (by omega) (by omega) (by omega), ee _ _ _ (by omega) (by omega) (by omega), ee _ _ _ (by omega) (by omega) (by omega),
      ee _ _ _ (by omega) (by omega) (by omega), ee _ _ _ (by omega) (by omega) (by omega), ee _ _ _ (by omega) (by omega) (by omega),
      ee _ _ _ (by omega) (by omega) (by omega)]
    rfl
  have hsn' := liftFn_le hsn
  have hcs' := liftFn_le hcs
  have hB := C104_maximum (value dx) h0 nx ny nz hn _ (prescribed_le hsn' hcs') us hus'
  rw [← hH] at hB
  have H0 : 0 ≤ 3 / 8 * H ^ 2 := by positivity
  have sizes : ∀ j, j ≤ k → Ordinary (d j) ∧ 0 ≤ value (d j) ∧ value (d j) ≤ value dx ^ 2 / 6 := by
    intro j hj
    rcases Nat.lt_or_eq_of_le hj with h | rfl
    · have := hd j h
      exact ⟨this.1, by linarith, this.2.2⟩
    · exact hl
  obtain ⟨G, hGd⟩ : ∃ G, G = poisOps sn cs xb yb zb dx nx ny nz := ⟨_, rfl⟩
  obtain ⟨G', hGd'⟩ : ∃ G', G' = poisOps (liftFn sn) (liftFn cs) (asFl xb) (asFl yb) (asFl zb) (asFl dx) nx ny nz := ⟨_, rfl⟩
  have bd : ∀ x : Nat → Int × Int × Int → Fl F.toFloatFmt.round,
      (x = iterates (ssprk3Method fun _ => G').step (fun i => asFl (t i)) (fun i => asFl (d i)) (fun _ => 0) ∨
        x = iterates (fun _ dt y c => y c + dt * bs23Slope G' dt y c) (fun i => asFl (t i)) (fun i => asFl (d i)) (fun _ => 0)) →
      ∀ j, j ≤ k → ∀ c, In3 nx ny nz c → |(x (j + 1) c).val - us c| ≤ (1 + 3 / 8 * H ^ 2) *
        (2 * (1 - 8 * dmin / (3 * H ^ 2)) ^ j + 120 * ((1 + u) ^ 34 - 1) * H ^ 2 / dmin) := by
    intro x hx j hj c hc
    rw [hGd'] at hx
    exact C104_converges hr (liftFn sn) (liftFn cs) hsn' hcs' _ _ _ (asFl dx) h0 h1 hτ nx ny nz hn us hus' H hH dmin hm0 hκ _ _ x hx j
      (fun i hi => (hd i (by omega)).2) (sizes j hj).2 hmin c hc
  have small : ∀ x : Nat → Int × Int × Int → Fl F.toFloatFmt.round,
      (x = iterates (ssprk3Method fun _ => G').step (fun i => asFl (t i)) (fun i => asFl (d i)) (fun _ => 0) ∨
        x = iterates (fun _ dt y c => y c + dt * bs23Slope G' dt y c) (fun i => asFl (t i)) (fun i => asFl (d i)) (fun _ => 0)) →
      ∀ j, j ≤ k → ∀ c, In3 nx ny nz c → |(x (j + 1) c).val| ≤ 4 * (1 + 3 / 8 * H ^ 2) := by
    intro x hx j hj c hc
    have e1 := bd x hx j hj c hc
    have e2 := hB c hc
    have hz : (1 : ℚ) ≤ nz := by exact_mod_cast hn.2.2
    have hHd : value dx ^ 2 ≤ H ^ 2 := by
      rw [hH, mul_pow]
      exact le_mul_of_one_le_left d2.le (one_le_pow₀ (by linarith))
    have hHp : 0 < 3 * H ^ 2 := by linarith
    have q0 : 0 ≤ 8 * dmin / (3 * H ^ 2) := by positivity
    have q1 : 8 * dmin / (3 * H ^ 2) ≤ 1 := by rw [div_le_one hHp]; linarith
    have q2 : (1 - 8 * dmin / (3 * H ^ 2)) ^ j ≤ 1 := pow_le_one₀ (by linarith) (by linarith)
    have q3 : 120 * ((1 + u) ^ 34 - 1) * H ^ 2 / dmin ≤ 1 := by rw [div_le_one hm0]; exact hκ
    have q4 := mul_le_mul_of_nonneg_left (show 2 * (1 - 8 * dmin / (3 * H ^ 2)) ^ j + 120 * ((1 + u) ^ 34 - 1) * H ^ 2 / dmin ≤ 3 by linarith)
      (show 0 ≤ 1 + 3 / 8 * H ^ 2 by linarith)
    have := abs_sub_abs_le_abs_sub (x (j + 1) c).val (us c)
    linarith
  have hXM : 2 ^ 45 * (4 * (1 + 3 / 8 * H ^ 2) / value dx ^ 2) < (2 : ℚ) ^ F.emax := by
    refine lt_of_eq_of_lt ?_ hXH
    ring
  rw [← hGd, ← hGd'] at hsame
  rw [← hGd] at hs
  have dts : ∀ j, j ≤ k → Same (d j) (asFl (d j)) (value dx ^ 2) := fun j hj => by
    obtain ⟨a1, a2, a3⟩ := sizes j hj
    exact Same.of a1 (by rw [abs_of_nonneg a2]; linarith)
  have fin : ∃ x : Nat → Int × Int × Int → Fl F.toFloatFmt.round,
      (x = iterates (ssprk3Method fun _ => G').step (fun i => asFl (t i)) (fun i => asFl (d i)) (fun _ => 0) ∨
        x = iterates (fun _ dt y c => y c + dt * bs23Slope G' dt y c) (fun i => asFl (t i)) (fun i => asFl (d i)) (fun _ => 0)) ∧
      ∀ j, j ≤ k + 1 → ∀ c, In3 nx ny nz c → Same (s j c) (x j c) (4 * (1 + 3 / 8 * H ^ 2)) := by
    rcases hs with hs | hs
    · refine ⟨_, .inl rfl, fun j => ?_⟩
      induction j with
      | zero => intro _ c _; rw [hs]; exact Same.zero.mono (by linarith)
      | succ j ih =>
        intro hj c hc
        have st := Same.rk3 hp he hm d2 d21 hsame (by linarith) hXM (dts j (by omega)) (ih (by omega)) (t j) (asFl (t j)) c hc
        rw [hs] at st ⊢
        exact st.bound (small _ (.inl rfl) j (by omega) c hc)
    · refine ⟨_, .inr rfl, fun j => ?_⟩
      induction j with
      | zero => intro _ c _; rw [hs]; exact Same.zero.mono (by linarith)
      | succ j ih =>
        intro hj c hc
        have st := Same.bs23 hp he hm d2 d21 hsame (by linarith) hXM (dts j (by omega)) (ih (by omega)) c hc
        rw [hs] at st ⊢
        exact st.bound (small _ (.inr rfl) j (by omega) c hc)
  obtain ⟨x, hx, same⟩ := fin
  have sm := same (k + 1) le_rfl c hc
  refine ⟨sm.ord, ?_⟩
  rw [sm.val]
  exact bd x hx k le_rfl c hc

end

section
variable {A : Type} [DecidableEq A] {F : IeeeFmt} {u τ : ℚ} [Pow (Ieee F) (Ieee F)]
  (hr : Rounds F.toFloatFmt.round u τ) (hp : 4 ≤ F.prec) (he : F.emin ≤ 0) (hm : 8 ≤ F.emax)
  (sz : A → Int) (E : Env (Ieee F)) (o : RunOpts (Ieee F)) (w : ProgArr A)
  (heq : o.sel.equation = "poisson") (hcfl : o.useCfl = false) (hlf : o.logFreq ≠ 0)
  (hms : 0 < o.maxSteps) (hM : o.maxSteps < 2147483648)
  (hbx : o.sel.bcx ∈ ["periodic", "neumann", "dirichlet"]) (hby : o.sel.bcy ∈ ["periodic", "neumann", "dirichlet"])
  (hbz : o.sel.bcz ∈ ["periodic", "neumann", "dirichlet"]) (hdim : o.sel.dimension = 3)
  (hn : 2 ≤ o.nx ∧ 2 ≤ o.ny ∧ 2 ≤ o.nz) (hw : ArraysPois sz w o.nx o.ny o.nz)
  (hsn : UnitFn E.sn) (hcs : UnitFn E.cs) (L n : ℚ) (hxb : Ordinary o.box.xbeg ∧ |value o.box.xbeg| ≤ L)
  (hyb : Ordinary o.box.ybeg ∧ |value o.box.ybeg| ≤ L) (hzb : Ordinary o.box.zbeg ∧ |value o.box.zbeg| ≤ L)
  (dx : Ieee F) (hdx : dx = (o.box.xend - o.box.xbeg) / (o.nx : Ieee F)) (odx : Ordinary dx) (h0 : 0 < value dx) (h1 : value dx ≤ 1)
  (hτ : 256 * τ ≤ value dx ^ 2) (hnn : (o.nx : ℚ) + 1 ≤ n ∧ (o.ny : ℚ) + 1 ≤ n ∧ (o.nz : ℚ) + 1 ≤ n)
  (hX : 16 * (L + 4 * n) < (2 : ℚ) ^ F.emax) (us : Int × Int × Int → ℚ)
  (hus : PoisSolves (value dx) o.nx o.ny o.nz (prescribedValue E.sn E.cs o.box.xbeg o.box.ybeg o.box.zbeg dx) us)
  (H : ℚ) (hH : H = ((o.nz : ℚ) + 1) * value dx) (hXH : 2 ^ 47 * ((1 + 3 / 8 * H ^ 2) / value dx ^ 2) < (2 : ℚ) ^ F.emax)
  (oT : Ordinary o.tfinal) (o0 : Ordinary o.t0) (od : Ordinary o.dt0)
  (hT : 0 ≤ value o.tfinal) (hTu : u * (value o.tfinal + 1) ≤ value dx ^ 2 / 64) (ht : o.t0 + o.dt0 ≤ o.tfinal)
  (hXT : 4 * (|value o.t0| + value o.tfinal + 1) < (2 : ℚ) ^ F.emax)
  (W : Nat) (hW : W = max (Nat.log 10 o.maxSteps + 1) 4) (m : Mem A (Ieee F)) (fuel : Nat) (hf1 : 1 ≤ fuel) (hf2 : o.maxSteps ≤ fuel)
include hr hp he hm heq hcfl hlf hms hM hbx hby hbz hdim hn hw hsn hcs hxb hyb hzb hdx odx h0 h1 hτ hnn hX hus hH hXH oT o0 od hT hTu ht
  hXT hW hf1 hf2

/-- C105. The Poisson runs of `C104_rk3ssp` in floating-point arithmetic with overflow, infinities and NaN: every execution ends, all
numbers in its files are ordinary and close to the solution of the discrete problem. -/
theorem C105_rk3ssp (hint : o.sel.integrator = "rk3ssp") (hd0 : 0 < value o.dt0) (hd1 : value o.dt0 ≤ value dx ^ 2 / 8)
    (hκ : 120 * ((1 + u) ^ 34 - 1) * H ^ 2 ≤ value o.dt0) :
    AllEnd sz (program E o none w fuel) m fun res _ => ∃ (N : Nat) (t d : Nat → Ieee F) (s : Nat → Int × Int × Int → Ieee F)
      (st : Status (Ieee F)) (rows : List (List (String × Ieee F))), 1 ≤ N ∧
      res = .done (savedFiles 0 o.saveEvery.natAbs t d (stepName o.base W)
          (fun k => vts3 E.io o.box.xbeg o.box.ybeg o.box.zbeg dx o.nx o.ny o.nz (s (k + 1))) N ++
        [(stepName (finalBase o.base) W (0 + N), vts3 E.io o.box.xbeg o.box.ybeg o.box.zbeg dx o.nx o.ny o.nz (s N) st)]) rows ∧
      ∀ k, k < N → ∀ c, In3 o.nx o.ny o.nz c → Ordinary (s (k + 1) c) ∧ |value (s (k + 1) c) - us c| ≤ (1 + 3 / 8 * H ^ 2) *
        (2 * (1 - 8 * value o.dt0 / (3 * H ^ 2)) ^ k + 120 * ((1 + u) ^ 34 - 1) * H ^ 2 / value o.dt0) := by
  have d2 : 0 < value dx ^ 2 := by positivity
  have d21 : value dx ^ 2 ≤ 1 := pow_le_one₀ h0.le h1
  refine (C103_rk3ssp sz E o w heq hcfl hlf hms hM hbx hby hbz hdim hn hw hint dx hdx W hW m fuel hf1
    (by dsimp only; omega)).mono fun res _ h => ?_
  obtain ⟨N, t, d, p, r, e, v, s, hmar, hend, hs, hpr, -, hres⟩ := h
  refine ⟨N, t, d, s, _, _, hend.1, hres, ?_⟩
  have sizes := ieee_sizes hr (by omega) hmar hend.1 (fun k hk hl => hend.2.2 (k + 1) (by omega) hk (.inl hl)) hd0.le
    (hi := value dx ^ 2 / 8) (by linarith) oT o0 od ⟨le_rfl, hd1⟩ hT ht hXT (fun k hk hall => by
      rw [(hpr k (by omega)).2 (fun hl => hend.2.2 (k + 1) (by omega) hk (.inl hl))]
      exact hall k le_rfl)
  intro k hk c hc
  have last := last_step_ok hr hT d2.le d21 hTu
  refine C105_converges hr hp he hm E.sn E.cs hsn hcs _ _ _ dx L n hxb hyb hzb odx h0 h1 hτ o.nx o.ny o.nz ⟨by omega, by omega, by omega⟩
    hnn hX us hus H hH hXH (value o.dt0) hd0 (by linarith) hκ t d s (.inl hs) k (fun i hi => ?_) ?_ c hc
  · obtain ⟨q1, q2, q3⟩ := sizes.1 i (by omega)
    exact ⟨q1, q2, q3.trans (by linarith)⟩
  · by_cases hkN : k + 1 < N
    · obtain ⟨q1, q2, q3⟩ := sizes.1 k hkN
      exact ⟨q1, hd0.le.trans q2, q3.trans (by linarith)⟩
    · obtain rfl : k = N - 1 := by omega
      exact ⟨sizes.2.1, sizes.2.2.1, sizes.2.2.2.trans last⟩

end

/-- Unit cells, steps of 1/8 up to time 2 (test data). -/
def poisBox64 : RunOpts (Ieee ieee64) :=
  { lostOpts with
    sel := ⟨3, "periodic", "neumann", "dirichlet", "poisson", "rk3ssp", false⟩
    box := ⟨0, .num 2, 0, 0⟩
    t0 := 0
    tfinal := .num 2
    dt0 := .num (1 / 8) }

/-- The hypotheses are met in double precision. -/
example [Pow (Ieee ieee64) (Ieee ieee64)] (E : Env (Ieee ieee64)) (hsn : UnitFn E.sn) (hcs : UnitFn E.cs) (m : Mem _ (Ieee ieee64)) :
    ∃ us : Int × Int × Int → ℚ, PoisSolves 1 2 2 3 (prescribedValue E.sn E.cs 0 0 0 (.num 1)) us ∧
    AllEnd (demoSize 392 252) (program E poisBox64 none demoArr 100) m fun res _ =>
      ∃ (N : Nat) (s : Nat → Int × Int × Int → Ieee ieee64) (files : List (Text × VtsFile)) (name : Text)
        (st : Status (Ieee ieee64)) (rows : List (List (String × Ieee ieee64))),
        1 ≤ N ∧ res = .done (files ++ [(name, vts3 E.io 0 0 0 (.num 1) 2 2 3 (s N) st)]) rows ∧
        ∀ k, k < N → ∀ c, In3 2 2 3 c → Ordinary (s (k + 1) c) ∧ |value (s (k + 1) c) - us c| ≤ 14 * (47 / 48) ^ k + 1 / 10 ^ 9 := by
  obtain ⟨us, hus, -⟩ := C80_unique_solution (K := ℚ) 1 one_ne_zero 2 2 3 (by decide) (by decide) (by decide)
    (prescribedValue E.sn E.cs 0 0 0 (.num 1))
  refine ⟨us, hus, ?_⟩
  obtain ⟨u, τ, hr, hu, hτ⟩ : ∃ u τ : ℚ, Rounds binary64.round u τ ∧ u = 1 / 2 ^ 53 ∧ τ ≤ 1 / 1024 :=
    ⟨_, _, binary64_rounds, rfl, tiny64.2⟩
  have hκ : 120 * ((1 + u) ^ 34 - 1) * (4 : ℚ) ^ 2 ≤ 1 / 8 := by rw [hu]; norm_num
  have hfin : ∀ n : Nat, (1 + 3 / 8 * (4 : ℚ) ^ 2) * (2 * (1 - 8 * (1 / 8) / (3 * 4 ^ 2)) ^ n + 120 * ((1 + u) ^ 34 - 1) * 4 ^ 2 / (1 / 8)) ≤
      14 * (47 / 48) ^ n + 1 / 10 ^ 9 := by
    intro n
    have a : 120 * ((1 + u) ^ 34 - 1) * (4 : ℚ) ^ 2 / (1 / 8) ≤ 1 / 10 ^ 10 := by rw [hu]; norm_num
    have b : (1 : ℚ) - 8 * (1 / 8) / (3 * 4 ^ 2) = 47 / 48 := by norm_num
    rw [b]
    norm_num at a ⊢
    linarith
  have big : (2 : ℚ) ^ 60 < (2 : ℚ) ^ ieee64.emax := by
    rw [← zpow_natCast]
    exact zpow_lt_zpow_right₀ (by norm_num) (by decide)
  have o1 : Ordinary (.num 1 : Ieee ieee64) := ⟨one_ne_zero, ⟨1, 0, by decide, by decide, by norm_num⟩, by
    rw [abs_one]; exact lt_trans (by norm_num) big⟩
  have o2 : Ordinary (.num 2 : Ieee ieee64) := ⟨two_ne_zero, ⟨1, 1, by decide, by decide, by norm_num⟩, by
    rw [abs_two]; exact lt_trans (by norm_num) big⟩
  have o8 : Ordinary (.num (1 / 8) : Ieee ieee64) := ⟨by norm_num, ⟨1, -3, by decide, by decide, by norm_num⟩, by
    rw [abs_of_pos (by norm_num)]; exact lt_trans (by norm_num) big⟩
  have oz : Ordinary (0 : Ieee ieee64) ∧ |value (0 : Ieee ieee64)| ≤ 0 := ⟨trivial, by show |(0 : ℚ)| ≤ 0; rw [abs_zero]⟩
  refine (C105_rk3ssp (F := ieee64) hr (by decide) (by decide) (by decide) (demoSize 392 252) E poisBox64 demoArr rfl rfl (by decide)
      (by decide) (by decide) (by simp [poisBox64]) (by simp [poisBox64]) (by simp [poisBox64]) rfl (by decide)
      ⟨by simp [demoArr], by simp [demoArr, demoSize, poisBox64, lostOpts, blowOpts],
        by simp [demoArr, demoSize, poisBox64, lostOpts, blowOpts]⟩ hsn hcs 0 4 oz oz oz (.num 1)
      (by decide +kernel) o1 zero_lt_one le_rfl (by show 256 * τ ≤ (1 : ℚ) ^ 2; linarith)
      (by norm_num [poisBox64, lostOpts, blowOpts]) (lt_trans (by norm_num) big) us hus 4
      (by show (4 : ℚ) = ((3 : Int) + 1) * 1; norm_num) (lt_trans (by show 2 ^ 47 * ((1 + 3 / 8 * (4 : ℚ) ^ 2) / 1 ^ 2) < 2 ^ 60; norm_num) big)
      o2 oz.1 o8 (show (0 : ℚ) ≤ 2 by norm_num) (by show u * ((2 : ℚ) + 1) ≤ 1 ^ 2 / 64; rw [hu]; norm_num) (by decide +kernel)
      (lt_trans (by show 4 * (|(0 : ℚ)| + 2 + 1) < 2 ^ 60; norm_num) big)
      4 (by simp only [poisBox64, lostOpts, blowOpts]; decide +kernel) m 100 (by decide) (by decide) rfl (show (0 : ℚ) < 1 / 8 by norm_num)
      (by show (1 / 8 : ℚ) ≤ 1 ^ 2 / 8; norm_num) hκ).mono fun res _ h => ?_
  obtain ⟨N, t, d, s, st, rows, h1, h2, h3⟩ := h
  exact ⟨N, s, _, _, st, rows, h1, h2, fun k hk c hc => ⟨(h3 k hk c hc).1, (h3 k hk c hc).2.trans (hfin k)⟩⟩

/-- Library functions as assumed exist. -/
example : UnitFn (fun a : Ieee ieee64 => if a = .nan then .nan else 0) := by
  refine ⟨fun a ha => ?_, fun a ha => ?_, fun a b ha hb _ => ?_⟩
  · rw [if_neg (by rintro rfl; exact ha)]
    trivial
  · rw [if_neg (by rintro rfl; exact ha)]
    show |(0 : ℚ)| ≤ 1
    norm_num
  · rw [if_neg (by rintro rfl; exact ha), if_neg (by rintro rfl; exact hb)]

/-- Ordinary numbers and the exceptional results. -/
example : Ordinary (.num 3 : Ieee ieee64) ∧ (.num 3 : Ieee ieee64) + .num 5 = .num 8 ∧ (.inf true : Ieee ieee64) * .zero false = .nan ∧
    (.num 1 : Ieee ieee64) / .zero true = .inf true ∧ (.num (2 ^ 1000) : Ieee ieee64) * .num (-2 ^ 1000) = .inf true := by
  refine ⟨⟨by norm_num, ⟨3, 0, by decide, by decide, by norm_num⟩, ?_⟩, by decide +kernel, rfl, rfl, by decide +kernel⟩
  have : (2 : ℚ) ^ (2 : Int) ≤ 2 ^ ieee64.emax := zpow_le_zpow_right₀ (by norm_num) (by decide)
  rw [abs_of_pos (by norm_num)]
  exact lt_of_lt_of_le (by norm_num) this

end Madg
