/-
Explicit runs of the Poisson problem in floating-point arithmetic with overflow.
-/
import Verif.Proofs.IeeePois
import Verif.Proofs.RunSizes
import Verif.Proofs.RoundPois

set_option linter.unusedSectionVars false

namespace Madg
open Spec
variable {F : IeeeFmt}

/-- Times and step sizes of a run are ordinary numbers; sizes as in `run_sizes`. -/
theorem ieee_sizes {u τ : ℚ} (hr : Rounds F.toFloatFmt.round u τ) (hp1 : 1 ≤ F.prec) {T t0 dt0 : Ieee F} {t d p : Nat → Ieee F}
    (hm : Marching T t0 dt0 t d p) {N : Nat} (hN : 1 ≤ N) (hne : ∀ k, k + 1 < N → ¬ LastStep T t p k) {lo hi : ℚ} (hl : 0 ≤ lo)
    (hhi : hi ≤ 1) (oT : Ordinary T) (o0 : Ordinary t0) (od : Ordinary dt0)
    (h0 : lo ≤ value dt0 ∧ value dt0 ≤ hi) (hT : 0 ≤ value T) (h1 : t0 + dt0 ≤ T)
    (hX : 4 * (|value t0| + value T + 1) < (2 : ℚ) ^ F.emax)
    (hp : ∀ k, k + 1 < N → (∀ i, i ≤ k → Ordinary (d i) ∧ lo ≤ value (d i) ∧ value (d i) ≤ hi) →
      Ordinary (p (k + 1)) ∧ lo ≤ value (p (k + 1)) ∧ value (p (k + 1)) ≤ hi) :
    (∀ i, i + 1 < N → Ordinary (d i) ∧ lo ≤ value (d i) ∧ value (d i) ≤ hi) ∧
    Ordinary (d (N - 1)) ∧ 0 ≤ value (d (N - 1)) ∧ value (d (N - 1)) ≤ (1 + u) * (hi + u * (value T + hi + τ)) + u * τ := by
  have hu := hr.unit.1
  have hτ := hr.tiny.1
  have hh : 0 ≤ hi := hl.trans (h0.1.trans h0.2)
  obtain ⟨mt, md, mtn, mdn⟩ := hm
  have all : ∀ i, i + 1 < N → Ordinary (d i) ∧ lo ≤ value (d i) ∧ value (d i) ≤ hi := by
    intro i
    induction i using Nat.strong_induction_on with
    | _ i ih =>
      intro hi'
      cases i with
      | zero => rw [md]; exact ⟨od, h0⟩
      | succ i =>
        have n1 := hne (i + 1) hi'
        rw [mdn, if_neg (fun h => n1 ⟨by omega, h⟩)]
        exact hp i (by omega) fun j hj => ih j (by omega) (by omega)
  have sum : ∀ {a b : Ieee F}, Ordinary a → Ordinary b → value t0 ≤ value a → value a ≤ value T → 0 ≤ value b → value b ≤ 1 →
      Ordinary (a + b) ∧ value (a + b) = F.toFloatFmt.round (value a + value b) ∧ value t0 ≤ value (a + b) := by
    intro a b oa ob a0 a1 b0 b1
    have hab : |value a + value b| ≤ |value t0| + value T + 1 := by
      have := neg_abs_le (value t0)
      have := abs_nonneg (value t0)
      rw [abs_le]
      constructor <;> linarith
    have h2 := F.toFloatFmt.round_double (value a + value b)
    have h3 := Ieee.add_ordinary hp1 oa ob (by have := abs_nonneg (value t0); linarith)
    refine ⟨h3.1, h3.2, ?_⟩
    rw [h3.2]
    have := F.toFloatFmt.round_mono hp1 (show value a ≤ value a + value b by linarith)
    rw [Ieee.round_value oa] at this
    linarith
  have times : ∀ i, i < N → Ordinary (t i) ∧ value t0 ≤ value (t i) ∧ value (t i) ≤ value T := by
    intro i
    induction i with
    | zero =>
      intro _
      rw [mt]
      refine ⟨o0, le_rfl, ?_⟩
      have hab : |value t0 + value dt0| ≤ |value t0| + 1 := by
        refine (abs_add_le _ _).trans ?_
        rw [abs_of_nonneg (hl.trans h0.1)]
        linarith
      have h2 := F.toFloatFmt.round_double (value t0 + value dt0)
      have h3 := Ieee.add_ordinary hp1 o0 od (by linarith [abs_nonneg (value t0)])
      have h4 := (Ieee.le_ordinary h3.1 oT).1 h1
      rw [h3.2] at h4
      have := F.toFloatFmt.round_mono hp1 (show value t0 ≤ value t0 + value dt0 by linarith)
      rw [Ieee.round_value o0] at this
      linarith
    | succ i ih =>
      intro hi'
      obtain ⟨a1, a2, a3⟩ := ih (by omega)
      obtain ⟨b1, b2, b3⟩ := all i (by omega)
      obtain ⟨s1, s2, s3⟩ := sum a1 b1 a2 a3 (by linarith) (by linarith)
      rw [mtn]
      refine ⟨s1, s3, ?_⟩
      cases i with
      | zero =>
        rw [mt, md] at s1 ⊢
        exact (Ieee.le_ordinary s1 oT).1 h1
      | succ j =>
        have n1 := hne (j + 1) (by omega)
        have hc : ¬ T ≤ t (j + 1) + p (j + 1) := fun h => n1 ⟨by omega, h⟩
        have e : d (j + 1) = p (j + 1) := by rw [mdn, if_neg hc]
        rw [← e, Ieee.le_ordinary oT s1] at hc
        exact (not_le.1 hc).le
  refine ⟨all, ?_⟩
  have hiup : hi ≤ (1 + u) * (hi + u * (value T + hi + τ)) + u * τ := by
    have a : 0 ≤ u * (value T + hi + τ) := mul_nonneg hu (by linarith)
    have b : 0 ≤ u * (hi + u * (value T + hi + τ)) := mul_nonneg hu (by linarith)
    have c := mul_nonneg hu hτ
    linarith
  obtain ⟨n, rfl⟩ : ∃ n, N = n + 1 := ⟨N - 1, by omega⟩
  rw [Nat.add_sub_cancel]
  cases n with
  | zero => rw [md]; exact ⟨od, hl.trans h0.1, h0.2.trans hiup⟩
  | succ k =>
    obtain ⟨p1, p2, p3⟩ := hp k (by omega) fun i hi' => all i (by omega)
    obtain ⟨t1, t2, t3⟩ := times (k + 1) (by omega)
    by_cases hc : T ≤ t (k + 1) + p (k + 1)
    · rw [mdn, if_pos hc]
      obtain ⟨s1, s2, -⟩ := sum t1 p1 t2 t3 (by linarith) (by linarith)
      rw [Ieee.le_ordinary oT s1, s2] at hc
      have hab : |value T - value (t (k + 1))| ≤ |value t0| + value T := by
        have := neg_abs_le (value t0)
        rw [abs_of_nonneg (by linarith)]
        linarith
      have h2 := F.toFloatFmt.round_double (value T - value (t (k + 1)))
      have h3 := Ieee.sub_ordinary hp1 oT t1 (by linarith [abs_nonneg (value t0)])
      refine ⟨h3.1, ?_, ?_⟩
      · rw [h3.2]; exact F.toFloatFmt.round_nonneg (by linarith)
      · rw [h3.2]; exact cut_size hr hT t3 p3 hc hh
    · rw [mdn, if_neg hc]
      exact ⟨p1, hl.trans p2, p3.trans hiup⟩

open Classical in
/-- A function of floating-point numbers as a function of rounded numbers. -/
noncomputable def liftFn (f : Ieee F → Ieee F) (x : Fl F.toFloatFmt.round) : Fl F.toFloatFmt.round :=
  if h : ∃ a : Ieee F, Ordinary a ∧ value a = x.val then asFl (f h.choose) else ⟨0⟩

theorem liftFn_le {f : Ieee F → Ieee F} (hf : UnitFn f) (x : Fl F.toFloatFmt.round) : |(liftFn f x).val| ≤ 1 := by
  unfold liftFn
  split
  · next h => exact hf.le _ h.choose_spec.1
  · simp

theorem Same.fn {f : Ieee F → Ieee F} (hf : UnitFn f) {a : Ieee F} {x : Fl F.toFloatFmt.round} {s : ℚ} (h : Same a x s) :
    Same (f a) (liftFn f x) 1 := by
  refine ⟨hf.ord a h.ord, ?_, liftFn_le hf x⟩
  unfold liftFn
  have hex : ∃ a : Ieee F, Ordinary a ∧ value a = x.val := ⟨a, h.ord, h.val⟩
  rw [dif_pos hex]
  exact hf.val _ _ h.ord hex.choose_spec.1 (h.val.trans hex.choose_spec.2.symm)

section
variable {u τ : ℚ} (hr : Rounds F.toFloatFmt.round u τ) (hp : 4 ≤ F.prec) (he : F.emin ≤ 0) (hm : 8 ≤ F.emax)
  {sn cs : Ieee F → Ieee F} (hsn : UnitFn sn) (hcs : UnitFn cs) {xb yb zb dx : Ieee F} {L n : ℚ}
  (hxb : Ordinary xb ∧ |value xb| ≤ L) (hyb : Ordinary yb ∧ |value yb| ≤ L) (hzb : Ordinary zb ∧ |value zb| ≤ L)
  (hdx : Ordinary dx) (h0 : 0 < value dx) (h1 : value dx ≤ 1) (hτ : 256 * τ ≤ value dx ^ 2)
  {nx ny nz : Int} (hn : 1 ≤ nx ∧ 1 ≤ ny ∧ 1 ≤ nz) (hnn : (nx : ℚ) + 1 ≤ n ∧ (ny : ℚ) + 1 ≤ n ∧ (nz : ℚ) + 1 ≤ n)
  (hX : 16 * (L + 4 * n) < (2 : ℚ) ^ F.emax)
include hr hp he hm hsn hcs hxb hyb hzb hdx h0 h1 hτ hn hnn hX

theorem same_fn_centre {f : Ieee F → Ieee F} (hf : UnitFn f) {b : Ieee F} (hb : Ordinary b ∧ |value b| ≤ L) {i m : Int}
    (h : -1 ≤ i ∧ i ≤ m) (hmn : (m : ℚ) + 1 ≤ n) :
    Same (f (centreOps b dx i)) (liftFn f (centreOps (asFl b) (asFl dx) i)) 1 := by
  have i1 : (-1 : ℚ) ≤ i := by exact_mod_cast h.1
  have i2 : (i : ℚ) ≤ m := by exact_mod_cast h.2
  have n1 : (1 : ℚ) ≤ n := by
    have : (1 : ℚ) ≤ nx := by exact_mod_cast hn.1
    linarith
  refine Same.fn hf (Same.centre hp he hm (Same.of hb.1 hb.2) (Same.of hdx (by rw [abs_of_pos h0]; exact h1)) hX ?_ ?_)
  · rw [abs_le]; constructor <;> linarith
  · push_cast
    rw [abs_le]; constructor <;> linarith

/-- The right-hand side. -/
theorem same_poisOps (a : Int × Int × Int → Ieee F) (x : Int × Int × Int → Fl F.toFloatFmt.round) (M : ℚ) (hM : 4 ≤ M)
    (hXM : 1800 * (M / value dx ^ 2) < (2 : ℚ) ^ F.emax) (ha : ∀ c, In3 nx ny nz c → Same (a c) (x c) M) (c : Int × Int × Int)
    (hc : In3 nx ny nz c) :
    Same (poisOps sn cs xb yb zb dx nx ny nz a c)
      (poisOps (liftFn sn) (liftFn cs) (asFl xb) (asFl yb) (asFl zb) (asFl dx) nx ny nz x c) (1800 * (M / value dx ^ 2)) := by
  obtain ⟨⟨c1, c2⟩, ⟨c3, c4⟩, c5, c6⟩ := hc
  have d2 : 0 < value dx ^ 2 := by positivity
  have sd : Same dx (asFl dx) 1 := Same.of hdx (by rw [abs_of_pos h0]; exact h1)
  have hl : value dx ^ 2 / 2 ≤ |((asFl dx : Fl F.toFloatFmt.round) * asFl dx).val| := by
    have e := abs_le.1 (hr.err (value dx * value dx))
    rw [abs_of_pos (by positivity), max_eq_left (by have := hr.tiny.1; nlinarith)] at e
    have : u * (value dx * value dx) ≤ 1 / 2 * (value dx * value dx) := mul_le_mul_of_nonneg_right hr.unit.2 (by positivity)
    have : value dx ^ 2 / 2 ≤ F.toFloatFmt.round (value dx * value dx) := by rw [sq]; linarith
    exact this.trans (le_abs_self _)
  have fx : ∀ i : Int, -1 ≤ i ∧ i ≤ nx → Same (sn (centreOps xb dx i)) (liftFn sn (centreOps (asFl xb) (asFl dx) i)) 1 := fun i h =>
    same_fn_centre hr hp he hm hsn hcs hxb hyb hzb hdx h0 h1 hτ hn hnn hX hsn hxb h hnn.1
  have fy : ∀ i : Int, -1 ≤ i ∧ i ≤ ny → Same (cs (centreOps yb dx i)) (liftFn cs (centreOps (asFl yb) (asFl dx) i)) 1 := fun i h =>
    same_fn_centre hr hp he hm hsn hcs hxb hyb hzb hdx h0 h1 hτ hn hnn hX hcs hyb h hnn.2.1
  have fz : ∀ i : Int, -1 ≤ i ∧ i ≤ nz → Same (cs (centreOps zb dx i)) (liftFn cs (centreOps (asFl zb) (asFl dx) i)) 1 := fun i h =>
    same_fn_centre hr hp he hm hsn hcs hxb hyb hzb hdx h0 h1 hτ hn hnn hX hcs hzb h hnn.2.2
  refine Same.pois hp he hm hM d2 (by nlinarith) hXM (f := fun p q r => extDirichlet nx ny nz (exactOps sn cs xb yb zb dx)
      (fun i j k => a (i, j, k)) (c.1 + p) (c.2.1 + q) (c.2.2 + r))
    (f' := fun p q r => extDirichlet nx ny nz (exactOps (liftFn sn) (liftFn cs) (asFl xb) (asFl yb) (asFl zb) (asFl dx))
      (fun i j k => x (i, j, k)) (c.1 + p) (c.2.1 + q) (c.2.2 + r)) (fun p q r hpq => ?_) sd hl (fx _ (by omega)) (fy _ (by omega))
    (fz _ (by omega))
  unfold extDirichlet
  split
  · next h => exact ha _ ⟨wrapIdx_range _ hn.1, wrapIdx_range _ hn.2.1, h⟩
  · exact (Same.exact hp he hm (fx _ (by omega)) (fy _ (by omega)) (fz _ (by omega))).mono hM

end

end Madg
