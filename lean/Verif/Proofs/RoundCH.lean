/-
Rounding errors of the Cahn–Hilliard right-hand side.
-/
import Verif.Proofs.Round
import Verif.Spec.RoundCH
import Verif.Proofs.KernA
import Verif.Proofs.RKCH

set_option linter.unusedSectionVars false
set_option linter.unusedVariables false

namespace Madg
open Spec
variable {K : Type} [Field K] [LinearOrder K] [IsStrictOrderedRing K]
variable {rnd : K → K} {u τ : K} (hr : Rounds rnd u τ)
include hr

theorem near_sum6 {n : ℕ} {M : K} (hM : τ ≤ M) {a b c d e f : Fl rnd} {a' b' c' d' e' f' : K} (ha : Near u n M a.val a')
    (hb : Near u n M b.val b') (hc : Near u n M c.val c') (hd : Near u n M d.val d') (he : Near u n M e.val e')
    (hf : Near u n M f.val f') :
    Near u (n + 5) (6 * M) (a + b + c + d + e + f).val (a' + b' + c' + d' + e' + f') := by
  have hu := hr.unit.1
  have t0 := hr.tiny.1
  have up : ∀ k {x : Fl rnd} {x' : K}, Near u n M x.val x' → Near u (n + k) M x.val x' := fun k {x x'} h =>
    h.mono hu (Nat.le_add_right _ _) le_rfl
  have := ((((ha.addF hr hb (by linarith)).addF hr (up 1 hc) (by linarith)).addF hr (up 2 hd) (by linarith)).addF hr (up 3 he)
    (by linarith)).addF hr (up 4 hf) (by linarith)
  exact this.mono hu le_rfl (by linarith)

theorem near_lap {n k2 : ℕ} {M e2 : K} (hM : τ ≤ M) {f : Int → Int → Int → Fl rnd} {f' : Int → Int → Int → K}
    (hf : ∀ x y z, Near u n M (f x y z).val (f' x y z)) {d2 : Fl rnd} (h2 : Rel u k2 d2.val e2) (hB : τ ≤ 12 * M / e2) :
    Near u (n + 7 + 2 * k2) (12 * M / e2) (Geom3.lapExpr f d2).val (Geom3.lapExpr f' e2) := by
  have hu := hr.unit.1
  have t0 := hr.tiny.1
  unfold Geom3.lapExpr
  have s := near_sum6 hr hM (hf (-1) 0 0) (hf 1 0 0) (hf 0 (-1) 0) (hf 0 1 0) (hf 0 0 (-1)) (hf 0 0 1)
  have c := (Near.lit hr 6).mulF hr (hf 0 0 0) (by linarith)
  have := (s.subF hr (c.mono hu (k := n + 5) (by omega) le_rfl) (by linarith)).divR hr h2 (by
    rw [show 6 * M + 6 * M = 12 * M by ring]; exact hB)
  rw [show 6 * M + 6 * M = 12 * M by ring] at this
  exact this.mono hu (by omega) le_rfl

theorem near_biharm {n k4 : ℕ} {M e4 : K} (hM : τ ≤ M) {f : Int → Int → Int → Fl rnd} {f' : Int → Int → Int → K}
    (hf : ∀ x y z, Near u n M (f x y z).val (f' x y z)) {d4 : Fl rnd} (h4 : Rel u k4 d4.val e4) (hB : τ ≤ 144 * M / e4) :
    Near u (n + 16 + 2 * k4) (144 * M / e4) (Geom3.biharmExpr f d4).val (Geom3.biharmExpr f' e4) := by
  have hu := hr.unit.1
  have t0 := hr.tiny.1
  unfold Geom3.biharmExpr
  have up : ∀ k {x : Fl rnd} {x' : K}, Near u n M x.val x' → Near u (n + k) M x.val x' := fun k {x x'} h =>
    h.mono hu (Nat.le_add_right _ _) le_rfl
  have s := near_sum6 hr hM (hf 1 0 0) (hf 0 1 0) (hf 0 0 1) (hf (-1) 0 0) (hf 0 (-1) 0) (hf 0 0 (-1))
  have s12 := (Near.lit hr 12).mulF hr s (by linarith)
  have c := (Near.lit hr 42).mulF hr (hf 0 0 0) (by linarith)
  have a0 := (c.mono hu (k := n + 7) (by omega) le_rfl).subF hr (s12.mono hu (k := n + 7) (by omega) le_rfl) (by linarith)
  have a1 := a0.addF hr (up 8 (hf 2 0 0)) (by linarith)
  have a2 := a1.addF hr (up 9 (hf 0 2 0)) (by linarith)
  have a3 := a2.addF hr (up 10 (hf 0 0 2)) (by linarith)
  have a4 := a3.addF hr (up 11 (hf (-2) 0 0)) (by linarith)
  have a5 := a4.addF hr (up 12 (hf 0 (-2) 0)) (by linarith)
  have a6 := a5.addF hr (up 13 (hf 0 0 (-2))) (by linarith)
  have b6 := near_sum6 hr hM (hf (-1) (-1) 0) (hf (-1) 1 0) (hf 1 (-1) 0) (hf 1 1 0) (hf (-1) 0 (-1)) (hf 1 0 (-1))
  have b7 := b6.addF hr (up 5 (hf 0 (-1) (-1))) (by linarith)
  have b8 := b7.addF hr (up 6 (hf 0 1 (-1))) (by linarith)
  have b9 := b8.addF hr (up 7 (hf (-1) 0 1)) (by linarith)
  have b10 := b9.addF hr (up 8 (hf 1 0 1)) (by linarith)
  have b11 := b10.addF hr (up 9 (hf 0 (-1) 1)) (by linarith)
  have b12 := b11.addF hr (up 10 (hf 0 1 1)) (by linarith)
  have b := (Near.lit hr 2).mulF hr b12 (by linarith)
  have r := ((a6.addF hr (b.mono hu (k := n + 14) (by omega) le_rfl) (by linarith)).mono hu (k := n + 15) (C := 144 * M)
    (by omega) (by linarith)).divR hr h4 hB
  exact r.mono hu (by omega) le_rfl

/-- The right-hand side of a field of numbers of size at most `M`. -/
theorem near_ch {k2 k4 : ℕ} {M e2 e4 : K} (hM : 1 ≤ M) {p : CHParams (Fl rnd)} {dx d4 : Fl rnd}
    {f : Int → Int → Int → Fl rnd} (hf : ∀ x y z, |(f x y z).val| ≤ M) (h2 : Rel u k2 (dx * dx).val e2) (h4 : Rel u k4 d4.val e4)
    (hs2 : τ * e2 ≤ 1) (hs4 : τ * e4 ≤ 1) (i j k : Int) :
    Near u (19 + 2 * max k2 k4)
      (|p.eps2.val| * (144 * M / e4) + 13 * (M ^ 3 + M) / e2 + |p.sigma.val| * (M + |p.m.val|))
      (chA p dx d4 f i j k).val
      (-p.eps2.val * Geom3.biharmExpr (fun x y z => (f (i + x) (j + y) (k + z)).val) e4 +
        Geom3.lapExpr (fun x y z => (f (i + x) (j + y) (k + z)).val ^ 3 - (f (i + x) (j + y) (k + z)).val) e2 -
        p.sigma.val * ((f i j k).val - p.m.val)) := by
  have hu := hr.unit.1
  have t0 := hr.tiny.1
  have t1 := hr.tiny.2
  have e2p := h2.pos
  have e4p := h4.pos
  have M3 : 1 ≤ M ^ 3 := one_le_pow₀ hM
  unfold chA bihA lapA
  have hexact : ∀ x y z, Near u 0 M (f x y z).val (f x y z).val := fun x y z => Near.exact (hf x y z)
  have b := near_biharm hr (n := 0) (M := M) (by linarith) (f := fun x y z => f (i + x) (j + y) (k + z))
    (fun x y z => hexact _ _ _) h4 (by
      rw [le_div_iff₀ e4p]; linarith)
  have hψ : ∀ x y z, Near u 2 (M ^ 3 + M) (f x y z ^ 3 - f x y z).val ((f x y z).val ^ 3 - (f x y z).val) := fun x y z =>
    ((hexact x y z).powF hr 3 (by linarith)).subF hr ((hexact x y z).mono hu (by omega) le_rfl) (by linarith)
  have l := near_lap hr (n := 2) (M := M ^ 3 + M) (by linarith)
    (f := fun x y z => f (i + x) (j + y) (k + z) ^ 3 - f (i + x) (j + y) (k + z)) (fun x y z => hψ _ _ _) h2 (by
      rw [le_div_iff₀ e2p]; linarith)
  have e : Near u 0 |p.eps2.val| (-p.eps2).val (-p.eps2.val) := Near.exact (abs_neg p.eps2.val).le
  have q1 := e.mulF' hr b (d := |p.eps2.val| * (144 * M / e4) + τ)
    (by have : 0 ≤ |p.eps2.val| * (144 * M / e4) := by positivity
        linarith) (by linarith)
  have s0 : Near u 0 |p.sigma.val| p.sigma.val p.sigma.val := Near.exact le_rfl
  have m0 : Near u 0 |p.m.val| p.m.val p.m.val := Near.exact le_rfl
  have pm := abs_nonneg p.m.val
  have q3 := s0.mulF' hr ((hexact i j k).subF hr m0 (by linarith)) (d := |p.sigma.val| * (M + |p.m.val|) + τ)
    (by have : 0 ≤ |p.sigma.val| * (M + |p.m.val|) := by positivity
        linarith) (by linarith)
  have l0 : 0 ≤ 12 * (M ^ 3 + M) / e2 := by positivity
  have q2 := (q1.mono hu (k := 17 + 2 * max k2 k4) (by omega) le_rfl).addF hr (l.mono hu (k := 17 + 2 * max k2 k4) (by omega) le_rfl)
    (by have := q1.nonneg
        have : τ ≤ |p.eps2.val| * (144 * M / e4) + τ := by
          have : 0 ≤ |p.eps2.val| * (144 * M / e4) := by positivity
          linarith
        linarith)
  have q4 := q2.subF hr (q3.mono hu (k := 17 + 2 * max k2 k4 + 1) (by omega) le_rfl) (by
        have : 0 ≤ |p.eps2.val| * (144 * M / e4) := by positivity
        have : 0 ≤ |p.sigma.val| * (M + |p.m.val|) := by positivity
        linarith)
  refine q4.mono hu (by omega) ?_
  have : 2 * τ ≤ (M ^ 3 + M) / e2 := by rw [le_div_iff₀ e2p]; nlinarith
  have h13 : 13 * (M ^ 3 + M) / e2 = 12 * (M ^ 3 + M) / e2 + (M ^ 3 + M) / e2 := by ring
  rw [h13]
  linarith

/-! ### The spacing -/

theorem Spec.Spacing.facts {dx : K} (h : Spacing τ dx) : 4 * τ ≤ dx ^ 2 ∧ 4 * τ ≤ dx ^ 3 ∧ τ * dx ^ 2 ≤ 1 := by
  obtain ⟨h0, h1, h2⟩ := h
  have t0 := hr.tiny.1
  have t1 := hr.tiny.2
  rcases le_total dx 1 with h | h
  · have a2 : dx ^ 4 ≤ dx ^ 2 := pow_le_pow_of_le_one h0.le h (by norm_num)
    have a3 : dx ^ 4 ≤ dx ^ 3 := pow_le_pow_of_le_one h0.le h (by norm_num)
    have a1 : dx ^ 2 ≤ 1 := pow_le_one₀ h0.le h
    exact ⟨by linarith, by linarith, by nlinarith⟩
  · have a2 : 1 ≤ dx ^ 2 := one_le_pow₀ h
    have a3 : 1 ≤ dx ^ 3 := one_le_pow₀ h
    have a4 : dx ^ 2 ≤ dx ^ 4 := pow_le_pow_right₀ h (by norm_num)
    exact ⟨by linarith, by linarith, le_trans (mul_le_mul_of_nonneg_left a4 t0) h2⟩

theorem half_le_round {x : K} (hx : 0 ≤ x) (h : τ ≤ x) : x / 2 ≤ rnd x := by
  have e := hr.err x
  rw [abs_of_nonneg hx, max_eq_left h, abs_le] at e
  have := hr.unit.2
  nlinarith

theorem rel_dx2 {dx : Fl rnd} (h : Spacing τ dx.val) : Rel u 1 (dx * dx).val (dx.val ^ 2) := by
  have f := h.facts hr
  have t0 := hr.tiny.1
  rw [pow_two] at f ⊢
  exact ((Rel.self h.1).mul hr.unit.1 (Rel.self h.1)).round hr (by linarith [f.1])

theorem rel_dx4 {dx : Fl rnd} (h : Spacing τ dx.val) (v : Int) : Rel u 3 (dx4A v dx).val (dx.val ^ 4) := by
  have f := h.facts hr
  have t0 := hr.tiny.1
  have h0 := h.1
  have hu := hr.unit.1
  have r2 := rel_dx2 hr h
  have p2 : 0 < (dx * dx).val := r2.pos' hu
  have l2 : dx.val ^ 2 / 2 ≤ (dx * dx).val := by
    rw [pow_two]
    exact half_le_round hr (by positivity) (by rw [← pow_two]; linarith [f.1])
  unfold dx4A
  split
  · have l3 : dx.val ^ 3 / 4 ≤ (dx * dx * dx).val := by
      have : dx.val ^ 3 / 2 ≤ (dx * dx).val * dx.val := by
        calc dx.val ^ 3 / 2 = dx.val ^ 2 / 2 * dx.val := by ring
          _ ≤ _ := by gcongr
      have h3 := half_le_round hr (x := (dx * dx).val * dx.val) (by positivity) (by linarith [f.2.1])
      exact le_trans (by linarith) h3
    have r3 : Rel u 2 (dx * dx * dx).val (dx.val ^ 2 * dx.val) := (r2.mul hu (Rel.self h0)).round hr (by
      have : dx.val ^ 3 / 2 ≤ (dx * dx).val * dx.val := by
        calc dx.val ^ 3 / 2 = dx.val ^ 2 / 2 * dx.val := by ring
          _ ≤ _ := by gcongr
      linarith [f.2.1])
    have r4 := (r3.mul hu (Rel.self h0)).round hr (by
      have : dx.val ^ 4 / 4 ≤ (dx * dx * dx).val * dx.val := by
        calc dx.val ^ 4 / 4 = dx.val ^ 3 / 4 * dx.val := by ring
          _ ≤ _ := by gcongr
      linarith [h.2.1])
    rw [show dx.val ^ 2 * dx.val * dx.val = dx.val ^ 4 by ring] at r4
    exact r4
  · have r4 := (r2.mul hu r2).round hr (by
      have : dx.val ^ 4 / 4 ≤ (dx * dx).val * (dx * dx).val := by
        calc dx.val ^ 4 / 4 = dx.val ^ 2 / 2 * (dx.val ^ 2 / 2) := by ring
          _ ≤ _ := by gcongr
      linarith [h.2.1])
    rw [show dx.val ^ 2 * dx.val ^ 2 = dx.val ^ 4 by ring] at r4
    exact r4

omit hr in
theorem exact_bih (dx : K) (f : Int → Int → Int → K) (i j k : Int) :
    Geom3.biharmExpr (fun x y z => f (i + x) (j + y) (k + z)) (dx ^ 4) = bih3 dx f i j k := by
  rw [← biharmExpr_eq, show dx ^ 4 = dx * dx * dx * dx by ring]
  exact biharmExpr_congr _ fun x y z hm => (if_pos hm).symm

omit hr in
theorem exact_lap (dx : K) (f : Int → Int → Int → K) (i j k : Int) :
    Geom3.lapExpr (fun x y z => f (i + x) (j + y) (k + z)) (dx ^ 2) = lap3 dx f i j k := by
  rw [← lapExpr_eq, show dx ^ 2 = dx * dx by ring]
  exact lapExpr_congr _ fun x y z hm => (if_pos hm).symm

/-- The computed right-hand side is near the exact one of the stored numbers. -/
theorem near_rhs {M : K} (hM : 1 ≤ M) {p : CHParams (Fl rnd)} {dx : Fl rnd} (hdx : Spacing τ dx.val) (v : Int)
    {f : Int → Int → Int → Fl rnd} (hf : ∀ x y z, |(f x y z).val| ≤ M) (i j k : Int) :
    Near u 25 (rhsSize (valuesOf p) dx.val M) (chA p dx (dx4A v dx) f i j k).val
      (chRhs3 (valuesOf p) dx.val (fun x y z => (f x y z).val) i j k) := by
  have h := near_ch hr hM (p := p) hf (rel_dx2 hr hdx) (rel_dx4 hr hdx v) (hdx.facts hr).2.2 hdx.2.2 i j k
  have e1 := exact_bih dx.val (fun x y z => (f x y z).val) i j k
  have e2 := exact_lap dx.val (fun x y z => (f x y z).val ^ 3 - (f x y z).val) i j k
  rw [e1, e2] at h
  exact h

omit hr in
theorem tiny64 : (0 : ℚ) < 1 / 2 ^ 1022 ∧ (1 / 2 ^ 1022 : ℚ) ≤ 1 / 1024 := by
  refine ⟨by positivity, one_div_le_one_div_of_le (by norm_num) ?_⟩
  calc (1024 : ℚ) = 2 ^ 10 := by norm_num
    _ ≤ 2 ^ 1022 := pow_le_pow_right₀ (by norm_num) (by norm_num)

omit hr in
/-- Spacings for which the bounds apply in double precision. -/
theorem spacing64 {dx : ℚ} (h : 1 / 2 ^ 255 ≤ dx ∧ dx ≤ 2 ^ 255) : Spacing (1 / 2 ^ 1022) dx := by
  have p : (0 : ℚ) < 2 ^ 255 := by positivity
  have h0 : 0 < dx := lt_of_lt_of_le (by positivity) h.1
  refine ⟨h0, ?_, ?_⟩
  · have a := pow_le_pow_left₀ (by positivity) h.1 4
    refine le_trans (le_of_eq ?_) a
    rw [one_div_pow, ← pow_mul, show 1022 = 2 + 255 * 4 by norm_num, pow_add]
    have q : (0 : ℚ) < 2 ^ (255 * 4) := by positivity
    field_simp
    norm_num
  · have a := pow_le_pow_left₀ h0.le h.2 4
    rw [← pow_mul] at a
    have q : (0 : ℚ) < 2 ^ 1022 := by positivity
    rw [one_div, inv_mul_le_iff₀ q, mul_one]
    exact a.trans (pow_le_pow_right₀ (by norm_num) (by norm_num))

end Madg
