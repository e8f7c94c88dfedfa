/-
Rounding errors of the 2D Cahn–Hilliard right-hand side.
-/
import Verif.Proofs.RoundCH
import Verif.Proofs.CH2A

set_option linter.unusedSectionVars false
set_option linter.unusedVariables false

namespace Madg
open Spec
variable {K : Type} [Field K] [LinearOrder K] [IsStrictOrderedRing K]
variable {rnd : K → K} {u τ : K} (hr : Rounds rnd u τ)
include hr

theorem near_lap2 {n k2 : ℕ} {M e2 : K} (hM : τ ≤ M) {f : Int → Int → Fl rnd} {f' : Int → Int → K}
    (hf : ∀ x y, Near u n M (f x y).val (f' x y)) {d2 : Fl rnd} (h2 : Rel u k2 d2.val e2) (hB : τ ≤ 4 * M / e2) :
    Near u (n + 7 + 2 * k2) (12 * M / e2) (Geom2.lapExpr f d2).val (Geom2.lapExpr f' e2) := by
  have hu := hr.unit.1
  have t0 := hr.tiny.1
  have e0 := h2.pos
  have M0 : 0 ≤ M := by linarith
  unfold Geom2.lapExpr
  have up : ∀ k {x : Fl rnd} {x' : K}, Near u n M x.val x' → Near u (n + k) M x.val x' := fun k {x x'} h =>
    h.mono hu (Nat.le_add_right _ _) le_rfl
  have c := ((Near.lit hr 2).mulF hr (hf 0 0) (by linarith)).mono hu (k := n + 2) (by omega) le_rfl
  have line : ∀ {a b : Fl rnd} {a' b' : K}, Near u n M a.val a' → Near u n M b.val b' →
      Near u (n + 5 + 2 * k2) (4 * M / e2) ((a - 2 * f 0 0 + b) / d2).val ((a' - 2 * f' 0 0 + b') / e2) := by
    intro a b a' b' ha hb
    have s := ((up 2 ha).subF hr c (by linarith)).addF hr (up 3 hb) (by linarith)
    have := (s.mono hu (C := 4 * M) le_rfl (by linarith)).divR hr h2 hB
    exact this.mono hu (by omega) le_rfl
  have := (line (hf (-1) 0) (hf 1 0)).addF hr (line (hf 0 (-1)) (hf 0 1)) (by linarith)
  refine this.mono hu (by omega) ?_
  rw [← add_div]
  exact div_le_div_of_nonneg_right (by linarith) e0.le

theorem near_biharm2 {n k4 : ℕ} {M e4 : K} (hM : τ ≤ M) {f : Int → Int → Fl rnd} {f' : Int → Int → K}
    (hf : ∀ x y, Near u n M (f x y).val (f' x y)) {d4 : Fl rnd} (h4 : Rel u k4 d4.val e4) (hB : τ ≤ 144 * M / e4) :
    Near u (n + 16 + 2 * k4) (144 * M / e4) (Geom2.biharmExpr f d4).val (Geom2.biharmExpr f' e4) := by
  have hu := hr.unit.1
  have t0 := hr.tiny.1
  unfold Geom2.biharmExpr
  have up : ∀ k {x : Fl rnd} {x' : K}, Near u n M x.val x' → Near u (n + k) M x.val x' := fun k {x x'} h =>
    h.mono hu (Nat.le_add_right _ _) le_rfl
  have c2 : ∀ k, 2 ≤ k → ∀ x y, Near u (n + k) (2 * M) (2 * f x y).val (2 * f' x y) := fun k hk x y =>
    ((Near.lit hr 2).mulF hr (hf x y) (by linarith)).mono hu (by omega) le_rfl
  have c8 : ∀ k, 2 ≤ k → ∀ x y, Near u (n + k) (8 * M) (8 * f x y).val (8 * f' x y) := fun k hk x y =>
    ((Near.lit hr 8).mulF hr (hf x y) (by linarith)).mono hu (by omega) le_rfl
  have c20 : ∀ k, 2 ≤ k → ∀ x y, Near u (n + k) (20 * M) (20 * f x y).val (20 * f' x y) := fun k hk x y =>
    ((Near.lit hr 20).mulF hr (hf x y) (by linarith)).mono hu (by omega) le_rfl
  have c1 : ∀ k, 1 ≤ k → ∀ x y, Near u (n + k) (1 * M) (1 * f x y).val (1 * f' x y) := fun k hk x y =>
    ((Near.exact abs_one.le : Near u 0 1 (1 : Fl rnd).val 1).mulF hr (hf x y) (by linarith)).mono hu (by omega) le_rfl
  have a1 := (up 2 (hf 0 2)).addF hr (c2 2 (by omega) (-1) 1) (by linarith)
  have a2 := a1.subF hr (c8 3 (by omega) 0 1) (by linarith)
  have a3 := a2.addF hr (c2 4 (by omega) 1 1) (by linarith)
  have a4 := a3.addF hr (up 5 (hf (-2) 0)) (by linarith)
  have a5 := a4.subF hr (c8 6 (by omega) (-1) 0) (by linarith)
  have a6 := a5.addF hr (c20 7 (by omega) 0 0) (by linarith)
  have a7 := a6.subF hr (c8 8 (by omega) 1 0) (by linarith)
  have a8 := a7.addF hr (up 9 (hf 2 0)) (by linarith)
  have a9 := a8.addF hr (c2 10 (by omega) (-1) (-1)) (by linarith)
  have a10 := a9.subF hr (c8 11 (by omega) 0 (-1)) (by linarith)
  have a11 := a10.addF hr (c2 12 (by omega) 1 (-1)) (by linarith)
  have a12 := a11.addF hr (c1 13 (by omega) 0 (-2)) (by linarith)
  have r := (a12.mono hu (k := n + 15) (C := 144 * M) (by omega) (by linarith)).divR hr h4 hB
  exact r.mono hu (by omega) le_rfl

/-- The right-hand side of a field of numbers of size at most `M`. -/
theorem near_ch2 {k2 k4 : ℕ} {M e2 e4 : K} (hM : 1 ≤ M) {p : CHParams (Fl rnd)} {dx : Fl rnd}
    {f : Int → Int → Fl rnd} (hf : ∀ x y, |(f x y).val| ≤ M) (h2 : Rel u k2 (dx * dx).val e2)
    (h4 : Rel u k4 (dx * dx * dx * dx).val e4)
    (hs2 : τ * e2 ≤ 1) (hs4 : τ * e4 ≤ 1) (i j : Int) :
    Near u (19 + 2 * max k2 k4)
      (|p.eps2.val| * (144 * M / e4) + 13 * (M ^ 3 + M) / e2 + |p.sigma.val| * (M + |p.m.val|))
      (chA2 p dx f i j).val
      (-p.eps2.val * Geom2.biharmExpr (fun x y => (f (i + x) (j + y)).val) e4 +
        Geom2.lapExpr (fun x y => (f (i + x) (j + y)).val ^ 3 - (f (i + x) (j + y)).val) e2 -
        p.sigma.val * ((f i j).val - p.m.val)) := by
  have hu := hr.unit.1
  have t0 := hr.tiny.1
  have t1 := hr.tiny.2
  have e2p := h2.pos
  have e4p := h4.pos
  have M3 : 1 ≤ M ^ 3 := one_le_pow₀ hM
  unfold chA2 bihA2 lapA2
  have hexact : ∀ x y, Near u 0 M (f x y).val (f x y).val := fun x y => Near.exact (hf x y)
  have b := near_biharm2 hr (n := 0) (M := M) (by linarith) (f := fun x y => f (i + x) (j + y))
    (fun x y => hexact _ _) h4 (by
      rw [le_div_iff₀ e4p]; linarith)
  have hψ : ∀ x y, Near u 2 (M ^ 3 + M) (f x y ^ 3 - f x y).val ((f x y).val ^ 3 - (f x y).val) := fun x y =>
    ((hexact x y).powF hr 3 (by linarith)).subF hr ((hexact x y).mono hu (by omega) le_rfl) (by linarith)
  have l := near_lap2 hr (n := 2) (M := M ^ 3 + M) (by linarith)
    (f := fun x y => f (i + x) (j + y) ^ 3 - f (i + x) (j + y)) (fun x y => hψ _ _) h2 (by
      rw [le_div_iff₀ e2p]; linarith)
  have e : Near u 0 |p.eps2.val| (-p.eps2).val (-p.eps2.val) := Near.exact (abs_neg p.eps2.val).le
  have q1 := e.mulF' hr b (d := |p.eps2.val| * (144 * M / e4) + τ)
    (by have : 0 ≤ |p.eps2.val| * (144 * M / e4) := by positivity
        linarith) (by linarith)
  have s0 : Near u 0 |p.sigma.val| p.sigma.val p.sigma.val := Near.exact le_rfl
  have m0 : Near u 0 |p.m.val| p.m.val p.m.val := Near.exact le_rfl
  have pm := abs_nonneg p.m.val
  have q3 := s0.mulF' hr ((hexact i j).subF hr m0 (by linarith)) (d := |p.sigma.val| * (M + |p.m.val|) + τ)
    (by have : 0 ≤ |p.sigma.val| * (M + |p.m.val|) := by positivity
        linarith) (by linarith)
  have l0 : 0 ≤ 12 * (M ^ 3 + M) / e2 := by positivity
  have q2 := (q1.mono hu (k := 17 + 2 * max k2 k4) (by omega) le_rfl).addF hr (l.mono hu (k := 17 + 2 * max k2 k4) (by omega) le_rfl)
    (by have := q1.nonneg
        have : τ ≤ |p.eps2.val| * (144 * M / e4) + τ := by
          have : 0 ≤ |p.eps2.val| * (144 * M / e4) := by positivity
          linarith
        linarith)
  have q4 := q2.subF hr (q3.mono hu (k := 17 + 2 * max k2 k4 + 1) (by omega) le_rfl) (by
        have : 0 ≤ |p.eps2.val| * (144 * M / e4) := by positivity
        have : 0 ≤ |p.sigma.val| * (M + |p.m.val|) := by positivity
        linarith)
  refine q4.mono hu (by omega) ?_
  have : 2 * τ ≤ (M ^ 3 + M) / e2 := by rw [le_div_iff₀ e2p]; nlinarith
  have h13 : 13 * (M ^ 3 + M) / e2 = 12 * (M ^ 3 + M) / e2 + (M ^ 3 + M) / e2 := by ring
  rw [h13]
  linarith

omit hr in
theorem exact_bih2 (dx : K) (f : Int → Int → K) (i j : Int) :
    Geom2.biharmExpr (fun x y => f (i + x) (j + y)) (dx ^ 4) = bih2 dx f i j := by
  rw [show dx ^ 4 = dx * dx * dx * dx by ring, ← biharmExpr2_eq, biharmExpr2_eqA]
  rfl

omit hr in
theorem exact_lap2 (dx : K) (f : Int → Int → K) (i j : Int) :
    Geom2.lapExpr (fun x y => f (i + x) (j + y)) (dx ^ 2) = lap2 dx f i j := by
  rw [show dx ^ 2 = dx * dx by ring, ← lapExpr2_eq, lapExpr2_eqA]
  rfl

/-- The computed right-hand side is near the exact one of the stored numbers. -/
theorem near_rhs2 {M : K} (hM : 1 ≤ M) {p : CHParams (Fl rnd)} {dx : Fl rnd} (hdx : Spacing τ dx.val)
    {f : Int → Int → Fl rnd} (hf : ∀ x y, |(f x y).val| ≤ M) (i j : Int) :
    Near u 25 (rhsSize (valuesOf p) dx.val M) (chA2 p dx f i j).val
      (chRhs2 (valuesOf p) dx.val (fun x y => (f x y).val) i j) := by
  have h4 := rel_dx4 hr hdx 0
  rw [show dx4A 0 dx = dx * dx * dx * dx from if_pos rfl] at h4
  have h := near_ch2 hr hM (p := p) hf (rel_dx2 hr hdx) h4 (hdx.facts hr).2.2 hdx.2.2 i j
  have e1 := exact_bih2 dx.val (fun x y => (f x y).val) i j
  have e2 := exact_lap2 dx.val (fun x y => (f x y).val ^ 3 - (f x y).val) i j
  rw [e1, e2] at h
  exact h

/-- The slope computed from a field of numbers of size at most `M`. -/
theorem near_field2 {n : Int} (hn : 1 ≤ n) {M : K} (hM : 1 ≤ M) {p : CHParams (Fl rnd)} {dx : Fl rnd} (hdx : Spacing τ dx.val)
    {t : Fl rnd} {t' : K} {y : Int × Int → Fl rnd} (hy : ∀ c, In2 n c → |(y c).val| ≤ M) (c : Int × Int) :
    Near u 25 (rhsSize (valuesOf p) dx.val M) (chFieldA2 p dx n t y c).val
      (chField2 (valuesOf p) dx.val n t' (fun c => (y c).val) c) :=
  near_rhs2 hr hM hdx (f := ext2 n fun i j => y (i, j))
    (fun x y => hy _ ⟨wrapIdx_range x (by omega), wrapIdx_range y (by omega)⟩) c.1 c.2

end Madg
