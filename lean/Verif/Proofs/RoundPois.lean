/-
Explicit steps of the Poisson problem in rounded arithmetic.
-/
import Verif.Proofs.PoisMax
import Verif.Spec.RoundPois
import Verif.Spec.RunEach

set_option linter.unusedSectionVars false
set_option linter.unusedVariables false

namespace Madg
open Spec
variable {K : Type} [Field K] [LinearOrder K] [IsStrictOrderedRing K]
variable {rnd : K → K} {u τ : K} (hr : Rounds rnd u τ)
include hr

section
variable {sn cs : Fl rnd → Fl rnd} (hsn : ∀ x, |(sn x).val| ≤ 1) (hcs : ∀ x, |(cs x).val| ≤ 1)
  {xb yb zb dx : Fl rnd} (h0 : 0 < dx.val) (h1 : dx.val ≤ 1) (hτ : 256 * τ ≤ dx.val ^ 2)
  {ni nj nk : Int} (hi : 1 ≤ ni) (hj : 1 ≤ nj) {M : K} (hM : 1 ≤ M)
include hsn hcs

omit hr in
theorem prescribed_le (i j k : Int) : |prescribed sn cs xb yb zb dx i j k| ≤ 1 := by
  unfold prescribed
  rw [abs_mul, abs_mul]
  exact mul_le_one₀ (mul_le_one₀ (hsn _) (abs_nonneg _) (hcs _)) (abs_nonneg _) (hcs _)

theorem near_exact (i j k : Int) : Near u 2 1 (exactOps sn cs xb yb zb dx i j k).val (prescribed sn cs xb yb zb dx i j k) := by
  have t1 := hr.tiny.2
  have s : Near u 0 1 (sn (centreOps xb dx i)).val (sn (centreOps xb dx i)).val := Near.exact (hsn _)
  have c1 : Near u 0 1 (cs (centreOps yb dx j)).val (cs (centreOps yb dx j)).val := Near.exact (hcs _)
  have c2 : Near u 0 1 (cs (centreOps zb dx k)).val (cs (centreOps zb dx k)).val := Near.exact (hcs _)
  have := (s.mulF hr c1 (by linarith)).mulF hr c2 (by linarith)
  exact this.mono hr.unit.1 (by omega) (by norm_num)

theorem near_source (i j k : Int) : Near u 4 3
    (3 * sn (centreOps xb dx i) * cs (centreOps yb dx j) * cs (centreOps zb dx k)).val (3 * prescribed sn cs xb yb zb dx i j k) := by
  have t1 := hr.tiny.2
  have s : Near u 0 1 (sn (centreOps xb dx i)).val (sn (centreOps xb dx i)).val := Near.exact (hsn _)
  have c1 : Near u 0 1 (cs (centreOps yb dx j)).val (cs (centreOps yb dx j)).val := Near.exact (hcs _)
  have c2 : Near u 0 1 (cs (centreOps zb dx k)).val (cs (centreOps zb dx k)).val := Near.exact (hcs _)
  have := (((Near.lit hr 3).mulF hr s (by linarith)).mulF hr c1 (by linarith)).mulF hr c2 (by linarith)
  have e : 3 * prescribed sn cs xb yb zb dx i j k = 3 * (sn (centreOps xb dx i)).val * (cs (centreOps yb dx j)).val *
      (cs (centreOps zb dx k)).val := by unfold prescribed; ring
  rw [e]
  exact this.mono hr.unit.1 (by omega) (by norm_num)

include h0 h1 hτ hi hj hM

/-- The right-hand side of a field of numbers of size at most `M`. -/
theorem near_pois {y : Int × Int × Int → Fl rnd} (hy : ∀ c, In3 ni nj nk c → |(y c).val| ≤ M) (c : Int × Int × Int) :
    Near u 25 (12 * M / dx.val ^ 2 + 3) (poisOps sn cs xb yb zb dx ni nj nk y c).val
      (poisField dx.val ni nj nk (prescribed sn cs xb yb zb dx) 0 (fun c => (y c).val) c) := by
  have hu := hr.unit.1
  have t0 := hr.tiny.1
  have t1 := hr.tiny.2
  have d2 : 0 < dx.val ^ 2 := by positivity
  have d21 : dx.val ^ 2 ≤ 1 := pow_le_one₀ h0.le h1
  have hf : ∀ a b d : Int, Near u 2 M (extDirichlet ni nj nk (exactOps sn cs xb yb zb dx) (fun i j k => y (i, j, k)) a b d).val
      (extDirichlet ni nj nk (prescribed sn cs xb yb zb dx) (fun i j k => (y (i, j, k)).val) a b d) := by
    intro a b d
    unfold extDirichlet
    split
    · next h =>
      have : Near u 0 M (y (wrapIdx ni a, wrapIdx nj b, d)).val (y (wrapIdx ni a, wrapIdx nj b, d)).val :=
        Near.exact (hy _ ⟨wrapIdx_range _ hi, wrapIdx_range _ hj, h⟩)
      exact this.mono hu (by omega) le_rfl
    · exact (near_exact hr hsn hcs a b d).mono hu le_rfl hM
  have hd : Rel u 1 (dx * dx).val (dx.val ^ 2) := by
    have := (Rel.self (u := u) d2).round hr (by linarith)
    rw [Fl.val_mul, ← sq]
    exact this
  have big : 12 ≤ 12 * M / dx.val ^ 2 := by
    rw [le_div_iff₀ d2]; nlinarith
  have l := near_lap hr (n := 2) (M := M) (by linarith)
    (f := fun x y' z => extDirichlet ni nj nk (exactOps sn cs xb yb zb dx) (fun i j k => y (i, j, k)) (c.1 + x) (c.2.1 + y') (c.2.2 + z))
    (f' := fun x y' z => extDirichlet ni nj nk (prescribed sn cs xb yb zb dx) (fun i j k => (y (i, j, k)).val) (c.1 + x) (c.2.1 + y') (c.2.2 + z))
    (fun _ _ _ => hf _ _ _) hd (by linarith)
  have s := near_source hr hsn hcs (xb := xb) (yb := yb) (zb := zb) (dx := dx) c.1 c.2.1 c.2.2
  have := (l.mono hu (k := 11) (by omega) le_rfl).addF hr (s.mono hu (k := 11) (by omega) le_rfl) (by linarith)
  have e : poisField dx.val ni nj nk (prescribed sn cs xb yb zb dx) 0 (fun c => (y c).val) c =
      Geom3.lapExpr (fun x y' z => extDirichlet ni nj nk (prescribed sn cs xb yb zb dx) (fun i j k => (y (i, j, k)).val)
        (c.1 + x) (c.2.1 + y') (c.2.2 + z)) (dx.val ^ 2) + 3 * prescribed sn cs xb yb zb dx c.1 c.2.1 c.2.2 := by
    simp only [poisField, poisRhs, lap3, d2x, d2y, d2z, Geom3.lapExpr, add_zero, ← sub_eq_add_neg]
    congr 2
    ring
  rw [e]
  exact this.mono hu (by omega) le_rfl

end

/-- The first stage, for any step size. -/
theorem near_update0 {M R α : K} {s dt a r : Fl rnd} {e : K} (hM : 1 ≤ M) (hs : |s.val| ≤ M) (ha : Near u 4 α a.val α)
    (hα : 0 ≤ α) (hα1 : α ≤ 1) (hr' : Near u 25 R r.val e) (hτ : τ * R ≤ M / 2) :
    Near u 34 (2 * M + |dt.val| * R) (s + dt * a * r).val (s.val + dt.val * (α * e)) := by
  have t0 := hr.tiny.1
  have t1 := hr.tiny.2
  have hu := hr.unit.1
  have hR := hr'.nonneg
  have d : Near u 0 |dt.val| dt.val dt.val := Near.exact le_rfl
  have h0 : 0 ≤ |dt.val| * α := mul_nonneg (abs_nonneg _) hα
  have h1 : 0 ≤ (|dt.val| * α + τ) * R := by positivity
  have q := (d.mulF' hr ha (d := |dt.val| * α + τ) (by linarith) (by linarith)).mulF' hr hr' (d := (|dt.val| * α + τ) * R + τ)
    (by linarith) (by linarith)
  have := ((Near.exact hs).mono hu (k := 31) (by omega) le_rfl).addF hr (q.mono hu (by omega) le_rfl) (by linarith)
  rw [mul_assoc] at this
  refine this.mono hu (by omega) ?_
  have e1 : (|dt.val| * α + τ) * R = |dt.val| * (α * R) + τ * R := by ring
  have e2 : |dt.val| * (α * R) ≤ |dt.val| * R := mul_le_mul_of_nonneg_left (by nlinarith) (abs_nonneg _)
  rw [e1]
  linarith

section
variable {sn cs : Fl rnd → Fl rnd} (hsn : ∀ x, |(sn x).val| ≤ 1) (hcs : ∀ x, |(cs x).val| ≤ 1)
  {xb yb zb dx : Fl rnd} (h0 : 0 < dx.val) (h1 : dx.val ≤ 1) (hτ : 256 * τ ≤ dx.val ^ 2)
  {ni nj nk : Int} (hi : 1 ≤ ni) (hj : 1 ≤ nj) (hk : 1 ≤ nk) {M : K} (hM : 1 ≤ M)
  {us : Fld K} (hus : PoisSolves dx.val ni nj nk (prescribed sn cs xb yb zb dx) us)
  {dt : Fl rnd} (d0 : 0 ≤ dt.val) (d1 : dt.val ≤ dx.val ^ 2 / 6)
  {B N : K} (hB : ∀ c, In3 ni nj nk c → |us c| ≤ B) (hN : 0 ≤ N)
  (hMb : B + 2 * N + 5 * (((1 + u) ^ 34 - 1) * (5 * M)) ≤ M)
  {y : Int × Int × Int → Fl rnd} (hy : Bd ni nj nk N ((fun c => (y c).val) - us))
include hsn hcs h0 h1 hτ hi hj hk hM hus d0 d1 hB hN hMb hy

omit d0 d1 hN hMb hy hB hus hk in
/-- Slopes are near the exact ones. -/
theorem near_slope {z : Int × Int × Int → Fl rnd} (hz : ∀ c, In3 ni nj nk c → |(z c).val| ≤ M) (c : Int × Int × Int) :
    Near u 25 (12 * M / dx.val ^ 2 + 3) (poisOps sn cs xb yb zb dx ni nj nk z c).val
      (poisField dx.val ni nj nk (prescribed sn cs xb yb zb dx) 0 (fun c => (z c).val) c) :=
  near_pois hr hsn hcs h0 h1 hτ hi hj hM hz c

omit hr hsn hcs h0 h1 hτ hi hj hM d0 d1 hMb hN hy hus in
/-- A bound of the error is a bound of the state. -/
theorem size_of_bd {z : Int × Int × Int → Fl rnd} {N' : K} (hN' : 0 ≤ N') (h : Bd ni nj nk N' ((fun c => (z c).val) - us)) (hm : B + 2 * N' ≤ M) :
    ∀ c, In3 ni nj nk c → |(z c).val| ≤ M := by
  intro c hc
  have a := h c hc
  have b := hB c hc
  have p := phi_le (K := K) hk c.2.2
  have e : (z c).val = us c + ((fun c => (z c).val) - us) c := by simp
  have t := abs_add_le (us c) (((fun c => (z c).val) - us) c)
  rw [← e] at t
  have : N' * phi nk c.2.2 ≤ N' * 2 := mul_le_mul_of_nonneg_left p hN'
  linarith

omit hr hsn hcs h0 h1 hτ hi hj hk hM d0 d1 hMb hN hy hB in
/-- The exact slope is the slope of the error. -/
theorem slope_err (z : Fld K) (c : Int × Int × Int) (hc : In3 ni nj nk c) :
    dt.val * poisField dx.val ni nj nk (prescribed sn cs xb yb zb dx) 0 z c =
      eulerL dx.val dt.val ni nj nk (z - us) c - (z - us) c := by
  have := pois_phi hus z c hc
  simp only [Bool.false_eq_true, if_false, sub_zero] at this
  rw [eulerL_apply, add_sub_cancel_left]
  unfold poisField
  rw [this]

omit hi hj hk hus hB hN hMb hy hsn hcs in
theorem pois_consts : 20 * τ ≤ 12 * M / dx.val ^ 2 + 3 ∧ τ * (12 * M / dx.val ^ 2 + 3) ≤ M / 2 ∧
    |dt.val| * (12 * M / dx.val ^ 2 + 3) ≤ 3 * M := by
  have t0 := hr.tiny.1
  have t1 := hr.tiny.2
  have d2 : 0 < dx.val ^ 2 := by positivity
  have d21 : dx.val ^ 2 ≤ 1 := pow_le_one₀ h0.le h1
  have p : 0 ≤ 12 * M / dx.val ^ 2 := by positivity
  have key : ∀ x : K, 0 ≤ x → x ≤ dx.val ^ 2 / 6 → x * (12 * M / dx.val ^ 2 + 3) ≤ 12 * M * (x / dx.val ^ 2) + 3 * x := by
    intro x _ _
    exact le_of_eq (by field_simp)
  refine ⟨by linarith, ?_, ?_⟩
  · have a := key τ t0 (by linarith)
    have b : τ / dx.val ^ 2 ≤ 1 / 256 := by rw [div_le_iff₀ d2]; linarith
    have c : 12 * M * (τ / dx.val ^ 2) ≤ 12 * M * (1 / 256) := mul_le_mul_of_nonneg_left b (by linarith)
    linarith
  · rw [abs_of_nonneg d0]
    have a := key dt.val d0 d1
    have b : dt.val / dx.val ^ 2 ≤ 1 / 6 := by rw [div_le_iff₀ d2]; linarith
    have c : 12 * M * (dt.val / dx.val ^ 2) ≤ 12 * M * (1 / 6) := mul_le_mul_of_nonneg_left b (by linarith)
    linarith

/-- One step of rk3ssp. -/
theorem pois_rk3_step (t : Fl rnd) : Bd ni nj nk ((1 - 8 * dt.val / (3 * (((nk : K) + 1) * dx.val) ^ 2)) * N + 4 * (((1 + u) ^ 34 - 1) * (5 * M)))
    ((fun c => ((ssprk3Method fun _ => poisOps sn cs xb yb zb dx ni nj nk).step t dt y c).val) - us) := by
  have hu := hr.unit.1
  have κ : 0 ≤ (1 + u) ^ 34 - 1 := sub_nonneg.2 (Near.one_le hu 34)
  obtain ⟨c1, c2, c3⟩ := pois_consts hr h0 h1 hτ hM d0 d1
  have hδ : 0 ≤ ((1 + u) ^ 34 - 1) * (5 * M) := by positivity
  have p := nk1_pos (K := K) hk
  have hH : 0 < (((nk : K) + 1) * dx.val) ^ 2 := by positivity
  obtain ⟨q, hq⟩ : ∃ q, q = 1 - 4 * dt.val / (((nk : K) + 1) * dx.val) ^ 2 := ⟨_, rfl⟩
  have hq1 : q ≤ 1 := by
    rw [hq]
    have : 0 ≤ 4 * dt.val / (((nk : K) + 1) * dx.val) ^ 2 := by positivity
    linarith
  have hq0 : 0 ≤ q := by
    rw [hq]
    have : 4 * dt.val / (((nk : K) + 1) * dx.val) ^ 2 ≤ 1 := by
      rw [div_le_one hH, mul_pow]
      have n1 : (1 : K) ≤ ((nk : K) + 1) ^ 2 := one_le_pow₀ (by
        have : (1 : K) ≤ nk := by exact_mod_cast hk
        linarith)
      have d2 : 0 < dx.val ^ 2 := by positivity
      nlinarith
    linarith
  have hE : ∀ N e, 0 ≤ N → Bd ni nj nk N e → Bd ni nj nk (q * N) (eulerL dx.val dt.val ni nj nk e) := fun N e hN he => by
    rw [hq]; exact euler_bd h0 hi hj hk d0 d1 hN he
  have close : ∀ {x e : K}, Near u 34 (2 * M + |dt.val| * (12 * M / dx.val ^ 2 + 3)) x e → |x - e| ≤ ((1 + u) ^ 34 - 1) * (5 * M) :=
    fun h => (h.mono hu le_rfl (by linarith)).close
  have w1 : Near u 4 1 (1 : Fl rnd).val 1 := (Near.exact abs_one.le : Near u 0 1 (1 : Fl rnd).val 1).mono hu (by omega) le_rfl
  have w4 : Near u 4 (1 / 4) (1 / 4 : Fl rnd).val (1 / 4) := near_inv hr 4 (by norm_num)
  have w6 : Near u 4 (1 / 6) (1 / 6 : Fl rnd).val (1 / 6) := near_inv hr 6 (by norm_num)
  have w23 : Near u 4 (2 / 3) (2 / 3 : Fl rnd).val (2 / 3) := near_frac hr 2 3 (by norm_num)
  obtain ⟨F, hF⟩ : ∃ F : (Int × Int × Int → Fl rnd) → Int × Int × Int → Fl rnd, F = poisOps sn cs xb yb zb dx ni nj nk := ⟨_, rfl⟩
  obtain ⟨G, hG⟩ : ∃ G : Fld K → Fld K, G = poisField dx.val ni nj nk (prescribed sn cs xb yb zb dx) 0 := ⟨_, rfl⟩
  have nF : ∀ {z : Int × Int × Int → Fl rnd}, (∀ c, In3 ni nj nk c → |(z c).val| ≤ M) → ∀ c,
      Near u 25 (12 * M / dx.val ^ 2 + 3) (F z c).val (G (fun c => (z c).val) c) := fun hz c => by
    rw [hF, hG]; exact near_slope hr hsn hcs h0 h1 hτ hi hj hM hz c
  have sG : ∀ (z : Fld K) c, In3 ni nj nk c → dt.val * G z c = eulerL dx.val dt.val ni nj nk (z - us) c - (z - us) c := fun z c hc => by
    rw [hG]; exact slope_err hus z c hc
  have st : ∀ c, (ssprk3Method fun _ => poisOps sn cs xb yb zb dx ni nj nk).step t dt y c = y c + dt * (1 / 6 * F y c +
      1 / 6 * F (fun c => y c + dt * 1 * F y c) c +
      2 / 3 * F (fun c => y c + dt * (1 / 4 * F y c + 1 / 4 * F (fun c => y c + dt * 1 * F y c) c)) c) := fun c => by rw [hF]; rfl
  simp only [st]
  -- first slope
  have b1 := size_of_bd hk hB (z := y) (M := M) hN hy (by linarith)
  have k1 := nF b1
  obtain ⟨y2, hy2⟩ : ∃ y2 : Int × Int × Int → Fl rnd, y2 = fun c => y c + dt * 1 * F y c := ⟨_, rfl⟩
  have e2 : ∀ c, In3 ni nj nk c → |((fun c => (y2 c).val) - us) c - eulerL dx.val dt.val ni nj nk ((fun c => (y c).val) - us) c| ≤
      ((1 + u) ^ 34 - 1) * (5 * M) := fun c hc => by
    have := close (near_update0 hr (s := y c) (dt := dt) (a := 1) hM (b1 c hc) w1 zero_le_one le_rfl (k1 c) c2)
    have s := sG (fun c => (y c).val) c hc
    rw [one_mul, s] at this
    rw [hy2]
    simp only [Pi.sub_apply] at this ⊢
    convert this using 2
    ring
  have bd2 := rk3_stage2 hk hq0 hq1 hE hN hδ hy e2
  have qN : q * N ≤ N := mul_le_of_le_one_left hN hq1
  have qN0 : 0 ≤ q * N := mul_nonneg hq0 hN
  have b2 := size_of_bd hk hB (z := y2) (M := M) (by linarith) bd2 (by linarith)
  have k2 := nF b2
  obtain ⟨y3, hy3⟩ : ∃ y3 : Int × Int × Int → Fl rnd, y3 = fun c => y c + dt * (1 / 4 * F y c + 1 / 4 * F y2 c) := ⟨_, rfl⟩
  have e3 : ∀ c, In3 ni nj nk c → |((fun c => (y3 c).val) - us) c - (((fun c => (y c).val) - us) c +
      (1 / 4 * (eulerL dx.val dt.val ni nj nk ((fun c => (y c).val) - us) c - ((fun c => (y c).val) - us) c) +
        1 / 4 * (eulerL dx.val dt.val ni nj nk ((fun c => (y2 c).val) - us) c - ((fun c => (y2 c).val) - us) c)))| ≤
      ((1 + u) ^ 34 - 1) * (5 * M) := fun c hc => by
    have n := near_update hr (s := y c) (dt := dt) hM (b1 c hc) (near_two hr w4 w4 (by norm_num) (by norm_num) (by norm_num) c1 (k1 c) (k2 c))
    have := close (n.mono hu (k := 34) (by omega) (by have := hr.tiny.2; linarith))
    have s := sG (fun c => (y c).val) c hc
    have s2 := sG (fun c => (y2 c).val) c hc
    rw [← s, ← s2, hy3]
    simp only [Pi.sub_apply]
    convert this using 2
    ring
  have bd3 := rk3_stage3 hk hq0 hq1 hE hN hδ hy e2 e3
  have m1 : q * (q * N + ((1 + u) ^ 34 - 1) * (5 * M)) ≤ q * N + ((1 + u) ^ 34 - 1) * (5 * M) :=
    mul_le_of_le_one_left (by linarith) hq1
  have m0 : 0 ≤ q * (q * N + ((1 + u) ^ 34 - 1) * (5 * M)) := mul_nonneg hq0 (by linarith)
  have b3 := size_of_bd hk hB (z := y3) (M := M) (by linarith) bd3 (by linarith)
  have k3 := nF b3
  have fin := rk3_contract hk hq0 hq1 hE hN hδ hy e2 e3
    (e' := (fun c => (y c + dt * (1 / 6 * F y c + 1 / 6 * F y2 c + 2 / 3 * F y3 c)).val) - us) (fun c hc => by
      have n := near_update hr (s := y c) (dt := dt) hM (b1 c hc) (near_three hr w6 w6 w23 (by norm_num) (by norm_num)
        (by norm_num) (by norm_num) c1 (k1 c) (k2 c) (k3 c))
      have := close (n.mono hu (k := 34) (by omega) (by have := hr.tiny.2; linarith))
      have s := sG (fun c => (y c).val) c hc
      have s2 := sG (fun c => (y2 c).val) c hc
      have s3 := sG (fun c => (y3 c).val) c hc
      rw [← s, ← s2, ← s3]
      simp only [Pi.sub_apply]
      convert this using 2
      ring)
  rw [hy3, hy2] at fin
  have ec : 1 - 2 / 3 * (1 - q) = 1 - 8 * dt.val / (3 * (((nk : K) + 1) * dx.val) ^ 2) := by rw [hq]; field_simp; ring
  rw [ec] at fin
  exact fin

/-- One step of ode23. -/
theorem pois_ode23_step : Bd ni nj nk ((1 - 8 * dt.val / (3 * (((nk : K) + 1) * dx.val) ^ 2)) * N + 4 * (((1 + u) ^ 34 - 1) * (5 * M)))
    ((fun c => (y c + dt * bs23Slope (poisOps sn cs xb yb zb dx ni nj nk) dt y c).val) - us) := by
  have hu := hr.unit.1
  have κ : 0 ≤ (1 + u) ^ 34 - 1 := sub_nonneg.2 (Near.one_le hu 34)
  obtain ⟨c1, c2, c3⟩ := pois_consts hr h0 h1 hτ hM d0 d1
  have hδ : 0 ≤ ((1 + u) ^ 34 - 1) * (5 * M) := by positivity
  have p := nk1_pos (K := K) hk
  have hH : 0 < (((nk : K) + 1) * dx.val) ^ 2 := by positivity
  obtain ⟨q, hq⟩ : ∃ q, q = 1 - 4 * dt.val / (((nk : K) + 1) * dx.val) ^ 2 := ⟨_, rfl⟩
  have hq1 : q ≤ 1 := by
    rw [hq]
    have : 0 ≤ 4 * dt.val / (((nk : K) + 1) * dx.val) ^ 2 := by positivity
    linarith
  have hq0 : 0 ≤ q := by
    rw [hq]
    have : 4 * dt.val / (((nk : K) + 1) * dx.val) ^ 2 ≤ 1 := by
      rw [div_le_one hH, mul_pow]
      have n1 : (1 : K) ≤ ((nk : K) + 1) ^ 2 := one_le_pow₀ (by
        have : (1 : K) ≤ nk := by exact_mod_cast hk
        linarith)
      have d2 : 0 < dx.val ^ 2 := by positivity
      nlinarith
    linarith
  have hE : ∀ N e, 0 ≤ N → Bd ni nj nk N e → Bd ni nj nk (q * N) (eulerL dx.val dt.val ni nj nk e) := fun N e hN he => by
    rw [hq]; exact euler_bd h0 hi hj hk d0 d1 hN he
  have close : ∀ {x e : K}, Near u 34 (2 * M + |dt.val| * (12 * M / dx.val ^ 2 + 3)) x e → |x - e| ≤ ((1 + u) ^ 34 - 1) * (5 * M) :=
    fun h => (h.mono hu le_rfl (by linarith)).close
  have w0 : Near u 4 0 (0 : Fl rnd).val 0 := (Near.exact abs_zero.le : Near u 0 0 (0 : Fl rnd).val 0).mono hu (by omega) le_rfl
  have w2 : Near u 4 (1 / 2) (1 / 2 : Fl rnd).val (1 / 2) := near_inv hr 2 (by norm_num)
  have w34 : Near u 4 (3 / 4) (3 / 4 : Fl rnd).val (3 / 4) := near_frac hr 3 4 (by norm_num)
  have w3 : Near u 4 (1 / 3) (1 / 3 : Fl rnd).val (1 / 3) := near_inv hr 3 (by norm_num)
  have w29 : Near u 4 (2 / 9) (2 / 9 : Fl rnd).val (2 / 9) := near_frac hr 2 9 (by norm_num)
  have w49 : Near u 4 (4 / 9) (4 / 9 : Fl rnd).val (4 / 9) := near_frac hr 4 9 (by norm_num)
  obtain ⟨F, hF⟩ : ∃ F : (Int × Int × Int → Fl rnd) → Int × Int × Int → Fl rnd, F = poisOps sn cs xb yb zb dx ni nj nk := ⟨_, rfl⟩
  obtain ⟨G, hG⟩ : ∃ G : Fld K → Fld K, G = poisField dx.val ni nj nk (prescribed sn cs xb yb zb dx) 0 := ⟨_, rfl⟩
  have nF : ∀ {z : Int × Int × Int → Fl rnd}, (∀ c, In3 ni nj nk c → |(z c).val| ≤ M) → ∀ c,
      Near u 25 (12 * M / dx.val ^ 2 + 3) (F z c).val (G (fun c => (z c).val) c) := fun hz c => by
    rw [hF, hG]; exact near_slope hr hsn hcs h0 h1 hτ hi hj hM hz c
  have sG : ∀ (z : Fld K) c, In3 ni nj nk c → dt.val * G z c = eulerL dx.val dt.val ni nj nk (z - us) c - (z - us) c := fun z c hc => by
    rw [hG]; exact slope_err hus z c hc
  have st : ∀ c, y c + dt * bs23Slope (poisOps sn cs xb yb zb dx ni nj nk) dt y c = y c + dt * (2 / 9 * F y c +
      1 / 3 * F (fun c => y c + dt * (1 / 2) * F y c) c +
      4 / 9 * F (fun c => y c + dt * (0 * F y c + 3 / 4 * F (fun c => y c + dt * (1 / 2) * F y c) c)) c) := fun c => by rw [hF]; rfl
  simp only [st]
  -- first slope
  have b1 := size_of_bd hk hB (z := y) (M := M) hN hy (by linarith)
  have k1 := nF b1
  obtain ⟨y2, hy2⟩ : ∃ y2 : Int × Int × Int → Fl rnd, y2 = fun c => y c + dt * (1 / 2) * F y c := ⟨_, rfl⟩
  have e2 : ∀ c, In3 ni nj nk c → |((fun c => (y2 c).val) - us) c - (((fun c => (y c).val) - us) c +
      1 / 2 * (eulerL dx.val dt.val ni nj nk ((fun c => (y c).val) - us) c - ((fun c => (y c).val) - us) c))| ≤
      ((1 + u) ^ 34 - 1) * (5 * M) := fun c hc => by
    have := close (near_update0 hr (s := y c) (dt := dt) (a := 1 / 2) hM (b1 c hc) w2 (by norm_num) (by norm_num) (k1 c) c2)
    have s := sG (fun c => (y c).val) c hc
    rw [← s, hy2]
    simp only [Pi.sub_apply]
    convert this using 2
    ring
  have bd2 := bs_stage2 hk hq0 hq1 hE hN hδ hy e2
  have b2 := size_of_bd hk hB (z := y2) (M := M) (by linarith) bd2 (by linarith)
  have k2 := nF b2
  obtain ⟨y3, hy3⟩ : ∃ y3 : Int × Int × Int → Fl rnd, y3 = fun c => y c + dt * (0 * F y c + 3 / 4 * F y2 c) := ⟨_, rfl⟩
  have e3 : ∀ c, In3 ni nj nk c → |((fun c => (y3 c).val) - us) c - (((fun c => (y c).val) - us) c +
      (0 * (eulerL dx.val dt.val ni nj nk ((fun c => (y c).val) - us) c - ((fun c => (y c).val) - us) c) +
        3 / 4 * (eulerL dx.val dt.val ni nj nk ((fun c => (y2 c).val) - us) c - ((fun c => (y2 c).val) - us) c)))| ≤
      ((1 + u) ^ 34 - 1) * (5 * M) := fun c hc => by
    have n := near_update hr (s := y c) (dt := dt) hM (b1 c hc) (near_two hr w0 w34 le_rfl (by norm_num) (by norm_num) c1 (k1 c) (k2 c))
    have := close (n.mono hu (k := 34) (by omega) (by have := hr.tiny.2; linarith))
    have s := sG (fun c => (y c).val) c hc
    have s2 := sG (fun c => (y2 c).val) c hc
    rw [← s, ← s2, hy3]
    simp only [Pi.sub_apply]
    convert this using 2
    ring
  have bd3 := bs_stage3 hk hq0 hq1 hE hN hδ hy e2 e3
  have b3 := size_of_bd hk hB (z := y3) (M := M) (by linarith) bd3 (by linarith)
  have k3 := nF b3
  have fin := bs_contract hk hq0 hq1 hE hN hδ hy e2 e3
    (e' := (fun c => (y c + dt * (2 / 9 * F y c + 1 / 3 * F y2 c + 4 / 9 * F y3 c)).val) - us) (fun c hc => by
      have n := near_update hr (s := y c) (dt := dt) hM (b1 c hc) (near_three hr w29 w3 w49 (by norm_num) (by norm_num)
        (by norm_num) (by norm_num) c1 (k1 c) (k2 c) (k3 c))
      have := close (n.mono hu (k := 34) (by omega) (by have := hr.tiny.2; linarith))
      have s := sG (fun c => (y c).val) c hc
      have s2 := sG (fun c => (y2 c).val) c hc
      have s3 := sG (fun c => (y3 c).val) c hc
      rw [← s, ← s2, ← s3]
      simp only [Pi.sub_apply]
      convert this using 2
      ring)
  rw [hy3, hy2] at fin
  have ec : 1 - 2 / 3 * (1 - q) = 1 - 8 * dt.val / (3 * (((nk : K) + 1) * dx.val) ^ 2) := by rw [hq]; field_simp; ring
  rw [ec] at fin
  exact fin

end

/-! ### Runs -/

omit hr in
theorem noise_le {B κ H dmin x : K} (hH : 0 < H) (hm : 0 < dmin) (hB : 0 ≤ B) (hκ : 0 ≤ κ) (hx : dmin ≤ x) :
    4 * (κ * (5 * (4 * B))) ≤ 8 * x / (3 * H) * (30 * B * κ * H / dmin) := by
  have e : 8 * x / (3 * H) * (30 * B * κ * H / dmin) = 80 * B * κ * (x / dmin) := by field_simp; ring
  rw [e]
  have : 1 ≤ x / dmin := by rw [le_div_iff₀ hm]; linarith
  have pos : 0 ≤ 80 * B * κ := by positivity
  have := mul_le_mul_of_nonneg_left this pos
  linarith

omit hr in
theorem noise_step {P B W a n : K} (h : n ≤ a * W) : (1 - a) * (P * B + W) + n ≤ P * (1 - a) * B + W := by
  have e : (1 - a) * (P * B + W) = P * (1 - a) * B + W - a * W := by ring
  rw [e]
  linarith

section
variable {sn cs : Fl rnd → Fl rnd} (hsn : ∀ x, |(sn x).val| ≤ 1) (hcs : ∀ x, |(cs x).val| ≤ 1)
  {xb yb zb dx : Fl rnd} (h0 : 0 < dx.val) (h1 : dx.val ≤ 1) (hτ : 256 * τ ≤ dx.val ^ 2)
  {ni nj nk : Int} (hi : 1 ≤ ni) (hj : 1 ≤ nj) (hk : 1 ≤ nk)
  {us : Fld K} (hus : PoisSolves dx.val ni nj nk (prescribed sn cs xb yb zb dx) us)
  {Φ : Fl rnd → Fl rnd → (Int × Int × Int → Fl rnd) → Int × Int × Int → Fl rnd}
  (hΦ : Φ = (ssprk3Method fun _ => poisOps sn cs xb yb zb dx ni nj nk).step ∨
    Φ = fun _ dt y c => y c + dt * bs23Slope (poisOps sn cs xb yb zb dx ni nj nk) dt y c)
include hsn hcs h0 h1 hτ hi hj hk hus hΦ

theorem pois_any_step {M : K} (hM : 1 ≤ M) {dt : Fl rnd} (d0 : 0 ≤ dt.val) (d1 : dt.val ≤ dx.val ^ 2 / 6)
    {B N : K} (hB : ∀ c, In3 ni nj nk c → |us c| ≤ B) (hN : 0 ≤ N)
    (hMb : B + 2 * N + 5 * (((1 + u) ^ 34 - 1) * (5 * M)) ≤ M)
    {y : Int × Int × Int → Fl rnd} (hy : Bd ni nj nk N ((fun c => (y c).val) - us)) (t : Fl rnd) :
    Bd ni nj nk ((1 - 8 * dt.val / (3 * (((nk : K) + 1) * dx.val) ^ 2)) * N + 4 * (((1 + u) ^ 34 - 1) * (5 * M)))
      ((fun c => (Φ t dt y c).val) - us) := by
  rcases hΦ with rfl | rfl
  · exact pois_rk3_step hr hsn hcs h0 h1 hτ hi hj hk hM hus d0 d1 hB hN hMb hy t
  · exact pois_ode23_step hr hsn hcs h0 h1 hτ hi hj hk hM hus d0 d1 hB hN hMb hy

variable {B dmin : K} (hB1 : 1 ≤ B) (hB : ∀ c, In3 ni nj nk c → |us c| ≤ B)
  (hm0 : 0 < dmin) (hm1 : dmin ≤ dx.val ^ 2 / 6)
  (hκ : 120 * ((1 + u) ^ 34 - 1) * (((nk : K) + 1) * dx.val) ^ 2 ≤ dmin)
  {t d : Nat → Fl rnd} {u0 : Int × Int × Int → Fl rnd} (hu0 : ∀ c, In3 ni nj nk c → |(u0 c).val - us c| ≤ B)
include hB1 hB hm0 hm1 hκ hu0

/-- Errors along a run of either method. -/
theorem pois_run_err (n : Nat) (hd : ∀ i, i < n → dmin ≤ (d i).val ∧ (d i).val ≤ dx.val ^ 2 / 6) :
    Bd ni nj nk ((∏ i ∈ Finset.range n, (1 - 8 * (d i).val / (3 * (((nk : K) + 1) * dx.val) ^ 2))) * B +
      30 * B * ((1 + u) ^ 34 - 1) * (((nk : K) + 1) * dx.val) ^ 2 / dmin) ((fun c => (iterates Φ t d u0 n c).val) - us) ∧
    0 ≤ (∏ i ∈ Finset.range n, (1 - 8 * (d i).val / (3 * (((nk : K) + 1) * dx.val) ^ 2))) ∧
    (∏ i ∈ Finset.range n, (1 - 8 * (d i).val / (3 * (((nk : K) + 1) * dx.val) ^ 2))) ≤ 1 := by
  have hu := hr.unit.1
  have κ0 : 0 ≤ (1 + u) ^ 34 - 1 := sub_nonneg.2 (Near.one_le hu 34)
  obtain ⟨κ, hκd⟩ : ∃ κ, κ = (1 + u) ^ 34 - 1 := ⟨_, rfl⟩
  rw [← hκd] at κ0 hκ ⊢
  have p := nk1_pos (K := K) hk
  have n1 : (1 : K) ≤ (nk : K) + 1 := by
    have : (1 : K) ≤ nk := by exact_mod_cast hk
    linarith
  obtain ⟨H, hH⟩ : ∃ H, H = (((nk : K) + 1) * dx.val) ^ 2 := ⟨_, rfl⟩
  have hHd : dx.val ^ 2 ≤ H := by
    rw [hH, mul_pow]
    exact le_mul_of_one_le_left (by positivity) (one_le_pow₀ n1)
  rw [← hH] at hκ
  have d2 : 0 < dx.val ^ 2 := by positivity
  have hHp : 0 < H := by linarith
  have κs : 720 * κ ≤ 1 := by nlinarith
  have W0 : 0 ≤ 30 * B * κ * H / dmin := by positivity
  have W1 : 30 * B * κ * H / dmin ≤ B / 4 := by
    rw [div_le_iff₀ hm0]
    nlinarith
  have fac : ∀ x : K, 0 ≤ x → x ≤ dx.val ^ 2 / 6 → 0 ≤ 1 - 8 * x / (3 * H) ∧ 1 - 8 * x / (3 * H) ≤ 1 := fun x x0 x1 => by
    have a : 8 * x / (3 * H) ≤ 1 := by rw [div_le_one (by linarith)]; linarith
    have b : 0 ≤ 8 * x / (3 * H) := by positivity
    exact ⟨by linarith, by linarith⟩
  rw [← hH]
  induction n with
  | zero =>
    refine ⟨fun c hc => ?_, by simp, by simp⟩
    have ph := phi_ge (K := K) hk (k := c.2.2) ⟨by have := hc.2.2.1; omega, by have := hc.2.2.2; omega⟩
    have := hu0 c hc
    simp only [Finset.range_zero, Finset.prod_empty, one_mul]
    show |(u0 c).val - us c| ≤ _
    refine this.trans ?_
    refine le_trans ?_ (le_mul_of_one_le_right (by linarith) ph)
    linarith
  | succ n ih =>
    obtain ⟨ih1, ih2, ih3⟩ := ih fun i hi => hd i (by omega)
    obtain ⟨dn1, dn2⟩ := hd n (by omega)
    have fn := fac (d n).val (by linarith) dn2
    rw [Finset.prod_range_succ]
    obtain ⟨P, hP⟩ : ∃ P, P = ∏ i ∈ Finset.range n, (1 - 8 * (d i).val / (3 * H)) := ⟨_, rfl⟩
    rw [← hP] at ih1 ih2 ih3 ⊢
    obtain ⟨W, hW⟩ : ∃ W, W = 30 * B * κ * H / dmin := ⟨_, rfl⟩
    rw [← hW] at ih1 W0 W1 ⊢
    refine ⟨?_, mul_nonneg ih2 fn.1, ?_⟩
    · have PB : P * B ≤ B := mul_le_of_le_one_left (by linarith) ih3
      have PB0 : 0 ≤ P * B := mul_nonneg ih2 (by linarith)
      have st := pois_any_step hr hsn hcs h0 h1 hτ hi hj hk hus hΦ (M := 4 * B) (by linarith) (dt := d n) (by linarith) dn2
        (B := B) (N := P * B + W) hB (by linarith) (by rw [← hκd]; nlinarith) ih1 (t n)
      rw [← hκd, ← hH] at st
      intro c hc
      have ph := phi_ge (K := K) hk (k := c.2.2) ⟨by have := hc.2.2.1; omega, by have := hc.2.2.2; omega⟩
      refine (st c hc).trans (mul_le_mul_of_nonneg_right ?_ (by linarith))
      exact noise_step (hW ▸ noise_le hHp hm0 (by linarith) κ0 dn1)
    · exact mul_le_one₀ ih3 fn.1 fn.2

/-- The same with a last step that may be shorter. -/
theorem pois_run_err_last (n : Nat) (hd : ∀ i, i < n → dmin ≤ (d i).val ∧ (d i).val ≤ dx.val ^ 2 / 6)
    (hn : 0 ≤ (d n).val ∧ (d n).val ≤ dx.val ^ 2 / 6) (c : Int × Int × Int) (hc : In3 ni nj nk c) :
    |(iterates Φ t d u0 (n + 1) c).val - us c| ≤
      2 * (∏ i ∈ Finset.range (n + 1), (1 - 8 * (d i).val / (3 * (((nk : K) + 1) * dx.val) ^ 2))) * B +
        120 * B * ((1 + u) ^ 34 - 1) * (((nk : K) + 1) * dx.val) ^ 2 / dmin := by
  obtain ⟨ih1, ih2, ih3⟩ := pois_run_err hr hsn hcs h0 h1 hτ hi hj hk hus hΦ hB1 hB hm0 hm1 hκ hu0 (t := t) n hd
  have hu := hr.unit.1
  have κ0 : 0 ≤ (1 + u) ^ 34 - 1 := sub_nonneg.2 (Near.one_le hu 34)
  obtain ⟨κ, hκd⟩ : ∃ κ, κ = (1 + u) ^ 34 - 1 := ⟨_, rfl⟩
  rw [← hκd] at κ0 hκ ih1 ⊢
  have p := nk1_pos (K := K) hk
  have n1 : (1 : K) ≤ (nk : K) + 1 := by
    have : (1 : K) ≤ nk := by exact_mod_cast hk
    linarith
  obtain ⟨H, hH⟩ : ∃ H, H = (((nk : K) + 1) * dx.val) ^ 2 := ⟨_, rfl⟩
  have hHd : dx.val ^ 2 ≤ H := by
    rw [hH, mul_pow]
    exact le_mul_of_one_le_left (by positivity) (one_le_pow₀ n1)
  rw [← hH] at hκ ih1 ih2 ih3 ⊢
  have d2 : 0 < dx.val ^ 2 := by positivity
  have hHp : 0 < H := by linarith
  have κs : 720 * κ ≤ 1 := by nlinarith
  rw [Finset.prod_range_succ]
  obtain ⟨P, hP⟩ : ∃ P, P = ∏ i ∈ Finset.range n, (1 - 8 * (d i).val / (3 * H)) := ⟨_, rfl⟩
  rw [← hP] at ih1 ih2 ih3 ⊢
  have e4 : 120 * B * κ * H / dmin = 4 * (30 * B * κ * H / dmin) := by ring
  rw [e4]
  have Wk : 80 * B * κ ≤ 30 * B * κ * H / dmin := by
    rw [le_div_iff₀ hm0]
    have pos : 0 ≤ B * κ := mul_nonneg (by linarith) κ0
    nlinarith
  have W1 : 30 * B * κ * H / dmin ≤ B / 4 := by
    rw [div_le_iff₀ hm0]
    nlinarith
  have W0 : 0 ≤ 30 * B * κ * H / dmin := by positivity
  obtain ⟨W, hW⟩ : ∃ W, W = 30 * B * κ * H / dmin := ⟨_, rfl⟩
  rw [← hW] at ih1 Wk W0 W1 ⊢
  have PB : P * B ≤ B := mul_le_of_le_one_left (by linarith) ih3
  have PB0 : 0 ≤ P * B := mul_nonneg ih2 (by linarith)
  have st := pois_any_step hr hsn hcs h0 h1 hτ hi hj hk hus hΦ (M := 4 * B) (by linarith) (dt := d n) hn.1 hn.2
    (B := B) (N := P * B + W) hB (by linarith) (by rw [← hκd]; nlinarith) ih1 (t n) c hc
  rw [← hκd, ← hH] at st
  have ph := phi_le (K := K) hk c.2.2
  have a : 0 ≤ 8 * (d n).val / (3 * H) := div_nonneg (by linarith [hn.1]) (by linarith)
  have a1 : 8 * (d n).val / (3 * H) ≤ 1 := by rw [div_le_one (by linarith)]; linarith [hn.2]
  obtain ⟨x, hx⟩ : ∃ x, x = 8 * (d n).val / (3 * H) := ⟨_, rfl⟩
  rw [← hx] at a a1 st ⊢
  have b0 : 0 ≤ (1 - x) * (P * B + W) := mul_nonneg (by linarith) (by linarith)
  have b1 : 0 ≤ 4 * (κ * (5 * (4 * B))) := by positivity
  have s2 : ((1 - x) * (P * B + W) + 4 * (κ * (5 * (4 * B)))) * phi nk c.2.2 ≤
      ((1 - x) * (P * B + W) + 4 * (κ * (5 * (4 * B)))) * 2 := mul_le_mul_of_nonneg_left ph (by linarith)
  have xW : 0 ≤ x * W := mul_nonneg a W0
  refine (show |(iterates Φ t d u0 (n + 1) c).val - us c| ≤ _ from st).trans (s2.trans ?_)
  have e5 : (1 - x) * (P * B + W) = P * (1 - x) * B + W - x * W := by ring
  rw [e5]
  linarith

end

end Madg
