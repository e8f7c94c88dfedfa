/-
Steps of the explicit integrators in any arithmetic, and the mean concentration in rounded arithmetic.
-/
import Verif.Proofs.RoundCH
import Verif.Proofs.RK

set_option linter.unusedSectionVars false
set_option linter.unusedVariables false

namespace Madg
open Spec

local macro "ne!" : tactic => `(tactic| first | assumption | (apply Ne.symm; assumption))

section
variable {A K C : Type} [DecidableEq A] [Arith K]
variable {sz : A → Int} {N : Int} {scratch : A → Prop} {P : C → Prop} {loc : C → Int}
  {F : K → (C → K) → C → K} {rhs : A → A → K → Host A K} {I : Mem A K → Prop} (hR : RhsOn I sz N scratch P loc F rhs)
  {w : RKArr A} (hw : w.Ok sz N scratch)

/-- The slopes and the solution after an rk3ssp step. -/
structure Rk3Post (P : C → Prop) (loc : C → Int) (F : K → (C → K) → C → K) (w : RKArr A) (t dt : K) (m m' : Mem A K) : Prop where
  k1 : ∀ c, P c → m' w.k1 (loc c) = F t (inner loc m w.sol) c
  k2 : ∀ c, P c → m' w.k2 (loc c) = F (t + 1 * dt) (fun c => m w.sol (loc c) + dt * 1 * m' w.k1 (loc c)) c
  k3 : ∀ c, P c → m' w.k3 (loc c) = F (t + 1 / 2 * dt)
    (fun c => m w.sol (loc c) + dt * (1 / 4 * m' w.k1 (loc c) + 1 / 4 * m' w.k2 (loc c))) c
  sol : ∀ c, P c → m' w.sol (loc c) = m w.sol (loc c) +
    dt * (1 / 6 * m' w.k1 (loc c) + 1 / 6 * m' w.k2 (loc c) + 2 / 3 * m' w.k3 (loc c))
  res : ∀ c, P c → m' w.res (loc c) = 1 / 6 * m' w.k1 (loc c) + 1 / 6 * m' w.k2 (loc c) + 2 / 3 * m' w.k3 (loc c)

include hR hw

theorem rk3_onA (t dt : K) (m : Mem A K) (hI : I m) : ∃ m', Det sz (rk3Step N rhs w t dt) m m' ∧ Rk3Post P loc F w t dt m m' ∧ I m' ∧
    ∀ b, b ∉ [w.sol, w.res, w.k1, w.k2, w.k3, w.stage] → ¬ scratch b → m' b = m b := by
  have hnd := hw.nodup
  simp only [List.nodup_cons, List.mem_cons, not_or, List.not_mem_nil, not_false_eq_true,
    List.nodup_nil, and_true] at hnd
  obtain ⟨⟨n1, n2, n3, n4, n5, n6⟩, ⟨n7, n8, n9, n10, n11⟩, ⟨n12, n13, n14, n15⟩, ⟨n16, n17, n18⟩, ⟨n19, n20⟩, n21⟩ := hnd
  obtain ⟨m1, d1, r1, k1, -, f1, I1⟩ := hR.run w.sol w.k1 t m hI (by ne!) (hw.fresh _ (by simp))
    (hw.fresh _ (by simp)) (hw.size _ (by simp)) (hw.size _ (by simp))
  obtain ⟨κ2, κ3, m2, d2, q, I2⟩ := rkCore_on hR hw (t + 1 * dt) (t + 1 / 2 * dt) dt 1 (1 / 4) (1 / 4)
      (1 / 6) (1 / 6) (2 / 3) m1 I1
  refine ⟨m2, by rw [rk3Step_eq_on hR hw]; exact det_append d1 d2, ⟨?_, ?_, ?_, ?_, ?_⟩, I2, ?_⟩
  · intro c hc; rw [q.k1]; exact r1 c hc
  · intro c hc
    rw [q.k2 c hc, q.e2]
    refine hR.interior _ _ _ (fun c hc => ?_) c hc
    rw [q.k1]
    simp only [inner]
    rw [k1 c hc]
  · intro c hc
    rw [q.k3 c hc, q.e3]
    refine hR.interior _ _ _ (fun c hc => ?_) c hc
    rw [q.k1, q.k2 c hc]
    simp only [inner]
    rw [k1 c hc]
  · intro c hc
    rw [q.sol _ (hR.range c hc).1 (hR.range c hc).2, q.res _ (hR.range c hc).1 (hR.range c hc).2, k1 c hc]
  · intro c hc
    exact q.res _ (hR.range c hc).1 (hR.range c hc).2
  · intro b hb hs
    simp only [List.mem_cons, List.not_mem_nil, or_false, not_or] at hb
    obtain ⟨x1, x2, x3, x4, x5, x6⟩ := hb
    rw [q.frame b (by simp only [List.mem_cons, List.not_mem_nil, or_false, not_or]; exact ⟨by ne!, by ne!, by ne!, by ne!, by ne!⟩) hs,
      f1 b (by ne!) (by ne!) hs]

/-- The slopes and the solution after an ode23 step whose first slope is the one at the current state. -/
structure Ode23Post (P : C → Prop) (loc : C → Int) (F : K → (C → K) → C → K) (w : RKArr A) (t dt : K) (m m' : Mem A K) : Prop where
  k1 : ∀ c, P c → m' w.k1 (loc c) = F t (inner loc m w.sol) c
  k2 : ∀ c, P c → m' w.k2 (loc c) = F (t + 1 / 2 * dt) (fun c => m w.sol (loc c) + dt * (1 / 2) * m' w.k1 (loc c)) c
  k3 : ∀ c, P c → m' w.k3 (loc c) = F (t + 3 / 4 * dt)
    (fun c => m w.sol (loc c) + dt * (0 * m' w.k1 (loc c) + 3 / 4 * m' w.k2 (loc c))) c
  k4 : ∀ c, P c → m' w.k4 (loc c) = F (t + 1 * dt) (inner loc m' w.sol) c
  sol : ∀ c, P c → m' w.sol (loc c) = m w.sol (loc c) +
    dt * (2 / 9 * m' w.k1 (loc c) + 1 / 3 * m' w.k2 (loc c) + 4 / 9 * m' w.k3 (loc c))

theorem ode23_fullA (first : Bool) (t dt : K) (m : Mem A K) (hI : I m)
    (hk4 : first = false → ∀ c, P c → m w.k4 (loc c) = F t (inner loc m w.sol) c) :
    ∃ m', Det sz (ode23Host N rhs w first t dt) m m' ∧ Ode23Post P loc F w t dt m m' ∧ I m' ∧
      (∀ n, 0 ≤ n → n < N → m' w.res n = 2 / 9 * m' w.k1 n + 1 / 3 * m' w.k2 n + 4 / 9 * m' w.k3 n) ∧
      ((∀ n, 0 ≤ n → n < N → (∀ c, P c → loc c ≠ n) → m w.k1 n = 0 ∧ m w.k2 n = 0 ∧ m w.k3 n = 0 ∧ m w.k4 n = 0) →
        (∀ n, 0 ≤ n → n < N → (∀ c, P c → loc c ≠ n) →
          m' w.k1 n = 0 ∧ m' w.k2 n = 0 ∧ m' w.k3 n = 0 ∧ m' w.k4 n = 0)) ∧
      (∀ b, b ∉ [w.sol, w.res, w.k1, w.k2, w.k3, w.k4, w.stage] → ¬ scratch b → m' b = m b) := by
  have hnd := hw.nodup
  simp only [List.nodup_cons, List.mem_cons, not_or, List.not_mem_nil, not_false_eq_true,
    List.nodup_nil, and_true] at hnd
  obtain ⟨⟨n1, n2, n3, n4, n5, n6⟩, ⟨n7, n8, n9, n10, n11⟩, ⟨n12, n13, n14, n15⟩, ⟨n16, n17, n18⟩, ⟨n19, n20⟩, n21⟩ := hnd
  have s1 : ¬ scratch w.sol := hw.fresh _ (by simp)
  have s2 : ¬ scratch w.res := hw.fresh _ (by simp)
  have s3 : ¬ scratch w.k1 := hw.fresh _ (by simp)
  have s4 : ¬ scratch w.k2 := hw.fresh _ (by simp)
  have s5 : ¬ scratch w.k3 := hw.fresh _ (by simp)
  have s6 : ¬ scratch w.k4 := hw.fresh _ (by simp)
  have first_slope : ∃ m1, Det sz (if first then rhs w.sol w.k1 t else fsalLoop N w) m m1 ∧
      (∀ c, P c → m1 w.k1 (loc c) = F t (inner loc m w.sol) c) ∧
      (∀ c, P c → m1 w.sol (loc c) = m w.sol (loc c)) ∧
      (∀ n, 0 ≤ n → n < N → (∀ c, P c → loc c ≠ n) → m w.k1 n = 0 → m w.k4 n = 0 → m1 w.k1 n = 0) ∧
      (∀ b, b ≠ w.sol → b ≠ w.k1 → ¬ scratch b → m1 b = m b) ∧ I m1 := by
    cases first with
    | true =>
      obtain ⟨m1, d1, r1, k1, h1, f1, I1⟩ := hR.run w.sol w.k1 t m hI (by ne!) s1 s3 (hw.size _ (by simp))
        (hw.size _ (by simp))
      refine ⟨m1, d1, r1, k1, ?_, f1, I1⟩
      intro n _ _ hn z _
      rcases h1 n hn with h | h
      · rw [h, z]
      · exact h
    | false =>
      obtain ⟨m1, d1, f1⟩ := fsal_det (K := K) hw m
      refine ⟨m1, d1, ?_, ?_, ?_, ?_, hR.stable m m1 (fun b hb => f1.frame b fun e => s3 (e ▸ hb)) hI⟩
      · intro c hc
        rw [f1.view _ (hR.range c hc).1 (hR.range c hc).2]
        exact hk4 rfl c hc
      · intro c hc; rw [f1.frame _ (by ne!)]
      · intro n h0 h1 _ _ z; rw [f1.view n h0 h1, z]
      · intro b _ hb _; exact f1.frame b hb
  obtain ⟨m1, d1, r1, k1, z1, f1, I1⟩ := first_slope
  obtain ⟨κ2, κ3, m2, d2, q, I2⟩ := rkCore_on hR hw (t + 1 / 2 * dt) (t + 3 / 4 * dt) dt (1 / 2) 0 (3 / 4)
    (2 / 9) (1 / 3) (4 / 9) m1 I1
  obtain ⟨m3, d3, r3, k3, h3, f3, I3⟩ := hR.run w.sol w.k4 (t + 1 * dt) m2 I2 (by ne!) s1 s6 (hw.size _ (by simp))
    (hw.size _ (by simp))
  have g1 : m3 w.k1 = m1 w.k1 := by rw [f3 _ (by ne!) (by ne!) s3, q.k1]
  have g2 : m3 w.k2 = m2 w.k2 := f3 _ (by ne!) (by ne!) s4
  have g3 : m3 w.k3 = m2 w.k3 := f3 _ (by ne!) (by ne!) s5
  have gr : m3 w.res = m2 w.res := f3 _ (by ne!) (by ne!) s2
  refine ⟨m3, ?_, ⟨?_, ?_, ?_, ?_, ?_⟩, I3, ?_, ?_, ?_⟩
  · rw [ode23Host, show rhs w.sol w.k4 (t + 1 * dt) = rhs w.sol w.k4 (t + 1 * dt) from rfl]
    have := det_append d1 (det_append d2 d3)
    simp only [rkCore, List.append_assoc] at this ⊢
    exact this
  · intro c hc; rw [g1]; exact r1 c hc
  · intro c hc
    rw [g2, q.k2 c hc, q.e2]
    refine hR.interior _ _ _ (fun c hc => ?_) c hc
    rw [g1]
    simp only [inner]
    rw [k1 c hc]
  · intro c hc
    rw [g3, q.k3 c hc, q.e3]
    refine hR.interior _ _ _ (fun c hc => ?_) c hc
    rw [g1, g2, q.k2 c hc]
    simp only [inner]
    rw [k1 c hc]
  · intro c hc
    rw [r3 c hc]
    exact hR.interior _ _ _ (fun c hc => (k3 c hc).symm) c hc
  · intro c hc
    rw [k3 c hc, q.sol _ (hR.range c hc).1 (hR.range c hc).2, q.res _ (hR.range c hc).1 (hR.range c hc).2, k1 c hc, g1, g2, g3,
      q.k1]
  · intro n h0 h1
    rw [gr, q.res n h0 h1, g1, g2, g3, q.k1]
  · intro hz n h0 h1 hn
    obtain ⟨z1', z2, z3, z4⟩ := hz n h0 h1 hn
    refine ⟨?_, ?_, ?_, ?_⟩
    · rw [g1]; exact z1 n h0 h1 hn z1' z4
    · rw [g2]
      rcases q.k2h n hn with h | h
      · rw [h, f1 _ (by ne!) (by ne!) s4, z2]
      · exact h
    · rw [g3]
      rcases q.k3h n hn with h | h
      · rw [h, f1 _ (by ne!) (by ne!) s5, z3]
      · exact h
    · rcases h3 n hn with h | h
      · rw [h, q.k4, f1 _ (by ne!) (by ne!) s6, z4]
      · exact h
  · intro b hb hs
    simp only [List.mem_cons, List.not_mem_nil, or_false, not_or] at hb
    obtain ⟨x1, x2, x3, x4, x5, x6, x7⟩ := hb
    rw [f3 b (by ne!) (by ne!) hs,
      q.frame b (by simp only [List.mem_cons, List.not_mem_nil, or_false, not_or]; exact ⟨by ne!, by ne!, by ne!, by ne!, by ne!⟩) hs,
      f1 b (by ne!) (by ne!) hs]

theorem ode23_onA (first : Bool) (t dt : K) (m : Mem A K) (hI : I m)
    (hk4 : first = false → ∀ c, P c → m w.k4 (loc c) = F t (inner loc m w.sol) c) :
    ∃ m', Det sz (ode23Host N rhs w first t dt) m m' ∧ Ode23Post P loc F w t dt m m' ∧ I m' :=
  let ⟨m', d, q, i, _⟩ := ode23_fullA hR hw first t dt m hI hk4
  ⟨m', d, q, i⟩

end

section
variable {A K : Type} [DecidableEq A] [Arith K]

/-- The right-hand side as the code computes it, as a map of interior fields. -/
def chFieldA (v : Int) (p : CHParams K) (dx : K) (bx bY bz : BCType) (ni nj nk : Int) (_t : K) (u : Int × Int × Int → K) :
    Int × Int × Int → K :=
  fun c => chA p dx (dx4A v dx) (ext3 bx bY bz ni nj nk fun i j k => u (i, j, k)) c.1 c.2.1 c.2.2

theorem ch3_contractA {g : Grid3} (hn : 2 ≤ g.ni ∧ 2 ≤ g.nj ∧ 2 ≤ g.nk) (hh : g.nhalo = 2) {xbc ybc zbc : BCType}
    {G : Geom3} (hG : mkGeom3 g xbc ybc zbc = .ok G) {v : Int} (hv : v = 0 ∨ v = 1 ∨ v = 2)
    {sz : A → Int} {l1 l2 l3 l4 : A} (hnd : [l1, l2, l3, l4].Nodup) (hsz : ∀ a ∈ [l1, l2, l3, l4], sz a = g.size)
    (p : CHParams K) (dx : K) :
    RhsOn (fun _ => True) sz g.size (· ∈ [l1, l2, l3, l4]) (In3 g.ni g.nj g.nk)
      (fun c : Int × Int × Int => g.at3 c.1 c.2.1 c.2.2)
      (chFieldA v p dx xbc ybc zbc g.ni g.nj g.nk)
      (fun s r _ => G.evalRHS v p dx ⟨s, r, l1, l2, l3, l4⟩) := by
  have hok : g.Ok := ⟨by omega, by omega, by omega, by omega⟩
  obtain ⟨hGok, rfl, rfl, rfl, rfl⟩ := Geom3.ok_of_mk hok hG
  have hv' : ctorCH3 v = .ok () := by unfold ctorCH3; rw [if_pos (by omega)]
  have hpad : ∀ c, In3 G.g.ni G.g.nj G.g.nk c → G.g.Pad c.1 c.2.1 c.2.2 := by
    intro c hc; unfold In3 at hc; unfold Grid3.Pad; omega
  refine ⟨fun c hc => Grid3.at3_bounds (hpad c hc), ?_, fun _ _ _ _ => trivial, ?_⟩
  · intro t u v' h c hc
    have : (ext3 G.xbc G.ybc G.zbc G.g.ni G.g.nj G.g.nk fun i j k => u (i, j, k)) =
        ext3 G.xbc G.ybc G.zbc G.g.ni G.g.nj G.g.nk fun i j k => v' (i, j, k) := by
      funext i j k
      exact h _ ⟨extIdx_range i (by omega), extIdx_range j (by omega), extIdx_range k (by omega)⟩
    unfold chFieldA; rw [this]
  · intro s r t m _ hne hs hr hzs hzr
    have hnd' : [s, r, l1, l2, l3, l4].Nodup := by
      rw [List.nodup_cons, List.nodup_cons]
      refine ⟨?_, hr, hnd⟩
      rw [List.mem_cons]
      rintro (h | h)
      · exact hne h
      · exact hs h
    have hsz' : ∀ a ∈ [s, r, l1, l2, l3, l4], sz a = G.g.size := by
      intro a ha
      rw [List.mem_cons, List.mem_cons] at ha
      rcases ha with rfl | rfl | ha
      · exact hzs
      · exact hzr
      · exact hsz a ha
    obtain ⟨m', hd, hp⟩ := evalRHS_detA hGok (w := ⟨s, r, l1, l2, l3, l4⟩) ⟨hnd', hsz'⟩ (by omega) (by omega)
      (by omega) (by omega) hv' p dx m
    refine ⟨m', hd, fun c hc => hp.rhs _ _ _ hc, ?_, ?_, ?_, trivial⟩
    · intro c hc
      have h := hp.state _ _ _ (hpad c hc)
      rw [h]
      obtain ⟨a, b, d⟩ := hc
      simp only [Geom3.extA, ext3]
      rw [extIdx_of_int a.1 a.2, extIdx_of_int b.1 b.2, extIdx_of_int d.1 d.2]
      rfl
    · intro n hn
      exact hp.halo n fun i j k h => hn (i, j, k) h
    · intro b hb1 hb2 hb3
      refine hp.frame b ?_
      simp only [List.mem_cons, List.not_mem_nil, or_false, not_or] at hb3 ⊢
      exact ⟨hb1, hb2, hb3⟩

end

/-! ### Rounding errors of the stages -/

section
variable {K : Type} [Field K] [LinearOrder K] [IsStrictOrderedRing K]
variable {rnd : K → K} {u τ : K} (hr : Rounds rnd u τ)
include hr

theorem rel_lit (e : ℕ) [e.AtLeastTwo] : Rel u 1 (OfNat.ofNat e : Fl rnd).val (OfNat.ofNat e : K) := by
  have h1 : (1 : K) ≤ (OfNat.ofNat e : K) := by
    have : 2 ≤ e := Nat.AtLeastTwo.prop
    rw [← Nat.cast_ofNat (R := K)]; exact_mod_cast (show 1 ≤ e by omega)
  have h2 : τ ≤ 1 := by have := hr.tiny.2; linarith
  exact (Rel.self (lt_of_lt_of_le one_pos h1)).round hr (le_trans h2 h1)

theorem near_inv (e : ℕ) [e.AtLeastTwo] (he : (OfNat.ofNat e : K) ≤ 20) :
    Near u 4 (1 / (OfNat.ofNat e : K)) (1 / (OfNat.ofNat e : Fl rnd)).val (1 / (OfNat.ofNat e : K)) := by
  have r := rel_lit hr e
  have : τ ≤ 1 / (OfNat.ofNat e : K) := hr.tiny.2.trans (one_div_le_one_div_of_le r.pos he)
  exact ((Near.exact (v := (1 : K)) abs_one.le : Near u 0 1 (1 : Fl rnd).val 1).divR hr r this).mono hr.unit.1 (by omega) le_rfl

theorem near_frac (a e : ℕ) [a.AtLeastTwo] [e.AtLeastTwo] (he : (OfNat.ofNat e : K) ≤ 20) :
    Near u 4 ((OfNat.ofNat a : K) / (OfNat.ofNat e : K)) ((OfNat.ofNat a : Fl rnd) / (OfNat.ofNat e : Fl rnd)).val
      ((OfNat.ofNat a : K) / (OfNat.ofNat e : K)) := by
  have r := rel_lit hr e
  have r' := (rel_lit hr a).pos
  have h1 : (1 : K) ≤ (OfNat.ofNat a : K) := by
    have : 2 ≤ a := Nat.AtLeastTwo.prop
    rw [← Nat.cast_ofNat (R := K)]; exact_mod_cast (show 1 ≤ a by omega)
  have : τ ≤ (OfNat.ofNat a : K) / (OfNat.ofNat e : K) :=
    (hr.tiny.2.trans (one_div_le_one_div_of_le r.pos he)).trans (div_le_div_of_nonneg_right h1 r.pos.le)
  exact ((Near.lit hr a).divR hr r this).mono hr.unit.1 (by omega) le_rfl

/-- A solution value plus the step size times a slope. -/
theorem near_update {M R : K} {n : ℕ} {s dt r : Fl rnd} {e : K} (hM : 1 ≤ M) (hs : |s.val| ≤ M) (hr' : Near u n R r.val e) :
    Near u (n + 2) (M + |dt.val| * R + τ) (s + dt * r).val (s.val + dt.val * e) := by
  have t0 := hr.tiny.1
  have h0 : 0 ≤ |dt.val| * R := mul_nonneg (abs_nonneg _) hr'.nonneg
  have d : Near u 0 |dt.val| dt.val dt.val := Near.exact le_rfl
  have q := d.mulF' hr hr' (d := |dt.val| * R + τ) (by linarith) (by linarith)
  have := ((Near.exact hs).mono hr.unit.1 (k := n + 1) (by omega) le_rfl).addF hr (q.mono hr.unit.1 (by omega) le_rfl)
    (by linarith)
  exact this.mono hr.unit.1 le_rfl (by linarith)

/-- The same with the weight multiplied onto the step size first. -/
theorem near_update' {M R α : K} {s dt a r : Fl rnd} {e : K} (hM : 1 ≤ M) (hs : |s.val| ≤ M) (ha : Near u 4 α a.val α)
    (hα : 0 ≤ α) (hdt : τ ≤ |dt.val| * α) (hr' : Near u 25 R r.val e) :
    Near u 32 (M + |dt.val| * (α * R) + τ) (s + dt * a * r).val (s.val + dt.val * (α * e)) := by
  have t0 := hr.tiny.1
  have hu := hr.unit.1
  have h0 : 0 ≤ |dt.val| * (α * R) := mul_nonneg (abs_nonneg _) (mul_nonneg hα hr'.nonneg)
  have d : Near u 0 |dt.val| dt.val dt.val := Near.exact le_rfl
  have q := (d.mulF hr ha hdt).mulF' hr hr' (d := |dt.val| * (α * R) + τ) (by linarith) (by linarith)
  have := ((Near.exact hs).mono hu (k := 31) (by omega) le_rfl).addF hr (q.mono hu (by omega) le_rfl) (by linarith)
  rw [mul_assoc] at this
  exact this.mono hu (by omega) (by linarith)

theorem near_two {R a1 a2 : K} {b1 b2 x1 x2 : Fl rnd} {e1 e2 : K} (h1 : Near u 4 a1 b1.val a1) (h2 : Near u 4 a2 b2.val a2)
    (p1 : 0 ≤ a1) (p2 : 0 ≤ a2) (hsum : a1 + a2 ≤ 3 / 4) (hR : 20 * τ ≤ R) (x1' : Near u 25 R x1.val e1) (x2' : Near u 25 R x2.val e2) :
    Near u 31 R (b1 * x1 + b2 * x2).val (a1 * e1 + a2 * e2) := by
  have t0 := hr.tiny.1
  have hu := hr.unit.1
  have q1 := h1.mulF' hr x1' (d := a1 * R + R / 8) (by have := mul_nonneg p1 x1'.nonneg; linarith) (by linarith)
  have q2 := h2.mulF' hr x2' (d := a2 * R + R / 8) (by have := mul_nonneg p2 x1'.nonneg; linarith) (by linarith)
  have := q1.addF hr q2 (by have := mul_nonneg p1 x1'.nonneg; have := mul_nonneg p2 x1'.nonneg; linarith)
  exact this.mono hu (by omega) (by nlinarith)

theorem near_three {R a1 a2 a3 : K} {b1 b2 b3 x1 x2 x3 : Fl rnd} {e1 e2 e3 : K} (h1 : Near u 4 a1 b1.val a1)
    (h2 : Near u 4 a2 b2.val a2) (h3 : Near u 4 a3 b3.val a3) (p1 : 1 / 20 ≤ a1) (p2 : 1 / 20 ≤ a2) (p3 : 1 / 20 ≤ a3)
    (hsum : a1 + a2 + a3 = 1) (hR : 20 * τ ≤ R)
    (x1' : Near u 25 R x1.val e1) (x2' : Near u 25 R x2.val e2) (x3' : Near u 25 R x3.val e3) :
    Near u 32 R (b1 * x1 + b2 * x2 + b3 * x3).val (a1 * e1 + a2 * e2 + a3 * e3) := by
  have t0 := hr.tiny.1
  have hu := hr.unit.1
  have hR0 := x1'.nonneg
  have l : ∀ a : K, 1 / 20 ≤ a → τ ≤ a * R := fun a ha => by nlinarith
  have q1 := h1.mulF hr x1' (l _ p1)
  have q2 := h2.mulF hr x2' (l _ p2)
  have q3 := h3.mulF hr x3' (l _ p3)
  have q12 := q1.addF hr q2 (by have := l _ p1; have := l _ p2; linarith)
  have := q12.addF hr (q3.mono hu (k := 31) (by omega) le_rfl) (by have := l _ p1; have := l _ p2; have := l _ p3; linarith)
  exact this.mono hu (by omega) (by rw [← add_mul, ← add_mul, hsum, one_mul])

end

/-! ### The total -/

section
variable {K : Type} [Field K] [LinearOrder K] [IsStrictOrderedRing K]

theorem sum3_close {ni nj nk : Int} (hi : 0 ≤ ni) (hj : 0 ≤ nj) (hk : 0 ≤ nk) {f g : Int × Int × Int → K} {δ : K}
    (h : ∀ c, In3 ni nj nk c → |f c - g c| ≤ δ) : |total3 ni nj nk f - total3 ni nj nk g| ≤ ((ni * nj * nk : Int) : K) * δ := by
  rw [← map_sub, ← sum3_const ni nj nk hi hj hk]
  show |sum3 ni nj nk _| ≤ sum3 ni nj nk _
  unfold sum3
  refine (Finset.abs_sum_le_sum_abs _ _).trans (Finset.sum_le_sum fun i hi => ?_)
  refine (Finset.abs_sum_le_sum_abs _ _).trans (Finset.sum_le_sum fun j hj => ?_)
  refine (Finset.abs_sum_le_sum_abs _ _).trans (Finset.sum_le_sum fun k hk => ?_)
  rw [Finset.mem_Ico] at hi hj hk
  exact h (i, j, k) ⟨hi, hj, hk⟩

theorem drift_rk3_scalar {z E d d2 d3 d' : K} (h0 : 0 ≤ z) (h1 : z ≤ 1) (e2 : |d2 - (d - z * d)| ≤ E)
    (e3 : |d3 - (d - z * (1 / 4 * d + 1 / 4 * d2))| ≤ E) (e4 : |d' - (d - z * (1 / 6 * d + 1 / 6 * d2 + 2 / 3 * d3))| ≤ E) :
    |d' - (1 - z + z ^ 2 / 2 - z ^ 3 / 6) * d| ≤ (1 + 2 * z) * E := by
  have hE := (abs_nonneg _).trans e2
  have a : d' - (1 - z + z ^ 2 / 2 - z ^ 3 / 6) * d =
      (d' - (d - z * (1 / 6 * d + 1 / 6 * d2 + 2 / 3 * d3))) - z / 6 * (d2 - (d - z * d)) -
        2 * z / 3 * (d3 - (d - z * (1 / 4 * d + 1 / 4 * d2))) + z ^ 2 / 6 * (d2 - (d - z * d)) := by ring
  rw [a]
  generalize d' - (d - z * (1 / 6 * d + 1 / 6 * d2 + 2 / 3 * d3)) = x at *
  generalize d3 - (d - z * (1 / 4 * d + 1 / 4 * d2)) = y at *
  generalize d2 - (d - z * d) = w at *
  rw [abs_le] at *
  have hz2 : z ^ 2 ≤ z := by nlinarith
  have p : 0 ≤ z * E := mul_nonneg h0 hE
  have w1 : -(z * E) ≤ z * w ∧ z * w ≤ z * E := ⟨by nlinarith, by nlinarith⟩
  have w2 : -(z * E) ≤ z ^ 2 * w ∧ z ^ 2 * w ≤ z * E := by
    have p2 : z ^ 2 * E ≤ z * E := mul_le_mul_of_nonneg_right hz2 hE
    have p3 : 0 ≤ z ^ 2 := sq_nonneg z
    constructor <;> nlinarith
  have y1 : -(z * E) ≤ z * y ∧ z * y ≤ z * E := ⟨by nlinarith, by nlinarith⟩
  constructor <;> nlinarith

theorem drift_ode23_scalar {z E d d2 d3 d' : K} (h0 : 0 ≤ z) (h1 : z ≤ 1) (e2 : |d2 - (d - z * (1 / 2 * d))| ≤ E)
    (e3 : |d3 - (d - z * (0 * d + 3 / 4 * d2))| ≤ E) (e4 : |d' - (d - z * (2 / 9 * d + 1 / 3 * d2 + 4 / 9 * d3))| ≤ E) :
    |d' - (1 - z + z ^ 2 / 2 - z ^ 3 / 6) * d| ≤ (1 + 2 * z) * E := by
  have hE := (abs_nonneg _).trans e2
  have a : d' - (1 - z + z ^ 2 / 2 - z ^ 3 / 6) * d =
      (d' - (d - z * (2 / 9 * d + 1 / 3 * d2 + 4 / 9 * d3))) - z / 3 * (d2 - (d - z * (1 / 2 * d))) -
        4 * z / 9 * (d3 - (d - z * (0 * d + 3 / 4 * d2))) + z ^ 2 / 3 * (d2 - (d - z * (1 / 2 * d))) := by ring
  rw [a]
  generalize d' - (d - z * (2 / 9 * d + 1 / 3 * d2 + 4 / 9 * d3)) = x at *
  generalize d3 - (d - z * (0 * d + 3 / 4 * d2)) = y at *
  generalize d2 - (d - z * (1 / 2 * d)) = w at *
  rw [abs_le] at *
  have hz2 : z ^ 2 ≤ z := by nlinarith
  have p : 0 ≤ z * E := mul_nonneg h0 hE
  have w1 : -(z * E) ≤ z * w ∧ z * w ≤ z * E := ⟨by nlinarith, by nlinarith⟩
  have w2 : -(z * E) ≤ z ^ 2 * w ∧ z ^ 2 * w ≤ z * E := by
    have p2 : z ^ 2 * E ≤ z * E := mul_le_mul_of_nonneg_right hz2 hE
    have p3 : 0 ≤ z ^ 2 := sq_nonneg z
    constructor <;> nlinarith
  have y1 : -(z * E) ≤ z * y ∧ z * y ≤ z * E := ⟨by nlinarith, by nlinarith⟩
  constructor <;> nlinarith

theorem damp_bounds {z : K} (h0 : 0 ≤ z) (h1 : z ≤ 1) : 0 ≤ 1 - z + z ^ 2 / 2 - z ^ 3 / 6 ∧ 1 - z + z ^ 2 / 2 - z ^ 3 / 6 ≤ 1 := by
  have h2 : z ^ 2 ≤ z := by nlinarith
  have h3 : z ^ 3 ≤ z ^ 2 := by nlinarith [sq_nonneg z]
  have h4 : 0 ≤ z ^ 3 := by positivity
  have h5 : 0 ≤ z ^ 2 := by positivity
  constructor <;> linarith

variable {ni nj nk : Int} (hi : 1 ≤ ni) (hj : 1 ≤ nj) (hk : 1 ≤ nk) (p : CHParams K) (dx : K)
include hi hj hk

/-- Distance of the total from its target. -/
def excess (ni nj nk : Int) (p : CHParams K) (y : Int × Int × Int → K) : K :=
  total3 ni nj nk y - ((ni * nj * nk : Int) : K) * p.m

theorem excess_update {dt δ : K} {y y' e : Int × Int × Int → K} (h : ∀ c, In3 ni nj nk c → |y' c - (y c + dt * e c)| ≤ δ) :
    |excess ni nj nk p y' - (excess ni nj nk p y + dt * total3 ni nj nk e)| ≤ ((ni * nj * nk : Int) : K) * δ := by
  have := sum3_close (by omega) (by omega) (by omega) (f := y') (g := y + dt • e) h
  rw [map_add, map_smul, smul_eq_mul] at this
  unfold excess
  rw [show total3 ni nj nk y' - ((ni * nj * nk : Int) : K) * p.m - (total3 ni nj nk y - ((ni * nj * nk : Int) : K) * p.m +
    dt * total3 ni nj nk e) = total3 ni nj nk y' - (total3 ni nj nk y + dt * total3 ni nj nk e) by ring]
  exact this

/-- The total after a three-stage step whose stages are computed with errors of at most `δ`. -/
theorem drift_rk3 {dt δ : K} (h0 : 0 ≤ p.sigma * dt) (h1 : p.sigma * dt ≤ 1) {y y2 y3 y' : Int × Int × Int → K}
    (e2 : ∀ c, In3 ni nj nk c → |y2 c - (y c + dt * chField3 p dx .periodic .periodic .periodic ni nj nk 0 y c)| ≤ δ)
    (e3 : ∀ c, In3 ni nj nk c → |y3 c - (y c + dt * (1 / 4 * chField3 p dx .periodic .periodic .periodic ni nj nk 0 y c +
      1 / 4 * chField3 p dx .periodic .periodic .periodic ni nj nk 0 y2 c))| ≤ δ)
    (e4 : ∀ c, In3 ni nj nk c → |y' c - (y c + dt * (1 / 6 * chField3 p dx .periodic .periodic .periodic ni nj nk 0 y c +
      1 / 6 * chField3 p dx .periodic .periodic .periodic ni nj nk 0 y2 c +
      2 / 3 * chField3 p dx .periodic .periodic .periodic ni nj nk 0 y3 c))| ≤ δ) :
    |excess ni nj nk p y' - (1 - p.sigma * dt + (p.sigma * dt) ^ 2 / 2 - (p.sigma * dt) ^ 3 / 6) * excess ni nj nk p y| ≤
      (1 + 2 * (p.sigma * dt)) * (((ni * nj * nk : Int) : K) * δ) := by
  have T := total3_rhs p dx hi hj hk 0
  have E : ∀ v, total3 ni nj nk v - ((ni * nj * nk : Int) : K) * p.m = excess ni nj nk p v := fun v => rfl
  have a2 := excess_update hi hj hk p e2
  have a3 := excess_update hi hj hk p (e := fun c => 1 / 4 * chField3 p dx .periodic .periodic .periodic ni nj nk 0 y c +
      1 / 4 * chField3 p dx .periodic .periodic .periodic ni nj nk 0 y2 c) e3
  have a4 := excess_update hi hj hk p (e := fun c => 1 / 6 * chField3 p dx .periodic .periodic .periodic ni nj nk 0 y c +
      1 / 6 * chField3 p dx .periodic .periodic .periodic ni nj nk 0 y2 c +
      2 / 3 * chField3 p dx .periodic .periodic .periodic ni nj nk 0 y3 c) e4
  have l3 := (total3 ni nj nk).map_add ((1 / 4 : K) • chField3 p dx .periodic .periodic .periodic ni nj nk 0 y)
    ((1 / 4 : K) • chField3 p dx .periodic .periodic .periodic ni nj nk 0 y2)
  have l4 : total3 ni nj nk ((1 / 6 : K) • chField3 p dx .periodic .periodic .periodic ni nj nk 0 y + (1 / 6 : K) • chField3 p dx .periodic .periodic .periodic ni nj nk 0 y2 +
      (2 / 3 : K) • chField3 p dx .periodic .periodic .periodic ni nj nk 0 y3) = 1 / 6 * (-p.sigma * excess ni nj nk p y) +
      1 / 6 * (-p.sigma * excess ni nj nk p y2) + 2 / 3 * (-p.sigma * excess ni nj nk p y3) := by
    simp only [map_add, map_smul, smul_eq_mul, T, E]
  simp only [map_smul, smul_eq_mul, T, E] at l3 a2
  refine drift_rk3_scalar h0 h1 (d2 := excess ni nj nk p y2) (d3 := excess ni nj nk p y3) ?_ ?_ ?_
  · refine le_trans (le_of_eq ?_) a2
    congr 1; ring
  · refine le_trans (le_of_eq ?_) a3
    refine Eq.trans ?_ (congrArg (fun x => |excess ni nj nk p y3 - (excess ni nj nk p y + dt * x)|) l3.symm)
    congr 1; ring
  · refine le_trans (le_of_eq ?_) a4
    refine Eq.trans ?_ (congrArg (fun x => |excess ni nj nk p y' - (excess ni nj nk p y + dt * x)|) l4.symm)
    congr 1; ring

theorem drift_ode23 {dt δ : K} (h0 : 0 ≤ p.sigma * dt) (h1 : p.sigma * dt ≤ 1) {y y2 y3 y' : Int × Int × Int → K}
    (e2 : ∀ c, In3 ni nj nk c → |y2 c - (y c + dt * (1 / 2 * chField3 p dx .periodic .periodic .periodic ni nj nk 0 y c))| ≤ δ)
    (e3 : ∀ c, In3 ni nj nk c → |y3 c - (y c + dt * (0 * chField3 p dx .periodic .periodic .periodic ni nj nk 0 y c +
      3 / 4 * chField3 p dx .periodic .periodic .periodic ni nj nk 0 y2 c))| ≤ δ)
    (e4 : ∀ c, In3 ni nj nk c → |y' c - (y c + dt * (2 / 9 * chField3 p dx .periodic .periodic .periodic ni nj nk 0 y c +
      1 / 3 * chField3 p dx .periodic .periodic .periodic ni nj nk 0 y2 c +
      4 / 9 * chField3 p dx .periodic .periodic .periodic ni nj nk 0 y3 c))| ≤ δ) :
    |excess ni nj nk p y' - (1 - p.sigma * dt + (p.sigma * dt) ^ 2 / 2 - (p.sigma * dt) ^ 3 / 6) * excess ni nj nk p y| ≤
      (1 + 2 * (p.sigma * dt)) * (((ni * nj * nk : Int) : K) * δ) := by
  have T := total3_rhs p dx hi hj hk 0
  have E : ∀ v, total3 ni nj nk v - ((ni * nj * nk : Int) : K) * p.m = excess ni nj nk p v := fun v => rfl
  have a2 := excess_update hi hj hk p (e := fun c => 1 / 2 * chField3 p dx .periodic .periodic .periodic ni nj nk 0 y c) e2
  have a3 := excess_update hi hj hk p (e := fun c => 0 * chField3 p dx .periodic .periodic .periodic ni nj nk 0 y c +
      3 / 4 * chField3 p dx .periodic .periodic .periodic ni nj nk 0 y2 c) e3
  have a4 := excess_update hi hj hk p (e := fun c => 2 / 9 * chField3 p dx .periodic .periodic .periodic ni nj nk 0 y c +
      1 / 3 * chField3 p dx .periodic .periodic .periodic ni nj nk 0 y2 c +
      4 / 9 * chField3 p dx .periodic .periodic .periodic ni nj nk 0 y3 c) e4
  have l2 := (total3 ni nj nk).map_smul (1 / 2 : K) (chField3 p dx .periodic .periodic .periodic ni nj nk 0 y)
  have l3 := (total3 ni nj nk).map_add ((0 : K) • chField3 p dx .periodic .periodic .periodic ni nj nk 0 y)
    ((3 / 4 : K) • chField3 p dx .periodic .periodic .periodic ni nj nk 0 y2)
  have l4 : total3 ni nj nk ((2 / 9 : K) • chField3 p dx .periodic .periodic .periodic ni nj nk 0 y + (1 / 3 : K) • chField3 p dx .periodic .periodic .periodic ni nj nk 0 y2 +
      (4 / 9 : K) • chField3 p dx .periodic .periodic .periodic ni nj nk 0 y3) = 2 / 9 * (-p.sigma * excess ni nj nk p y) +
      1 / 3 * (-p.sigma * excess ni nj nk p y2) + 4 / 9 * (-p.sigma * excess ni nj nk p y3) := by
    simp only [map_add, map_smul, smul_eq_mul, T, E]
  rw [map_smul, map_smul] at l3
  simp only [map_smul, smul_eq_mul, T, E] at l3
  rw [smul_eq_mul, T, E] at l2
  refine drift_ode23_scalar h0 h1 (d2 := excess ni nj nk p y2) (d3 := excess ni nj nk p y3) ?_ ?_ ?_
  · refine le_trans (le_of_eq ?_) a2
    refine Eq.trans ?_ (congrArg (fun x => |excess ni nj nk p y2 - (excess ni nj nk p y + dt * x)|) l2.symm)
    congr 1; ring
  · refine le_trans (le_of_eq ?_) a3
    refine Eq.trans ?_ (congrArg (fun x => |excess ni nj nk p y3 - (excess ni nj nk p y + dt * x)|) l3.symm)
    congr 1; ring
  · refine le_trans (le_of_eq ?_) a4
    refine Eq.trans ?_ (congrArg (fun x => |excess ni nj nk p y' - (excess ni nj nk p y + dt * x)|) l4.symm)
    congr 1; ring

end

end Madg
