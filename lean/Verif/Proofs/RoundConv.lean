/-
Explicit runs in rounded arithmetic as noisy runs of the exact scheme.
-/
import Verif.Proofs.CHNoisy
import Verif.Proofs.CHField
import Verif.Proofs.RoundStep
import Verif.Proofs.RK

set_option linter.unusedSectionVars false
set_option linter.unusedVariables false

namespace Madg
open Spec

/-! ### Runs in any arithmetic -/

section
variable {A K C : Type} [DecidableEq A] [Arith K]
variable {sz : A → Int} {N : Int} {scratch : A → Prop} {P : C → Prop} {loc : C → Int}
  {F : K → (C → K) → C → K} {rhs : A → A → K → Host A K} {I : Mem A K → Prop} (hR : RhsOn I sz N scratch P loc F rhs)
  {w : RKArr A} (hw : w.Ok sz N scratch)
include hR hw

theorem rk3_chain (dts : List K) : ∀ (t : K) (m : Mem A K), I m → ∃ m', Det sz (rk3Run N rhs w t dts) m m' ∧
    Chain (fun m dt m' => ∃ t, Rk3Post P loc F w t dt m m') dts m m' := by
  induction dts with
  | nil => intro t m _; exact ⟨m, det_nil sz m, rfl⟩
  | cons dt dts ih =>
    intro t m hI
    obtain ⟨m1, d1, q, I1, -⟩ := rk3_onA hR hw t dt m hI
    obtain ⟨m2, d2, ch⟩ := ih (t + dt) m1 I1
    exact ⟨m2, det_append d1 d2, m1, ⟨t, q⟩, ch⟩

variable [LinearOrder K]

omit hR in
theorem err_detA (m : Mem A K) : ∃ r, CDet sz (Cmd.reduceOf max 0 (ode23ErrBodies (K := K) N w)) m r m := by
  refine ⟨_, CDet.reduce max_assoc max_comm (irange 0 N) _
    (fun i => fabs (m w.res i - (7 / 24 * m w.k1 i + 1 / 4 * m w.k2 i + 1 / 3 * m w.k3 i + 1 / 8 * m w.k4 i))) 0 m ?_⟩
  intro i hi
  simp only [mem_irange] at hi
  have hb : ∀ a ∈ [w.sol, w.res, w.k1, w.k2, w.k3, w.k4, w.stage], InB sz a i := fun a ha => by
    rw [InB, hw.size a ha]; exact hi
  simp only [Prog.monad_bind]
  rw [run_bind_ok (run_rd (hb _ (by simp)) m), run_bind_ok (run_rd (hb _ (by simp)) m),
    run_bind_ok (run_rd (hb _ (by simp)) m), run_bind_ok (run_rd (hb _ (by simp)) m),
    run_bind_ok (run_rd (hb _ (by simp)) m)]
  rfl

theorem ode23_chain (hF : ∀ t s, F t = F s) (dts : List K) : ∀ (st : Ode23 K) (t : K) (m : Mem A K), I m →
    (st.first = false → ∀ c, P c → m w.k4 (loc c) = F t (inner loc m w.sol) c) →
    ∃ st' es m', CDet sz (ode23Run N rhs w st t dts) m (st', es) m' ∧
      Chain (fun m dt m' => ∃ t, Ode23Post P loc F w t dt m m') dts m m' := by
  induction dts with
  | nil => intro st t m _ _; exact ⟨st, [], m, CDet.ret _ _, rfl⟩
  | cons dt dts ih =>
    intro st t m hI hk
    obtain ⟨m1, d1, q, I1⟩ := ode23_onA hR hw st.first t dt m hI hk
    obtain ⟨r, dr⟩ := err_detA (K := K) hw m1
    obtain ⟨st', es, m2, d2, ch⟩ := ih ⟨false, stdMax 0 (dt * r)⟩ (t + dt) m1 I1
      (fun _ c hc => by rw [q.k4 c hc, hF (t + 1 * dt) (t + dt)])
    exact ⟨st', _, m2, CDet.bind ((CDet.ofHost d1).bind (dr.bind (CDet.ret _ _))) (CDet.bind d2 (CDet.ret _ _)), m1, ⟨t, q⟩, ch⟩

end

/-! ### From rational to real numbers -/

/-- Parameters as real numbers. -/
noncomputable def Spec.realParams (p : CHParams ℚ) : CHParams ℝ := ⟨p.eps2, p.sigma, p.m⟩

theorem chField3_cast (p : CHParams ℚ) (dx : ℚ) (bx bY bz : BCType) (ni nj nk : Int) (t : ℚ) (s : ℝ) (y : Int × Int × Int → ℚ)
    (c : Int × Int × Int) : ((chField3 p dx bx bY bz ni nj nk t y c : ℚ) : ℝ) =
      chField3 (realParams p) dx bx bY bz ni nj nk s (fun c => (y c : ℝ)) c := by
  simp only [chField3, chRhs3, bih3, lap3, d2x, d2y, d2z, ext3, realParams]
  push_cast
  ring

theorem NoisyCells.congr {C : Type} {T : RK3c} {S : Finset C} {F G : (C → ℝ) → C → ℝ}
    (h : ∀ u : C → ℝ, ∀ c ∈ S, F u c = G u c) {η dt : ℝ} {c c' : C → ℝ} (n : NoisyCells T S F η dt c c') :
    NoisyCells T S G η dt c c' := by
  obtain ⟨y2, y3, e2, e3, e4⟩ := n
  refine ⟨y2, y3, fun s hs => ?_, fun s hs => ?_, fun s hs => ?_⟩
  · rw [← h _ s hs]; exact e2 s hs
  · rw [← h _ s hs, ← h _ s hs]; exact e3 s hs
  · rw [← h _ s hs, ← h _ s hs, ← h _ s hs]; exact e4 s hs

/-- Steps below the stability limit move a state of size `M` by at most `M / 4`. -/
theorem rhs_small {K : Type} [Field K] [LinearOrder K] [IsStrictOrderedRing K] {p : CHParams K} (he : 0 < p.eps2) {M dx dt : K}
    (hM : 2 ≤ M) (h0 : 0 < dx) (h1 : dx ≤ 1)
    (h2 : dx * (16 * ((13 * (M ^ 2 + 1) + |p.sigma| * (M + |p.m|)) / (4608 * p.eps2) + 1)) ≤ 1)
    (hdt : 0 ≤ dt) (hst : 4608 * p.eps2 * dt ≤ dx ^ 4) : dt * rhsSize p dx M ≤ M / 4 := by
  obtain ⟨q, hq⟩ : ∃ q, q = 1 / (4608 * p.eps2) := ⟨_, rfl⟩
  have q0 : 0 < q := by rw [hq]; positivity
  have d : dt ≤ q * dx ^ 4 := by
    rw [hq, div_mul_eq_mul_div, one_mul, le_div_iff₀ (by positivity)]; linarith
  have e : (13 * (M ^ 2 + 1) + |p.sigma| * (M + |p.m|)) / (4608 * p.eps2) = q * (13 * (M ^ 2 + 1) + |p.sigma| * (M + |p.m|)) := by
    rw [hq]; ring
  rw [e] at h2
  have s0 : 0 ≤ |p.sigma| * (M + |p.m|) := by positivity
  have dx2 : dx ^ 2 ≤ dx := by nlinarith
  have dx4 : dx ^ 4 ≤ dx := by
    calc dx ^ 4 = dx ^ 2 * dx ^ 2 := by ring
      _ ≤ 1 * dx := mul_le_mul (by linarith) dx2 (by positivity) (by norm_num)
      _ = dx := one_mul _
  have a1 : dt * (|p.eps2| * (144 * M / dx ^ 4)) ≤ M / 32 := by
    rw [abs_of_pos he]
    have : dt * (p.eps2 * (144 * M / dx ^ 4)) = (4608 * p.eps2 * dt) * (M / 32) / dx ^ 4 := by field_simp; ring
    rw [this, div_le_iff₀ (by positivity)]
    calc 4608 * p.eps2 * dt * (M / 32) ≤ dx ^ 4 * (M / 32) := mul_le_mul_of_nonneg_right hst (by linarith)
      _ = M / 32 * dx ^ 4 := by ring
  have a2 : dt * (13 * (M ^ 3 + M) / dx ^ 2) ≤ dx * (q * (13 * (M ^ 2 + 1))) * M := by
    have e2 : (q * dx ^ 4) * (13 * (M ^ 3 + M) / dx ^ 2) = dx ^ 2 * (q * (13 * (M ^ 2 + 1)) * M) := by field_simp
    calc dt * (13 * (M ^ 3 + M) / dx ^ 2) ≤ (q * dx ^ 4) * (13 * (M ^ 3 + M) / dx ^ 2) :=
          mul_le_mul_of_nonneg_right d (by positivity)
      _ = dx ^ 2 * (q * (13 * (M ^ 2 + 1)) * M) := e2
      _ ≤ dx * (q * (13 * (M ^ 2 + 1)) * M) := mul_le_mul_of_nonneg_right dx2 (by positivity)
      _ = _ := by ring
  have a3 : dt * (|p.sigma| * (M + |p.m|)) ≤ dx * (q * (|p.sigma| * (M + |p.m|))) * M := by
    calc dt * (|p.sigma| * (M + |p.m|)) ≤ (q * dx ^ 4) * (|p.sigma| * (M + |p.m|)) := mul_le_mul_of_nonneg_right d s0
      _ ≤ (q * dx) * (|p.sigma| * (M + |p.m|)) := by gcongr
      _ = dx * (q * (|p.sigma| * (M + |p.m|))) * 1 := by ring
      _ ≤ dx * (q * (|p.sigma| * (M + |p.m|))) * M := mul_le_mul_of_nonneg_left (by linarith) (by positivity)
  have a4 : dx * (q * (13 * (M ^ 2 + 1))) * M + dx * (q * (|p.sigma| * (M + |p.m|))) * M ≤ M / 16 := by
    have : dx * (q * (13 * (M ^ 2 + 1))) * M + dx * (q * (|p.sigma| * (M + |p.m|))) * M =
        (dx * (16 * (q * (13 * (M ^ 2 + 1) + |p.sigma| * (M + |p.m|)) + 1)) - 16 * dx) * (M / 16) := by ring
    rw [this]
    have : (dx * (16 * (q * (13 * (M ^ 2 + 1) + |p.sigma| * (M + |p.m|)) + 1)) - 16 * dx) * (M / 16) ≤ 1 * (M / 16) :=
      mul_le_mul_of_nonneg_right (by linarith) (by linarith)
    linarith
  unfold rhsSize
  rw [mul_add, mul_add]
  linarith

section
variable {A : Type} [DecidableEq A] {rnd : ℚ → ℚ} {un τ : ℚ} (hr : Rounds rnd un τ)
  {ni nj nk : Int} (hi : 1 ≤ ni) (hj : 1 ≤ nj) (hk : 1 ≤ nk) {M : ℚ} (hM2 : 2 ≤ M)
  {p : CHParams (Fl rnd)} {dx : Fl rnd} (hdx : Spacing τ dx.val) {v : Int} (h34 : (1 + un) ^ 34 ≤ 5 / 4)
  {loc : Int × Int × Int → Int} {w : RKArr A} {t dt : Fl rnd} {m m' : Mem A (Fl rnd)} (hdt : 2 * τ ≤ dt.val)
  (hd : dt.val * rhsSize (valuesOf p) dx.val M ≤ M / 4)
  (b1 : ∀ c, In3 ni nj nk c → |(m w.sol (loc c)).val| ≤ M / 2)
include hr hi hj hk hM2 hdx h34 hdt hd b1

/-- An error bound in rational numbers, in real numbers. -/
theorem cast_err {e : ℚ} {x y : ℝ} {x' : ℚ} {y' : ℚ} (h : |x' - y'| ≤ ((1 + un) ^ 34 - 1) * (2 * M + |dt.val| * rhsSize (valuesOf p) dx.val M))
    (hx : x = x') (hy : (y' : ℝ) = y) : |x - y| ≤ ((9 / 4 * ((1 + un) ^ 34 - 1) : ℚ) : ℝ) * (M : ℝ) := by
  have ρ := sub_nonneg.2 (Near.one_le hr.unit.1 34)
  have d0 : |dt.val| = dt.val := abs_of_nonneg (by have := hr.tiny.1; linarith)
  rw [d0] at h
  rw [hx, ← hy, ← Rat.cast_sub, ← Rat.cast_abs, ← Rat.cast_mul, Rat.cast_le]
  refine h.trans ?_
  calc ((1 + un) ^ 34 - 1) * (2 * M + dt.val * rhsSize (valuesOf p) dx.val M) ≤ ((1 + un) ^ 34 - 1) * (2 * M + M / 4) :=
        mul_le_mul_of_nonneg_left (by linarith) ρ
    _ = 9 / 4 * ((1 + un) ^ 34 - 1) * M := by ring

theorem rk3_noisy (q : Rk3Post (In3 ni nj nk) loc (chFieldA v p dx .periodic .periodic .periodic ni nj nk) w t dt m m') :
    NoisyCells ssp3c (cells3 ni nj nk) (chField3 (realParams (valuesOf p)) (dx.val : ℝ) .periodic .periodic .periodic ni nj nk 0)
      (((9 / 4 * ((1 + un) ^ 34 - 1) : ℚ) : ℝ) * (M : ℝ)) (dt.val : ℝ) (fun c => ((m w.sol (loc c)).val : ℝ))
      (fun c => ((m' w.sol (loc c)).val : ℝ)) := by
  have hM : 1 ≤ M := by linarith
  have d0 : |dt.val| = dt.val := abs_of_nonneg (by have := hr.tiny.1; linarith)
  obtain ⟨x1, x2, x3⟩ := rk3_stages hr hi hj hk hM hdx h34 hM2 (by rw [d0]; exact hdt) (by rw [d0]; exact hd) q b1
  obtain ⟨y2, y3, e2, e3, e4⟩ := rk3_errors hr hi hj hk hM hdx (by rw [d0]; exact hdt) q x1 x2 x3
  refine ⟨fun c => (y2 c : ℝ), fun c => (y3 c : ℝ), fun c hc => ?_, fun c hc => ?_, fun c hc => ?_⟩
  · have h := (mem_cells3 ni nj nk c).1 hc
    refine cast_err hr hi hj hk hM2 hdx h34 hdt hd b1 (e := 0) (e2 c h) rfl ?_
    push_cast
    rw [chField3_cast _ _ _ _ _ _ _ _ 0 0]
    simp only [ssp3c, one_mul]
  · have h := (mem_cells3 ni nj nk c).1 hc
    refine cast_err hr hi hj hk hM2 hdx h34 hdt hd b1 (e := 0) (e3 c h) rfl ?_
    push_cast
    rw [chField3_cast _ _ _ _ _ _ _ _ 0 0, chField3_cast _ _ _ _ _ _ _ _ 0 0]
    simp only [ssp3c]
  · have h := (mem_cells3 ni nj nk c).1 hc
    refine cast_err hr hi hj hk hM2 hdx h34 hdt hd b1 (e := 0) (e4 c h) rfl ?_
    push_cast
    rw [chField3_cast _ _ _ _ _ _ _ _ 0 0, chField3_cast _ _ _ _ _ _ _ _ 0 0, chField3_cast _ _ _ _ _ _ _ _ 0 0]
    simp only [ssp3c]

theorem ode23_noisy (q : Ode23Post (In3 ni nj nk) loc (chFieldA v p dx .periodic .periodic .periodic ni nj nk) w t dt m m') :
    NoisyCells bs3c (cells3 ni nj nk) (chField3 (realParams (valuesOf p)) (dx.val : ℝ) .periodic .periodic .periodic ni nj nk 0)
      (((9 / 4 * ((1 + un) ^ 34 - 1) : ℚ) : ℝ) * (M : ℝ)) (dt.val : ℝ) (fun c => ((m w.sol (loc c)).val : ℝ))
      (fun c => ((m' w.sol (loc c)).val : ℝ)) := by
  have hM : 1 ≤ M := by linarith
  have d0 : |dt.val| = dt.val := abs_of_nonneg (by have := hr.tiny.1; linarith)
  obtain ⟨x1, x2, x3⟩ := ode23_stages hr hi hj hk hM hdx h34 hM2 (by rw [d0]; exact hdt) (by rw [d0]; exact hd) q b1
  obtain ⟨y2, y3, e2, e3, e4⟩ := ode23_errors hr hi hj hk hM hdx (by rw [d0]; exact hdt) q x1 x2 x3
  refine ⟨fun c => (y2 c : ℝ), fun c => (y3 c : ℝ), fun c hc => ?_, fun c hc => ?_, fun c hc => ?_⟩
  · have h := (mem_cells3 ni nj nk c).1 hc
    refine cast_err hr hi hj hk hM2 hdx h34 hdt hd b1 (e := 0) (e2 c h) rfl ?_
    push_cast
    rw [chField3_cast _ _ _ _ _ _ _ _ 0 0]
    simp only [bs3c]
  · have h := (mem_cells3 ni nj nk c).1 hc
    refine cast_err hr hi hj hk hM2 hdx h34 hdt hd b1 (e := 0) (e3 c h) rfl ?_
    push_cast
    rw [chField3_cast _ _ _ _ _ _ _ _ 0 0, chField3_cast _ _ _ _ _ _ _ _ 0 0]
    simp only [bs3c]
  · have h := (mem_cells3 ni nj nk c).1 hc
    refine cast_err hr hi hj hk hM2 hdx h34 hdt hd b1 (e := 0) (e4 c h) rfl ?_
    push_cast
    rw [chField3_cast _ _ _ _ _ _ _ _ 0 0, chField3_cast _ _ _ _ _ _ _ _ 0 0, chField3_cast _ _ _ _ _ _ _ _ 0 0]
    simp only [bs3c]

end

/-! ### Convergence -/

/-- As `field3_converges`, for chains of noisy steps. -/
theorem chain3_converges (p : CHParams ℝ) (he : 0 < p.eps2) {L : Fin 3 → ℝ} (hL : ∀ a, 0 < L a) {T : ℝ}
    {u : ℝ → (Fin 3 → ℝ) → ℝ} (hu : CHSolution p L T u) (a : ℝ) (ha : 0 ≤ a) :
    ∃ (Cst h0 : ℝ) (Mx : ℕ), 0 ≤ Cst ∧ 0 < h0 ∧ 2 ≤ Mx ∧ ∀ (ni nj nk : Int) (hi : 1 ≤ ni) (hj : 1 ≤ nj) (hk : 1 ≤ nk)
      (dx : ℝ) (hdx1 : dx ≤ h0) (e0 : ni * dx = L 0) (e1 : nj * dx = L 1) (e2 : nk * dx = L 2) (o : Fin 3 → ℝ)
      (Tb : RK3c) (Q : (Int × Int × Int → ℝ) → ℝ → (Int × Int × Int → ℝ) → Prop) (ρ : ℝ) (hρ : 0 ≤ ρ) (dts : List ℝ)
      (hQ : ∀ dt ∈ dts, ∀ c c', (∀ s ∈ cells3 ni nj nk, |c s| ≤ (Mx : ℝ) / 2) → Q c dt c' →
        NoisyCells Tb (cells3 ni nj nk) (chField3 p dx .periodic .periodic .periodic ni nj nk 0) (ρ * Mx) dt c c')
      (hdts : ∀ dt ∈ dts, 0 ≤ dt ∧ 4608 * p.eps2 * dt ≤ dx ^ 4) (hsum : dts.sum ≤ T) (hlen : dts.length * ρ ≤ a * dx ^ 2)
      (y y' : Int × Int × Int → ℝ) (hy : ∀ c, In3 ni nj nk c → |y c - u 0 (centre3 o dx c.1 c.2.1 c.2.2)| ≤ a * dx ^ 2)
      (hch : Chain Q dts y y'),
      (sum3 ni nj nk fun i j k => (y' (i, j, k) - u dts.sum (centre3 o dx i j k)) ^ 2) ≤
        ((ni * nj * nk : Int) : ℝ) * (Cst * dx ^ 2) ^ 2 := by
  obtain ⟨Cst, h0, Mx, c0, h00, M2, H⟩ := chain_converges p he hL hu a (L 0 * L 1 * L 2) ha
    (mul_nonneg (mul_nonneg (hL 0).le (hL 1).le) (hL 2).le)
  refine ⟨Cst, h0, Mx, c0, h00, M2, ?_⟩
  intro ni nj nk hi hj hk dx hdx1 e0 e1 e2 o Tb Q ρ hρ dts hQ hdts hsum hlen y y' hy hch
  have hdx : 0 < dx := by
    have h := hL 0
    rw [← e0] at h
    exact (mul_pos_iff_of_pos_left (by exact_mod_cast (by omega : (0 : Int) < ni))).1 h
  have hc := card_cells3 ni nj nk (by omega) (by omega) (by omega)
  let F : (Int × Int × Int → ℝ) → Int × Int × Int → ℝ := fun v =>
    plap3 ni nj nk dx (fun c => v c ^ 3 - v c) - p.eps2 • plap3 ni nj nk dx (plap3 ni nj nk dx v) - p.sigma • (v - fun _ => p.m)
  have key := H _ (cells3 ni nj nk) (plap3 ni nj nk dx) (fun c => centre3 o dx c.1 c.2.1 c.2.2) dx hdx hdx1
    (plap3_sym hi hj hk dx) (plap3_bnd hi hj hk hdx)
    (by rw [hc, ← e0, ← e1, ← e2]; exact le_of_eq (by ring)) F (fun _ => rfl)
    (fun t h1 h2 c hcm => by
      have hp := hu.periodic t h1 h2
      have ex : pext3 ni nj nk (fun c => u t (centre3 o dx c.1 c.2.1 c.2.2)) = fun i j k => u t (centre3 o dx i j k) := by
        funext i j k
        exact wrap3_sample hp e0 e1 e2 o i j k
      have := chField3_abs p dx 0 _ (fun c => u t (centre3 o dx c.1 c.2.1 c.2.2)) (fun _ _ => rfl) hi hj hk c
        ((mem_cells3 ni nj nk c).1 hcm)
      refine this.symm.trans ?_
      show chRhs3 p dx (pext3 ni nj nk fun c => u t (centre3 o dx c.1 c.2.1 c.2.2)) c.1 c.2.1 c.2.2 = _
      rw [ex]
      unfold chRhs3 bih3
      rw [lap3_sample, lap3_sample o dx (dlap dx (u t)), lap3_sample o dx (fun y => u t y ^ 3 - u t y)])
    Tb Q ρ hρ dts
    (fun dt hdt c c' hc hq => (hQ dt hdt c c' hc hq).congr fun v c hcm =>
      chField3_abs p dx 0 v v (fun _ _ => rfl) hi hj hk c ((mem_cells3 ni nj nk c).1 hcm))
    hdts hsum hlen y y' (fun c hcm => hy c ((mem_cells3 ni nj nk c).1 hcm)) hch
  have sq := pow_le_pow_left₀ (Real.sqrt_nonneg _) key 2
  rw [Real.sq_sqrt (Finset.sum_nonneg fun _ _ => sq_nonneg _), sum_cells3] at sq
  refine (le_of_eq (sum3_congr fun i j k h1 h2 h3 => rfl)).trans (sq.trans (le_of_eq ?_))
  rw [mul_pow, mul_pow, Real.sq_sqrt (Nat.cast_nonneg _), hc]; push_cast; ring

/-! ### Pieces of the final theorem -/

namespace Convg
variable {A : Type} [DecidableEq A] {rnd : ℚ → ℚ} {u τ : ℚ}

/-- Largest spacing for which steps below the stability limit move a state of size `M` by at most `M / 4`. -/
noncomputable def limit (p : CHParams ℚ) (M : ℕ) : ℝ :=
  min 1 (((1 / (16 * ((13 * ((M : ℚ) ^ 2 + 1) + |p.sigma| * (M + |p.m|)) / (4608 * p.eps2) + 1)) : ℚ)) : ℝ)

theorem limit_pos {p : CHParams ℚ} (he : 0 < p.eps2) {M : ℕ} : 0 < limit p M := by
  unfold limit
  refine lt_min one_pos ?_
  have : (0 : ℚ) < 1 / (16 * ((13 * ((M : ℚ) ^ 2 + 1) + |p.sigma| * (M + |p.m|)) / (4608 * p.eps2) + 1)) := by positivity
  exact_mod_cast this

theorem small {p : CHParams ℚ} (he : 0 < p.eps2) {M : ℕ} (hM : 2 ≤ M) {dx dt : ℚ} (hs : Spacing τ dx) (hd : (dx : ℝ) ≤ limit p M)
    (hdt : 2 * τ ≤ dt ∧ 4608 * p.eps2 * dt ≤ dx ^ 4) (hr : Rounds rnd u τ) : dt * rhsSize p dx M ≤ (M : ℚ) / 4 := by
  have h1 : (dx : ℝ) ≤ ((1 : ℚ) : ℝ) := by rw [Rat.cast_one]; exact hd.trans (min_le_left _ _)
  have h2 := hd.trans (min_le_right _ _)
  rw [Rat.cast_le] at h1 h2
  rw [le_div_iff₀ (by positivity)] at h2
  exact rhs_small he (by exact_mod_cast hM) hs.1 h1 h2 (by have := hr.tiny.1; linarith [hdt.1]) hdt.2

theorem noise_nonneg (hr : Rounds rnd u τ) : (0 : ℝ) ≤ ((9 / 4 * ((1 + u) ^ 34 - 1) : ℚ) : ℝ) := by
  have ρ := sub_nonneg.2 (Near.one_le hr.unit.1 34)
  have : 0 ≤ 9 / 4 * ((1 + u) ^ 34 - 1) := by linarith
  exact_mod_cast this

theorem noise_small (hr : Rounds rnd u τ) {a : ℝ} (ha : 0 ≤ a) {dx : ℚ} (hd : (dx : ℝ) ≤ 1 / (4 * (a + 1))) (hs : Spacing τ dx)
    {dts : List (Fl rnd)} {dt : Fl rnd} (hlen : (dts.length : ℝ) * ((1 + (u : ℝ)) ^ 34 - 1) ≤ a * (dx : ℝ) ^ 2) (hmem : dt ∈ dts) :
    (1 + u) ^ 34 ≤ 5 / 4 := by
  have ρ : (0 : ℝ) ≤ (1 + (u : ℝ)) ^ 34 - 1 := by
    have := sub_nonneg.2 (Near.one_le hr.unit.1 34)
    exact_mod_cast this
  have l1 : (1 : ℝ) ≤ dts.length := by exact_mod_cast List.length_pos_of_mem hmem
  have d0 : (0 : ℝ) < dx := by exact_mod_cast hs.1
  have dd : (dx : ℝ) * (4 * (a + 1)) ≤ 1 := by rwa [le_div_iff₀ (by positivity)] at hd
  have d1 : (dx : ℝ) ≤ 1 := by nlinarith
  have h1 : (1 + (u : ℝ)) ^ 34 - 1 ≤ a * (dx : ℝ) ^ 2 := le_trans (le_mul_of_one_le_left ρ l1) hlen
  have h2 : a * (dx : ℝ) ^ 2 ≤ 1 / 4 := by
    have : (dx : ℝ) ^ 2 ≤ dx := by nlinarith
    have := mul_le_mul_of_nonneg_left this ha
    linarith
  have h3 : (1 + (u : ℝ)) ^ 34 ≤ 5 / 4 := by linarith
  have : (((1 + u) ^ 34 : ℚ) : ℝ) ≤ ((5 / 4 : ℚ) : ℝ) := by push_cast; exact h3
  exact_mod_cast this

theorem length_ok {a dx : ℝ} {n : ℕ} (h : (n : ℝ) * ((1 + (u : ℝ)) ^ 34 - 1) ≤ a * dx ^ 2) :
    (n : ℝ) * ((9 / 4 * ((1 + u) ^ 34 - 1) : ℚ) : ℝ) ≤ 9 / 4 * a * dx ^ 2 := by
  push_cast
  linarith

theorem step_ok (hr : Rounds rnd u τ) {p : CHParams ℚ} {dx dt : ℚ} (h : 2 * τ ≤ dt ∧ 4608 * p.eps2 * dt ≤ dx ^ 4) :
    (0 : ℝ) ≤ dt ∧ 4608 * (realParams p).eps2 * (dt : ℝ) ≤ (dx : ℝ) ^ 4 := by
  refine ⟨?_, ?_⟩
  · have : 0 ≤ dt := by have := hr.tiny.1; linarith [h.1]
    exact_mod_cast this
  · have := h.2
    simp only [realParams]
    exact_mod_cast this

theorem arrays {sz : A → Int} {N : Int} {w : RKArr A} {l1 l2 l3 l4 : A}
    (hnd : [w.sol, w.res, w.k1, w.k2, w.k3, w.k4, w.stage, l1, l2, l3, l4].Nodup)
    (hsz : ∀ a ∈ [w.sol, w.res, w.k1, w.k2, w.k3, w.k4, w.stage, l1, l2, l3, l4], sz a = N) :
    w.Ok sz N (· ∈ [l1, l2, l3, l4]) ∧ [l1, l2, l3, l4].Nodup ∧ ∀ a ∈ [l1, l2, l3, l4], sz a = N := by
  have h : ([w.sol, w.res, w.k1, w.k2, w.k3, w.k4, w.stage] ++ [l1, l2, l3, l4]).Nodup := hnd
  rw [List.nodup_append] at h
  refine ⟨⟨h.1, fun a ha => hsz a ?_, fun a ha hb => h.2.2 a ha a hb rfl⟩, h.2.1, fun a ha => hsz a ?_⟩
  · exact List.mem_append_left [l1, l2, l3, l4] ha
  · exact List.mem_append_right [w.sol, w.res, w.k1, w.k2, w.k3, w.k4, w.stage] ha

theorem chain_mem {U D : Type} {Q : U → D → U → Prop} : ∀ {ds : List D} {c c' : U}, Chain Q ds c c' →
    Chain (fun c d c' => d ∈ ds ∧ Q c d c') ds c c'
  | [], _, _, e => e
  | d :: ds, _, _, ⟨c1, q, r⟩ => by
    refine ⟨c1, ⟨List.mem_cons_self, q⟩, ?_⟩
    have := Chain.map (Q' := fun c e c' => e ∈ d :: ds ∧ Q c e c') id id
      (fun c e c' h => ⟨List.mem_cons_of_mem _ h.1, h.2⟩) (chain_mem r)
    rwa [List.map_id] at this

/-- A chain of steps of stored states as a chain of steps of fields of real numbers. -/
theorem chain_cast {C : Type} {loc : C → Int} {a : A} {Q : Fl rnd → Fl rnd → Mem A (Fl rnd) → Mem A (Fl rnd) → Prop}
    {dts : List (Fl rnd)} {m m' : Mem A (Fl rnd)} (h : Chain (fun m dt m' => ∃ t, Q t dt m m') dts m m') :
    Chain (fun c dt c' => ∃ dtf ∈ dts, dt = (dtf.val : ℝ) ∧ ∃ m m' t, Q t dtf m m' ∧
      c = (fun c : C => ((m a (loc c)).val : ℝ)) ∧ c' = (fun c : C => ((m' a (loc c)).val : ℝ)))
      (dts.map fun d => (d.val : ℝ)) (fun c => ((m a (loc c)).val : ℝ)) (fun c => ((m' a (loc c)).val : ℝ)) :=
  Chain.map (fun m : Mem A (Fl rnd) => fun c : C => ((m a (loc c)).val : ℝ)) (fun d : Fl rnd => (d.val : ℝ))
    (fun m1 d m2 ⟨hd, t, q⟩ => ⟨d, hd, rfl, m1, m2, t, q, rfl, rfl⟩) (chain_mem h)

end Convg

end Madg
