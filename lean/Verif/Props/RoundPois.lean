/-
C104: explicit runs of the Poisson problem in rounded arithmetic end at the solution, cell by cell.
-/
import Verif.Proofs.RoundPois
import Verif.Proofs.RunSizes
import Verif.Props.RunEachPois
import Verif.Props.MGPoisson
import Verif.Props.InitRound

set_option linter.unusedSectionVars false

namespace Madg
open Spec

section
variable {K : Type} [Field K] [LinearOrder K] [IsStrictOrderedRing K]

/-- C104. The solution of the discrete Poisson problem is bounded by the height of the domain. -/
theorem C104_maximum (dx : K) (hdx : 0 < dx) (nx ny nz : Int) (hn : 1 ≤ nx ∧ 1 ≤ ny ∧ 1 ≤ nz) (e : Int → Int → Int → K)
    (he : ∀ i j k, |e i j k| ≤ 1) (us : Int × Int × Int → K) (hus : PoisSolves dx nx ny nz e us) (c : Int × Int × Int)
    (hc : In3 nx ny nz c) : |us c| ≤ 1 + 3 / 8 * (((nz : K) + 1) * dx) ^ 2 :=
  pois_bound hdx hn.1 hn.2.1 hn.2.2 he hus c hc

/-- C104. A field whose residual is at most `a` in every cell is within `a H² / 8` of the solution in every cell, where
`H = (nz + 1) dx` is the distance between the two planes of prescribed values. -/
theorem C104_certificate (dx : K) (hdx : 0 < dx) (nx ny nz : Int) (hn : 1 ≤ nx ∧ 1 ≤ ny ∧ 1 ≤ nz) (e : Int → Int → Int → K)
    (us : Int × Int × Int → K) (hus : PoisSolves dx nx ny nz e us) (v : Int → Int → Int → K) (a : K)
    (hv : ∀ i j k, In3 nx ny nz (i, j, k) → |poisRhs dx nx ny nz e v i j k| ≤ a) (i j k : Int) (hc : In3 nx ny nz (i, j, k)) :
    |v i j k - us (i, j, k)| ≤ a * (((nz : K) + 1) * dx) ^ 2 / 8 := by
  have d2 : 0 < dx ^ 2 := by positivity
  have hz := nk1_pos (K := K) hn.2.2
  obtain ⟨y, hy⟩ : ∃ y : Fld K, ∀ i j k, y (i, j, k) = v i j k - us (i, j, k) := ⟨fun c => v c.1 c.2.1 c.2.2 - us c, fun _ _ _ => rfl⟩
  have hw : ∀ c, In3 nx ny nz c → |lap3 dx (extDirichlet nx ny nz (fun _ _ _ => 0) fun i j k => y (i, j, k)) c.1 c.2.1 c.2.2| ≤ a := by
    intro c hc
    have h := poisRhs_sub dx nx ny nz e (fun c => v c.1 c.2.1 c.2.2) us c
    rw [hus _ _ _ hc.1 hc.2.1 hc.2.2, sub_zero] at h
    have e1 : (fun c => v c.1 c.2.1 c.2.2) - us = y := by funext ⟨i, j, k⟩; exact (hy i j k).symm
    rw [e1] at h
    have h2 := hv c.1 c.2.1 c.2.2 hc
    rw [h] at h2
    exact h2
  rw [← hy]
  have key : ∀ b, 0 < b → a ≤ b → |y (i, j, k)| ≤ b * (((nz : K) + 1) * dx) ^ 2 / 8 := by
    intro b hb hab
    have := max_principle hdx hn.1 hn.2.1 hn.2.2 (bd := fun _ _ _ => 0) (v := y) (a := b) (b := 0) hb le_rfl
      (fun _ _ _ _ => by simp) (fun c hc => (hw c hc).trans hab) (i, j, k) hc
    refine this.trans ?_
    have h := mul_le_mul_of_nonneg_left (psi_le (K := K) nz k) (show 0 ≤ b * dx ^ 2 / 2 by positivity)
    dsimp only
    rw [zero_add]
    refine h.trans (le_of_eq ?_)
    ring
  rcases lt_or_ge 0 a with ha | ha
  · exact key a ha le_rfl
  · have a0 : a = 0 := le_antisymm ha ((abs_nonneg _).trans (hv i j k hc))
    rw [a0, zero_mul, zero_div]
    by_contra hx
    rw [not_le] at hx
    have hH : 0 < (((nz : K) + 1) * dx) ^ 2 := by positivity
    have := key (4 * |y (i, j, k)| / (((nz : K) + 1) * dx) ^ 2) (by positivity) (ha.trans (by positivity))
    rw [div_mul_cancel₀ _ hH.ne'] at this
    linarith

end

/-- C104. On a uniform grid whose x and y lengths are multiples of `2π` the solution of the discrete problem differs from
`sin x cos y cos z` by at most `5/128 H² dx²` in every cell. -/
theorem C104_discretization_error (dx xb yb zb : ℝ) (hdx : 0 < dx) (hdx1 : dx ≤ 1) (nx ny nz : Int)
    (hn : 1 ≤ nx ∧ 1 ≤ ny ∧ 1 ≤ nz)
    (px py : ℤ) (hpx : (nx : ℝ) * dx = px * (2 * Real.pi)) (hpy : (ny : ℝ) * dx = py * (2 * Real.pi)) (e : Int → Int → Int → ℝ)
    (he : ∀ i j k : Int, (-1 ≤ i ∧ i < nx + 1) → (-1 ≤ j ∧ j < ny + 1) → (-1 ≤ k ∧ k < nz + 1) → e i j k =
      Real.sin (xb + (i + 1 / 2) * dx) * Real.cos (yb + (j + 1 / 2) * dx) * Real.cos (zb + (k + 1 / 2) * dx))
    (us : Int × Int × Int → ℝ) (hus : PoisSolves dx nx ny nz e us) (i j k : Int) (hc : In3 nx ny nz (i, j, k)) :
    |e i j k - us (i, j, k)| ≤ 5 / 128 * (((nz : ℝ) + 1) * dx) ^ 2 * dx ^ 2 := by
  have tr := pois_truncation dx xb yb zb hdx px py hn.1 hn.2.1 hpx hpy e e he (fun _ _ _ _ _ _ => rfl)
  refine (C104_certificate dx hdx nx ny nz hn e us hus e (5 / 16 * dx ^ 2)
    (fun i j k h => (tr i j k h.1 h.2.1 h.2.2).2 hdx1) i j k hc).trans (le_of_eq ?_)
  ring

section
variable {K : Type} [Field K] [LinearOrder K] [IsStrictOrderedRing K] {rnd : K → K} {u τ : K}

/-- C104. In rounded arithmetic both explicit methods, started from the zero field, come within rounding error of the solution in
every cell: no bound on the states is assumed.  Steps are between `dmin` and `dx² / 6`; `H` is the distance between the two planes
of prescribed values. -/
theorem C104_converges (hr : Rounds rnd u τ) (sn cs : Fl rnd → Fl rnd) (hsn : ∀ x, |(sn x).val| ≤ 1) (hcs : ∀ x, |(cs x).val| ≤ 1)
    (xb yb zb dx : Fl rnd) (h0 : 0 < dx.val) (h1 : dx.val ≤ 1) (hτ : 256 * τ ≤ dx.val ^ 2) (nx ny nz : Int)
    (hn : 1 ≤ nx ∧ 1 ≤ ny ∧ 1 ≤ nz) (us : Int × Int × Int → K)
    (hus : PoisSolves dx.val nx ny nz (prescribed sn cs xb yb zb dx) us)
    (H : K) (hH : H = ((nz : K) + 1) * dx.val) (dmin : K) (hm0 : 0 < dmin) (hκ : 120 * ((1 + u) ^ 34 - 1) * H ^ 2 ≤ dmin)
    (t d : Nat → Fl rnd) (s : Nat → Int × Int × Int → Fl rnd)
    (hs : s = iterates (ssprk3Method fun _ => poisOps sn cs xb yb zb dx nx ny nz).step t d (fun _ => 0) ∨
      s = iterates (fun _ dt y c => y c + dt * bs23Slope (poisOps sn cs xb yb zb dx nx ny nz) dt y c) t d (fun _ => 0))
    (n : Nat) (hd : ∀ i, i < n → dmin ≤ (d i).val ∧ (d i).val ≤ dx.val ^ 2 / 6) (hl : 0 ≤ (d n).val ∧ (d n).val ≤ dx.val ^ 2 / 6)
    (hmin : dmin ≤ dx.val ^ 2 / 6) (c : Int × Int × Int) (hc : In3 nx ny nz c) :
    |(s (n + 1) c).val - us c| ≤ (1 + 3 / 8 * H ^ 2) *
      (2 * (1 - 8 * dmin / (3 * H ^ 2)) ^ n + 120 * ((1 + u) ^ 34 - 1) * H ^ 2 / dmin) := by
  have hB := C104_maximum dx.val h0 nx ny nz hn _ (prescribed_le hsn hcs) us hus
  rw [← hH] at hB
  have b1 : (1 : K) ≤ 1 + 3 / 8 * H ^ 2 := le_add_of_nonneg_right (by positivity)
  obtain ⟨Φ, hΦ, rfl⟩ : ∃ Φ, (Φ = (ssprk3Method fun _ => poisOps sn cs xb yb zb dx nx ny nz).step ∨
      Φ = fun _ dt y c => y c + dt * bs23Slope (poisOps sn cs xb yb zb dx nx ny nz) dt y c) ∧ s = iterates Φ t d (fun _ => 0) := by
    rcases hs with h | h
    · exact ⟨_, .inl rfl, h⟩
    · exact ⟨_, .inr rfl, h⟩
  have main := pois_run_err_last hr hsn hcs h0 h1 hτ hn.1 hn.2.1 hn.2.2 hus hΦ b1 hB hm0 hmin (hH ▸ hκ) (u0 := fun _ => 0)
    (fun c hc => by
      show |(0 : K) - us c| ≤ _
      rw [zero_sub, abs_neg]
      exact hB c hc) (t := t) n hd hl c hc
  rw [← hH] at main
  refine main.trans ?_
  have hz := nk1_pos (K := K) hn.2.2
  have n1 : (1 : K) ≤ (nz : K) + 1 := by
    have : (1 : K) ≤ nz := by exact_mod_cast hn.2.2
    linarith
  have hHd : dx.val ^ 2 ≤ H ^ 2 := by
    rw [hH, mul_pow]
    exact le_mul_of_one_le_left (by positivity) (one_le_pow₀ n1)
  have d2 : 0 < dx.val ^ 2 := by positivity
  have hHp : 0 < 3 * H ^ 2 := by linarith
  have fac : ∀ x : K, 0 ≤ x → x ≤ dx.val ^ 2 / 6 → 0 ≤ 1 - 8 * x / (3 * H ^ 2) ∧ 1 - 8 * x / (3 * H ^ 2) ≤ 1 := by
    intro x x0 x1
    have : 8 * x / (3 * H ^ 2) ≤ 1 := by rw [div_le_one hHp]; linarith
    have : 0 ≤ 8 * x / (3 * H ^ 2) := by positivity
    exact ⟨by linarith, by linarith⟩
  have pr : ∏ i ∈ Finset.range n, (1 - 8 * (d i).val / (3 * H ^ 2)) ≤ (1 - 8 * dmin / (3 * H ^ 2)) ^ n := by
    calc ∏ i ∈ Finset.range n, (1 - 8 * (d i).val / (3 * H ^ 2))
        ≤ ∏ i ∈ Finset.range n, (1 - 8 * dmin / (3 * H ^ 2)) := by
          refine Finset.prod_le_prod (fun i hi => ?_) fun i hi => ?_
          · have := hd i (Finset.mem_range.1 hi)
            exact (fac _ (by linarith) this.2).1
          · have := (hd i (Finset.mem_range.1 hi)).1
            have : 8 * dmin / (3 * H ^ 2) ≤ 8 * (d i).val / (3 * H ^ 2) := div_le_div_of_nonneg_right (by linarith) hHp.le
            linarith
      _ = _ := by rw [Finset.prod_const, Finset.card_range]
  rw [Finset.prod_range_succ]
  have p0 : 0 ≤ ∏ i ∈ Finset.range n, (1 - 8 * (d i).val / (3 * H ^ 2)) :=
    Finset.prod_nonneg fun i hi => by
      have := hd i (Finset.mem_range.1 hi)
      exact (fac _ (by linarith) this.2).1
  have p1 : (∏ i ∈ Finset.range n, (1 - 8 * (d i).val / (3 * H ^ 2))) * (1 - 8 * (d n).val / (3 * H ^ 2)) ≤
      (1 - 8 * dmin / (3 * H ^ 2)) ^ n := (mul_le_of_le_one_right p0 (fac _ hl.1 hl.2).2).trans pr
  have p2 := mul_le_mul_of_nonneg_right p1 (show 0 ≤ 1 + 3 / 8 * H ^ 2 by linarith)
  have e1 : 120 * (1 + 3 / 8 * H ^ 2) * ((1 + u) ^ 34 - 1) * H ^ 2 / dmin =
      (1 + 3 / 8 * H ^ 2) * (120 * ((1 + u) ^ 34 - 1) * H ^ 2 / dmin) := by ring
  rw [e1]
  linarith

end

section
variable {A K : Type} [DecidableEq A] [Field K] [LinearOrder K] [IsStrictOrderedRing K] {rnd : K → K} {u τ : K} [Pow (Fl rnd) (Fl rnd)]
  (hr : Rounds rnd u τ) (hsg : ∀ x, 0 ≤ x → 0 ≤ rnd x) (sz : A → Int) (E : Env (Fl rnd)) (o : RunOpts (Fl rnd)) (w : ProgArr A)
  (heq : o.sel.equation = "poisson") (hcfl : o.useCfl = false) (hlf : o.logFreq ≠ 0)
  (hms : 0 < o.maxSteps) (hM : o.maxSteps < 2147483648)
  (hbx : o.sel.bcx ∈ ["periodic", "neumann", "dirichlet"]) (hby : o.sel.bcy ∈ ["periodic", "neumann", "dirichlet"])
  (hbz : o.sel.bcz ∈ ["periodic", "neumann", "dirichlet"]) (hdim : o.sel.dimension = 3)
  (hn : 2 ≤ o.nx ∧ 2 ≤ o.ny ∧ 2 ≤ o.nz) (hw : ArraysPois sz w o.nx o.ny o.nz)
  (hsn : ∀ x, |(E.sn x).val| ≤ 1) (hcs : ∀ x, |(E.cs x).val| ≤ 1)
  (dx : Fl rnd) (hdx : dx = (o.box.xend - o.box.xbeg) / (o.nx : Fl rnd)) (h0 : 0 < dx.val) (h1 : dx.val ≤ 1)
  (hτ : 256 * τ ≤ dx.val ^ 2) (us : Int × Int × Int → K)
  (hus : PoisSolves dx.val o.nx o.ny o.nz (prescribed E.sn E.cs o.box.xbeg o.box.ybeg o.box.zbeg dx) us)
  (H : K) (hH : H = ((o.nz : K) + 1) * dx.val)
  (hT : 0 ≤ o.tfinal.val) (hTu : u * (o.tfinal.val + 1) ≤ dx.val ^ 2 / 64) (ht : o.t0 + o.dt0 ≤ o.tfinal)
  (W : Nat) (hW : W = max (Nat.log 10 o.maxSteps + 1) 4) (m : Mem A (Fl rnd)) (fuel : Nat) (hf1 : 1 ≤ fuel) (hf2 : o.maxSteps ≤ fuel)
include hr hsg heq hcfl hlf hms hM hbx hby hbz hdim hn hw hsn hcs hdx h0 h1 hτ hus hH hT hTu ht hW hf1 hf2

/-- C104. Every execution of a fresh run of the Poisson problem with `rk3ssp` in rounded arithmetic, with a step of at most `dx² / 8`:
the state in every file is close, in every cell, to the solution of the discrete problem; the distance decreases geometrically with
the number of steps until only rounding errors are left.  The condition on the final time says that rounding the time is harmless. -/
theorem C104_rk3ssp (hint : o.sel.integrator = "rk3ssp") (hd0 : 0 < o.dt0.val) (hd1 : o.dt0.val ≤ dx.val ^ 2 / 8)
    (hκ : 120 * ((1 + u) ^ 34 - 1) * H ^ 2 ≤ o.dt0.val) :
    AllEnd sz (program E o none w fuel) m fun res _ => ∃ (N : Nat) (t d : Nat → Fl rnd) (s : Nat → Int × Int × Int → Fl rnd)
      (st : Status (Fl rnd)) (rows : List (List (String × Fl rnd))), 1 ≤ N ∧
      res = .done (savedFiles 0 o.saveEvery.natAbs t d (stepName o.base W)
          (fun k => vts3 E.io o.box.xbeg o.box.ybeg o.box.zbeg dx o.nx o.ny o.nz (s (k + 1))) N ++
        [(stepName (finalBase o.base) W (0 + N), vts3 E.io o.box.xbeg o.box.ybeg o.box.zbeg dx o.nx o.ny o.nz (s N) st)]) rows ∧
      ∀ n, n < N → ∀ c, In3 o.nx o.ny o.nz c → |(s (n + 1) c).val - us c| ≤ (1 + 3 / 8 * H ^ 2) *
        (2 * (1 - 8 * o.dt0.val / (3 * H ^ 2)) ^ n + 120 * ((1 + u) ^ 34 - 1) * H ^ 2 / o.dt0.val) := by
  have d2 : 0 < dx.val ^ 2 := by positivity
  have d21 : dx.val ^ 2 ≤ 1 := pow_le_one₀ h0.le h1
  refine (C103_rk3ssp sz E o w heq hcfl hlf hms hM hbx hby hbz hdim hn hw hint dx hdx W hW m fuel hf1
    (by dsimp only; omega)).mono fun res _ h => ?_
  obtain ⟨N, t, d, p, r, e, v, s, hm, hend, hs, hp, -, hres⟩ := h
  refine ⟨N, t, d, s, _, _, hend.1, hres, ?_⟩
  have sizes := run_sizes hr hsg hm hend.1 (fun k hk hl => hend.2.2 (k + 1) (by omega) hk (.inl hl)) hd0.le
    (hi := dx.val ^ 2 / 8) ⟨le_rfl, hd1⟩ hT ht (fun k hk hall => by
      rw [(hp k (by omega)).2 (fun hl => hend.2.2 (k + 1) (by omega) hk (.inl hl))]
      exact hall k le_rfl)
  intro n hn' c hc
  have last := last_step_ok hr hT d2.le d21 hTu
  refine C104_converges hr E.sn E.cs hsn hcs _ _ _ dx h0 h1 hτ o.nx o.ny o.nz ⟨by omega, by omega, by omega⟩ us hus H hH o.dt0.val hd0 hκ
    t d s (.inl hs) n (fun i hi => ?_) ?_ (by linarith) c hc
  · have := sizes.1 i (by omega)
    exact ⟨this.1, this.2.trans (by linarith)⟩
  · by_cases hnN : n + 1 < N
    · have := sizes.1 n hnN
      exact ⟨hd0.le.trans this.1, this.2.trans (by linarith)⟩
    · obtain rfl : n = N - 1 := by omega
      exact ⟨sizes.2.1, sizes.2.2.trans last⟩

/-- C104. The same for the adaptive integrator: whatever sizes its control chooses between the smallest and the largest step, neither
larger than `dx² / 8`. -/
theorem C104_ode23 (hint : o.sel.integrator = "ode23") (hz : ∀ a ∈ [w.rk.k1, w.rk.k2, w.rk.k3, w.rk.k4], ∀ n, m a n = 0)
    (dmin : K) (hm0 : 0 < dmin) (hm1 : dmin ≤ o.dt0.val) (hm2 : dmin ≤ o.minStep.val) (hmm : o.minStep.val ≤ o.maxStep.val)
    (hd1 : o.dt0.val ≤ dx.val ^ 2 / 8) (hd2 : o.maxStep.val ≤ dx.val ^ 2 / 8)
    (hκ : 120 * ((1 + u) ^ 34 - 1) * H ^ 2 ≤ dmin) :
    AllEnd sz (program E o none w fuel) m fun res _ => ∃ (N : Nat) (t d : Nat → Fl rnd) (s : Nat → Int × Int × Int → Fl rnd)
      (st : Status (Fl rnd)) (rows : List (List (String × Fl rnd))), 1 ≤ N ∧
      res = .done (savedFiles 0 o.saveEvery.natAbs t d (stepName o.base W)
          (fun k => vts3 E.io o.box.xbeg o.box.ybeg o.box.zbeg dx o.nx o.ny o.nz (s (k + 1))) N ++
        [(stepName (finalBase o.base) W (0 + N), vts3 E.io o.box.xbeg o.box.ybeg o.box.zbeg dx o.nx o.ny o.nz (s N) st)]) rows ∧
      ∀ n, n < N → ∀ c, In3 o.nx o.ny o.nz c → |(s (n + 1) c).val - us c| ≤ (1 + 3 / 8 * H ^ 2) *
        (2 * (1 - 8 * dmin / (3 * H ^ 2)) ^ n + 120 * ((1 + u) ^ 34 - 1) * H ^ 2 / dmin) := by
  have d2 : 0 < dx.val ^ 2 := by positivity
  have d21 : dx.val ^ 2 ≤ 1 := pow_le_one₀ h0.le h1
  refine (C103_ode23 sz E o w heq hcfl hlf hms hM hbx hby hbz hdim hn hw hint dx hdx W hW m hz fuel hf1
    (by dsimp only; omega)).mono fun res _ h => ?_
  obtain ⟨N, t, d, p, r, e, v, s, hm, hend, hs, hp, -, hres⟩ := h
  refine ⟨N, t, d, s, _, _, hend.1, hres, ?_⟩
  have sizes := run_sizes hr hsg hm hend.1 (fun k hk hl => hend.2.2 (k + 1) (by omega) hk (.inl hl)) hm0.le
    (hi := dx.val ^ 2 / 8) ⟨hm1, hd1⟩ hT ht (fun k hk hall => by
      rw [(hp k (by omega)).2 (fun hl => hend.2.2 (k + 1) (by omega) hk (.inl hl))]
      by_cases k3 : 3 ≤ k
      · have := C102_limits (fun x : Fl rnd => lt_irrefl x) o.errTol o.minStep o.maxStep
          (not_lt.2 (show o.minStep ≤ o.maxStep from hmm)) d e k k3
        have a : o.minStep ≤ proposalAny o.errTol o.minStep o.maxStep d e k := not_lt.1 this.1
        have b : proposalAny o.errTol o.minStep o.maxStep d e k ≤ o.maxStep := not_lt.1 this.2
        exact ⟨hm2.trans a, le_trans (show _ ≤ o.maxStep.val from b) hd2⟩
      · have : (bs23Method (poisOps E.sn E.cs o.box.xbeg o.box.ybeg o.box.zbeg dx o.nx o.ny o.nz) (triples o.nx o.ny o.nz)
            ((o.nx + 4) * (o.ny + 4) * (o.nz + 4) - o.nx * o.ny * o.nz).toNat o.errTol o.minStep o.maxStep).prop d e k = d k := by
          show proposalAny o.errTol o.minStep o.maxStep d e k = d k
          unfold proposalAny
          exact if_pos (by omega)
        rw [this]
        exact hall k le_rfl)
  intro n hn' c hc
  have last := last_step_ok hr hT d2.le d21 hTu
  refine C104_converges hr E.sn E.cs hsn hcs _ _ _ dx h0 h1 hτ o.nx o.ny o.nz ⟨by omega, by omega, by omega⟩ us hus H hH dmin hm0 hκ
    t d s (.inr hs) n (fun i hi => ?_) ?_ (by linarith) c hc
  · have := sizes.1 i (by omega)
    exact ⟨this.1, this.2.trans (by linarith)⟩
  · by_cases hnN : n + 1 < N
    · have := sizes.1 n hnN
      exact ⟨hm0.le.trans this.1, this.2.trans (by linarith)⟩
    · obtain rfl : n = N - 1 := by omega
      exact ⟨sizes.2.1, sizes.2.2.trans last⟩

end

/-- The run of `boxOpts` for the Poisson problem in steps of 1/8 (test data). -/
def poisBox (integrator : String) : RunOpts (Fl binary64.round) :=
  { boxOpts with
    sel := ⟨3, "periodic", "neumann", "dirichlet", "poisson", integrator, false⟩
    dt0 := ⟨1 / 8⟩
    minStep := ⟨1 / 8⟩
    maxStep := ⟨1 / 8⟩ }

/-- The hypotheses are met in double precision: all states of every execution with either integrator, the step size of the second one
being held at 1/8 except for the last step. -/
example [Pow (Fl binary64.round) (Fl binary64.round)] (E : Env (Fl binary64.round)) (hsn : ∀ x, |(E.sn x).val| ≤ 1)
    (hcs : ∀ x, |(E.cs x).val| ≤ 1) (integrator : String) (hint : integrator = "rk3ssp" ∨ integrator = "ode23")
    (m : Mem _ (Fl binary64.round)) (hz : ∀ a n, m a n = 0) :
    ∃ us : Int × Int × Int → ℚ, PoisSolves 1 2 2 3 (prescribed E.sn E.cs 0 0 0 ⟨1⟩) us ∧
    AllEnd (demoSize 392 252) (program E (poisBox integrator) none demoArr 100) m fun res _ =>
      ∃ (N : Nat) (s : Nat → Int × Int × Int → Fl binary64.round) (files : List (Text × VtsFile)) (name : Text)
        (st : Status (Fl binary64.round)) (rows : List (List (String × Fl binary64.round))),
        1 ≤ N ∧ res = .done (files ++ [(name, vts3 E.io 0 0 0 ⟨1⟩ 2 2 3 (s N) st)]) rows ∧
        ∀ n, n < N → ∀ c, In3 2 2 3 c → |(s (n + 1) c).val - us c| ≤ 14 * (47 / 48) ^ n + 1 / 10 ^ 9 := by
  obtain ⟨us, hus, -⟩ := C80_unique_solution (K := ℚ) 1 one_ne_zero 2 2 3 (by decide) (by decide) (by decide)
    (prescribed E.sn E.cs 0 0 0 ⟨1⟩)
  refine ⟨us, hus, ?_⟩
  obtain ⟨u, τ, hr, hu, hτ⟩ : ∃ u τ : ℚ, Rounds binary64.round u τ ∧ u = 1 / 2 ^ 53 ∧ τ ≤ 1 / 1024 :=
    ⟨_, _, binary64_rounds, rfl, tiny64.2⟩
  have hκ : 120 * ((1 + u) ^ 34 - 1) * (4 : ℚ) ^ 2 ≤ 1 / 8 := by rw [hu]; norm_num
  have hfin : ∀ n : Nat, (1 + 3 / 8 * (4 : ℚ) ^ 2) * (2 * (1 - 8 * (1 / 8) / (3 * 4 ^ 2)) ^ n + 120 * ((1 + u) ^ 34 - 1) * 4 ^ 2 / (1 / 8)) ≤
      14 * (47 / 48) ^ n + 1 / 10 ^ 9 := by
    intro n
    have a : 120 * ((1 + u) ^ 34 - 1) * (4 : ℚ) ^ 2 / (1 / 8) ≤ 1 / 10 ^ 10 := by rw [hu]; norm_num
    have b : (1 : ℚ) - 8 * (1 / 8) / (3 * 4 ^ 2) = 47 / 48 := by norm_num
    rw [b]
    norm_num at a ⊢
    linarith
  rcases hint with rfl | rfl
  · refine (C104_rk3ssp hr (fun x => binary64.round_nonneg) (demoSize 392 252) E (poisBox "rk3ssp") demoArr rfl rfl (by decide) (by decide)
      (by decide) (by simp [poisBox]) (by simp [poisBox]) (by simp [poisBox]) rfl (by decide)
      ⟨by simp [demoArr], by simp [demoArr, demoSize, poisBox, boxOpts], by simp [demoArr, demoSize, poisBox, boxOpts]⟩ hsn hcs ⟨1⟩
      (by decide +kernel) (by norm_num) (by norm_num) (by linarith) us hus 4 (by norm_num [poisBox, boxOpts]) (by norm_num [poisBox, boxOpts])
      (by rw [hu]; norm_num [poisBox, boxOpts]) (by decide +kernel) 4 (by simp only [poisBox, boxOpts]; decide +kernel) m 100 (by decide)
      (by decide) rfl (by norm_num [poisBox]) (by norm_num [poisBox]) hκ).mono fun res _ h => ?_
    obtain ⟨N, t, d, s, st, rows, h1, h2, h3⟩ := h
    exact ⟨N, s, _, _, st, rows, h1, h2, fun n hn c hc => (h3 n hn c hc).trans (hfin n)⟩
  · refine (C104_ode23 hr (fun x => binary64.round_nonneg) (demoSize 392 252) E (poisBox "ode23") demoArr rfl rfl (by decide) (by decide)
      (by decide) (by simp [poisBox]) (by simp [poisBox]) (by simp [poisBox]) rfl (by decide)
      ⟨by simp [demoArr], by simp [demoArr, demoSize, poisBox, boxOpts], by simp [demoArr, demoSize, poisBox, boxOpts]⟩ hsn hcs ⟨1⟩
      (by decide +kernel) (by norm_num) (by norm_num) (by linarith) us hus 4 (by norm_num [poisBox, boxOpts]) (by norm_num [poisBox, boxOpts])
      (by rw [hu]; norm_num [poisBox, boxOpts]) (by decide +kernel) 4 (by simp only [poisBox, boxOpts]; decide +kernel) m 100 (by decide)
      (by decide) rfl (fun a _ n => hz a n) (1 / 8) (by norm_num) le_rfl le_rfl le_rfl (by norm_num [poisBox]) (by norm_num [poisBox])
      hκ).mono fun res _ h => ?_
    obtain ⟨N, t, d, s, st, rows, h1, h2, h3⟩ := h
    exact ⟨N, s, _, _, st, rows, h1, h2, fun n hn c hc => (h3 n hn c hc).trans (hfin n)⟩

/-- A grid that meets the hypotheses of `C104_maximum` and `C104_certificate`: the zero field is within `3 / 8 H²` of the solution. -/
example : ∃ us : Int × Int × Int → ℚ, PoisSolves (1 / 4) 4 5 3 (fun i _ _ => if i = 0 then 1 else 0) us ∧
    ∀ c, In3 4 5 3 c → |us c| ≤ 11 / 8 := by
  obtain ⟨us, hus, -⟩ := C80_unique_solution (K := ℚ) (1 / 4) (by norm_num) 4 5 3 (by decide) (by decide) (by decide)
    (fun i _ _ => if i = 0 then 1 else 0)
  refine ⟨us, hus, fun c hc => ?_⟩
  have := C104_maximum (1 / 4 : ℚ) (by norm_num) 4 5 3 (by decide) (fun i _ _ => if i = 0 then 1 else 0)
    (fun i j k => by split <;> norm_num) us hus c hc
  norm_num at this ⊢
  exact this

/-- Grids that meet the hypotheses of `C104_discretization_error`. -/
example (us : Int × Int × Int → ℝ) (hus : PoisSolves (Real.pi / 4) 8 8 4 (fun i j k =>
      Real.sin (0 + (i + 1 / 2) * (Real.pi / 4)) * Real.cos (0 + (j + 1 / 2) * (Real.pi / 4)) * Real.cos (0 + (k + 1 / 2) * (Real.pi / 4))) us)
    (i j k : Int) (hc : In3 8 8 4 (i, j, k)) :
    |Real.sin (0 + (i + 1 / 2) * (Real.pi / 4)) * Real.cos (0 + (j + 1 / 2) * (Real.pi / 4)) * Real.cos (0 + (k + 1 / 2) * (Real.pi / 4)) -
      us (i, j, k)| ≤ 5 / 128 * ((((4 : Int) : ℝ) + 1) * (Real.pi / 4)) ^ 2 * (Real.pi / 4) ^ 2 :=
  C104_discretization_error (Real.pi / 4) 0 0 0 (by positivity) (by linarith [Real.pi_le_four]) 8 8 4 (by decide) 1 1 (by push_cast; ring)
    (by push_cast; ring) _ (fun _ _ _ _ _ _ => rfl) us hus i j k hc

end Madg
