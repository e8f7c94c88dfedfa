/-
C107: explicit runs of the Cahn–Hilliard equation in floating point do not overflow and approximate the solution.
-/
import Verif.Proofs.IeeeChain
import Verif.Props.RoundConv
import Verif.Props.Ieee
import Verif.Props.Resume
import Verif.Proofs.IeeeTimes

set_option linter.unusedSectionVars false
set_option linter.unusedVariables false

namespace Madg
open Spec

/-- C107. For every smooth periodic solution of the Cahn–Hilliard equation with rational parameters there are constants such that in
every floating-point format with NaN, infinities and signed zeros, on every fine enough periodic grid, with any right-hand-side kernel
variant, from ordinary numbers within `a dx²` of the initial state, with steps `dt ≤ dx⁴ / (4608 ε²)`, so many that the accumulated
rounding `k ((1+u)^34 - 1)` is at most `a dx²`, and with the largest number of the format above `B / dx⁴`: every state of either
explicit method consists of ordinary numbers, its root-mean-square distance from the solution is at most a constant times `dx²`, and
its error at each single cell is at most a constant times `√dx`. No bound on the states is assumed. -/
theorem C107_converges (p : CHParams ℚ) (he : 0 < p.eps2) (L : Fin 3 → ℝ) (hL : ∀ a, 0 < L a) (T : ℝ)
    (U : ℝ → (Fin 3 → ℝ) → ℝ) (hU : CHSolution (realParams p) L T U) (a : ℝ) (ha : 0 ≤ a) :
    ∃ (Cst h0 : ℝ) (B : ℚ), 0 ≤ Cst ∧ 0 < h0 ∧ ∀ (F : IeeeFmt) (hp : 4 ≤ F.prec) (hmin : F.emin ≤ 0) (hm : 8 ≤ F.emax) (u τ : ℚ)
      (hr : Rounds F.toFloatFmt.round u τ) (nx ny nz : Int) (hn : 1 ≤ nx ∧ 1 ≤ ny ∧ 1 ≤ nz) (v : Int)
      (pf : CHParams (Ieee F)) (ho : Ordinary pf.eps2 ∧ Ordinary pf.sigma ∧ Ordinary pf.m)
      (hpf : value pf.eps2 = p.eps2 ∧ value pf.sigma = p.sigma ∧ value pf.m = p.m)
      (dx : Ieee F) (hdx : Ordinary dx) (hs : Spacing τ (value dx)) (hh : (value dx : ℝ) ≤ h0) (hB : B < 2 ^ F.emax * value dx ^ 4)
      (e0 : nx * (value dx : ℝ) = L 0) (e1 : ny * (value dx : ℝ) = L 1) (e2 : nz * (value dx : ℝ) = L 2) (o : Fin 3 → ℝ)
      (t d : Nat → Ieee F) (y : Int × Int × Int → Ieee F) (s : Nat → Int × Int × Int → Ieee F)
      (hy : s = iterates (ssprk3Method (rhsOps3 v pf dx .periodic .periodic .periodic nx ny nz)).step t d y ∨
        s = iterates (fun _ dt y c => y c + dt * bs23Slope (rhsOps3 v pf dx .periodic .periodic .periodic nx ny nz 0) dt y c) t d y)
      (k : Nat) (hd : ∀ i, i < k → Ordinary (d i) ∧ 2 * τ ≤ value (d i) ∧ 4608 * p.eps2 * value (d i) ≤ value dx ^ 4)
      (hsum : ∑ i ∈ Finset.range k, (value (d i) : ℝ) ≤ T) (hlen : (k : ℝ) * ((1 + (u : ℝ)) ^ 34 - 1) ≤ a * (value dx : ℝ) ^ 2)
      (hini : ∀ c, In3 nx ny nz c → Ordinary (y c) ∧ |(value (y c) : ℝ) - U 0 (centre3 o (value dx) c.1 c.2.1 c.2.2)| ≤ a * (value dx : ℝ) ^ 2),
      (∀ c, In3 nx ny nz c → Ordinary (s k c)) ∧
      (sum3 nx ny nz fun i j l =>
        ((value (s k (i, j, l)) : ℝ) - U (∑ i ∈ Finset.range k, (value (d i) : ℝ)) (centre3 o (value dx) i j l)) ^ 2) ≤
        ((nx * ny * nz : Int) : ℝ) * (Cst * (value dx : ℝ) ^ 2) ^ 2 ∧
      ∀ c, In3 nx ny nz c → ((value (s k c) : ℝ) - U (∑ i ∈ Finset.range k, (value (d i) : ℝ)) (centre3 o (value dx) c.1 c.2.1 c.2.2)) ^ 2 ≤
        Cst ^ 2 * (L 0 * L 1 * L 2) * (value dx : ℝ) := by
  obtain ⟨Cst, h0, M, c0, h00, hM, H⟩ := ieee_chain_converges p he hL hU (9 / 4 * a) (by positivity)
  obtain ⟨E, hE⟩ : ∃ E, E = 1 + |p.eps2| + |p.sigma| + |p.m| := ⟨_, rfl⟩
  have q1 := abs_nonneg p.eps2
  have q2 := abs_nonneg p.sigma
  have q3 := abs_nonneg p.m
  have E1 : 1 ≤ E := by linarith
  refine ⟨Cst, min (min h0 (4608 * (p.eps2 : ℝ))) (min (1 / (4 * (a + 1))) (Convg.limit p M)), 2 ^ 33 * (E * ((M : ℚ) ^ 3 + E)), c0, ?_, ?_⟩
  · have : (0 : ℝ) < p.eps2 := by exact_mod_cast he
    exact lt_min (lt_min h00 (by positivity)) (lt_min (by positivity) (Convg.limit_pos he))
  intro F hp hmin hm u τ hr nx ny nz hn v pf ho hpf dx hdx hs hh hB e0 e1 e2 o t d y s hy k hd hsum hlen hini
  have hd1 := (hh.trans (min_le_left _ _)).trans (min_le_left _ _)
  have hd4 := (hh.trans (min_le_left _ _)).trans (min_le_right _ _)
  have hd2 := (hh.trans (min_le_right _ _)).trans (min_le_left _ _)
  have hd3 := (hh.trans (min_le_right _ _)).trans (min_le_right _ _)
  have x0 : 0 < value dx := hs.1
  have x1 : value dx ≤ 1 := by
    have : (value dx : ℝ) ≤ ((1 : ℚ) : ℝ) := by rw [Rat.cast_one]; exact hd3.trans (min_le_left _ _)
    exact_mod_cast this
  have x4 : value dx ^ 4 ≤ 4608 * p.eps2 := by
    have : value dx ≤ 4608 * p.eps2 := by exact_mod_cast hd4
    exact (pow_le_of_le_one x0.le x1 (by norm_num)).trans this
  have hX : 64 * chSize E M (value dx) < (2 : ℚ) ^ F.emax := by
    unfold chSize
    have e : 64 * (2 ^ 27 * (E * ((M : ℚ) ^ 3 + E) / value dx ^ 4)) = 2 ^ 33 * (E * ((M : ℚ) ^ 3 + E)) / value dx ^ 4 := by ring
    rw [e, div_lt_iff₀ (by positivity)]
    exact hB
  obtain ⟨p', hp'⟩ : ∃ p' : CHParams (Fl F.toFloatFmt.round), p' = ⟨asFl pf.eps2, asFl pf.sigma, asFl pf.m⟩ := ⟨_, rfl⟩
  have vp : valuesOf p' = p := by
    rw [hp']
    show (⟨value pf.eps2, value pf.sigma, value pf.m⟩ : CHParams ℚ) = p
    rw [hpf.1, hpf.2.1, hpf.2.2]
  have s1 : Same pf.eps2 p'.eps2 E := by rw [hp']; exact ⟨ho.1, rfl, by show |value pf.eps2| ≤ E; rw [hpf.1]; linarith⟩
  have s2 : Same pf.sigma p'.sigma E := by rw [hp']; exact ⟨ho.2.1, rfl, by show |value pf.sigma| ≤ E; rw [hpf.2.1]; linarith⟩
  have s3 : Same pf.m p'.m E := by rw [hp']; exact ⟨ho.2.2, rfl, by show |value pf.m| ≤ E; rw [hpf.2.2]; linarith⟩
  have sx : Same dx (asFl dx) 1 := ⟨hdx, rfl, by show |value dx| ≤ 1; rw [abs_of_pos x0]; exact x1⟩
  have noisy : ∃ Tb : RK3c, ∀ i, i < k → (∀ c, In3 nx ny nz c → Ordinary (s i c) ∧ |(value (s i c) : ℝ)| ≤ (M : ℝ) / 2) →
      (∀ c, In3 nx ny nz c → Ordinary (s (i + 1) c)) ∧
      NoisyCells Tb (cells3 nx ny nz) (chField3 (realParams p) (value dx : ℝ) .periodic .periodic .periodic nx ny nz 0)
        (((9 / 4 * ((1 + u) ^ 34 - 1) : ℚ) : ℝ) * M) (value (d i) : ℝ) (fun c => (value (s i c) : ℝ)) fun c => (value (s (i + 1) c) : ℝ) := by
    have h34 : ∀ i, i < k → (1 + u) ^ 34 ≤ 5 / 4 := fun i hi =>
      Convg.noise_small hr ha hd2 hs (dts := (List.range k).map fun i => asFl (d i)) (dt := asFl (d i))
        (by rw [List.length_map, List.length_range]; exact hlen) (List.mem_map.2 ⟨i, List.mem_range.2 hi, rfl⟩)
    have hsm : ∀ i, i < k → value (d i) * rhsSize p (value dx) M ≤ (M : ℚ) / 4 := fun i hi => Convg.small he hM hs hd3 (hd i hi).2 hr
    have hdt : ∀ i, i < k → Same (d i) (asFl (d i)) 1 := fun i hi => by
      obtain ⟨g1, g2, g3⟩ := hd i hi
      have g0 : 0 ≤ value (d i) := by have := hr.tiny.1; linarith
      refine ⟨g1, rfl, ?_⟩
      show |value (d i)| ≤ 1
      rw [abs_of_nonneg g0]
      by_contra hlt
      have := mul_lt_mul_of_pos_left (not_le.1 hlt) (show 0 < 4608 * p.eps2 by linarith)
      linarith
    have hst : ∀ x : Int × Int × Int → Ieee F, (∀ c, In3 nx ny nz c → Ordinary (x c) ∧ |(value (x c) : ℝ)| ≤ (M : ℝ) / 2) →
        ∀ c, In3 nx ny nz c → Same (x c) (asFl (x c)) ((M : ℚ) / 2) := fun x hx c hc => by
      refine ⟨(hx c hc).1, rfl, ?_⟩
      have := (hx c hc).2
      have e : ((|value (x c)| : ℚ) : ℝ) ≤ (((M : ℚ) / 2 : ℚ) : ℝ) := by push_cast; exact this
      exact_mod_cast e
    have M2 : (2 : ℚ) ≤ M := by exact_mod_cast hM
    rcases hy with rfl | rfl
    · refine ⟨ssp3c, fun i hi hb => ?_⟩
      have := ieee_rk3_noisy hp hmin hm hr hn.1 hn.2.1 hn.2.2 E1 M2 s1 s2 s3 sx hs hX (v := v) (h34 i hi) (hdt i hi) (hd i hi).2.1
        (by rw [vp]; exact hsm i hi) (hst _ hb) (t i) _ rfl
      rw [vp, chFieldA_eq] at this
      exact_mod_cast this
    · refine ⟨bs3c, fun i hi hb => ?_⟩
      have := ieee_bs23_noisy hp hmin hm hr hn.1 hn.2.1 hn.2.2 E1 M2 s1 s2 s3 sx hs hX (v := v) (h34 i hi) (hdt i hi) (hd i hi).2.1
        (by rw [vp]; exact hsm i hi) (hst _ hb) _ rfl
      rw [vp, chFieldA_eq] at this
      exact_mod_cast this
  have hs0 : s 0 = y := by rcases hy with rfl | rfl <;> rfl
  obtain ⟨Tb, hst⟩ := noisy
  obtain ⟨ord, S⟩ := H F nx ny nz hn.1 hn.2.1 hn.2.2 (value dx) hd1 e0 e1 e2 o Tb _ (Convg.noise_nonneg hr) d s k hst
    (fun i hi => Convg.step_ok hr (hd i hi).2) hsum (Convg.length_ok hlen) (fun c hc => by
      rw [hs0]
      refine ⟨(hini c hc).1, (hini c hc).2.trans ?_⟩
      have : 0 ≤ a * (value dx : ℝ) ^ 2 := by positivity
      linarith)
  refine ⟨ord, S, ?_⟩
  rintro ⟨i, j, l⟩ ⟨h1, h2, h3⟩
  refine (le_sum3 (f := fun i j l => ((value (s k (i, j, l)) : ℝ) - U (∑ i ∈ Finset.range k, (value (d i) : ℝ))
    (centre3 o (value dx) i j l)) ^ 2) (fun _ _ _ => sq_nonneg _) h1 h2 h3).trans (S.trans (le_of_eq ?_))
  rw [← e0, ← e1, ← e2]; push_cast; ring

/-- C107, whole runs. For every smooth periodic solution there are constants such that every execution of a fresh 3D Cahn–Hilliard run
with `rk3ssp` in floating-point arithmetic with overflow, infinities and NaN, whatever the convergence tolerances and the order of the
reductions, ends normally; and if its initial field is within `a dx²` of the initial state of the solution, its step size is at most
`dx⁴ / (6144 ε²)` and the format is precise and wide enough, then every state of the run, and so every number in its files, is ordinary
and close to the solution at a time that differs from the time in the log by rounding only. -/
theorem C107_rk3ssp (p : CHParams ℚ) (he : 0 < p.eps2) (L : Fin 3 → ℝ) (hL : ∀ a, 0 < L a) (T : ℝ)
    (U : ℝ → (Fin 3 → ℝ) → ℝ) (hU : CHSolution (realParams p) L T U) (a : ℝ) (ha : 0 ≤ a) :
    ∃ (Cst h0 : ℝ) (B : ℚ), 0 ≤ Cst ∧ 0 < h0 ∧ ∀ (A : Type) [DecidableEq A] (F : IeeeFmt) [Pow (Ieee F) (Ieee F)]
      (hp : 4 ≤ F.prec) (hmin : F.emin ≤ 0) (hm : 8 ≤ F.emax) (u τ : ℚ) (hr : Rounds F.toFloatFmt.round u τ)
      (sz : A → Int) (E : Env (Ieee F)) (o : RunOpts (Ieee F)) (w : ProgArr A)
      (heq : o.sel.equation = "cahn-hilliard") (hint : o.sel.integrator = "rk3ssp") (hcfl : o.useCfl = false) (hlf : o.logFreq ≠ 0)
      (hms : 0 < o.maxSteps) (hM : o.maxSteps < 2147483648)
      (hbx : o.sel.bcx = "periodic") (hby : o.sel.bcy = "periodic") (hbz : o.sel.bcz = "periodic")
      (hdim : o.sel.dimension = 3) (hv : o.variant = 0 ∨ o.variant = 1 ∨ o.variant = 2)
      (hn : 2 ≤ o.nx ∧ 2 ≤ o.ny ∧ 2 ≤ o.nz) (hw : Arrays3 sz w o.nx o.ny o.nz)
      (ho : Ordinary o.par.eps2 ∧ Ordinary o.par.sigma ∧ Ordinary o.par.m)
      (hpf : value o.par.eps2 = p.eps2 ∧ value o.par.sigma = p.sigma ∧ value o.par.m = p.m)
      (dx : Ieee F) (hdx : dx = (o.box.xend - o.box.xbeg) / (o.nx : Ieee F)) (odx : Ordinary dx) (hs : Spacing τ (value dx))
      (hh : (value dx : ℝ) ≤ h0) (hB : B < 2 ^ F.emax * value dx ^ 4)
      (e0 : o.nx * (value dx : ℝ) = L 0) (e1 : o.ny * (value dx : ℝ) = L 1) (e2 : o.nz * (value dx : ℝ) = L 2) (or : Fin 3 → ℝ)
      (oT : Ordinary o.tfinal) (o0 : Ordinary o.t0) (od : Ordinary o.dt0) (ht0 : 0 ≤ value o.t0) (hT : 0 ≤ value o.tfinal)
      (hd0 : 0 < value o.dt0) (hdτ : 4 * τ * 2 ^ F.prec ≤ value o.dt0) (hd1 : 6144 * p.eps2 * value o.dt0 ≤ value dx ^ 4)
      (hTu : u * (value o.tfinal + 1) ≤ value dx ^ 4 / (64 * (768 * p.eps2))) (ht : o.t0 + o.dt0 < o.tfinal)
      (hXT : 4 * (|value o.t0| + value o.tfinal + 1) < (2 : ℚ) ^ F.emax)
      (hlen : (o.maxSteps : ℝ) * ((1 + (u : ℝ)) ^ 34 - 1) ≤ a * (value dx : ℝ) ^ 2) (δ : ℚ) (hδ : δ = (o.maxSteps + 2) * (u * (value o.tfinal + 2)))
      (hTT : ((value o.tfinal - value o.t0 + δ : ℚ) : ℝ) ≤ T)
      (hini : ∀ c, In3 o.nx o.ny o.nz c → Ordinary (initialAny3 E.draw o.par.m o.nx o.ny o.nz c) ∧
        |(value (initialAny3 E.draw o.par.m o.nx o.ny o.nz c) : ℝ) - U 0 (centre3 or (value dx) c.1 c.2.1 c.2.2)| ≤ a * (value dx : ℝ) ^ 2)
      (W : Nat) (hW : W = max (Nat.log 10 o.maxSteps + 1) 4) (m : Mem A (Ieee F)) (fuel : Nat) (hf1 : 1 ≤ fuel) (hf2 : o.maxSteps ≤ fuel),
      AllEnd sz (program E o none w fuel) m fun res _ => ∃ (N : Nat) (t d r : Nat → Ieee F) (v : Nat → Ieee F × Ieee F × Ieee F)
        (s : Nat → Int × Int × Int → Ieee F) (st : Status (Ieee F)), 1 ≤ N ∧
        res = .done (savedFiles 0 o.saveEvery.natAbs t d (stepName o.base W)
            (fun k => vts3 E.io o.box.xbeg o.box.ybeg o.box.zbeg dx o.nx o.ny o.nz (s (k + 1))) N ++
          [(stepName (finalBase o.base) W (0 + N), vts3 E.io o.box.xbeg o.box.ybeg o.box.zbeg dx o.nx o.ny o.nz (s N) st)])
          (reportRows 0 o.logFreq.natAbs t d r v N) ∧
        ∀ k, k ≤ N → Ordinary (t k) ∧ ∃ T' : ℚ, |T' - (value (t k) - value o.t0)| ≤ δ ∧ (∀ c, In3 o.nx o.ny o.nz c → Ordinary (s k c)) ∧
          (sum3 o.nx o.ny o.nz fun i j l => ((value (s k (i, j, l)) : ℝ) - U T' (centre3 or (value dx) i j l)) ^ 2) ≤
            ((o.nx * o.ny * o.nz : Int) : ℝ) * (Cst * (value dx : ℝ) ^ 2) ^ 2 ∧
          ∀ c, In3 o.nx o.ny o.nz c → ((value (s k c) : ℝ) - U T' (centre3 or (value dx) c.1 c.2.1 c.2.2)) ^ 2 ≤
            Cst ^ 2 * (L 0 * L 1 * L 2) * (value dx : ℝ) := by
  obtain ⟨Cst, h0, B, c0, h00, H⟩ := C107_converges p he L hL T U hU a ha
  have heR : (0 : ℝ) < p.eps2 := by exact_mod_cast he
  refine ⟨Cst, min h0 (min 1 (768 * (p.eps2 : ℝ))), B, c0, lt_min h00 (lt_min one_pos (by positivity)), ?_⟩
  intro A _ F _ hp hmin hm u τ hr sz E o w heq hint hcfl hlf hms hM hbx hby hbz hdim hv hn hw ho hpf dx hdx odx hs hh hB e0 e1 e2 or
    oT o0 od ht0 hT hd0 hdτ hd1 hTu ht hXT hlen δ hδ hTT hini W hW m fuel hf1 hf2
  refine (C102_rk3ssp3 sz E o w heq hcfl hlf hms hM (bx := .periodic) (bY := .periodic) (bz := .periodic) (by rw [hbx]; simp) (by rw [hby]; simp)
    (by rw [hbz]; simp) hdim hv hn hw hint dx hdx W hW m fuel hf1 (by dsimp only; omega)).mono fun res _ h => ?_
  obtain ⟨N, t, d, pr, r, e, v, s, hmar, hend, hs', hpr, -, hres⟩ := h
  refine ⟨N, t, d, r, v, s, _, hend.1, hres, ?_⟩
  have hNM : (N : Int) ≤ o.maxSteps := by
    have hb : (0 : Int) + N ≤ max (o.maxSteps : Int) (0 + 1) := by
      let : Max (Ieee F) := byLess
      exact hend.bound (o := ⟨o.t0, o.tfinal, o.dt0, false, o.maxSteps, 0, o.relTol, o.absTol⟩) (by dsimp only; omega)
    omega
  have x0 : 0 < value dx := hs.1
  have x1 : value dx ≤ 1 := by
    have : (value dx : ℝ) ≤ ((1 : ℚ) : ℝ) := by rw [Rat.cast_one]; exact (hh.trans (min_le_right _ _)).trans (min_le_left _ _)
    exact_mod_cast this
  have x4 : value dx ≤ 768 * p.eps2 := by
    have := (hh.trans (min_le_right _ _)).trans (min_le_right _ _)
    exact_mod_cast this
  obtain ⟨D, hD⟩ : ∃ D, D = value dx ^ 4 / (768 * p.eps2) := ⟨_, rfl⟩
  have D0 : 0 ≤ D := by rw [hD]; positivity
  have D1 : D ≤ 1 := by
    rw [hD, div_le_one (by positivity)]
    exact (pow_le_of_le_one x0.le x1 (by norm_num)).trans x4
  have hlo : value o.dt0 ≤ D / 8 := by
    rw [hD, div_div, le_div_iff₀ (by positivity)]
    linarith
  have hTD : u * (value o.tfinal + 1) ≤ D / 64 := by rw [hD, div_div]; convert hTu using 2; ring
  have last := last_step_ok hr hT D0 D1 hTD
  have times := ieee_times hr (by omega) hmar hend.1 (fun k hk hl => hend.2.2 (k + 1) (by omega) hk (.inl hl)) (hi := D / 8) (by linarith)
    oT o0 od hdτ hd0 ⟨le_rfl, hlo⟩ ht0 hT ht hXT (by linarith) (fun k hk hall => by
      rw [(hpr k (by omega)).2 (fun hl => hend.2.2 (k + 1) (by omega) hk (.inl hl))]
      exact hall k le_rfl)
  have hu := hr.unit.1
  have c00 := mul_nonneg hu (show 0 ≤ value o.tfinal + 2 by linarith)
  have kδ : ∀ k : Nat, k ≤ N → (k : ℚ) * (u * (value o.tfinal + 2)) + 2 * (u * (value o.tfinal + 2)) ≤ δ := by
    intro k hk
    have : (k : ℚ) ≤ o.maxSteps := by exact_mod_cast (show (k : Int) ≤ o.maxSteps by omega)
    rw [hδ, ← add_mul]
    exact mul_le_mul_of_nonneg_right (by linarith) c00
  intro k hk
  obtain ⟨q1, q2, q3⟩ := times.2 k hk
  refine ⟨q1, ∑ i ∈ Finset.range k, value (d i), q3.trans (by linarith [kδ k hk]), ?_⟩
  have hcast : ((∑ i ∈ Finset.range k, value (d i) : ℚ) : ℝ) = ∑ i ∈ Finset.range k, (value (d i) : ℝ) := by push_cast; rfl
  rw [hcast]
  refine H F hp hmin hm u τ hr o.nx o.ny o.nz ⟨by omega, by omega, by omega⟩ o.variant o.par ho hpf dx odx hs (hh.trans (min_le_left _ _)) hB e0 e1 e2
    or t d _ s (.inl hs') k (fun i hi => ?_) ?_ ?_ hini
  · obtain ⟨g1, g2, g3⟩ := times.1 i (by omega)
    refine ⟨g1, g2, ?_⟩
    have g4 : value (d i) ≤ D / 6 := g3.trans (max_le (by linarith) last)
    have e : D / 6 = value dx ^ 4 / (4608 * p.eps2) := by rw [hD, div_div]; congr 1; ring
    rw [e, le_div_iff₀ (by positivity)] at g4
    linarith
  · rw [← hcast]
    refine le_trans ?_ hTT
    have := (abs_le.1 q3).2
    exact_mod_cast (by linarith [kδ k hk] : ∑ i ∈ Finset.range k, value (d i) ≤ value o.tfinal - value o.t0 + δ)
  · refine le_trans (mul_le_mul_of_nonneg_right ?_ ?_) hlen
    · exact_mod_cast (show (k : Int) ≤ o.maxSteps by omega)
    · have := sub_nonneg.2 (Near.one_le hr.unit.1 34)
      exact_mod_cast this

/-! ### The hypotheses are met -/

/-- A format with `4 k + 20` significant bits and magnitudes below `2^e` (test data). -/
def fineIeee (k e : ℕ) : IeeeFmt := ⟨⟨4 * k + 20, -(16 * k + 100 : ℕ)⟩, e⟩

theorem fineIeee_rounds (k e : ℕ) : Rounds (fineIeee k e).toFloatFmt.round (1 / 2 ^ (4 * k + 20)) (1 / 2 ^ (12 * k + 81)) := by
  refine ⟨⟨by positivity, ?_⟩, ⟨by positivity, ?_⟩, fun x => ?_⟩
  · refine one_div_le_one_div_of_le (by norm_num) ?_
    calc (2 : ℚ) = 2 ^ 1 := by norm_num
      _ ≤ _ := pow_le_pow_right₀ (by norm_num) (by omega)
  · refine one_div_le_one_div_of_le (by norm_num) ?_
    calc (20 : ℚ) ≤ 2 ^ 5 := by norm_num
      _ ≤ _ := pow_le_pow_right₀ (by norm_num) (by omega)
  · have h := (fineIeee k e).toFloatFmt.round_rel x
    have e : (2 : ℚ) ^ (fineIeee k e).emin / 2 * 2 ^ (fineIeee k e).prec = 1 / 2 ^ (12 * k + 81) := by
      show (2 : ℚ) ^ (-((16 * k + 100 : ℕ) : ℤ)) / 2 * 2 ^ (4 * k + 20) = _
      rw [zpow_neg, zpow_natCast]
      field_simp
      rw [← pow_add, ← pow_succ]
      congr 1
      omega
    rw [e] at h
    exact h

theorem fineIeee_ord {k e n : ℕ} (hn : n ≤ 16 * k + 100) (he : 1 ≤ e) : Ordinary (.num (1 / 2 ^ n) : Ieee (fineIeee k e)) := by
  refine ⟨by positivity, ⟨1, -(n : ℤ), ?_, ?_, ?_⟩, ?_⟩
  · rw [abs_one]
    show (1 : ℤ) < 2 ^ (4 * k + 20)
    exact one_lt_pow₀ (by norm_num) (by omega)
  · show -((16 * k + 100 : ℕ) : ℤ) ≤ -(n : ℤ)
    omega
  · rw [zpow_neg, zpow_natCast, Int.cast_one, one_mul, one_div]
  · rw [abs_of_pos (by positivity)]
    show (1 : ℚ) / 2 ^ n < 2 ^ (e : ℤ)
    rw [zpow_natCast]
    refine lt_of_le_of_lt ((div_le_one (by positivity)).2 (one_le_pow₀ (by norm_num))) (one_lt_pow₀ (by norm_num) (by omega))

theorem fine_noise {x : ℝ} (x0 : 0 < x) (x1 : x ≤ 1) : (1 + x / 2 ^ 20) ^ 34 - 1 ≤ x / 64 := by
  have b := one_add_mul_le_pow (a := -(x / 2 ^ 20)) (by linarith) 34
  have c : (1 + -(x / 2 ^ 20)) ^ 34 * (1 + x / 2 ^ 20) ^ 34 ≤ 1 := by
    rw [← mul_pow]
    refine pow_le_one₀ ?_ ?_ <;> nlinarith
  have d : (0 : ℝ) < (1 + x / 2 ^ 20) ^ 34 := by positivity
  have f : (1 - 34 * x / 2 ^ 20) * (1 + x / 2 ^ 20) ^ 34 ≤ 1 := by
    refine le_trans (mul_le_mul_of_nonneg_right ?_ d.le) c
    refine le_trans (le_of_eq ?_) b
    push_cast; ring
  generalize (1 + x / 2 ^ 20) ^ 34 = y at *
  nlinarith

/-- Numbers about the test data: `4^k` cells per unit length and area, and so on. -/
theorem fine_facts (k : ℕ) : ∃ x : ℚ, 0 < x ∧ x ≤ 1 ∧ 1 / 2 ^ k = x ∧ ∀ n c : ℕ, (1 : ℚ) / 2 ^ (n * k + c) = x ^ n / 2 ^ c := by
  refine ⟨1 / 2 ^ k, by positivity, (div_le_one (by positivity)).2 (one_le_pow₀ (by norm_num)), rfl, fun n c => ?_⟩
  rw [pow_add, Nat.mul_comm, pow_mul, div_pow, one_pow, div_div]

theorem fine_spacing (k : ℕ) : Spacing (1 / 2 ^ (12 * k + 81)) ((1 : ℚ) / 2 ^ k) := by
  obtain ⟨x, x0, x1, e, f⟩ := fine_facts k
  rw [e, f]
  have h : x ^ 12 ≤ x ^ 4 := pow_le_pow_of_le_one x0.le x1 (by norm_num)
  have h4 : x ^ 4 ≤ 1 := pow_le_one₀ x0.le x1
  have h0 : 0 < x ^ 4 := by positivity
  have h12 : 0 < x ^ 12 := by positivity
  refine ⟨x0, ?_, ?_⟩
  · generalize x ^ 12 = a at *
    generalize x ^ 4 = b at *
    norm_num
    linarith
  · generalize x ^ 12 = a at *
    generalize x ^ 4 = b at *
    norm_num
    nlinarith

/-- The hypotheses of `C107_converges` are met: a moving solution, a grid as fine as wished, a format precise and wide enough, a step
that is allowed, and exact initial data. -/
example : ∃ U : ℝ → (Fin 3 → ℝ) → ℝ, CHSolution (realParams ⟨1, 1, 0⟩) (fun _ => 1) 1 U ∧ U 0 0 ≠ U 1 0 ∧
    ∀ (h0 : ℝ) (B : ℚ), 0 < h0 → ∃ (F : IeeeFmt) (u τ : ℚ) (n : Int) (dx dt y : Ieee F), 4 ≤ F.prec ∧ F.emin ≤ 0 ∧ 8 ≤ F.emax ∧
      Rounds F.toFloatFmt.round u τ ∧ 0 < u ∧ 1 ≤ n ∧ (∃ e s m : Ieee F, (Ordinary e ∧ Ordinary s ∧ Ordinary m) ∧
        value e = 1 ∧ value s = 1 ∧ value m = 0) ∧ Ordinary dx ∧ Spacing τ (value dx) ∧ (value dx : ℝ) ≤ h0 ∧
      B < 2 ^ F.emax * value dx ^ 4 ∧ n * (value dx : ℝ) = 1 ∧ (Ordinary dt ∧ 2 * τ ≤ value dt ∧ 4608 * 1 * value dt ≤ value dx ^ 4) ∧
      ∑ i ∈ Finset.range 1, (value dt : ℝ) ≤ 1 ∧ ((1 : ℕ) : ℝ) * ((1 + (u : ℝ)) ^ 34 - 1) ≤ 1 * (value dx : ℝ) ^ 2 ∧
      ∀ c : Int × Int × Int, Ordinary y ∧ |(value y : ℝ) - U 0 (centre3 0 (value dx) c.1 c.2.1 c.2.2)| ≤ 1 * (value dx : ℝ) ^ 2 := by
  refine ⟨_, uniform_solution (realParams ⟨1, 1, 0⟩) _ 1 1, ?_, fun h0 B hh => ?_⟩
  · have : Real.exp (-(1 * 1)) < 1 := by rw [Real.exp_lt_one_iff]; norm_num
    simp only [realParams, Rat.cast_one, Rat.cast_zero, mul_zero, neg_zero, Real.exp_zero]
    intro h
    linarith
  · obtain ⟨k, hk⟩ := exists_nat_gt (1 / h0)
    obtain ⟨b, hb⟩ := exists_nat_gt (B * (2 ^ k) ^ 4)
    obtain ⟨x, x0, x1, e, f⟩ := fine_facts k
    have one : Ordinary (.num 1 : Ieee (fineIeee k (b + 8))) := by
      have := fineIeee_ord (k := k) (e := b + 8) (n := 0) (by omega) (by omega)
      rwa [pow_zero, div_one] at this
    refine ⟨fineIeee k (b + 8), _, _, 2 ^ k, .num (1 / 2 ^ k), .num (1 / 2 ^ (4 * k + 13)), .num 1, ?_, ?_, ?_, fineIeee_rounds _ _,
      by positivity, one_le_pow₀ (by norm_num), ⟨.num 1, .num 1, .zero false, ⟨one, one, trivial⟩, rfl, rfl, rfl⟩,
      fineIeee_ord (by omega) (by omega), fine_spacing k, ?_, ?_, ?_, ⟨fineIeee_ord (by omega) (by omega), ?_, ?_⟩, ?_, ?_, fun c => ⟨one, ?_⟩⟩
    · show 4 ≤ 4 * k + 20
      omega
    · show -((16 * k + 100 : ℕ) : ℤ) ≤ 0
      omega
    · show (8 : ℤ) ≤ ((b + 8 : ℕ) : ℤ)
      omega
    · show (((1 / 2 ^ k : ℚ)) : ℝ) ≤ h0
      push_cast
      rw [div_le_iff₀ (by positivity)]
      rw [div_lt_iff₀ hh] at hk
      have : (k : ℝ) ≤ 2 ^ k := by exact_mod_cast (Nat.lt_two_pow_self (n := k)).le
      nlinarith
    · show B < 2 ^ ((b + 8 : ℕ) : ℤ) * (1 / 2 ^ k) ^ 4
      rw [zpow_natCast, div_pow, one_pow, ← mul_div_assoc, mul_one, lt_div_iff₀ (by positivity)]
      have h2 : (b : ℚ) ≤ 2 ^ b := by exact_mod_cast (Nat.lt_two_pow_self (n := b)).le
      have h3 : (2 : ℚ) ^ b ≤ 2 ^ (b + 8) := pow_le_pow_right₀ (by norm_num) (by omega)
      linarith
    · show (((2 : ℤ) ^ k : ℤ) : ℝ) * ((1 / 2 ^ k : ℚ) : ℝ) = 1
      push_cast
      field_simp
    · show 2 * (1 / 2 ^ (12 * k + 81)) ≤ (1 : ℚ) / 2 ^ (4 * k + 13)
      rw [f, f]
      have h : x ^ 12 ≤ x ^ 4 := pow_le_pow_of_le_one x0.le x1 (by norm_num)
      have h4 : 0 < x ^ 4 := by positivity
      generalize x ^ 12 = a at *
      generalize x ^ 4 = b at *
      norm_num
      linarith
    · show 4608 * 1 * (1 / 2 ^ (4 * k + 13)) ≤ ((1 : ℚ) / 2 ^ k) ^ 4
      rw [f, e]
      have h4 : 0 < x ^ 4 := by positivity
      generalize x ^ 4 = b at *
      norm_num
      linarith
    · show ∑ i ∈ Finset.range 1, (((1 / 2 ^ (4 * k + 13) : ℚ)) : ℝ) ≤ 1
      rw [Finset.sum_const, Finset.card_range, one_smul, f]
      have h4 : x ^ 4 ≤ 1 := pow_le_one₀ x0.le x1
      have : x ^ 4 / 2 ^ 13 ≤ 1 := by linarith
      exact_mod_cast this
    · show ((1 : ℕ) : ℝ) * ((1 + ((1 / 2 ^ (4 * k + 20) : ℚ) : ℝ)) ^ 34 - 1) ≤ 1 * ((1 / 2 ^ k : ℚ) : ℝ) ^ 2
      rw [f, e, Nat.cast_one, one_mul, one_mul]
      have h := fine_noise (x := (x : ℝ) ^ 4) (by positivity) (pow_le_one₀ (by exact_mod_cast x0.le) (by exact_mod_cast x1))
      have h2 : (x : ℝ) ^ 4 ≤ (x : ℝ) ^ 2 := pow_le_pow_of_le_one (by exact_mod_cast x0.le) (by exact_mod_cast x1) (by norm_num)
      have h3 : (0 : ℝ) ≤ (x : ℝ) ^ 4 := by positivity
      push_cast
      linarith
    · simp only [realParams, value, Rat.cast_one, Rat.cast_zero, mul_zero, neg_zero, Real.exp_zero, zero_add, mul_one, sub_self, abs_zero, one_mul]
      positivity

/-- Unit box of `2^k` cells per direction, zero mean, a few steps (test data). -/
def fineOpts (k e : ℕ) : RunOpts (Ieee (fineIeee k e)) where
  sel := ⟨3, "periodic", "periodic", "periodic", "cahn-hilliard", "rk3ssp", false⟩
  nx := 2 ^ k
  ny := 2 ^ k
  nz := 2 ^ k
  box := ⟨0, .num 1, 0, 0⟩
  variant := 1
  par := { m := 0, sigma := .num 1, eps2 := .num 1 }
  t0 := 0
  tfinal := .num 1
  dt0 := .num (1 / 2 ^ (4 * k + 13))
  useCfl := false
  maxSteps := 4
  relTol := 0
  absTol := 0
  errTol := 1
  minStep := 0
  maxStep := 1
  logFreq := 1
  saveEvery := 1
  logFile := []
  solFile := ['s']
  mg := ⟨1, 1, 100, 1, 1, 1, 1, "nearest"⟩

theorem kahan_zeros {F : IeeeFmt} (n : ℕ) : kahan ((List.range n).map fun _ => (0 : Ieee F) + 0) = 0 := by
  unfold kahan
  have : ∀ l : List ℕ, (l.map fun _ => (0 : Ieee F) + 0).foldl kahanStep (0, 0) = (0, 0) := by
    intro l
    induction l with
    | nil => rfl
    | cons a l ih => rw [List.map_cons, List.foldl_cons]; exact ih
  rw [this]

/-- The hypotheses of `C107_rk3ssp` are met for the state at rest, on grids as fine as wished. -/
theorem fine_run (h0 : ℝ) (B Em : ℚ) (hh : 0 < h0) : CHSolution (realParams ⟨1, 1, 0⟩) (fun _ : Fin 3 => 1) 2
      (fun t _ => (realParams ⟨1, 1, 0⟩).m + 0 * Real.exp (-((realParams ⟨1, 1, 0⟩).sigma * t))) ∧
    ∃ (k e : ℕ) (u τ : ℚ) (dx : Ieee (fineIeee k e)), 4 ≤ (fineIeee k e).prec ∧ (fineIeee k e).emin ≤ 0 ∧ 8 ≤ (fineIeee k e).emax ∧
      Rounds (fineIeee k e).toFloatFmt.round u τ ∧ dx = ((fineOpts k e).box.xend - (fineOpts k e).box.xbeg) / ((fineOpts k e).nx : Ieee _) ∧
      (u ≤ 1 / 64 ∧ τ ≤ 1 / 2 ^ 53 ∧ 64 ≤ (fineIeee k e).emax ∧ τ * Em ≤ 1 ∧ 2 * Em < 2 ^ (fineIeee k e).emax * 1 ∧
        2 ^ 55 * 1 < (2 : ℚ) ^ (fineIeee k e).emax ∧ 2 ^ 54 * τ * 1 ≤ 1 ∧ 4 * τ * 2 ^ (fineIeee k e).prec ≤ 1 / 2 ^ (4 * k + 14)) ∧
      (2 ≤ (fineOpts k e).nx ∧ 2 ≤ (fineOpts k e).ny ∧ 2 ≤ (fineOpts k e).nz) ∧
      Arrays3 (demoSize ((2 ^ k + 5) * (2 ^ k + 5) * (2 ^ k + 5)) ((2 ^ k + 4) * (2 ^ k + 4) * (2 ^ k + 4))) demoArr
        (fineOpts k e).nx (fineOpts k e).ny (fineOpts k e).nz ∧
      (Ordinary (fineOpts k e).par.eps2 ∧ Ordinary (fineOpts k e).par.sigma ∧ Ordinary (fineOpts k e).par.m) ∧
      (value (fineOpts k e).par.eps2 = 1 ∧ value (fineOpts k e).par.sigma = 1 ∧ value (fineOpts k e).par.m = 0) ∧
      Ordinary dx ∧ Spacing τ (value dx) ∧ (value dx : ℝ) ≤ h0 ∧ B < 2 ^ (fineIeee k e).emax * value dx ^ 4 ∧
      (fineOpts k e).nx * (value dx : ℝ) = 1 ∧ Ordinary (fineOpts k e).tfinal ∧ Ordinary (fineOpts k e).t0 ∧ Ordinary (fineOpts k e).dt0 ∧
      0 ≤ value (fineOpts k e).t0 ∧ 0 ≤ value (fineOpts k e).tfinal ∧ 0 < value (fineOpts k e).dt0 ∧
      4 * τ * 2 ^ (fineIeee k e).prec ≤ value (fineOpts k e).dt0 ∧ 6144 * 1 * value (fineOpts k e).dt0 ≤ value dx ^ 4 ∧
      u * (value (fineOpts k e).tfinal + 1) ≤ value dx ^ 4 / (64 * (768 * 1)) ∧
      (fineOpts k e).t0 + (fineOpts k e).dt0 < (fineOpts k e).tfinal ∧
      4 * (|value (fineOpts k e).t0| + value (fineOpts k e).tfinal + 1) < (2 : ℚ) ^ (fineIeee k e).emax ∧
      ((fineOpts k e).maxSteps : ℝ) * ((1 + (u : ℝ)) ^ 34 - 1) ≤ 1 * (value dx : ℝ) ^ 2 ∧
      ((value (fineOpts k e).tfinal - value (fineOpts k e).t0 +
        (((fineOpts k e).maxSteps : ℚ) + 2) * (u * (value (fineOpts k e).tfinal + 2)) : ℚ) : ℝ) ≤ 2 ∧
      ∀ c, In3 (fineOpts k e).nx (fineOpts k e).ny (fineOpts k e).nz c →
        Ordinary (initialAny3 (fun _ => 0) (fineOpts k e).par.m (fineOpts k e).nx (fineOpts k e).ny (fineOpts k e).nz c) ∧
        |(value (initialAny3 (fun _ => 0) (fineOpts k e).par.m (fineOpts k e).nx (fineOpts k e).ny (fineOpts k e).nz c) : ℝ) -
          ((realParams ⟨1, 1, 0⟩).m + 0 * Real.exp (-((realParams ⟨1, 1, 0⟩).sigma * 0)))| ≤ 1 * (value dx : ℝ) ^ 2 := by
  refine ⟨uniform_solution (realParams ⟨1, 1, 0⟩) _ 2 0, ?_⟩
  obtain ⟨n, hn'⟩ := exists_nat_gt (max (1 / h0) (Em : ℝ))
  have hn := lt_of_le_of_lt (le_max_left _ _) hn'
  have hEn : Em < n := by exact_mod_cast lt_of_le_of_lt (le_max_right _ _) hn'
  obtain ⟨k, hk⟩ : ∃ k, k = n + 1 := ⟨_, rfl⟩
  have hn2 : (n : ℝ) ≤ 2 ^ k := by
    have := (Nat.lt_two_pow_self (n := n)).le
    have h2 : n ≤ 2 ^ k := by rw [hk, pow_succ]; omega
    exact_mod_cast h2
  have k1 : (2 : Int) ≤ 2 ^ k := by
    calc (2 : Int) = 2 ^ 1 := by norm_num
      _ ≤ _ := pow_le_pow_right₀ (by norm_num) (by omega)
  obtain ⟨b, hb⟩ := exists_nat_gt (B * (2 ^ k) ^ 4)
  obtain ⟨x, x0, x1, ex, f⟩ := fine_facts k
  obtain ⟨e, he⟩ : ∃ e, e = b + 4 * k + 72 := ⟨_, rfl⟩
  have one : Ordinary (.num 1 : Ieee (fineIeee k e)) := by
    have := fineIeee_ord (k := k) (e := e) (n := 0) (by omega) (by omega)
    rwa [pow_zero, div_one] at this
  have big : ∀ j : ℕ, j < e → (2 : ℚ) ^ j < 2 ^ (fineIeee k e).emax := fun j hj => by
    show (2 : ℚ) ^ j < 2 ^ (e : ℤ)
    rw [zpow_natCast]
    exact pow_lt_pow_right₀ (by norm_num) hj
  have fl : IsFloat (fineIeee k e).toFloatFmt (2 ^ k) := ⟨2 ^ k, 0, by
    rw [abs_of_pos (by positivity)]
    show (2 : ℤ) ^ k < 2 ^ (4 * k + 20)
    exact pow_lt_pow_right₀ (by norm_num) (by omega), by
    show -((16 * k + 100 : ℕ) : ℤ) ≤ 0
    omega, by push_cast; rw [mul_one]⟩
  have cells : (((2 : ℤ) ^ k : ℤ) : Ieee (fineIeee k e)) = .num (2 ^ k) := by
    show Ieee.ofRat false (((2 : ℤ) ^ k : ℤ) : ℚ) = _
    push_cast
    unfold Ieee.ofRat
    rw [(fineIeee k e).toFloatFmt.round_float fl, if_neg (by positivity), if_neg (by positivity), if_neg]
    rw [abs_of_pos (by positivity), not_le]
    exact big k (by omega)
  have hdx : ((fineOpts k e).box.xend - (fineOpts k e).box.xbeg) / ((fineOpts k e).nx : Ieee _) = .num (1 / 2 ^ k) := by
    show ((.num 1 : Ieee (fineIeee k e)) - .zero false) / (((2 : ℤ) ^ k : ℤ) : Ieee (fineIeee k e)) = _
    rw [cells]
    show Ieee.ofRat false ((1 : ℚ) / 2 ^ k) = _
    have o := fineIeee_ord (k := k) (e := e) (n := k) (by omega) (by omega)
    unfold Ieee.ofRat
    rw [(fineIeee k e).toFloatFmt.round_float o.2.1, if_neg o.1, if_neg o.1, if_neg (not_le.2 o.2.2)]
  refine ⟨k, e, _, _, .num (1 / 2 ^ k), ?_, ?_, ?_, fineIeee_rounds _ _, hdx.symm, ?_, ⟨k1, k1, k1⟩,
    ⟨by simp [demoArr], by simp [demoArr, demoSize, fineOpts], by simp [demoArr, demoSize, fineOpts]⟩, ⟨one, one, trivial⟩, ⟨rfl, rfl, rfl⟩,
    fineIeee_ord (by omega) (by omega), fine_spacing k, ?_, ?_, ?_, one, trivial, fineIeee_ord (by omega) (by omega), le_rfl,
    zero_le_one, ?_, ?_, ?_, ?_, ?_, ?_, ?_, ?_, fun c hc => ?_⟩
  · show 4 ≤ 4 * k + 20
    omega
  · show -((16 * k + 100 : ℕ) : ℤ) ≤ 0
    omega
  · show (8 : ℤ) ≤ (e : ℤ)
    omega
  · have p1 : (n : ℚ) ≤ 2 ^ k := by exact_mod_cast hn2
    refine ⟨one_div_le_one_div_of_le (by norm_num) ?_, one_div_le_one_div_of_le (by norm_num) (pow_le_pow_right₀ (by norm_num) (by omega)), ?_, ?_, ?_,
      ?_, ?_, ?_⟩
    · exact le_trans (by norm_num : (64 : ℚ) ≤ 2 ^ 6) (pow_le_pow_right₀ (by norm_num) (by omega))
    · show (64 : ℤ) ≤ (e : ℤ)
      omega
    · rw [one_div_mul_eq_div, div_le_one (by positivity)]
      exact (hEn.le.trans p1).trans (pow_le_pow_right₀ (by norm_num) (by omega))
    · rw [mul_one]
      have p2 := big (k + 1) (by omega)
      rw [pow_succ] at p2
      linarith only [p1, p2, hEn]
    · rw [mul_one]
      exact big 55 (by omega)
    · rw [mul_one, mul_one_div, div_le_one (by positivity)]
      exact pow_le_pow_right₀ (by norm_num) (by omega)
    · show 4 * (1 / 2 ^ (12 * k + 81)) * 2 ^ (4 * k + 20) ≤ (1 : ℚ) / 2 ^ (4 * k + 14)
      rw [le_div_iff₀ (by positivity), mul_one_div, div_mul_eq_mul_div, div_mul_eq_mul_div, div_le_one (by positivity),
        show (4 : ℚ) = 2 ^ 2 by norm_num, ← pow_add, ← pow_add]
      exact pow_le_pow_right₀ (by norm_num) (by omega)
  · show (((1 / 2 ^ k : ℚ)) : ℝ) ≤ h0
    push_cast
    rw [div_le_iff₀ (by positivity)]
    rw [div_lt_iff₀ hh] at hn
    nlinarith
  · show B < 2 ^ (e : ℤ) * (1 / 2 ^ k) ^ 4
    rw [zpow_natCast, div_pow, one_pow, ← mul_div_assoc, mul_one, lt_div_iff₀ (by positivity)]
    have h2 : (b : ℚ) ≤ 2 ^ b := by exact_mod_cast (Nat.lt_two_pow_self (n := b)).le
    have h3 : (2 : ℚ) ^ b ≤ 2 ^ e := pow_le_pow_right₀ (by norm_num) (by omega)
    linarith
  · show (((2 : ℤ) ^ k : ℤ) : ℝ) * ((1 / 2 ^ k : ℚ) : ℝ) = 1
    push_cast
    field_simp
  · show (0 : ℚ) < 1 / 2 ^ (4 * k + 13)
    positivity
  · show 4 * (1 / 2 ^ (12 * k + 81)) * 2 ^ (4 * k + 20) ≤ (1 : ℚ) / 2 ^ (4 * k + 13)
    have : 4 * (1 / 2 ^ (12 * k + 81)) * 2 ^ (4 * k + 20) = (1 : ℚ) / 2 ^ (8 * k + 59) := by
      have e1 : (2 : ℚ) ^ (12 * k + 81) = 2 ^ (8 * k + 59) * 2 ^ (4 * k + 20) * 4 := by
        rw [← pow_add, show (4 : ℚ) = 2 ^ 2 by norm_num, ← pow_add]; congr 1; omega
      rw [e1]; field_simp
    rw [this]
    exact one_div_le_one_div_of_le (by positivity) (pow_le_pow_right₀ (by norm_num) (by omega))
  · show 6144 * 1 * (1 / 2 ^ (4 * k + 13)) ≤ ((1 : ℚ) / 2 ^ k) ^ 4
    rw [f, ex]
    have h4 : 0 < x ^ 4 := by positivity
    generalize x ^ 4 = b at *
    norm_num
    linarith
  · show 1 / 2 ^ (4 * k + 20) * ((1 : ℚ) + 1) ≤ (1 / 2 ^ k) ^ 4 / (64 * (768 * 1))
    rw [f, ex]
    have h4 : 0 < x ^ 4 := by positivity
    generalize x ^ 4 = b at *
    norm_num
    linarith
  · show (.num (1 / 2 ^ (4 * k + 13)) : Ieee (fineIeee k e)) < .num 1
    rw [Ieee.lt_ordinary (fineIeee_ord (by omega) (by omega)) one]
    show (1 : ℚ) / 2 ^ (4 * k + 13) < 1
    rw [f]
    have h4 : x ^ 4 ≤ 1 := pow_le_one₀ x0.le x1
    linarith
  · show 4 * (|(0 : ℚ)| + 1 + 1) < (2 : ℚ) ^ (fineIeee k e).emax
    rw [abs_zero]
    exact lt_of_le_of_lt (by norm_num) (big 3 (by omega))
  · show ((4 : ℕ) : ℝ) * ((1 + ((1 / 2 ^ (4 * k + 20) : ℚ) : ℝ)) ^ 34 - 1) ≤ 1 * ((1 / 2 ^ k : ℚ) : ℝ) ^ 2
    rw [f, ex, one_mul]
    have h := fine_noise (x := (x : ℝ) ^ 4) (by positivity) (pow_le_one₀ (by exact_mod_cast x0.le) (by exact_mod_cast x1))
    have h2 : (x : ℝ) ^ 4 ≤ (x : ℝ) ^ 2 := pow_le_pow_of_le_one (by exact_mod_cast x0.le) (by exact_mod_cast x1) (by norm_num)
    have h3 : (0 : ℝ) ≤ (x : ℝ) ^ 4 := by positivity
    push_cast
    linarith
  · show (((1 : ℚ) - 0 + (((4 : ℕ) : ℚ) + 2) * (1 / 2 ^ (4 * k + 20) * (1 + 2)) : ℚ) : ℝ) ≤ 2
    rw [f]
    have h4 : x ^ 4 ≤ 1 := pow_le_one₀ x0.le x1
    have : (1 : ℚ) - 0 + (((4 : ℕ) : ℚ) + 2) * (x ^ 4 / 2 ^ 20 * (1 + 2)) ≤ 2 := by
      generalize x ^ 4 = b at *
      norm_num
      linarith
    exact_mod_cast this
  · have hz : ∃ s, initialAny3 (fun _ => (0 : Ieee (fineIeee k e))) (fineOpts k e).par.m (fineOpts k e).nx (fineOpts k e).ny (fineOpts k e).nz c =
        .zero s := by
      unfold initialAny3
      show ∃ s, (0 : Ieee (fineIeee k e)) + 0 - (kahan ((List.range _).map fun _ => (0 : Ieee (fineIeee k e)) + 0) / _ - 0) = .zero s
      rw [kahan_zeros]
      obtain ⟨N, hN⟩ : ∃ N, N = ((fineOpts k e).nx * (fineOpts k e).ny * (fineOpts k e).nz).toNat := ⟨_, rfl⟩
      have N0 : (N : ℚ) ≠ 0 := by
        have : (0 : Int) < 2 ^ k * 2 ^ k * 2 ^ k := by positivity
        have : N ≠ 0 := by rw [hN]; show ((2 : ℤ) ^ k * 2 ^ k * 2 ^ k).toNat ≠ 0; omega
        exact_mod_cast this
      rw [← hN]
      have q : ∃ s, (0 : Ieee (fineIeee k e)) / (N : Ieee (fineIeee k e)) = .zero s := by
        show ∃ s, Ieee.div (.zero false) (Ieee.ofRat false (N : ℚ)) = .zero s
        unfold Ieee.ofRat
        rw [if_neg N0]
        split
        · next h =>
          exfalso
          have h1 : (1 : ℚ) ≤ N := by exact_mod_cast Nat.one_le_iff_ne_zero.2 (by exact_mod_cast N0)
          have h2 := (fineIeee k e).toFloatFmt.round_mono (by show 1 ≤ 4 * k + 20; omega) h1
          rw [(fineIeee k e).toFloatFmt.round_float one.2.1, h] at h2
          linarith
        · split <;> exact ⟨_, rfl⟩
      obtain ⟨s, q⟩ := q
      rw [q]
      exact ⟨_, rfl⟩
    obtain ⟨s, hz⟩ := hz
    rw [hz]
    refine ⟨trivial, ?_⟩
    show |((0 : ℚ) : ℝ) - _| ≤ _
    simp only [realParams, Rat.cast_zero, zero_mul, add_zero, sub_self, abs_zero, one_mul]
    positivity

end Madg
