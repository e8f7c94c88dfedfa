/-
C108, Cahn–Hilliard: runs with the adaptive integrator in floating-point arithmetic with overflow, infinities and NaN.
-/
import Verif.Proofs.IeeeErrCH
import Verif.Props.IeeeOde

set_option linter.unusedSectionVars false
set_option linter.unusedVariables false

namespace Madg
open Spec

set_option maxHeartbeats 1600000 in
/-- C108. For every smooth periodic solution of the Cahn–Hilliard equation with rational parameters there is a number `Em`, independent of
the grid, the format and the tolerance, such that in the situation of `C107_converges` the error estimate of every step, in whatever order
its maximum is formed, is an ordinary number between 0 and `Em`. -/
theorem C108_errors (p : CHParams ℚ) (he : 0 < p.eps2) (L : Fin 3 → ℝ) (hL : ∀ a, 0 < L a) (T : ℝ)
    (U : ℝ → (Fin 3 → ℝ) → ℝ) (hU : CHSolution (realParams p) L T U) (a : ℝ) (ha : 0 ≤ a) :
    ∃ (h0 : ℝ) (B Em : ℚ), 0 < h0 ∧ 1 ≤ Em ∧ ∀ (F : IeeeFmt) (hp : 4 ≤ F.prec) (hmin : F.emin ≤ 0) (hm : 8 ≤ F.emax) (u τ : ℚ)
      (hr : Rounds F.toFloatFmt.round u τ) (nx ny nz : Int) (hn : 1 ≤ nx ∧ 1 ≤ ny ∧ 1 ≤ nz) (v : Int)
      (pf : CHParams (Ieee F)) (ho : Ordinary pf.eps2 ∧ Ordinary pf.sigma ∧ Ordinary pf.m)
      (hpf : value pf.eps2 = p.eps2 ∧ value pf.sigma = p.sigma ∧ value pf.m = p.m)
      (dx : Ieee F) (hdx : Ordinary dx) (hs : Spacing τ (value dx)) (hh : (value dx : ℝ) ≤ h0) (hB : B < 2 ^ F.emax * value dx ^ 4)
      (e0 : nx * (value dx : ℝ) = L 0) (e1 : ny * (value dx : ℝ) = L 1) (e2 : nz * (value dx : ℝ) = L 2) (o : Fin 3 → ℝ)
      (t d : Nat → Ieee F) (y : Int × Int × Int → Ieee F) (s : Nat → Int × Int × Int → Ieee F) (G : (Int × Int × Int → Ieee F) → Int × Int × Int → Ieee F)
      (hG : G = rhsOps3 v pf dx .periodic .periodic .periodic nx ny nz 0)
      (hy : s = iterates (fun _ dt y c => y c + dt * bs23Slope G dt y c) t d y)
      (k : Nat) (hd : ∀ i, i ≤ k → Ordinary (d i) ∧ 2 * τ ≤ value (d i) ∧ 4608 * p.eps2 * value (d i) ≤ value dx ^ 4)
      (hsum : ∑ i ∈ Finset.range (k + 1), (value (d i) : ℝ) ≤ T)
      (hlen : ((k + 1 : ℕ) : ℝ) * ((1 + (u : ℝ)) ^ 34 - 1) ≤ a * (value dx : ℝ) ^ 2)
      (hini : ∀ c, In3 nx ny nz c → Ordinary (y c) ∧ |(value (y c) : ℝ) - U 0 (centre3 o (value dx) c.1 c.2.1 c.2.2)| ≤ a * (value dx : ℝ) ^ 2)
      (pad : Nat) (e : Ieee F) (hE : ∃ g, (letI : Max (Ieee F) := byLess;
          LargestGap (triples nx ny nz) pad (bs23Slope G (d k) (s k)) (bs23SlopeHat G (d k) (s k)) g) ∧
        e = if 0 < d k * g then d k * g else 0),
      Ordinary e ∧ 0 ≤ value e ∧ value e ≤ Em := by
  obtain ⟨Cst, h0, B, c0, h00, H⟩ := C107_converges p he L hL T U hU a ha
  obtain ⟨b, b0, hb⟩ := sol_bound hL hU
  have heR : (0 : ℝ) < p.eps2 := by exact_mod_cast he
  have vol0 : 0 ≤ Cst ^ 2 * (L 0 * L 1 * L 2) :=
    mul_nonneg (sq_nonneg _) (mul_nonneg (mul_nonneg (hL 0).le (hL 1).le) (hL 2).le)
  obtain ⟨M, hMd⟩ : ∃ M : ℕ, M = 2 * (⌈b + Cst ^ 2 * (L 0 * L 1 * L 2) + 1⌉₊ + 1) := ⟨_, rfl⟩
  have hM : 2 ≤ M := by omega
  have hM2 : b + Cst ^ 2 * (L 0 * L 1 * L 2) + 1 ≤ (M : ℝ) / 2 := by
    have := Nat.le_ceil (b + Cst ^ 2 * (L 0 * L 1 * L 2) + 1)
    rw [hMd]; push_cast; linarith
  obtain ⟨E, hEd⟩ : ∃ E, E = 1 + |p.eps2| + |p.sigma| + |p.m| := ⟨_, rfl⟩
  have q1 := abs_nonneg p.eps2
  have q2 := abs_nonneg p.sigma
  have q3 := abs_nonneg p.m
  have E1 : 1 ≤ E := by linarith
  obtain ⟨Z, hZ⟩ : ∃ Z : ℚ, Z = E * ((M : ℚ) ^ 3 + E) := ⟨_, rfl⟩
  have Z0 : 0 ≤ Z := by rw [hZ]; positivity
  refine ⟨min (min h0 (4608 * (p.eps2 : ℝ))) (min (1 / (4 * (a + 1))) (Convg.limit p M)), max B (2 ^ 36 * Z),
    2 ^ 36 * Z / (4608 * p.eps2) + 1, lt_min (lt_min h00 (by positivity)) (lt_min (by positivity) (Convg.limit_pos he)), ?_, ?_⟩
  · have : 0 ≤ 2 ^ 36 * Z / (4608 * p.eps2) := by positivity
    linarith
  intro F hp hmin hm u τ hr nx ny nz hn v pf ho hpf dx hdx hs hh hB e0 e1 e2 o t d y s G hG hy k hd hsum hlen hini pad e hEr
  have hd1 := (hh.trans (min_le_left _ _)).trans (min_le_left _ _)
  have hd4 := (hh.trans (min_le_left _ _)).trans (min_le_right _ _)
  have hd2 := (hh.trans (min_le_right _ _)).trans (min_le_left _ _)
  have hd3 := (hh.trans (min_le_right _ _)).trans (min_le_right _ _)
  have x0 : 0 < value dx := hs.1
  have x1R : (value dx : ℝ) ≤ 1 := hd3.trans (min_le_left _ _)
  have x1 : value dx ≤ 1 := by exact_mod_cast x1R
  have D0 : 0 < value dx ^ 4 := by positivity
  have x4 : value dx ^ 4 ≤ 4608 * p.eps2 := by
    have : value dx ≤ 4608 * p.eps2 := by exact_mod_cast hd4
    exact (pow_le_of_le_one x0.le x1 (by norm_num)).trans this
  have hS : chSize E M (value dx) = 2 ^ 27 * (Z / value dx ^ 4) := by unfold chSize; rw [hZ]
  have hB2 : 2 ^ 36 * (Z / value dx ^ 4) < (2 : ℚ) ^ F.emax := by
    rw [← mul_div_assoc, div_lt_iff₀ D0]
    exact lt_of_le_of_lt (le_max_right _ _) hB
  have Y0 : 0 ≤ Z / value dx ^ 4 := by positivity
  -- states before and after the step
  have pos : ∀ i, i ≤ k → 0 ≤ (value (d i) : ℝ) := fun i hi => by
    have := hr.tiny.1
    exact_mod_cast (by linarith [(hd i hi).2.1] : 0 ≤ value (d i))
  have st : ∀ j, j ≤ k + 1 → ∀ c, In3 nx ny nz c → Ordinary (s j c) ∧ |(value (s j c) : ℝ)| ≤ (M : ℝ) / 2 := by
    intro j hj c hc
    have hsum' : ∑ i ∈ Finset.range j, (value (d i) : ℝ) ≤ T := by
      refine le_trans (Finset.sum_le_sum_of_subset_of_nonneg (Finset.range_mono hj) fun i hi _ => pos i ?_) hsum
      have := Finset.mem_range.1 hi
      omega
    have hsum0 : 0 ≤ ∑ i ∈ Finset.range j, (value (d i) : ℝ) := Finset.sum_nonneg fun i hi => pos i (by
      have := Finset.mem_range.1 hi
      omega)
    obtain ⟨r1, -, r3⟩ := H F hp hmin hm u τ hr nx ny nz hn v pf ho hpf dx hdx hs hd1 (lt_of_le_of_lt (le_max_left _ _) hB) e0 e1 e2 o t d y s
      (.inr (by rw [hy, hG])) j (fun i hi => hd i (by omega)) hsum' (le_trans (mul_le_mul_of_nonneg_right (by exact_mod_cast hj) (by
        have := sub_nonneg.2 (Near.one_le hr.unit.1 34)
        exact_mod_cast this)) hlen) hini
    refine ⟨r1 c hc, ?_⟩
    have a1 := r3 c hc
    have a2 := hb _ hsum0 hsum' (centre3 o (value dx) c.1 c.2.1 c.2.2)
    have a3 : Cst ^ 2 * (L 0 * L 1 * L 2) * (value dx : ℝ) ≤ Cst ^ 2 * (L 0 * L 1 * L 2) * 1 := mul_le_mul_of_nonneg_left x1R vol0
    generalize U (∑ i ∈ Finset.range j, (value (d i) : ℝ)) (centre3 o (value dx) c.1 c.2.1 c.2.2) = w at a1 a2
    have a4 : |(value (s j c) : ℝ) - w| ≤ Cst ^ 2 * (L 0 * L 1 * L 2) + 1 := by
      have := abs_nonneg ((value (s j c) : ℝ) - w)
      have := sq_abs ((value (s j c) : ℝ) - w)
      nlinarith only [this, a1, a3, abs_nonneg ((value (s j c) : ℝ) - w)]
    have a5 := abs_sub_abs_le_abs_sub (value (s j c) : ℝ) w
    linarith
  have hst : ∀ j, j ≤ k + 1 → ∀ c, In3 nx ny nz c → |value (s j c)| ≤ (M : ℚ) / 2 := fun j hj c hc => by
    have e : ((|value (s j c)| : ℚ) : ℝ) ≤ (((M : ℚ) / 2 : ℚ) : ℝ) := by push_cast; exact (st j hj c hc).2
    exact_mod_cast e
  obtain ⟨g1, g2, g3⟩ := hd k le_rfl
  have g0 : 0 ≤ value (d k) := by have := hr.tiny.1; linarith
  obtain ⟨D, hDd⟩ : ∃ D, D = value dx ^ 4 / (4608 * p.eps2) := ⟨_, rfl⟩
  have gD : value (d k) ≤ D := by rw [hDd, le_div_iff₀ (by positivity)]; linarith
  have D1 : D ≤ 1 := by rw [hDd]; exact (div_le_one (by positivity)).2 x4
  have hDp : 0 ≤ D := g0.trans gD
  obtain ⟨p', hp'⟩ : ∃ p' : CHParams (Fl F.toFloatFmt.round), p' = ⟨asFl pf.eps2, asFl pf.sigma, asFl pf.m⟩ := ⟨_, rfl⟩
  have vp : valuesOf p' = p := by
    rw [hp']
    show (⟨value pf.eps2, value pf.sigma, value pf.m⟩ : CHParams ℚ) = p
    rw [hpf.1, hpf.2.1, hpf.2.2]
  have s1 : Same pf.eps2 p'.eps2 E := by rw [hp']; exact ⟨ho.1, rfl, by show |value pf.eps2| ≤ E; rw [hpf.1]; linarith⟩
  have s2 : Same pf.sigma p'.sigma E := by rw [hp']; exact ⟨ho.2.1, rfl, by show |value pf.sigma| ≤ E; rw [hpf.2.1]; linarith⟩
  have s3 : Same pf.m p'.m E := by rw [hp']; exact ⟨ho.2.2, rfl, by show |value pf.m| ≤ E; rw [hpf.2.2]; linarith⟩
  have sx : Same dx (asFl dx) 1 := ⟨hdx, rfl, by show |value dx| ≤ 1; rw [abs_of_pos x0]; exact x1⟩
  have h34 : (1 + u) ^ 34 ≤ 5 / 4 := Convg.noise_small hr ha hd2 hs (dts := (List.range (k + 1)).map fun i => asFl (d i)) (dt := asFl (d k))
    (by rw [List.length_map, List.length_range]; exact hlen) (List.mem_map.2 ⟨k, List.mem_range.2 (by omega), rfl⟩)
  have M2 : (2 : ℚ) ≤ M := by exact_mod_cast hM
  have hX : 64 * chSize E M (value dx) < (2 : ℚ) ^ F.emax := by rw [hS]; linarith only [hB2, Y0]
  have hG' : chFieldA v pf dx .periodic .periodic .periodic nx ny nz 0 = G := by rw [hG, chFieldA_eq]
  have hnew : s (k + 1) = fun c => s k c + d k * bs23Slope G (d k) (s k) c := by rw [hy]; rfl
  have sl := ieee_bs23_slopes hp hmin hm hr hn.1 hn.2.1 hn.2.2 E1 M2 s1 s2 s3 sx hs hX (v := v) h34
    (dt := d k) (dt' := asFl (d k)) (Same.of g1 (by rw [abs_of_nonneg g0]; linarith only [gD, D1])) g2
    (by rw [vp]; exact Convg.small he hM hs hd3 ⟨g2, g3⟩ hr) (a := s k) (x := fun c => asFl (s k c))
    (fun c hc => Same.of (st k (by omega) c hc).1 (hst k (by omega) c hc)) (fun c hc => by
      have h := hst (k + 1) le_rfl c hc
      rw [hnew] at h
      rw [hG']
      exact h.trans (by linarith only [M2]))
  rw [hG'] at sl
  have er := err_ok hp hmin hm (D := D) (S := 40 * chSize E M (value dx)) (by rw [hS]; positivity)
    (G := G) (dt := d k) (a := s k) (cells := triples nx ny nz) (pad := pad) (e := e)
    (fun c hc => sl.1 c (mem_triples.1 hc)) (fun c hc => sl.2 c (mem_triples.1 hc))
    (by rw [hS]; linarith only [hB2, Y0]) ⟨g1, g0, gD⟩
    (by
      rw [hS]
      have : D * (40 * (2 ^ 27 * (Z / value dx ^ 4))) ≤ 1 * (40 * (2 ^ 27 * (Z / value dx ^ 4))) := mul_le_mul_of_nonneg_right D1 (by positivity)
      linarith only [hB2, Y0, this]) hEr
  refine ⟨er.ord, er.lo, er.hi.trans ?_⟩
  rw [hS, hDd]
  have e : 8 * (value dx ^ 4 / (4608 * p.eps2) * (40 * (2 ^ 27 * (Z / value dx ^ 4)))) = 320 * 2 ^ 27 * (Z / (4608 * p.eps2)) := by
    field_simp
    ring
  have : 0 ≤ Z / (4608 * p.eps2) := by positivity
  rw [e, mul_div_assoc]
  linarith only [this]

set_option maxHeartbeats 1600000 in
/-- C108, whole runs. For every smooth periodic solution there are constants such that every execution of a fresh 3D Cahn–Hilliard run
with the adaptive integrator in floating-point arithmetic with overflow, infinities and NaN ends normally; and if its initial field is
within `a dx²` of the initial state of the solution, its largest step is at most `dx⁴ / (6144 ε²)`, its error tolerance is in the range of
the format and the format is precise and wide enough, then all proposed steps are ordinary and between the smallest and the largest step,
and every state of the run, and so every number in its files, is ordinary and close to the solution at a time that differs from the time
in the log by rounding only. -/
theorem C108_cahn_hilliard (p : CHParams ℚ) (he : 0 < p.eps2) (L : Fin 3 → ℝ) (hL : ∀ a, 0 < L a) (T : ℝ)
    (U : ℝ → (Fin 3 → ℝ) → ℝ) (hU : CHSolution (realParams p) L T U) (a : ℝ) (ha : 0 ≤ a) :
    ∃ (Cst h0 : ℝ) (B Em : ℚ), 0 ≤ Cst ∧ 0 < h0 ∧ ∀ (A : Type) [DecidableEq A] (F : IeeeFmt) [Pow (Ieee F) (Ieee F)]
      (hp : 4 ≤ F.prec) (hmin : F.emin ≤ 0) (hm : 64 ≤ F.emax) (u τ : ℚ) (hr : Rounds F.toFloatFmt.round u τ) (hu64 : u ≤ 1 / 64)
      (hτ53 : τ ≤ 1 / 2 ^ 53) (hP : PowFn (F := F) (· ^ ·))
      (sz : A → Int) (E : Env (Ieee F)) (o : RunOpts (Ieee F)) (w : ProgArr A)
      (heq : o.sel.equation = "cahn-hilliard") (hint : o.sel.integrator = "ode23") (hcfl : o.useCfl = false) (hlf : o.logFreq ≠ 0)
      (hms : 0 < o.maxSteps) (hM : o.maxSteps < 2147483648)
      (hbx : o.sel.bcx = "periodic") (hby : o.sel.bcy = "periodic") (hbz : o.sel.bcz = "periodic")
      (hdim : o.sel.dimension = 3) (hv : o.variant = 0 ∨ o.variant = 1 ∨ o.variant = 2)
      (hn : 2 ≤ o.nx ∧ 2 ≤ o.ny ∧ 2 ≤ o.nz) (hw : Arrays3 sz w o.nx o.ny o.nz)
      (ho : Ordinary o.par.eps2 ∧ Ordinary o.par.sigma ∧ Ordinary o.par.m)
      (hpf : value o.par.eps2 = p.eps2 ∧ value o.par.sigma = p.sigma ∧ value o.par.m = p.m)
      (dx : Ieee F) (hdx : dx = (o.box.xend - o.box.xbeg) / (o.nx : Ieee F)) (odx : Ordinary dx) (hs : Spacing τ (value dx))
      (hh : (value dx : ℝ) ≤ h0) (hB : B < 2 ^ F.emax * value dx ^ 4)
      (e0 : o.nx * (value dx : ℝ) = L 0) (e1 : o.ny * (value dx : ℝ) = L 1) (e2 : o.nz * (value dx : ℝ) = L 2) (or : Fin 3 → ℝ)
      (oT : Ordinary o.tfinal) (o0 : Ordinary o.t0) (od : Ordinary o.dt0) (ht0 : 0 ≤ value o.t0) (hT : 0 ≤ value o.tfinal)
      (omn : Ordinary o.minStep) (omx : Ordinary o.maxStep) (hm0 : 0 < value o.minStep) (hmτ : 4 * τ * 2 ^ F.prec ≤ value o.minStep)
      (hd : value o.minStep ≤ value o.dt0 ∧ value o.dt0 ≤ value o.maxStep) (hd1 : 6144 * p.eps2 * value o.maxStep ≤ value dx ^ 4)
      (ot : Ordinary o.errTol) (htol0 : 0 < value o.errTol) (htol1 : τ * Em ≤ value o.errTol) (htol2 : 2 * Em < 2 ^ F.emax * value o.errTol)
      (htol3 : 2 ^ 55 * value o.errTol < 2 ^ F.emax) (htol4 : 2 ^ 54 * τ * value o.errTol ≤ 1)
      (hTu : u * (value o.tfinal + 1) ≤ value dx ^ 4 / (64 * (768 * p.eps2))) (ht : o.t0 + o.dt0 < o.tfinal)
      (hXT : 4 * (|value o.t0| + value o.tfinal + 1) < (2 : ℚ) ^ F.emax)
      (hlen : (o.maxSteps : ℝ) * ((1 + (u : ℝ)) ^ 34 - 1) ≤ a * (value dx : ℝ) ^ 2) (δ : ℚ) (hδ : δ = (o.maxSteps + 2) * (u * (value o.tfinal + 2)))
      (hTT : ((value o.tfinal - value o.t0 + δ : ℚ) : ℝ) ≤ T)
      (hini : ∀ c, In3 o.nx o.ny o.nz c → Ordinary (initialAny3 E.draw o.par.m o.nx o.ny o.nz c) ∧
        |(value (initialAny3 E.draw o.par.m o.nx o.ny o.nz c) : ℝ) - U 0 (centre3 or (value dx) c.1 c.2.1 c.2.2)| ≤ a * (value dx : ℝ) ^ 2)
      (W : Nat) (hW : W = max (Nat.log 10 o.maxSteps + 1) 4) (m : Mem A (Ieee F))
      (hz : ∀ a ∈ [w.rk.k1, w.rk.k2, w.rk.k3, w.rk.k4], ∀ n, m a n = 0) (fuel : Nat) (hf1 : 1 ≤ fuel) (hf2 : o.maxSteps ≤ fuel),
      AllEnd sz (program E o none w fuel) m fun res _ => ∃ (N : Nat) (t d r : Nat → Ieee F) (v : Nat → Ieee F × Ieee F × Ieee F)
        (s : Nat → Int × Int × Int → Ieee F) (st : Status (Ieee F)), 1 ≤ N ∧
        res = .done (savedFiles 0 o.saveEvery.natAbs t d (stepName o.base W)
            (fun k => vts3 E.io o.box.xbeg o.box.ybeg o.box.zbeg dx o.nx o.ny o.nz (s (k + 1))) N ++
          [(stepName (finalBase o.base) W (0 + N), vts3 E.io o.box.xbeg o.box.ybeg o.box.zbeg dx o.nx o.ny o.nz (s N) st)])
          (reportRows 0 o.logFreq.natAbs t d r v N) ∧
        (∀ k, k + 1 < N → Ordinary (d k) ∧ value o.minStep ≤ value (d k) ∧ value (d k) ≤ value o.maxStep) ∧
        ∀ k, k ≤ N → Ordinary (t k) ∧ ∃ T' : ℚ, |T' - (value (t k) - value o.t0)| ≤ δ ∧ (∀ c, In3 o.nx o.ny o.nz c → Ordinary (s k c)) ∧
          (sum3 o.nx o.ny o.nz fun i j l => ((value (s k (i, j, l)) : ℝ) - U T' (centre3 or (value dx) i j l)) ^ 2) ≤
            ((o.nx * o.ny * o.nz : Int) : ℝ) * (Cst * (value dx : ℝ) ^ 2) ^ 2 ∧
          ∀ c, In3 o.nx o.ny o.nz c → ((value (s k c) : ℝ) - U T' (centre3 or (value dx) c.1 c.2.1 c.2.2)) ^ 2 ≤
            Cst ^ 2 * (L 0 * L 1 * L 2) * (value dx : ℝ) := by
  obtain ⟨Cst, h0, B, c0, h00, H⟩ := C107_converges p he L hL T U hU a ha
  obtain ⟨h0', B', Em, h00', hEm, HE⟩ := C108_errors p he L hL T U hU a ha
  have heR : (0 : ℝ) < p.eps2 := by exact_mod_cast he
  refine ⟨Cst, min (min h0 h0') (min 1 (768 * (p.eps2 : ℝ))), max B B', Em, c0, lt_min (lt_min h00 h00') (lt_min one_pos (by positivity)), ?_⟩
  intro A _ F _ hp hmin hm u τ hr hu64 hτ53 hP sz E o w heq hint hcfl hlf hms hM hbx hby hbz hdim hv hn hw ho hpf dx hdx odx hs hh hB e0 e1 e2 or
    oT o0 od ht0 hT omn omx hm0 hmτ hd hd1 ot htol0 htol1 htol2 htol3 htol4 hTu ht hXT hlen δ hδ hTT hini W hW m hz fuel hf1 hf2
  have hm8 : 8 ≤ F.emax := by omega
  refine (C102_ode23_3 sz E o w heq hcfl hlf hms hM (bx := .periodic) (bY := .periodic) (bz := .periodic) (by rw [hbx]; simp) (by rw [hby]; simp)
    (by rw [hbz]; simp) hdim hv hn hw hint dx hdx W hW m hz fuel hf1 (by dsimp only; omega)).mono fun res _ h => ?_
  obtain ⟨N, t, d, pr, r, e, v, s, hmar, hend, hs', hpr, -, hres⟩ := h
  refine ⟨N, t, d, r, v, s, _, hend.1, hres, ?_⟩
  have nl : ∀ k, k + 1 < N → ¬ LastStep o.tfinal t pr k := fun k hk hl => hend.2.2 (k + 1) (by omega) hk (.inl hl)
  have hNM : (N : Int) ≤ o.maxSteps := by
    have hb : (0 : Int) + N ≤ max (o.maxSteps : Int) (0 + 1) := by
      let : Max (Ieee F) := byLess
      exact hend.bound (o := ⟨o.t0, o.tfinal, o.dt0, false, o.maxSteps, 0, o.relTol, o.absTol⟩) (by dsimp only; omega)
    omega
  have x0 : 0 < value dx := hs.1
  have x1 : value dx ≤ 1 := by
    have : (value dx : ℝ) ≤ ((1 : ℚ) : ℝ) := by rw [Rat.cast_one]; exact (hh.trans (min_le_right _ _)).trans (min_le_left _ _)
    exact_mod_cast this
  have x4 : value dx ≤ 768 * p.eps2 := by
    have := (hh.trans (min_le_right _ _)).trans (min_le_right _ _)
    exact_mod_cast this
  obtain ⟨D, hD⟩ : ∃ D, D = value dx ^ 4 / (768 * p.eps2) := ⟨_, rfl⟩
  have D0 : 0 ≤ D := by rw [hD]; positivity
  have D1 : D ≤ 1 := by
    rw [hD, div_le_one (by positivity)]
    exact (pow_le_of_le_one x0.le x1 (by norm_num)).trans x4
  have hmx : value o.maxStep ≤ D / 8 := by
    rw [hD, div_div, le_div_iff₀ (by positivity)]
    linarith only [hd1]
  have hTD : u * (value o.tfinal + 1) ≤ D / 64 := by rw [hD, div_div]; convert hTu using 2; ring
  have last := last_step_ok hr hT D0 D1 hTD
  have hu := hr.unit.1
  have τ0 := hr.tiny.1
  have last' : (1 + u) * (value o.maxStep + u * (value o.tfinal + value o.maxStep + τ)) + u * τ ≤ D / 6 := by
    refine le_trans ?_ last
    gcongr
  have e6 : D / 6 = value dx ^ 4 / (4608 * p.eps2) := by rw [hD, div_div]; congr 1; ring
  have c00 := mul_nonneg hu (show 0 ≤ value o.tfinal + 2 by linarith only [hT])
  have kδ : ∀ k : Nat, k ≤ N → (k : ℚ) * (u * (value o.tfinal + 2)) + 2 * (u * (value o.tfinal + 2)) ≤ δ := by
    intro k hk
    have : (k : ℚ) ≤ o.maxSteps := by exact_mod_cast (show (k : Int) ≤ o.maxSteps by omega)
    rw [hδ, ← add_mul]
    exact mul_le_mul_of_nonneg_right (by linarith only [this]) c00
  have noise : (0 : ℝ) ≤ (1 + (u : ℝ)) ^ 34 - 1 := by
    have := sub_nonneg.2 (Near.one_le hr.unit.1 34)
    exact_mod_cast this
  have len : ∀ k : Nat, k ≤ N → (k : ℝ) * ((1 + (u : ℝ)) ^ 34 - 1) ≤ a * (value dx : ℝ) ^ 2 := fun k hk =>
    le_trans (mul_le_mul_of_nonneg_right (by exact_mod_cast (show (k : Int) ≤ o.maxSteps by omega)) noise) hlen
  have hcast : ∀ k, ((∑ i ∈ Finset.range k, value (d i) : ℚ) : ℝ) = ∑ i ∈ Finset.range k, (value (d i) : ℝ) := fun k => by push_cast; rfl
  -- sizes and times as long as the proposals are in range
  have part : ∀ n, 1 ≤ n → n ≤ N → (∀ k, k + 1 < n → Ordinary (pr (k + 1)) ∧ value o.minStep ≤ value (pr (k + 1)) ∧ value (pr (k + 1)) ≤ value o.maxStep) →
      (∀ i, i < n → Ordinary (d i) ∧ 2 * τ ≤ value (d i) ∧ 4608 * p.eps2 * value (d i) ≤ value dx ^ 4) ∧
      ∀ k, k ≤ n → Ordinary (t k) ∧ |∑ i ∈ Finset.range k, value (d i) - (value (t k) - value o.t0)| ≤ δ ∧
        ∑ i ∈ Finset.range k, (value (d i) : ℝ) ≤ T := by
    intro n h1 hnN hpn
    have times := ieee_times hr (by omega) hmar h1 (fun k hk => nl k (by omega)) (lo := value o.minStep) (hi := value o.maxStep)
      (by linarith only [hmx, D1, D0]) oT o0 od hmτ hm0 hd ht0 hT ht hXT (by linarith only [last', D1, D0]) (fun k hk _ => hpn k hk)
    refine ⟨fun i hi => ?_, fun k hk => ?_⟩
    · obtain ⟨g1, g2, g3⟩ := times.1 i hi
      refine ⟨g1, g2, ?_⟩
      have g4 : value (d i) ≤ D / 6 := g3.trans (max_le (by linarith only [hmx, D0]) last')
      rw [e6, le_div_iff₀ (by positivity)] at g4
      linarith only [g4]
    · obtain ⟨q1, q2, q3⟩ := times.2 k hk
      have kd := kδ k (by omega)
      refine ⟨q1, q3.trans (by linarith only [kd, c00]), ?_⟩
      rw [← hcast]
      refine le_trans ?_ hTT
      have := (abs_le.1 q3).2
      exact_mod_cast (by linarith only [this, kd, q2] : ∑ i ∈ Finset.range k, value (d i) ≤ value o.tfinal - value o.t0 + δ)
  -- the proposals are in range
  have prop : ∀ k, k + 1 < N → Ordinary (pr (k + 1)) ∧ value o.minStep ≤ value (pr (k + 1)) ∧ value (pr (k + 1)) ≤ value o.maxStep := by
    intro k
    induction k using Nat.strong_induction_on with
    | _ k ih =>
      intro hk
      obtain ⟨sz1, tm⟩ := part (k + 1) (by omega) (by omega) fun j hj => ih j (by omega) (by omega)
      have eqd : ∀ i, i < k → d (i + 1) = pr (i + 1) := fun i hi => by
        rw [hmar.d_succ i, if_neg (fun h => nl (i + 1) (by omega) ⟨by omega, h⟩)]
      rw [(hpr k (by omega)).2 (nl k hk)]
      refine C108_sizes hr hp hmin hm hu64 hτ53 hP o.errTol o.minStep o.maxStep Em hEm ot htol0 htol1 htol2 htol3 htol4 omn omx
        (by have P1 : (1 : ℚ) ≤ 2 ^ F.prec := one_le_pow₀ (by norm_num)
            have := le_mul_of_one_le_right (show 0 ≤ 4 * τ by linarith only [τ0]) P1
            linarith only [this, hmτ, τ0]) hm0
        (hd.1.trans hd.2) (by linarith only [hmx, D1, D0]) d e k (by rw [hmar.d_zero]; exact ⟨od, hd⟩) (fun i hi => ?_) (fun i hi => ?_)
      · rw [eqd i hi]
        exact (hpr i (by omega)).2 (nl i (by omega))
      · exact HE F hp hmin hm8 u τ hr o.nx o.ny o.nz ⟨by omega, by omega, by omega⟩ o.variant o.par ho hpf dx odx hs
          ((hh.trans (min_le_left _ _)).trans (min_le_right _ _)) (lt_of_le_of_lt (le_max_right _ _) hB) e0 e1 e2 or t d _ s _ rfl hs' i
          (fun j hj => sz1 j (by omega)) (tm (i + 1) (by omega)).2.2 (len (i + 1) (by omega)) hini _ (e i) (hpr i (by omega)).1
  obtain ⟨sz1, tm⟩ := part N hend.1 le_rfl prop
  refine ⟨fun k hk => ?_, fun k hk => ?_⟩
  · cases k with
    | zero => rw [hmar.d_zero]; exact ⟨od, hd⟩
    | succ i =>
      rw [hmar.d_succ i, if_neg (fun h => nl (i + 1) hk ⟨by omega, h⟩)]
      exact prop i (by omega)
  · obtain ⟨q1, q2, q3⟩ := tm k hk
    refine ⟨q1, ∑ i ∈ Finset.range k, value (d i), q2, ?_⟩
    rw [hcast]
    exact H F hp hmin hm8 u τ hr o.nx o.ny o.nz ⟨by omega, by omega, by omega⟩ o.variant o.par ho hpf dx odx hs
      ((hh.trans (min_le_left _ _)).trans (min_le_left _ _)) (lt_of_le_of_lt (le_max_left _ _) hB) e0 e1 e2
      or t d _ s (.inr hs') k (fun i hi => sz1 i (by omega)) q3 (len k hk) hini

/-- The example run of C107 with the adaptive integrator. -/
def fineAdapt (k e : ℕ) : RunOpts (Ieee (fineIeee k e)) where
  sel := ⟨3, "periodic", "periodic", "periodic", "cahn-hilliard", "ode23", false⟩
  nx := 2 ^ k
  ny := 2 ^ k
  nz := 2 ^ k
  box := ⟨0, .num 1, 0, 0⟩
  variant := 1
  par := { m := 0, sigma := .num 1, eps2 := .num 1 }
  t0 := 0
  tfinal := .num 1
  dt0 := .num (1 / 2 ^ (4 * k + 13))
  useCfl := false
  maxSteps := 4
  relTol := 0
  absTol := 0
  errTol := .num 1
  minStep := .num (1 / 2 ^ (4 * k + 14))
  maxStep := .num (1 / 2 ^ (4 * k + 13))
  logFreq := 1
  saveEvery := 1
  logFile := []
  solFile := ['s']
  mg := ⟨1, 1, 100, 1, 1, 1, 1, "nearest"⟩

/-- The hypotheses of `C108_cahn_hilliard` are met for the state at rest, on grids as fine as wished. -/
example (h0 : ℝ) (B Em : ℚ) (hh : 0 < h0) : CHSolution (realParams ⟨1, 1, 0⟩) (fun _ : Fin 3 => 1) 2
      (fun t _ => (realParams ⟨1, 1, 0⟩).m + 0 * Real.exp (-((realParams ⟨1, 1, 0⟩).sigma * t))) ∧
    ∃ (k e : ℕ) (u τ : ℚ) (dx : Ieee (fineIeee k e)), 4 ≤ (fineIeee k e).prec ∧ (fineIeee k e).emin ≤ 0 ∧ 8 ≤ (fineIeee k e).emax ∧
      Rounds (fineIeee k e).toFloatFmt.round u τ ∧ dx = ((fineAdapt k e).box.xend - (fineAdapt k e).box.xbeg) / ((fineAdapt k e).nx : Ieee _) ∧
      (u ≤ 1 / 64 ∧ τ ≤ 1 / 2 ^ 53 ∧ 64 ≤ (fineIeee k e).emax ∧ τ * Em ≤ value (fineAdapt k e).errTol ∧
        2 * Em < 2 ^ (fineIeee k e).emax * value (fineAdapt k e).errTol ∧
        2 ^ 55 * value (fineAdapt k e).errTol < (2 : ℚ) ^ (fineIeee k e).emax ∧ 2 ^ 54 * τ * value (fineAdapt k e).errTol ≤ 1) ∧
      (2 ≤ (fineAdapt k e).nx ∧ 2 ≤ (fineAdapt k e).ny ∧ 2 ≤ (fineAdapt k e).nz) ∧
      Arrays3 (demoSize ((2 ^ k + 5) * (2 ^ k + 5) * (2 ^ k + 5)) ((2 ^ k + 4) * (2 ^ k + 4) * (2 ^ k + 4))) demoArr
        (fineAdapt k e).nx (fineAdapt k e).ny (fineAdapt k e).nz ∧
      (Ordinary (fineAdapt k e).par.eps2 ∧ Ordinary (fineAdapt k e).par.sigma ∧ Ordinary (fineAdapt k e).par.m) ∧
      (value (fineAdapt k e).par.eps2 = 1 ∧ value (fineAdapt k e).par.sigma = 1 ∧ value (fineAdapt k e).par.m = 0) ∧
      Ordinary dx ∧ Spacing τ (value dx) ∧ (value dx : ℝ) ≤ h0 ∧ B < 2 ^ (fineIeee k e).emax * value dx ^ 4 ∧
      (fineAdapt k e).nx * (value dx : ℝ) = 1 ∧ Ordinary (fineAdapt k e).tfinal ∧ Ordinary (fineAdapt k e).t0 ∧ Ordinary (fineAdapt k e).dt0 ∧
      0 ≤ value (fineAdapt k e).t0 ∧ 0 ≤ value (fineAdapt k e).tfinal ∧ 0 < value (fineAdapt k e).minStep ∧
      (value (fineAdapt k e).minStep ≤ value (fineAdapt k e).dt0 ∧ value (fineAdapt k e).dt0 ≤ value (fineAdapt k e).maxStep) ∧
      4 * τ * 2 ^ (fineIeee k e).prec ≤ value (fineAdapt k e).minStep ∧ 6144 * 1 * value (fineAdapt k e).maxStep ≤ value dx ^ 4 ∧
      u * (value (fineAdapt k e).tfinal + 1) ≤ value dx ^ 4 / (64 * (768 * 1)) ∧
      (fineAdapt k e).t0 + (fineAdapt k e).dt0 < (fineAdapt k e).tfinal ∧
      4 * (|value (fineAdapt k e).t0| + value (fineAdapt k e).tfinal + 1) < (2 : ℚ) ^ (fineIeee k e).emax ∧
      ((fineAdapt k e).maxSteps : ℝ) * ((1 + (u : ℝ)) ^ 34 - 1) ≤ 1 * (value dx : ℝ) ^ 2 ∧
      ((value (fineAdapt k e).tfinal - value (fineAdapt k e).t0 +
        (((fineAdapt k e).maxSteps : ℚ) + 2) * (u * (value (fineAdapt k e).tfinal + 2)) : ℚ) : ℝ) ≤ 2 ∧
      ∀ c, In3 (fineAdapt k e).nx (fineAdapt k e).ny (fineAdapt k e).nz c →
        Ordinary (initialAny3 (fun _ => 0) (fineAdapt k e).par.m (fineAdapt k e).nx (fineAdapt k e).ny (fineAdapt k e).nz c) ∧
        |(value (initialAny3 (fun _ => 0) (fineAdapt k e).par.m (fineAdapt k e).nx (fineAdapt k e).ny (fineAdapt k e).nz c) : ℝ) -
          ((realParams ⟨1, 1, 0⟩).m + 0 * Real.exp (-((realParams ⟨1, 1, 0⟩).sigma * 0)))| ≤ 1 * (value dx : ℝ) ^ 2 := by
  obtain ⟨hU, k, e, u, τ, dx, a1, a2, a3, a4, a5, ⟨b1, b2, b3, b4, b5, b6, b7, b8⟩, a6, a7, a8, a9, a10, a11, a12, a13, a14, a15, a16, a17, a18,
    a19, -, -, a20⟩ := fine_run h0 B Em hh
  exact ⟨hU, k, e, u, τ, dx, a1, a2, a3, a4, a5, ⟨b1, b2, b3, b4, b5, b6, b7⟩, a6, a7, a8, a9, a10, a11, a12, a13, a14, a15, a16, a17, a18,
    a19, by show (0 : ℚ) < 1 / 2 ^ (4 * k + 14); positivity,
    ⟨one_div_le_one_div_of_le (by positivity) (pow_le_pow_right₀ (by norm_num) (by omega)), le_rfl⟩, b8, a20⟩

/-- The power function of the hypotheses exists in every format. -/
example (k e : ℕ) : PowFn (F := fineIeee k e) (fun a _ => a) := fun _ _ h1 h2 _ _ _ => ⟨h1, h2⟩

end Madg
