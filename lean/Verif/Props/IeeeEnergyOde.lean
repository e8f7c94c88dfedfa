/-
C114, adaptive runs: in floating point the free energy of runs with the adaptive integrator rises by rounding only, whatever step sizes the
controller picks.
-/
import Verif.Props.IeeeEnergy
import Verif.Props.IeeeOdeCH

set_option linter.unusedSectionVars false
set_option linter.unusedVariables false

namespace Madg
open Spec

section
variable {F : IeeeFmt} (hp : 4 ≤ F.prec) (hmin : F.emin ≤ 0) (hm : 8 ≤ F.emax) {u τ : ℚ} (hr : Rounds F.toFloatFmt.round u τ)
  (h34 : (1 + u) ^ 34 ≤ 15 / 14) (pf : CHParams (Ieee F)) (ho : Ordinary pf.eps2 ∧ Ordinary pf.sigma ∧ Ordinary pf.m)
  (p : CHParams ℚ) (hpf : value pf.eps2 = p.eps2 ∧ value pf.sigma = p.sigma ∧ value pf.m = p.m)
  (dx : Ieee F) (hdx : Ordinary dx) (hs : Spacing τ (value dx)) (x1 : value dx ≤ 1)
  (M : ℚ) (hM : 2 ≤ M) (E : ℚ) (hE : E = 1 + |p.eps2| + |p.sigma| + |p.m|) (Em : ℚ) (hEm : Em = 2 ^ 36 * (E * (M ^ 3 + E)) / value dx ^ 4)
  (hX : Em < 2 ^ F.emax) (d : Ieee F) (hd : Ordinary d ∧ 2 * τ ≤ value d ∧ value d * rhsSize p (value dx) M ≤ M / 13)
include hp hmin hm hr h34 ho hpf hdx hs x1 hM hE hEm hX hd

/-- C114. The error estimate of an adaptive 2D step between states below `M / 2` and `M`, in whatever order its maximum is formed, is an
ordinary number between 0 and `2³⁶ E (M³ + E) / dx⁴`. -/
theorem C114_errors2 (n : Int) (hn : 1 ≤ n) (G : (Int × Int → Ieee F) → Int × Int → Ieee F) (hG : G = rhsOps2 pf dx n 0)
    (y : Int × Int → Ieee F) (hy : ∀ c, In2 n c → Ordinary (y c) ∧ |value (y c)| ≤ M / 2)
    (hnew : ∀ c, In2 n c → |value (y c + d * bs23Slope G d y c)| ≤ M / 2)
    (pad : Nat) (e : Ieee F) (hEr : ∃ g, (letI : Max (Ieee F) := byLess;
        LargestGap (pairs n n) pad (bs23Slope G d y) (bs23SlopeHat G d y) g) ∧ e = if 0 < d * g then d * g else 0) :
    Ordinary e ∧ 0 ≤ value e ∧ value e ≤ Em := by
  have q1 := abs_nonneg p.eps2
  have q2 := abs_nonneg p.sigma
  have q3 := abs_nonneg p.m
  have E1 : 1 ≤ E := by linarith
  have x0 : 0 < value dx := hs.1
  have g0 : 0 ≤ value d := by have := hr.tiny.1; linarith [hd.2.1]
  have g4 := step_le_one x0 x1 hM g0 hd.2.2
  obtain ⟨Z, hZ⟩ : ∃ Z : ℚ, Z = E * (M ^ 3 + E) / value dx ^ 4 := ⟨_, rfl⟩
  have Z0 : 0 ≤ Z := by rw [hZ]; positivity
  have hS : chSize E M (value dx) = 2 ^ 27 * Z := by unfold chSize; rw [hZ]
  have hEZ : Em = 2 ^ 36 * Z := by rw [hEm, hZ]; ring
  obtain ⟨p', hp'⟩ : ∃ p' : CHParams (Fl F.toFloatFmt.round), p' = ⟨asFl pf.eps2, asFl pf.sigma, asFl pf.m⟩ := ⟨_, rfl⟩
  have vp : valuesOf p' = p := by
    rw [hp']
    show (⟨value pf.eps2, value pf.sigma, value pf.m⟩ : CHParams ℚ) = p
    rw [hpf.1, hpf.2.1, hpf.2.2]
  have s1 : Same pf.eps2 p'.eps2 E := by rw [hp']; exact ⟨ho.1, rfl, by show |value pf.eps2| ≤ E; rw [hpf.1]; linarith⟩
  have s2 : Same pf.sigma p'.sigma E := by rw [hp']; exact ⟨ho.2.1, rfl, by show |value pf.sigma| ≤ E; rw [hpf.2.1]; linarith⟩
  have s3 : Same pf.m p'.m E := by rw [hp']; exact ⟨ho.2.2, rfl, by show |value pf.m| ≤ E; rw [hpf.2.2]; linarith⟩
  have sx : Same dx (asFl dx) 1 := ⟨hdx, rfl, by show |value dx| ≤ 1; rw [abs_of_pos x0]; exact x1⟩
  have hG' : chFieldA2 pf dx n 0 = G := by rw [hG, chFieldA2_eq]
  have sl := ieee_bs23_slopes2 hp hmin hm hr hn E1 hM s1 s2 s3 sx hs
    (show 64 * chSize E M (value dx) < (2 : ℚ) ^ F.emax by rw [hS]; linarith only [hX, hEZ, Z0]) (by linarith only [h34])
    (dt := d) (dt' := asFl d) (Same.of hd.1 (by rw [abs_of_nonneg g0]; exact g4)) hd.2.1
    (by rw [vp]; exact hd.2.2.trans (by linarith only [hM])) (a := y) (x := fun c => asFl (y c))
    (fun c hc => Same.of (hy c hc).1 (hy c hc).2) (fun c hc => by
      rw [hG']
      exact (hnew c hc).trans (by linarith only [hM]))
  rw [hG'] at sl
  have er := err_ok hp hmin hm (D := 1) (S := 40 * chSize E M (value dx)) (by rw [hS]; positivity)
    (G := G) (dt := d) (a := y) (cells := pairs n n) (pad := pad) (e := e)
    (fun c hc => sl.1 c (mem_pairs.1 hc)) (fun c hc => sl.2 c (mem_pairs.1 hc))
    (by rw [hS]; linarith only [hX, hEZ, Z0]) ⟨hd.1, g0, g4⟩
    (by rw [hS]; linarith only [hX, hEZ, Z0]) hEr
  refine ⟨er.ord, er.lo, er.hi.trans ?_⟩
  rw [hS]
  linarith only [hEZ, Z0]

/-- C114. The error estimate of an adaptive 3D step between states below `M / 2` and `M`, in whatever order its maximum is formed, is an
ordinary number between 0 and `2³⁶ E (M³ + E) / dx⁴`. -/
theorem C114_errors3 (nx ny nz : Int) (hn : 1 ≤ nx ∧ 1 ≤ ny ∧ 1 ≤ nz) (v : Int) (G : (Int × Int × Int → Ieee F) → Int × Int × Int → Ieee F) (hG : G = rhsOps3 v pf dx .periodic .periodic .periodic nx ny nz 0)
    (y : Int × Int × Int → Ieee F) (hy : ∀ c, In3 nx ny nz c → Ordinary (y c) ∧ |value (y c)| ≤ M / 2)
    (hnew : ∀ c, In3 nx ny nz c → |value (y c + d * bs23Slope G d y c)| ≤ M / 2)
    (pad : Nat) (e : Ieee F) (hEr : ∃ g, (letI : Max (Ieee F) := byLess;
        LargestGap (triples nx ny nz) pad (bs23Slope G d y) (bs23SlopeHat G d y) g) ∧ e = if 0 < d * g then d * g else 0) :
    Ordinary e ∧ 0 ≤ value e ∧ value e ≤ Em := by
  have q1 := abs_nonneg p.eps2
  have q2 := abs_nonneg p.sigma
  have q3 := abs_nonneg p.m
  have E1 : 1 ≤ E := by linarith
  have x0 : 0 < value dx := hs.1
  have g0 : 0 ≤ value d := by have := hr.tiny.1; linarith [hd.2.1]
  have g4 := step_le_one x0 x1 hM g0 hd.2.2
  obtain ⟨Z, hZ⟩ : ∃ Z : ℚ, Z = E * (M ^ 3 + E) / value dx ^ 4 := ⟨_, rfl⟩
  have Z0 : 0 ≤ Z := by rw [hZ]; positivity
  have hS : chSize E M (value dx) = 2 ^ 27 * Z := by unfold chSize; rw [hZ]
  have hEZ : Em = 2 ^ 36 * Z := by rw [hEm, hZ]; ring
  obtain ⟨p', hp'⟩ : ∃ p' : CHParams (Fl F.toFloatFmt.round), p' = ⟨asFl pf.eps2, asFl pf.sigma, asFl pf.m⟩ := ⟨_, rfl⟩
  have vp : valuesOf p' = p := by
    rw [hp']
    show (⟨value pf.eps2, value pf.sigma, value pf.m⟩ : CHParams ℚ) = p
    rw [hpf.1, hpf.2.1, hpf.2.2]
  have s1 : Same pf.eps2 p'.eps2 E := by rw [hp']; exact ⟨ho.1, rfl, by show |value pf.eps2| ≤ E; rw [hpf.1]; linarith⟩
  have s2 : Same pf.sigma p'.sigma E := by rw [hp']; exact ⟨ho.2.1, rfl, by show |value pf.sigma| ≤ E; rw [hpf.2.1]; linarith⟩
  have s3 : Same pf.m p'.m E := by rw [hp']; exact ⟨ho.2.2, rfl, by show |value pf.m| ≤ E; rw [hpf.2.2]; linarith⟩
  have sx : Same dx (asFl dx) 1 := ⟨hdx, rfl, by show |value dx| ≤ 1; rw [abs_of_pos x0]; exact x1⟩
  have hG' : chFieldA v pf dx .periodic .periodic .periodic nx ny nz 0 = G := by rw [hG, chFieldA_eq]
  have sl := ieee_bs23_slopes hp hmin hm hr hn.1 hn.2.1 hn.2.2 (v := v) E1 hM s1 s2 s3 sx hs
    (show 64 * chSize E M (value dx) < (2 : ℚ) ^ F.emax by rw [hS]; linarith only [hX, hEZ, Z0]) (by linarith only [h34])
    (dt := d) (dt' := asFl d) (Same.of hd.1 (by rw [abs_of_nonneg g0]; exact g4)) hd.2.1
    (by rw [vp]; exact hd.2.2.trans (by linarith only [hM])) (a := y) (x := fun c => asFl (y c))
    (fun c hc => Same.of (hy c hc).1 (hy c hc).2) (fun c hc => by
      rw [hG']
      exact (hnew c hc).trans (by linarith only [hM]))
  rw [hG'] at sl
  have er := err_ok hp hmin hm (D := 1) (S := 40 * chSize E M (value dx)) (by rw [hS]; positivity)
    (G := G) (dt := d) (a := y) (cells := triples nx ny nz) (pad := pad) (e := e)
    (fun c hc => sl.1 c (mem_triples.1 hc)) (fun c hc => sl.2 c (mem_triples.1 hc))
    (by rw [hS]; linarith only [hX, hEZ, Z0]) ⟨hd.1, g0, g4⟩
    (by rw [hS]; linarith only [hX, hEZ, Z0]) hEr
  refine ⟨er.ord, er.lo, er.hi.trans ?_⟩
  rw [hS]
  linarith only [hEZ, Z0]

end

section
variable {A : Type} [DecidableEq A] {F : IeeeFmt} [Pow (Ieee F) (Ieee F)]
  (hp : 4 ≤ F.prec) (hmin : F.emin ≤ 0) (hm : 64 ≤ F.emax) {u τ : ℚ} (hr : Rounds F.toFloatFmt.round u τ) (h34 : (1 + u) ^ 34 ≤ 15 / 14)
  (hu64 : u ≤ 1 / 64) (hτ53 : τ ≤ 1 / 2 ^ 53) (hP : PowFn (F := F) (· ^ ·))
  (sz : A → Int) (E : Env (Ieee F)) (o : RunOpts (Ieee F)) (w : ProgArr A)
  (heq : o.sel.equation = "cahn-hilliard") (hint : o.sel.integrator = "ode23") (hcfl : o.useCfl = false) (hlf : o.logFreq ≠ 0)
  (hms : 0 < o.maxSteps) (p : CHParams ℚ)
  (ho : Ordinary o.par.eps2 ∧ Ordinary o.par.sigma ∧ Ordinary o.par.m)
  (hpf : value o.par.eps2 = p.eps2 ∧ value o.par.sigma = p.sigma ∧ value o.par.m = p.m) (hσ : p.sigma = 0) (he : 0 ≤ p.eps2)
  (dx : Ieee F) (hdx : dx = (o.box.xend - o.box.xbeg) / (o.nx : Ieee F)) (odx : Ordinary dx) (hs : Spacing τ (value dx)) (x1 : value dx ≤ 1)
  (M : ℚ) (hM : 2 ≤ M) (Q : ℚ) (hQ : Q = 1 + |p.eps2| + |p.sigma| + |p.m|)
  (Em : ℚ) (hEm : Em = 2 ^ 36 * (Q * (M ^ 3 + Q)) / value dx ^ 4) (hX : Em < 2 ^ F.emax)
  (oT : Ordinary o.tfinal) (o0 : Ordinary o.t0) (od : Ordinary o.dt0) (ht0 : 0 ≤ value o.t0) (hT : 0 ≤ value o.tfinal)
  (omn : Ordinary o.minStep) (omx : Ordinary o.maxStep) (hm0 : 0 < value o.minStep) (hmτ : 4 * τ * 2 ^ F.prec ≤ value o.minStep)
  (hd : value o.minStep ≤ value o.dt0 ∧ value o.dt0 ≤ value o.maxStep) (hd1 : value o.maxStep * rhsSize p (value dx) M ≤ M / 18)
  (ot : Ordinary o.errTol) (htol0 : 0 < value o.errTol) (htol1 : τ * Em ≤ value o.errTol) (htol2 : 2 * Em < 2 ^ F.emax * value o.errTol)
  (htol3 : 2 ^ 55 * value o.errTol < 2 ^ F.emax) (htol4 : 2 ^ 54 * τ * value o.errTol ≤ 1)
  (hTu : u * (value o.tfinal + 1) ≤ value o.maxStep / 8) (ht : o.t0 + o.dt0 < o.tfinal)
  (hXT : 4 * (|value o.t0| + value o.tfinal + 1) < (2 : ℚ) ^ F.emax)
include hp hmin hm hr h34 hu64 hτ53 hP heq hint hcfl hlf hms ho hpf hσ he hdx odx hs x1 hM hQ hEm hX oT o0 od ht0 hT omn omx hm0 hmτ hd hd1 ot
  htol0 htol1 htol2 htol3 htol4 hTu ht hXT

set_option maxHeartbeats 1600000 in
/-- C114, whole 2D runs with the adaptive integrator. Every execution of a fresh run of the Cahn–Hilliard equation without relaxation term
in floating point with overflow, infinities and NaN ends normally. If the initial field has ordinary values in `[-1, 1]`, the largest
step is at most `M / 18` over the size of the right-hand side, the tolerance is in the range of the format and
`N (1/4 + 4 ε²/dx²)` plus the allowed number of steps times `η` is at most `((M² - 4) / 8)²`, then all steps but the last are between the
smallest and the largest step, every number of every state is ordinary and at most `M / 2`, and the free energy after `k` steps exceeds
that of the initial field by at most `k η`, whatever the error estimates are and whatever sizes they lead to. -/
theorem C114_ode23_2 (hms2 : o.maxSteps < 1000000)
    (hbx : o.sel.bcx ∈ ["periodic", "neumann", "dirichlet"]) (hby : o.sel.bcy ∈ ["periodic", "neumann", "dirichlet"])
    (hbz : o.sel.bcz ∈ ["periodic", "neumann", "dirichlet"])
    (hdim : o.sel.dimension = 2) (hn : 2 ≤ o.nx) (hw : Arrays2 sz w o.nx)
    (hini : ∀ c, In2 o.nx c → Ordinary (initialAny2 E.draw o.par.m o.nx c) ∧ |value (initialAny2 E.draw o.par.m o.nx c)| ≤ 1)
    (η : ℚ) (hη : η = 27 / 4 * ((o.nx * o.nx : Int) : ℚ) * (((1 + u) ^ 34 - 1) * (M ^ 2 * (M ^ 2 + 8 * p.eps2 / value dx ^ 2))))
    (h0 : ((o.nx * o.nx : Int) : ℚ) * (1 / 4 + 4 * p.eps2 / value dx ^ 2) + o.maxSteps * η ≤ ((M ^ 2 - 4) / 8) ^ 2)
    (W : Nat) (hW : W = Nat.log 10 o.maxSteps + 1) (m : Mem A (Ieee F))
    (hz : ∀ a ∈ [w.rk.k1, w.rk.k2, w.rk.k3, w.rk.k4], ∀ n, m a n = 0) (fuel : Nat) (hf1 : 1 ≤ fuel) (hf2 : o.maxSteps ≤ fuel) :
    AllEnd sz (program E o none w fuel) m fun res _ => ∃ (N : Nat) (t d r : Nat → Ieee F) (v : Nat → Ieee F × Ieee F × Ieee F)
      (s : Nat → Int × Int → Ieee F) (st : Status (Ieee F)), 1 ≤ N ∧
      res = .done (savedFiles 0 o.saveEvery.natAbs t d (stepName o.base W)
          (fun k => vts2 E.io o.box.xbeg o.box.ybeg dx o.nx (s (k + 1))) N ++
        [(stepName (finalBase o.base) W (0 + N), vts2 E.io o.box.xbeg o.box.ybeg dx o.nx (s N) st)])
        (reportRows 0 o.logFreq.natAbs t d r v N) ∧ s 0 = initialAny2 E.draw o.par.m o.nx ∧
      (∀ k, k + 1 < N → Ordinary (d k) ∧ value o.minStep ≤ value (d k) ∧ value (d k) ≤ value o.maxStep) ∧
      ∀ k, k ≤ N → Ordinary (t k) ∧ (∀ c, In2 o.nx c → Ordinary (s k c) ∧ |value (s k c)| ≤ M / 2) ∧
        energy2 p.eps2 (value dx) o.nx o.nx (ext2 o.nx fun a b => value (s k (a, b))) ≤
          energy2 p.eps2 (value dx) o.nx o.nx (ext2 o.nx fun a b => value (s 0 (a, b))) + k * η := by
  have hm8 : 8 ≤ F.emax := by omega
  refine (C102_ode23_2 sz E o w heq hcfl hlf hms hms2 hbx hby hbz hdim hn hw hint dx hdx W hW m hz fuel hf1 (by dsimp only; omega)).mono fun res _ h => ?_
  obtain ⟨N, t, d, pr, r, e, v, s, hmar, hend, hs', hpr, -, hres⟩ := h
  have s0 : s 0 = initialAny2 E.draw o.par.m o.nx := by rw [hs']; rfl
  refine ⟨N, t, d, r, v, s, _, hend.1, hres, s0, ?_⟩
  have nl : ∀ k, k + 1 < N → ¬ LastStep o.tfinal t pr k := fun k hk hl => hend.2.2 (k + 1) (by omega) hk (.inl hl)
  have hNM : (N : Int) ≤ o.maxSteps := by
    have hb : (0 : Int) + N ≤ max (o.maxSteps : Int) (0 + 1) := by
      let : Max (Ieee F) := byLess
      exact hend.bound (o := ⟨o.t0, o.tfinal, o.dt0, false, o.maxSteps, 0, o.relTol, o.absTol⟩) (by dsimp only; omega)
    omega
  have x0 : 0 < value dx := hs.1
  have mx0 : 0 < value o.maxStep := lt_of_lt_of_le hm0 (hd.1.trans hd.2)
  have R0 : 0 < rhsSize p (value dx) M := by
    have := abs_nonneg p.m
    unfold rhsSize; positivity
  have Q1 : 1 ≤ Q := by
    have q1 := abs_nonneg p.eps2
    have q2 := abs_nonneg p.sigma
    have q3 := abs_nonneg p.m
    linarith
  have x4 : 0 < value dx ^ 4 := by positivity
  have Em1 : 1 ≤ Em := by
    rw [hEm, le_div_iff₀ x4, one_mul]
    have a : value dx ^ 4 ≤ 1 := pow_le_one₀ x0.le x1
    have b : 0 ≤ M ^ 3 := by positivity
    nlinarith
  have hX' : 2 ^ 33 * (Q * (M ^ 3 + Q)) < 2 ^ F.emax * value dx ^ 4 := by
    rw [hEm, div_lt_iff₀ x4] at hX
    have : 0 ≤ Q * (M ^ 3 + Q) := by positivity
    linarith
  obtain ⟨D, hD⟩ : ∃ D, D = 8 * value o.maxStep := ⟨_, rfl⟩
  have D0 : 0 ≤ D := by linarith
  have D1 : D ≤ 1 := by
    have h1 : 13 * M ≤ rhsSize p (value dx) M := by
      unfold rhsSize
      have a : 0 ≤ |p.eps2| * (144 * M / value dx ^ 4) := by positivity
      have b : 0 ≤ |p.sigma| * (M + |p.m|) := by positivity
      have c : 13 * (M ^ 3 + M) ≤ 13 * (M ^ 3 + M) / value dx ^ 2 := by
        rw [le_div_iff₀ (by positivity)]
        exact mul_le_of_le_one_right (by positivity) (pow_le_one₀ x0.le x1)
      have d : 0 ≤ M ^ 3 := by positivity
      linarith
    have := mul_le_mul_of_nonneg_left h1 mx0.le
    nlinarith
  have hmx : value o.maxStep ≤ D / 8 := by linarith
  have hTD : u * (value o.tfinal + 1) ≤ D / 64 := by linarith
  have last := last_step_ok hr hT D0 D1 hTD
  have hu := hr.unit.1
  have τ0 := hr.tiny.1
  have last' : (1 + u) * (value o.maxStep + u * (value o.tfinal + value o.maxStep + τ)) + u * τ ≤ D / 6 := by
    refine le_trans ?_ last
    gcongr
  have η0 : 0 ≤ η := by
    have ρ0 : 0 ≤ (1 + u) ^ 34 - 1 := sub_nonneg.2 (Near.one_le hr.unit.1 34)
    have N0 : (0 : ℚ) ≤ ((o.nx * o.nx : Int) : ℚ) := by exact_mod_cast mul_nonneg (by omega) (by omega : (0 : Int) ≤ o.nx)
    rw [hη]; positivity
  -- sizes and times as long as the proposals are in range
  have part : ∀ n, 1 ≤ n → n ≤ N → (∀ k, k + 1 < n → Ordinary (pr (k + 1)) ∧ value o.minStep ≤ value (pr (k + 1)) ∧ value (pr (k + 1)) ≤ value o.maxStep) →
      (∀ i, i < n → Ordinary (d i) ∧ 2 * τ ≤ value (d i) ∧ value (d i) * rhsSize p (value dx) M ≤ M / 13) ∧ ∀ k, k ≤ n → Ordinary (t k) := by
    intro n h1 hnN hpn
    have times := ieee_times hr (by omega) hmar h1 (fun k hk => nl k (by omega)) (lo := value o.minStep) (hi := value o.maxStep)
      (by linarith only [hmx, D1, D0]) oT o0 od hmτ hm0 hd ht0 hT ht hXT (by linarith only [last', D1, D0]) (fun k hk _ => hpn k hk)
    refine ⟨fun i hi => ?_, fun k hk => (times.2 k hk).1⟩
    obtain ⟨g1, g2, g3⟩ := times.1 i hi
    refine ⟨g1, g2, ?_⟩
    have g4 : value (d i) ≤ 4 / 3 * value o.maxStep := g3.trans (max_le (by linarith only [mx0]) (by linarith only [last', hD]))
    have := mul_le_mul_of_nonneg_right g4 R0.le
    nlinarith only [this, hd1, hM]
  -- so the states are bounded
  have stable : ∀ k, k ≤ N → (∀ i, i < k → Ordinary (d i) ∧ 2 * τ ≤ value (d i) ∧ value (d i) * rhsSize p (value dx) M ≤ M / 13) → _ := fun k hk hdk =>
    C114_stable2 hp hmin hm8 hr h34 o.par ho p hpf hσ he dx odx hs x1 M hM Q hQ hX' t d k hdk o.nx (by omega) _ s (.inr hs')
      (fun c hc => (hini c hc).1) _ rfl η hη (by
        have h1 := C114_initial2 (dx := value dx) he o.nx (by omega) (fun a b => value (s 0 (a, b)))
          fun i j h1 h2 => by rw [s0]; exact (hini (i, j) ⟨h1, h2⟩).2
        have h2 : (k : ℚ) * η ≤ o.maxSteps * η := mul_le_mul_of_nonneg_right (by exact_mod_cast (show (k : Int) ≤ o.maxSteps by omega)) η0
        linarith)
  -- and the proposals in range
  have prop : ∀ k, k + 1 < N → Ordinary (pr (k + 1)) ∧ value o.minStep ≤ value (pr (k + 1)) ∧ value (pr (k + 1)) ≤ value o.maxStep := by
    intro k
    induction k using Nat.strong_induction_on with
    | _ k ih =>
      intro hk
      obtain ⟨sz1, -⟩ := part (k + 1) (by omega) (by omega) fun j hj => ih j (by omega) (by omega)
      have eqd : ∀ i, i < k → d (i + 1) = pr (i + 1) := fun i hi => by
        rw [hmar.d_succ i, if_neg (fun h => nl (i + 1) (by omega) ⟨by omega, h⟩)]
      rw [(hpr k (by omega)).2 (nl k hk)]
      refine C108_sizes hr hp hmin hm hu64 hτ53 hP o.errTol o.minStep o.maxStep Em Em1 ot htol0 htol1 htol2 htol3 htol4 omn omx
        (by have P1 : (1 : ℚ) ≤ 2 ^ F.prec := one_le_pow₀ (by norm_num)
            have := le_mul_of_one_le_right (show 0 ≤ 4 * τ by linarith only [τ0]) P1
            linarith only [this, hmτ, τ0]) hm0
        (hd.1.trans hd.2) (by linarith only [hmx, D1, D0]) d e k (by rw [hmar.d_zero]; exact ⟨od, hd⟩) (fun i hi => ?_) (fun i hi => ?_)
      · rw [eqd i hi]
        exact (hpr i (by omega)).2 (nl i (by omega))
      · have st := (stable (k + 1) (by omega) sz1).1
        refine C114_errors2 hp hmin hm8 hr h34 o.par ho p hpf dx odx hs x1 M hM Q hQ Em hEm hX (d i) (sz1 i (by omega)) o.nx (by omega) _ rfl
          (s i) (st i (by omega)).1 (fun c hc => ?_) _ (e i) (hpr i (by omega)).1
        have := ((st (i + 1) (by omega)).1 c hc).2
        rw [hs'] at this
        rw [hs']
        exact this
  obtain ⟨sz1, tm⟩ := part N hend.1 le_rfl prop
  refine ⟨fun k hk => ?_, fun k hk => ⟨tm k hk, (stable N le_rfl sz1).1 k hk⟩⟩
  cases k with
  | zero => rw [hmar.d_zero]; exact ⟨od, hd⟩
  | succ i =>
    rw [hmar.d_succ i, if_neg (fun h => nl (i + 1) hk ⟨by omega, h⟩)]
    exact prop i (by omega)

set_option maxHeartbeats 1600000 in
/-- C114, whole periodic 3D runs with the adaptive integrator. Every execution of a fresh 3D run of the Cahn–Hilliard equation without relaxation term
in floating point with overflow, infinities and NaN ends normally. If the initial field has ordinary values in `[-1, 1]`, the largest
step is at most `M / 18` over the size of the right-hand side, the tolerance is in the range of the format and
`N (1/4 + 6 ε²/dx²)` plus the allowed number of steps times `η` is at most `((M² - 4) / 8)²`, then all steps but the last are between the
smallest and the largest step, every number of every state is ordinary and at most `M / 2`, and the free energy after `k` steps exceeds
that of the initial field by at most `k η`, whatever the error estimates are and whatever sizes they lead to. -/
theorem C114_ode23_3 (hms2 : o.maxSteps < 2147483648)
    (hbx : o.sel.bcx = "periodic") (hby : o.sel.bcy = "periodic") (hbz : o.sel.bcz = "periodic")
    (hdim : o.sel.dimension = 3) (hv : o.variant = 0 ∨ o.variant = 1 ∨ o.variant = 2)
    (hn : 2 ≤ o.nx ∧ 2 ≤ o.ny ∧ 2 ≤ o.nz) (hw : Arrays3 sz w o.nx o.ny o.nz)
    (hini : ∀ c, In3 o.nx o.ny o.nz c → Ordinary (initialAny3 E.draw o.par.m o.nx o.ny o.nz c) ∧ |value (initialAny3 E.draw o.par.m o.nx o.ny o.nz c)| ≤ 1)
    (η : ℚ) (hη : η = 27 / 4 * ((o.nx * o.ny * o.nz : Int) : ℚ) * (((1 + u) ^ 34 - 1) * (M ^ 2 * (M ^ 2 + 12 * p.eps2 / value dx ^ 2))))
    (h0 : ((o.nx * o.ny * o.nz : Int) : ℚ) * (1 / 4 + 6 * p.eps2 / value dx ^ 2) + o.maxSteps * η ≤ ((M ^ 2 - 4) / 8) ^ 2)
    (W : Nat) (hW : W = max (Nat.log 10 o.maxSteps + 1) 4) (m : Mem A (Ieee F))
    (hz : ∀ a ∈ [w.rk.k1, w.rk.k2, w.rk.k3, w.rk.k4], ∀ n, m a n = 0) (fuel : Nat) (hf1 : 1 ≤ fuel) (hf2 : o.maxSteps ≤ fuel) :
    AllEnd sz (program E o none w fuel) m fun res _ => ∃ (N : Nat) (t d r : Nat → Ieee F) (v : Nat → Ieee F × Ieee F × Ieee F)
      (s : Nat → Int × Int × Int → Ieee F) (st : Status (Ieee F)), 1 ≤ N ∧
      res = .done (savedFiles 0 o.saveEvery.natAbs t d (stepName o.base W)
          (fun k => vts3 E.io o.box.xbeg o.box.ybeg o.box.zbeg dx o.nx o.ny o.nz (s (k + 1))) N ++
        [(stepName (finalBase o.base) W (0 + N), vts3 E.io o.box.xbeg o.box.ybeg o.box.zbeg dx o.nx o.ny o.nz (s N) st)])
        (reportRows 0 o.logFreq.natAbs t d r v N) ∧ s 0 = initialAny3 E.draw o.par.m o.nx o.ny o.nz ∧
      (∀ k, k + 1 < N → Ordinary (d k) ∧ value o.minStep ≤ value (d k) ∧ value (d k) ≤ value o.maxStep) ∧
      ∀ k, k ≤ N → Ordinary (t k) ∧ (∀ c, In3 o.nx o.ny o.nz c → Ordinary (s k c) ∧ |value (s k c)| ≤ M / 2) ∧
        energy3 p.eps2 (value dx) o.nx o.ny o.nz (ext3 .periodic .periodic .periodic o.nx o.ny o.nz fun a b c => value (s k (a, b, c))) ≤
          energy3 p.eps2 (value dx) o.nx o.ny o.nz (ext3 .periodic .periodic .periodic o.nx o.ny o.nz fun a b c => value (s 0 (a, b, c))) + k * η := by
  have hm8 : 8 ≤ F.emax := by omega
  refine (C102_ode23_3 sz E o w heq hcfl hlf hms hms2 (bx := .periodic) (bY := .periodic) (bz := .periodic)
    (by rw [hbx]; simp) (by rw [hby]; simp) (by rw [hbz]; simp) hdim hv hn hw hint dx hdx W hW m hz fuel hf1 (by dsimp only; omega)).mono fun res _ h => ?_
  obtain ⟨N, t, d, pr, r, e, v, s, hmar, hend, hs', hpr, -, hres⟩ := h
  have s0 : s 0 = initialAny3 E.draw o.par.m o.nx o.ny o.nz := by rw [hs']; rfl
  refine ⟨N, t, d, r, v, s, _, hend.1, hres, s0, ?_⟩
  have nl : ∀ k, k + 1 < N → ¬ LastStep o.tfinal t pr k := fun k hk hl => hend.2.2 (k + 1) (by omega) hk (.inl hl)
  have hNM : (N : Int) ≤ o.maxSteps := by
    have hb : (0 : Int) + N ≤ max (o.maxSteps : Int) (0 + 1) := by
      let : Max (Ieee F) := byLess
      exact hend.bound (o := ⟨o.t0, o.tfinal, o.dt0, false, o.maxSteps, 0, o.relTol, o.absTol⟩) (by dsimp only; omega)
    omega
  have x0 : 0 < value dx := hs.1
  have mx0 : 0 < value o.maxStep := lt_of_lt_of_le hm0 (hd.1.trans hd.2)
  have R0 : 0 < rhsSize p (value dx) M := by
    have := abs_nonneg p.m
    unfold rhsSize; positivity
  have Q1 : 1 ≤ Q := by
    have q1 := abs_nonneg p.eps2
    have q2 := abs_nonneg p.sigma
    have q3 := abs_nonneg p.m
    linarith
  have x4 : 0 < value dx ^ 4 := by positivity
  have Em1 : 1 ≤ Em := by
    rw [hEm, le_div_iff₀ x4, one_mul]
    have a : value dx ^ 4 ≤ 1 := pow_le_one₀ x0.le x1
    have b : 0 ≤ M ^ 3 := by positivity
    nlinarith
  have hX' : 2 ^ 33 * (Q * (M ^ 3 + Q)) < 2 ^ F.emax * value dx ^ 4 := by
    rw [hEm, div_lt_iff₀ x4] at hX
    have : 0 ≤ Q * (M ^ 3 + Q) := by positivity
    linarith
  obtain ⟨D, hD⟩ : ∃ D, D = 8 * value o.maxStep := ⟨_, rfl⟩
  have D0 : 0 ≤ D := by linarith
  have D1 : D ≤ 1 := by
    have h1 : 13 * M ≤ rhsSize p (value dx) M := by
      unfold rhsSize
      have a : 0 ≤ |p.eps2| * (144 * M / value dx ^ 4) := by positivity
      have b : 0 ≤ |p.sigma| * (M + |p.m|) := by positivity
      have c : 13 * (M ^ 3 + M) ≤ 13 * (M ^ 3 + M) / value dx ^ 2 := by
        rw [le_div_iff₀ (by positivity)]
        exact mul_le_of_le_one_right (by positivity) (pow_le_one₀ x0.le x1)
      have d : 0 ≤ M ^ 3 := by positivity
      linarith
    have := mul_le_mul_of_nonneg_left h1 mx0.le
    nlinarith
  have hmx : value o.maxStep ≤ D / 8 := by linarith
  have hTD : u * (value o.tfinal + 1) ≤ D / 64 := by linarith
  have last := last_step_ok hr hT D0 D1 hTD
  have hu := hr.unit.1
  have τ0 := hr.tiny.1
  have last' : (1 + u) * (value o.maxStep + u * (value o.tfinal + value o.maxStep + τ)) + u * τ ≤ D / 6 := by
    refine le_trans ?_ last
    gcongr
  have η0 : 0 ≤ η := by
    have ρ0 : 0 ≤ (1 + u) ^ 34 - 1 := sub_nonneg.2 (Near.one_le hr.unit.1 34)
    have N0 : (0 : ℚ) ≤ ((o.nx * o.ny * o.nz : Int) : ℚ) := by exact_mod_cast mul_nonneg (mul_nonneg (by omega) (by omega)) (by omega : (0 : Int) ≤ o.nz)
    rw [hη]; positivity
  -- sizes and times as long as the proposals are in range
  have part : ∀ n, 1 ≤ n → n ≤ N → (∀ k, k + 1 < n → Ordinary (pr (k + 1)) ∧ value o.minStep ≤ value (pr (k + 1)) ∧ value (pr (k + 1)) ≤ value o.maxStep) →
      (∀ i, i < n → Ordinary (d i) ∧ 2 * τ ≤ value (d i) ∧ value (d i) * rhsSize p (value dx) M ≤ M / 13) ∧ ∀ k, k ≤ n → Ordinary (t k) := by
    intro n h1 hnN hpn
    have times := ieee_times hr (by omega) hmar h1 (fun k hk => nl k (by omega)) (lo := value o.minStep) (hi := value o.maxStep)
      (by linarith only [hmx, D1, D0]) oT o0 od hmτ hm0 hd ht0 hT ht hXT (by linarith only [last', D1, D0]) (fun k hk _ => hpn k hk)
    refine ⟨fun i hi => ?_, fun k hk => (times.2 k hk).1⟩
    obtain ⟨g1, g2, g3⟩ := times.1 i hi
    refine ⟨g1, g2, ?_⟩
    have g4 : value (d i) ≤ 4 / 3 * value o.maxStep := g3.trans (max_le (by linarith only [mx0]) (by linarith only [last', hD]))
    have := mul_le_mul_of_nonneg_right g4 R0.le
    nlinarith only [this, hd1, hM]
  -- so the states are bounded
  have stable : ∀ k, k ≤ N → (∀ i, i < k → Ordinary (d i) ∧ 2 * τ ≤ value (d i) ∧ value (d i) * rhsSize p (value dx) M ≤ M / 13) → _ := fun k hk hdk =>
    C114_stable3 hp hmin hm8 hr h34 o.par ho p hpf hσ he dx odx hs x1 M hM Q hQ hX' t d k hdk o.nx o.ny o.nz ⟨by omega, by omega, by omega⟩ o.variant _ s (.inr hs')
      (fun c hc => (hini c hc).1) _ rfl η hη (by
        have h1 := C114_initial3 (dx := value dx) he o.nx o.ny o.nz ⟨by omega, by omega, by omega⟩ (fun a b c => value (s 0 (a, b, c)))
          fun i j k h1 h2 h3 => by rw [s0]; exact (hini (i, j, k) ⟨h1, h2, h3⟩).2
        have h2 : (k : ℚ) * η ≤ o.maxSteps * η := mul_le_mul_of_nonneg_right (by exact_mod_cast (show (k : Int) ≤ o.maxSteps by omega)) η0
        linarith)
  -- and the proposals in range
  have prop : ∀ k, k + 1 < N → Ordinary (pr (k + 1)) ∧ value o.minStep ≤ value (pr (k + 1)) ∧ value (pr (k + 1)) ≤ value o.maxStep := by
    intro k
    induction k using Nat.strong_induction_on with
    | _ k ih =>
      intro hk
      obtain ⟨sz1, -⟩ := part (k + 1) (by omega) (by omega) fun j hj => ih j (by omega) (by omega)
      have eqd : ∀ i, i < k → d (i + 1) = pr (i + 1) := fun i hi => by
        rw [hmar.d_succ i, if_neg (fun h => nl (i + 1) (by omega) ⟨by omega, h⟩)]
      rw [(hpr k (by omega)).2 (nl k hk)]
      refine C108_sizes hr hp hmin hm hu64 hτ53 hP o.errTol o.minStep o.maxStep Em Em1 ot htol0 htol1 htol2 htol3 htol4 omn omx
        (by have P1 : (1 : ℚ) ≤ 2 ^ F.prec := one_le_pow₀ (by norm_num)
            have := le_mul_of_one_le_right (show 0 ≤ 4 * τ by linarith only [τ0]) P1
            linarith only [this, hmτ, τ0]) hm0
        (hd.1.trans hd.2) (by linarith only [hmx, D1, D0]) d e k (by rw [hmar.d_zero]; exact ⟨od, hd⟩) (fun i hi => ?_) (fun i hi => ?_)
      · rw [eqd i hi]
        exact (hpr i (by omega)).2 (nl i (by omega))
      · have st := (stable (k + 1) (by omega) sz1).1
        refine C114_errors3 hp hmin hm8 hr h34 o.par ho p hpf dx odx hs x1 M hM Q hQ Em hEm hX (d i) (sz1 i (by omega)) o.nx o.ny o.nz
          ⟨by omega, by omega, by omega⟩ o.variant _ rfl
          (s i) (st i (by omega)).1 (fun c hc => ?_) _ (e i) (hpr i (by omega)).1
        have := ((st (i + 1) (by omega)).1 c hc).2
        rw [hs'] at this
        rw [hs']
        exact this
  obtain ⟨sz1, tm⟩ := part N hend.1 le_rfl prop
  refine ⟨fun k hk => ?_, fun k hk => ⟨tm k hk, (stable N le_rfl sz1).1 k hk⟩⟩
  cases k with
  | zero => rw [hmar.d_zero]; exact ⟨od, hd⟩
  | succ i =>
    rw [hmar.d_succ i, if_neg (fun h => nl (i + 1) hk ⟨by omega, h⟩)]
    exact prop i (by omega)

end

/-- The runs of `calmOpts2` and `calmOpts3` with the adaptive integrator (test data). -/
def calmAdapt2 : RunOpts (Ieee ieee64) :=
  { calmOpts2 with
    sel := ⟨2, "periodic", "periodic", "periodic", "cahn-hilliard", "ode23", false⟩
    dt0 := .num (1 / 2 ^ 18)
    errTol := .num (1 / 2 ^ 10)
    minStep := .num (1 / 2 ^ 20)
    maxStep := .num (1 / 2 ^ 16) }

/-- The 3D one (test data). -/
def calmAdapt3 : RunOpts (Ieee ieee64) :=
  { calmAdapt2 with
    sel := ⟨3, "periodic", "periodic", "periodic", "cahn-hilliard", "ode23", false⟩
    nz := 2 }

/-- The hypotheses are met in double precision by an adaptive run from a field that is not uniform. -/
example [Pow (Ieee ieee64) (Ieee ieee64)] (hP : PowFn (F := ieee64) (· ^ ·)) (E : Env (Ieee ieee64))
    (hE : E.draw = fun n => if n = 0 then .num (1 / 256) else 0) (m : Mem _ (Ieee ieee64)) (hz : ∀ a n, m a n = 0) :
    AllEnd (demoSize 49 36) (program E calmAdapt2 none demoArr 100) m fun res _ => (∃ files rows, res = .done files rows ∧ files ≠ []) ∧
      ∃ (N : Nat) (s : Nat → Int × Int → Ieee ieee64), 1 ≤ N ∧ s 0 (0, 0) = .num (3 / 1024) ∧ s 0 (0, 1) = .num (-1 / 1024) ∧
      ∀ k, k ≤ N → (∀ c, In2 2 c → Ordinary (s k c) ∧ |value (s k c)| ≤ 4) ∧
        energy2 (1 / 16) (1 / 2) 2 2 (ext2 2 fun a b => value (s k (a, b))) ≤
          energy2 (1 / 16) (1 / 2) 2 2 (ext2 2 fun a b => value (s 0 (a, b))) + k / 10 ^ 9 := by
  obtain ⟨u, τ, hr, hu, hτ, hs⟩ : ∃ u τ : ℚ, Rounds binary64.round u τ ∧ u = 1 / 2 ^ 53 ∧ τ ≤ 1 / 2 ^ 150 ∧ Spacing τ (1 / 2) :=
    ⟨_, _, binary64_rounds, rfl, one_div_le_one_div_of_le (by positivity) (pow_le_pow_right₀ (by norm_num) (by norm_num)), spacing64 (by norm_num)⟩
  obtain ⟨Em, hEm, hEm2, hEm0⟩ : ∃ Em : ℚ, Em = 2 ^ 36 * ((1 + |1 / 16| + |0| + |0|) * (8 ^ 3 + (1 + |1 / 16| + |0| + |0|))) / (1 / 2) ^ 4 ∧ Em ≤ 2 ^ 60 ∧ 0 ≤ Em :=
    ⟨_, rfl, by norm_num, by positivity⟩
  have big : (2 : ℚ) ^ 100 < (2 : ℚ) ^ ieee64.emax := by
    rw [← zpow_natCast]
    exact zpow_lt_zpow_right₀ (by norm_num) (by decide)
  have o1 : Ordinary (.num 1 : Ieee ieee64) := by simpa using calm_ord 1 0 (by norm_num) (by norm_num)
  have op : ∀ n, n ≤ 60 → Ordinary (.num (1 / 2 ^ n) : Ieee ieee64) := fun n hn => by simpa using calm_ord 1 n (by norm_num) hn
  have o2 : Ordinary (.num (1 / 2) : Ieee ieee64) := by simpa using calm_ord 1 1 (by norm_num) (by norm_num)
  have o16 : Ordinary (.num (1 / 16) : Ieee ieee64) := by have := calm_ord 1 4 (by norm_num) (by norm_num); norm_num at this ⊢; exact this
  have val : ∀ c, In2 2 c → initialAny2 E.draw calmAdapt2.par.m calmAdapt2.nx c =
      if c = (0, 0) then .num ((3 : Int) / 2 ^ 10) else .num ((-1 : Int) / 2 ^ 10) := by
    rintro ⟨i, j⟩ ⟨h1, h2⟩
    dsimp only at h1 h2
    rw [hE]
    obtain rfl | rfl : i = 0 ∨ i = 1 := by omega
    all_goals obtain rfl | rfl : j = 0 ∨ j = 1 := by omega
    all_goals decide +kernel
  obtain ⟨η, hη, hη2⟩ : ∃ η : ℚ, η = 27 / 4 * ((2 * 2 : Int) : ℚ) * (((1 + u) ^ 34 - 1) * (8 ^ 2 * (8 ^ 2 + 8 * (1 / 16) / (1 / 2) ^ 2))) ∧
    η ≤ 1 / 10 ^ 9 := ⟨_, rfl, by rw [hu]; norm_num⟩
  refine (C114_ode23_2 (F := ieee64) (by decide) (by decide) (by decide) hr (by rw [hu]; norm_num) (by rw [hu]; norm_num)
    (hτ.trans (by norm_num)) hP (demoSize 49 36) E calmAdapt2 demoArr rfl rfl
    rfl (by decide) (by decide) ⟨1 / 16, 0, 0⟩ ⟨o16, trivial, trivial⟩ ⟨rfl, rfl, rfl⟩ rfl (by norm_num) (.num (1 / 2)) (by decide +kernel) o2 hs
    (by show (1 / 2 : ℚ) ≤ 1; norm_num) 8 (by norm_num) _ rfl Em hEm (lt_trans (lt_of_le_of_lt hEm2 (by norm_num)) big) o1 trivial (op 18 (by norm_num)) le_rfl
    (by show (0 : ℚ) ≤ 1; norm_num) (op 20 (by norm_num)) (op 16 (by norm_num)) (by show (0 : ℚ) < 1 / 2 ^ 20; positivity)
    (by show 4 * τ * 2 ^ 53 ≤ 1 / 2 ^ 20; norm_num at hτ ⊢; linarith)
    ⟨by show (1 / 2 ^ 20 : ℚ) ≤ 1 / 2 ^ 18; norm_num, by show (1 / 2 ^ 18 : ℚ) ≤ 1 / 2 ^ 16; norm_num⟩
    (by show (1 / 2 ^ 16 : ℚ) * rhsSize ⟨1 / 16, 0, 0⟩ (1 / 2) 8 ≤ 8 / 18; unfold rhsSize; norm_num)
    (op 10 (by norm_num)) (by show (0 : ℚ) < 1 / 2 ^ 10; positivity)
    (by
      show τ * Em ≤ 1 / 2 ^ 10
      exact (mul_le_mul hτ hEm2 hEm0 (by positivity)).trans (by norm_num))
    (by
      show 2 * Em < (2 : ℚ) ^ ieee64.emax * (1 / 2 ^ 10)
      have h1 := mul_lt_mul_of_pos_right big (by positivity : (0 : ℚ) < 1 / 2 ^ 10)
      have h2 : 2 * Em ≤ (2 : ℚ) ^ 100 * (1 / 2 ^ 10) := by norm_num at hEm2 ⊢; linarith
      exact lt_of_le_of_lt h2 h1)
    (lt_trans (by show (2 : ℚ) ^ 55 * (1 / 2 ^ 10) < 2 ^ 100; norm_num) big)
    (by show 2 ^ 54 * τ * (1 / 2 ^ 10) ≤ 1; norm_num at hτ ⊢; linarith)
    (by show u * ((1 : ℚ) + 1) ≤ 1 / 2 ^ 16 / 8; rw [hu]; norm_num) (by decide +kernel)
    (lt_trans (by show 4 * (|(0 : ℚ)| + 1 + 1) < 2 ^ 100; norm_num) big) (by decide) (by simp [calmAdapt2]) (by simp [calmAdapt2])
    (by simp [calmAdapt2]) rfl (by decide)
    ⟨by simp [demoArr], by simp [demoArr, demoSize, calmAdapt2, calmOpts2, blowOpts], by simp [demoArr, demoSize, calmAdapt2, calmOpts2, blowOpts]⟩
    (fun c hc => by
      rw [val c hc]
      split
      · exact ⟨calm_ord 3 10 (by norm_num) (by norm_num), by show |(((3 : Int) : ℚ) / 2 ^ 10)| ≤ 1; norm_num [abs_le]⟩
      · exact ⟨calm_ord (-1) 10 (by norm_num) (by norm_num), by show |(((-1 : Int) : ℚ) / 2 ^ 10)| ≤ 1; norm_num [abs_le]⟩) η hη
    (by show ((2 * 2 : Int) : ℚ) * (1 / 4 + 4 * (1 / 16) / (1 / 2) ^ 2) + ((100 : ℕ) : ℚ) * η ≤ ((8 ^ 2 - 4) / 8) ^ 2; norm_num at hη2 ⊢; linarith)
    3 (by simp only [calmAdapt2, calmOpts2, blowOpts]; decide +kernel) m (fun a _ n => hz a n) 100 (by decide) (by decide)).mono fun res _ h => ?_
  obtain ⟨N, t, d, r, v, s, st, h1, h2, h3, -, h4⟩ := h
  refine ⟨⟨_, _, h2, by simp⟩, N, s, h1, ?_, ?_, fun k hk => ?_⟩
  · rw [h3, val _ (by unfold In2; norm_num)]; norm_num
  · rw [h3, val _ (by unfold In2; norm_num)]; norm_num
  · obtain ⟨-, a, b⟩ := h4 k hk
    refine ⟨fun c hc => ⟨(a c hc).1, (a c hc).2.trans (by norm_num)⟩, le_trans b ?_⟩
    have := mul_le_mul_of_nonneg_left hη2 (Nat.cast_nonneg (α := ℚ) k)
    rw [mul_one_div] at this
    exact add_le_add le_rfl this

/-- The hypotheses are met in double precision by an adaptive 3D run from a field that is not uniform. -/
example [Pow (Ieee ieee64) (Ieee ieee64)] (hP : PowFn (F := ieee64) (· ^ ·)) (E : Env (Ieee ieee64))
    (hE : E.draw = fun n => if n = 0 then .num (1 / 256) else 0) (m : Mem _ (Ieee ieee64)) (hz : ∀ a n, m a n = 0) :
    AllEnd (demoSize 343 216) (program E calmAdapt3 none demoArr 100) m fun res _ => (∃ files rows, res = .done files rows ∧ files ≠ []) ∧
      ∃ (N : Nat) (s : Nat → Int × Int × Int → Ieee ieee64), 1 ≤ N ∧ s 0 (0, 0, 0) = .num (7 / 2048) ∧ s 0 (0, 1, 0) = .num (-1 / 2048) ∧
      ∀ k, k ≤ N → (∀ c, In3 2 2 2 c → Ordinary (s k c) ∧ |value (s k c)| ≤ 4) ∧
        energy3 (1 / 16) (1 / 2) 2 2 2 (ext3 .periodic .periodic .periodic 2 2 2 fun a b c => value (s k (a, b, c))) ≤
          energy3 (1 / 16) (1 / 2) 2 2 2 (ext3 .periodic .periodic .periodic 2 2 2 fun a b c => value (s 0 (a, b, c))) + k / 10 ^ 9 := by
  obtain ⟨u, τ, hr, hu, hτ, hs⟩ : ∃ u τ : ℚ, Rounds binary64.round u τ ∧ u = 1 / 2 ^ 53 ∧ τ ≤ 1 / 2 ^ 150 ∧ Spacing τ (1 / 2) :=
    ⟨_, _, binary64_rounds, rfl, one_div_le_one_div_of_le (by positivity) (pow_le_pow_right₀ (by norm_num) (by norm_num)), spacing64 (by norm_num)⟩
  obtain ⟨Em, hEm, hEm2, hEm0⟩ : ∃ Em : ℚ, Em = 2 ^ 36 * ((1 + |1 / 16| + |0| + |0|) * (8 ^ 3 + (1 + |1 / 16| + |0| + |0|))) / (1 / 2) ^ 4 ∧ Em ≤ 2 ^ 60 ∧ 0 ≤ Em :=
    ⟨_, rfl, by norm_num, by positivity⟩
  have big : (2 : ℚ) ^ 100 < (2 : ℚ) ^ ieee64.emax := by
    rw [← zpow_natCast]
    exact zpow_lt_zpow_right₀ (by norm_num) (by decide)
  have o1 : Ordinary (.num 1 : Ieee ieee64) := by simpa using calm_ord 1 0 (by norm_num) (by norm_num)
  have op : ∀ n, n ≤ 60 → Ordinary (.num (1 / 2 ^ n) : Ieee ieee64) := fun n hn => by simpa using calm_ord 1 n (by norm_num) hn
  have o2 : Ordinary (.num (1 / 2) : Ieee ieee64) := by simpa using calm_ord 1 1 (by norm_num) (by norm_num)
  have o16 : Ordinary (.num (1 / 16) : Ieee ieee64) := by have := calm_ord 1 4 (by norm_num) (by norm_num); norm_num at this ⊢; exact this
  have val : ∀ c, In3 2 2 2 c → initialAny3 E.draw calmAdapt3.par.m calmAdapt3.nx calmAdapt3.ny calmAdapt3.nz c =
      if c = (0, 0, 0) then .num ((7 : Int) / 2 ^ 11) else .num ((-1 : Int) / 2 ^ 11) := by
    rintro ⟨i, j, l⟩ ⟨h1, h2, h3⟩
    dsimp only at h1 h2 h3
    rw [hE]
    obtain rfl | rfl : i = 0 ∨ i = 1 := by omega
    all_goals obtain rfl | rfl : j = 0 ∨ j = 1 := by omega
    all_goals obtain rfl | rfl : l = 0 ∨ l = 1 := by omega
    all_goals decide +kernel
  obtain ⟨η, hη, hη2⟩ : ∃ η : ℚ, η = 27 / 4 * ((2 * 2 * 2 : Int) : ℚ) * (((1 + u) ^ 34 - 1) * (8 ^ 2 * (8 ^ 2 + 12 * (1 / 16) / (1 / 2) ^ 2))) ∧
    η ≤ 1 / 10 ^ 9 := ⟨_, rfl, by rw [hu]; norm_num⟩
  refine (C114_ode23_3 (F := ieee64) (by decide) (by decide) (by decide) hr (by rw [hu]; norm_num) (by rw [hu]; norm_num)
    (hτ.trans (by norm_num)) hP (demoSize 343 216) E calmAdapt3 demoArr rfl rfl
    rfl (by decide) (by decide) ⟨1 / 16, 0, 0⟩ ⟨o16, trivial, trivial⟩ ⟨rfl, rfl, rfl⟩ rfl (by norm_num) (.num (1 / 2)) (by decide +kernel) o2 hs
    (by show (1 / 2 : ℚ) ≤ 1; norm_num) 8 (by norm_num) _ rfl Em hEm (lt_trans (lt_of_le_of_lt hEm2 (by norm_num)) big) o1 trivial (op 18 (by norm_num)) le_rfl
    (by show (0 : ℚ) ≤ 1; norm_num) (op 20 (by norm_num)) (op 16 (by norm_num)) (by show (0 : ℚ) < 1 / 2 ^ 20; positivity)
    (by show 4 * τ * 2 ^ 53 ≤ 1 / 2 ^ 20; norm_num at hτ ⊢; linarith)
    ⟨by show (1 / 2 ^ 20 : ℚ) ≤ 1 / 2 ^ 18; norm_num, by show (1 / 2 ^ 18 : ℚ) ≤ 1 / 2 ^ 16; norm_num⟩
    (by show (1 / 2 ^ 16 : ℚ) * rhsSize ⟨1 / 16, 0, 0⟩ (1 / 2) 8 ≤ 8 / 18; unfold rhsSize; norm_num)
    (op 10 (by norm_num)) (by show (0 : ℚ) < 1 / 2 ^ 10; positivity)
    (by
      show τ * Em ≤ 1 / 2 ^ 10
      exact (mul_le_mul hτ hEm2 hEm0 (by positivity)).trans (by norm_num))
    (by
      show 2 * Em < (2 : ℚ) ^ ieee64.emax * (1 / 2 ^ 10)
      have h1 := mul_lt_mul_of_pos_right big (by positivity : (0 : ℚ) < 1 / 2 ^ 10)
      have h2 : 2 * Em ≤ (2 : ℚ) ^ 100 * (1 / 2 ^ 10) := by norm_num at hEm2 ⊢; linarith
      exact lt_of_le_of_lt h2 h1)
    (lt_trans (by show (2 : ℚ) ^ 55 * (1 / 2 ^ 10) < 2 ^ 100; norm_num) big)
    (by show 2 ^ 54 * τ * (1 / 2 ^ 10) ≤ 1; norm_num at hτ ⊢; linarith)
    (by show u * ((1 : ℚ) + 1) ≤ 1 / 2 ^ 16 / 8; rw [hu]; norm_num) (by decide +kernel)
    (lt_trans (by show 4 * (|(0 : ℚ)| + 1 + 1) < 2 ^ 100; norm_num) big) (by decide) rfl rfl rfl rfl (.inr (.inl rfl)) (by decide)
    ⟨by simp [demoArr], by simp [demoArr, demoSize, calmAdapt3, calmAdapt2, calmOpts2, blowOpts], by simp [demoArr, demoSize, calmAdapt3, calmAdapt2, calmOpts2, blowOpts]⟩
    (fun c hc => by
      rw [val c hc]
      split
      · exact ⟨calm_ord 7 11 (by norm_num) (by norm_num), by show |(((7 : Int) : ℚ) / 2 ^ 11)| ≤ 1; norm_num [abs_le]⟩
      · exact ⟨calm_ord (-1) 11 (by norm_num) (by norm_num), by show |(((-1 : Int) : ℚ) / 2 ^ 11)| ≤ 1; norm_num [abs_le]⟩) η hη
    (by show ((2 * 2 * 2 : Int) : ℚ) * (1 / 4 + 6 * (1 / 16) / (1 / 2) ^ 2) + ((100 : ℕ) : ℚ) * η ≤ ((8 ^ 2 - 4) / 8) ^ 2; norm_num at hη2 ⊢; linarith)
    4 (by simp only [calmAdapt3, calmAdapt2, calmOpts2, blowOpts]; decide +kernel) m (fun a _ n => hz a n) 100 (by decide) (by decide)).mono fun res _ h => ?_
  obtain ⟨N, t, d, r, v, s, st, h1, h2, h3, -, h4⟩ := h
  refine ⟨⟨_, _, h2, by simp⟩, N, s, h1, ?_, ?_, fun k hk => ?_⟩
  · rw [h3, val _ (by unfold In3; norm_num)]; norm_num
  · rw [h3, val _ (by unfold In3; norm_num)]; norm_num
  · obtain ⟨-, a, b⟩ := h4 k hk
    refine ⟨fun c hc => ⟨(a c hc).1, (a c hc).2.trans (by norm_num)⟩, le_trans b ?_⟩
    have := mul_le_mul_of_nonneg_left hη2 (Nat.cast_nonneg (α := ℚ) k)
    rw [mul_one_div] at this
    exact add_le_add le_rfl this

end Madg
