/-
C111: explicit 2D runs of the Cahn–Hilliard equation in floating point do not overflow and approximate the solution.
-/
import Verif.Proofs.IeeeChain2
import Verif.Proofs.IeeeErrCH2
import Verif.Props.IeeeOdeCH
import Verif.Props.RunEach2

set_option linter.unusedSectionVars false
set_option linter.unusedVariables false

namespace Madg
open Spec

section
variable {A : Type} [DecidableEq A] {K : Type} [Field K] [LinearOrder K] [IsStrictOrderedRing K] {rnd : K → K} {u τ : K}

/-- C111. In rounded arithmetic, on every schedule, the number stored in each interior cell differs from the exact 2D
finite-difference right-hand side of the stored concentrations by at most `(1+u)^25 - 1` times the size of its terms, where `M`
bounds the concentrations. -/
theorem C111_rhs_error (hr : Rounds rnd u τ) (n nh : Int) (G : Geom2) (hG : mkGeom2 n nh = .ok G)
    (sz : A → Int) (c r a1 a2 a3 a4 : A) (hnd : [c, r, a1, a2, a3, a4].Nodup)
    (hsz : ∀ x ∈ [c, r, a1, a2, a3, a4], sz x = (⟨n, n, nh⟩ : Grid2).size) (hh : 2 ≤ nh) (hi : nh ≤ n)
    (p : CHParams (Fl rnd)) (dx : Fl rnd) (hdx : Spacing τ dx.val) (M : K) (hM : 1 ≤ M) (m : Mem A (Fl rnd))
    (hm : ∀ i j, (0 ≤ i ∧ i < n) → (0 ≤ j ∧ j < n) → |(m c ((⟨n, n, nh⟩ : Grid2).at2 i j)).val| ≤ M) :
    ∃ m', Det sz (G.evalRHS p dx ⟨c, r, a1, a2, a3, a4⟩) m m' ∧
      ∀ i j, (0 ≤ i ∧ i < n) → (0 ≤ j ∧ j < n) →
        |(m' r ((⟨n, n, nh⟩ : Grid2).at2 i j)).val -
            chRhs2 (valuesOf p) dx.val (ext2 n fun i j => (m c ((⟨n, n, nh⟩ : Grid2).at2 i j)).val) i j| ≤
          ((1 + u) ^ 25 - 1) * rhsSize (valuesOf p) dx.val M := by
  obtain ⟨hGo, hg⟩ := Geom2.ok_of_mk (by omega) (by omega) hG
  obtain ⟨m', d, f, -⟩ := evalRHS2_detA hGo (sz := sz) (w := ⟨c, r, a1, a2, a3, a4⟩) hnd (by rw [hg]; exact hsz) (by rw [hg]; exact hh)
    (by rw [hg]; exact hi) p dx m
  rw [hg] at f
  refine ⟨m', d, fun i j h1 h2 => ?_⟩
  rw [f i j ⟨h1, h2⟩]
  exact (near_field2 hr (by omega) hM hdx (t := (0 : Fl rnd)) (t' := 0) (y := fun q => m c ((⟨n, n, nh⟩ : Grid2).at2 q.1 q.2))
    (fun q hq => hm _ _ hq.1 hq.2) (i, j)).close

example : ∃ G, mkGeom2 3 2 = .ok G ∧
    ∃ m', Det (fun _ => 49) (G.evalRHS ⟨⟨1 / 1024⟩, ⟨1⟩, ⟨0⟩⟩ ⟨1 / 2⟩ ⟨0, 1, 2, 3, 4, 5⟩)
        (fun _ n => (⟨if n = 24 then 1 else 1 / 2⟩ : Fl binary64.round)) m' ∧
      ∀ i j, (0 ≤ i ∧ i < 3) → (0 ≤ j ∧ j < 3) →
        |(m' 1 ((⟨3, 3, 2⟩ : Grid2).at2 i j)).val - chRhs2 ⟨1 / 1024, 1, 0⟩ (1 / 2)
            (ext2 3 fun i j => if (⟨3, 3, 2⟩ : Grid2).at2 i j = 24 then 1 else 1 / 2) i j| ≤ 1 / 10 ^ 12 := by
  obtain ⟨G, e, -⟩ := mkGeom2_ok (n := 3) (nhalo := 2) (by norm_num) (by norm_num)
  obtain ⟨m', d, h⟩ := C111_rhs_error binary64_rounds 3 2 G e (fun _ : Nat => 49) 0 1 2 3 4 5 (by decide) (fun _ _ => by decide)
    (by decide) (by decide) ⟨⟨1 / 1024⟩, ⟨1⟩, ⟨0⟩⟩ ⟨1 / 2⟩ (spacing64 (by norm_num)) 1 le_rfl
    (fun _ n => ⟨if n = 24 then 1 else 1 / 2⟩) (fun i j _ _ => by dsimp only; split <;> norm_num)
  refine ⟨_, e, m', d, fun i j h1 h2 => (h i j h1 h2).trans ?_⟩
  unfold rhsSize valuesOf
  norm_num

end

/-- C111. For every smooth periodic solution of the Cahn–Hilliard equation with rational parameters there are constants such that in
every floating-point format with NaN, infinities and signed zeros, on every fine enough periodic square grid, from ordinary numbers within `a dx²` of the initial state, with steps `dt ≤ dx⁴ / (4608 ε²)`, so many that the accumulated
rounding `k ((1+u)^34 - 1)` is at most `a dx²`, and with the largest number of the format above `B / dx⁴`: every state of either
explicit method consists of ordinary numbers, its root-mean-square distance from the solution is at most a constant times `dx²`, and
its error at each single cell is at most a constant times `dx`. No bound on the states is assumed. -/
theorem C111_converges (p : CHParams ℚ) (he : 0 < p.eps2) (L : Fin 2 → ℝ) (hL : ∀ a, 0 < L a) (T : ℝ)
    (U : ℝ → (Fin 2 → ℝ) → ℝ) (hU : CHSolution (realParams p) L T U) (a : ℝ) (ha : 0 ≤ a) :
    ∃ (Cst h0 : ℝ) (B : ℚ), 0 ≤ Cst ∧ 0 < h0 ∧ ∀ (F : IeeeFmt) (hp : 4 ≤ F.prec) (hmin : F.emin ≤ 0) (hm : 8 ≤ F.emax) (u τ : ℚ)
      (hr : Rounds F.toFloatFmt.round u τ) (n : Int) (hn : 1 ≤ n)
      (pf : CHParams (Ieee F)) (ho : Ordinary pf.eps2 ∧ Ordinary pf.sigma ∧ Ordinary pf.m)
      (hpf : value pf.eps2 = p.eps2 ∧ value pf.sigma = p.sigma ∧ value pf.m = p.m)
      (dx : Ieee F) (hdx : Ordinary dx) (hs : Spacing τ (value dx)) (hh : (value dx : ℝ) ≤ h0) (hB : B < 2 ^ F.emax * value dx ^ 4)
      (el : ∀ a, n * (value dx : ℝ) = L a) (o : Fin 2 → ℝ)
      (t d : Nat → Ieee F) (y : Int × Int → Ieee F) (s : Nat → Int × Int → Ieee F)
      (hy : s = iterates (ssprk3Method (rhsOps2 pf dx n)).step t d y ∨
        s = iterates (fun _ dt y c => y c + dt * bs23Slope (rhsOps2 pf dx n 0) dt y c) t d y)
      (k : Nat) (hd : ∀ i, i < k → Ordinary (d i) ∧ 2 * τ ≤ value (d i) ∧ 4608 * p.eps2 * value (d i) ≤ value dx ^ 4)
      (hsum : ∑ i ∈ Finset.range k, (value (d i) : ℝ) ≤ T) (hlen : (k : ℝ) * ((1 + (u : ℝ)) ^ 34 - 1) ≤ a * (value dx : ℝ) ^ 2)
      (hini : ∀ c, In2 n c → Ordinary (y c) ∧ |(value (y c) : ℝ) - U 0 (centre2 o (value dx) c.1 c.2)| ≤ a * (value dx : ℝ) ^ 2),
      (∀ c, In2 n c → Ordinary (s k c)) ∧
      (sum2 n n fun i j =>
        ((value (s k (i, j)) : ℝ) - U (∑ i ∈ Finset.range k, (value (d i) : ℝ)) (centre2 o (value dx) i j)) ^ 2) ≤
        ((n * n : Int) : ℝ) * (Cst * (value dx : ℝ) ^ 2) ^ 2 ∧
      ∀ c, In2 n c → ((value (s k c) : ℝ) - U (∑ i ∈ Finset.range k, (value (d i) : ℝ)) (centre2 o (value dx) c.1 c.2)) ^ 2 ≤
        Cst ^ 2 * (L 0 * L 1) * (value dx : ℝ) ^ 2 := by
  obtain ⟨Cst, h0, M, c0, h00, hM, H⟩ := ieee_chain_converges2 p he hL hU (9 / 4 * a) (by positivity)
  obtain ⟨E, hE⟩ : ∃ E, E = 1 + |p.eps2| + |p.sigma| + |p.m| := ⟨_, rfl⟩
  have q1 := abs_nonneg p.eps2
  have q2 := abs_nonneg p.sigma
  have q3 := abs_nonneg p.m
  have E1 : 1 ≤ E := by linarith
  refine ⟨Cst, min (min h0 (4608 * (p.eps2 : ℝ))) (min (1 / (4 * (a + 1))) (Convg.limit p M)), 2 ^ 33 * (E * ((M : ℚ) ^ 3 + E)), c0, ?_, ?_⟩
  · have : (0 : ℝ) < p.eps2 := by exact_mod_cast he
    exact lt_min (lt_min h00 (by positivity)) (lt_min (by positivity) (Convg.limit_pos he))
  intro F hp hmin hm u τ hr n hn pf ho hpf dx hdx hs hh hB el o t d y s hy k hd hsum hlen hini
  have hd1 := (hh.trans (min_le_left _ _)).trans (min_le_left _ _)
  have hd4 := (hh.trans (min_le_left _ _)).trans (min_le_right _ _)
  have hd2 := (hh.trans (min_le_right _ _)).trans (min_le_left _ _)
  have hd3 := (hh.trans (min_le_right _ _)).trans (min_le_right _ _)
  have x0 : 0 < value dx := hs.1
  have x1 : value dx ≤ 1 := by
    have : (value dx : ℝ) ≤ ((1 : ℚ) : ℝ) := by rw [Rat.cast_one]; exact hd3.trans (min_le_left _ _)
    exact_mod_cast this
  have x4 : value dx ^ 4 ≤ 4608 * p.eps2 := by
    have : value dx ≤ 4608 * p.eps2 := by exact_mod_cast hd4
    exact (pow_le_of_le_one x0.le x1 (by norm_num)).trans this
  have hX : 64 * chSize E M (value dx) < (2 : ℚ) ^ F.emax := by
    unfold chSize
    have e : 64 * (2 ^ 27 * (E * ((M : ℚ) ^ 3 + E) / value dx ^ 4)) = 2 ^ 33 * (E * ((M : ℚ) ^ 3 + E)) / value dx ^ 4 := by ring
    rw [e, div_lt_iff₀ (by positivity)]
    exact hB
  obtain ⟨p', hp'⟩ : ∃ p' : CHParams (Fl F.toFloatFmt.round), p' = ⟨asFl pf.eps2, asFl pf.sigma, asFl pf.m⟩ := ⟨_, rfl⟩
  have vp : valuesOf p' = p := by
    rw [hp']
    show (⟨value pf.eps2, value pf.sigma, value pf.m⟩ : CHParams ℚ) = p
    rw [hpf.1, hpf.2.1, hpf.2.2]
  have s1 : Same pf.eps2 p'.eps2 E := by rw [hp']; exact ⟨ho.1, rfl, by show |value pf.eps2| ≤ E; rw [hpf.1]; linarith⟩
  have s2 : Same pf.sigma p'.sigma E := by rw [hp']; exact ⟨ho.2.1, rfl, by show |value pf.sigma| ≤ E; rw [hpf.2.1]; linarith⟩
  have s3 : Same pf.m p'.m E := by rw [hp']; exact ⟨ho.2.2, rfl, by show |value pf.m| ≤ E; rw [hpf.2.2]; linarith⟩
  have sx : Same dx (asFl dx) 1 := ⟨hdx, rfl, by show |value dx| ≤ 1; rw [abs_of_pos x0]; exact x1⟩
  have noisy : ∃ Tb : RK3c, ∀ i, i < k → (∀ c, In2 n c → Ordinary (s i c) ∧ |(value (s i c) : ℝ)| ≤ (M : ℝ) / 2) →
      (∀ c, In2 n c → Ordinary (s (i + 1) c)) ∧
      NoisyCells Tb (cells2 n) (chField2 (realParams p) (value dx : ℝ) n 0)
        (((9 / 4 * ((1 + u) ^ 34 - 1) : ℚ) : ℝ) * M) (value (d i) : ℝ) (fun c => (value (s i c) : ℝ)) fun c => (value (s (i + 1) c) : ℝ) := by
    have h34 : ∀ i, i < k → (1 + u) ^ 34 ≤ 5 / 4 := fun i hi =>
      Convg.noise_small hr ha hd2 hs (dts := (List.range k).map fun i => asFl (d i)) (dt := asFl (d i))
        (by rw [List.length_map, List.length_range]; exact hlen) (List.mem_map.2 ⟨i, List.mem_range.2 hi, rfl⟩)
    have hsm : ∀ i, i < k → value (d i) * rhsSize p (value dx) M ≤ (M : ℚ) / 4 := fun i hi => Convg.small he hM hs hd3 (hd i hi).2 hr
    have hdt : ∀ i, i < k → Same (d i) (asFl (d i)) 1 := fun i hi => by
      obtain ⟨g1, g2, g3⟩ := hd i hi
      have g0 : 0 ≤ value (d i) := by have := hr.tiny.1; linarith
      refine ⟨g1, rfl, ?_⟩
      show |value (d i)| ≤ 1
      rw [abs_of_nonneg g0]
      by_contra hlt
      have := mul_lt_mul_of_pos_left (not_le.1 hlt) (show 0 < 4608 * p.eps2 by linarith)
      linarith
    have hst : ∀ x : Int × Int → Ieee F, (∀ c, In2 n c → Ordinary (x c) ∧ |(value (x c) : ℝ)| ≤ (M : ℝ) / 2) →
        ∀ c, In2 n c → Same (x c) (asFl (x c)) ((M : ℚ) / 2) := fun x hx c hc => by
      refine ⟨(hx c hc).1, rfl, ?_⟩
      have := (hx c hc).2
      have e : ((|value (x c)| : ℚ) : ℝ) ≤ (((M : ℚ) / 2 : ℚ) : ℝ) := by push_cast; exact this
      exact_mod_cast e
    have M2 : (2 : ℚ) ≤ M := by exact_mod_cast hM
    rcases hy with rfl | rfl
    · refine ⟨ssp3c, fun i hi hb => ?_⟩
      have := ieee_rk3_noisy2 hp hmin hm hr hn E1 M2 s1 s2 s3 sx hs hX (h34 i hi) (hdt i hi) (hd i hi).2.1
        (by rw [vp]; exact hsm i hi) (hst _ hb) (t i) _ rfl
      rw [vp, show chFieldA2 pf dx n = rhsOps2 pf dx n from funext fun t => chFieldA2_eq pf dx n t] at this
      exact_mod_cast this
    · refine ⟨bs3c, fun i hi hb => ?_⟩
      have := ieee_bs23_noisy2 hp hmin hm hr hn E1 M2 s1 s2 s3 sx hs hX (h34 i hi) (hdt i hi) (hd i hi).2.1
        (by rw [vp]; exact hsm i hi) (hst _ hb) _ rfl
      rw [vp, chFieldA2_eq] at this
      exact_mod_cast this
  have hs0 : s 0 = y := by rcases hy with rfl | rfl <;> rfl
  obtain ⟨Tb, hst⟩ := noisy
  obtain ⟨ord, S⟩ := H F n hn (value dx) hd1 el o Tb _ (Convg.noise_nonneg hr) d s k hst
    (fun i hi => Convg.step_ok hr (hd i hi).2) hsum (Convg.length_ok hlen) (fun c hc => by
      rw [hs0]
      refine ⟨(hini c hc).1, (hini c hc).2.trans ?_⟩
      have : 0 ≤ a * (value dx : ℝ) ^ 2 := by positivity
      linarith)
  refine ⟨ord, S, ?_⟩
  rintro ⟨i, j⟩ ⟨h1, h2⟩
  refine (le_sum2 (f := fun i j => ((value (s k (i, j)) : ℝ) - U (∑ i ∈ Finset.range k, (value (d i) : ℝ))
    (centre2 o (value dx) i j)) ^ 2) (fun _ _ => sq_nonneg _) h1 h2).trans (S.trans (le_of_eq ?_))
  rw [← el 0, ← el 1]; push_cast; ring

/-- C111, whole runs. For every smooth periodic solution there are constants such that every execution of a fresh 2D Cahn–Hilliard run
with `rk3ssp` in floating-point arithmetic with overflow, infinities and NaN, whatever the convergence tolerances and the order of the
reductions, ends normally; and if its initial field is within `a dx²` of the initial state of the solution, its step size is at most
`dx⁴ / (6144 ε²)` and the format is precise and wide enough, then every state of the run, and so every number in its files, is ordinary
and close to the solution at a time that differs from the time in the log by rounding only. -/
theorem C111_rk3ssp (p : CHParams ℚ) (he : 0 < p.eps2) (L : Fin 2 → ℝ) (hL : ∀ a, 0 < L a) (T : ℝ)
    (U : ℝ → (Fin 2 → ℝ) → ℝ) (hU : CHSolution (realParams p) L T U) (a : ℝ) (ha : 0 ≤ a) :
    ∃ (Cst h0 : ℝ) (B : ℚ), 0 ≤ Cst ∧ 0 < h0 ∧ ∀ (A : Type) [DecidableEq A] (F : IeeeFmt) [Pow (Ieee F) (Ieee F)]
      (hp : 4 ≤ F.prec) (hmin : F.emin ≤ 0) (hm : 8 ≤ F.emax) (u τ : ℚ) (hr : Rounds F.toFloatFmt.round u τ)
      (sz : A → Int) (E : Env (Ieee F)) (o : RunOpts (Ieee F)) (w : ProgArr A)
      (heq : o.sel.equation = "cahn-hilliard") (hint : o.sel.integrator = "rk3ssp") (hcfl : o.useCfl = false) (hlf : o.logFreq ≠ 0)
      (hms : 0 < o.maxSteps) (hM : o.maxSteps < 1000000)
      (hbx : o.sel.bcx ∈ ["periodic", "neumann", "dirichlet"]) (hby : o.sel.bcy ∈ ["periodic", "neumann", "dirichlet"])
      (hbz : o.sel.bcz ∈ ["periodic", "neumann", "dirichlet"])
      (hdim : o.sel.dimension = 2) (hn : 2 ≤ o.nx) (hw : Arrays2 sz w o.nx)
      (ho : Ordinary o.par.eps2 ∧ Ordinary o.par.sigma ∧ Ordinary o.par.m)
      (hpf : value o.par.eps2 = p.eps2 ∧ value o.par.sigma = p.sigma ∧ value o.par.m = p.m)
      (dx : Ieee F) (hdx : dx = (o.box.xend - o.box.xbeg) / (o.nx : Ieee F)) (odx : Ordinary dx) (hs : Spacing τ (value dx))
      (hh : (value dx : ℝ) ≤ h0) (hB : B < 2 ^ F.emax * value dx ^ 4)
      (el : ∀ a, o.nx * (value dx : ℝ) = L a) (or : Fin 2 → ℝ)
      (oT : Ordinary o.tfinal) (o0 : Ordinary o.t0) (od : Ordinary o.dt0) (ht0 : 0 ≤ value o.t0) (hT : 0 ≤ value o.tfinal)
      (hd0 : 0 < value o.dt0) (hdτ : 4 * τ * 2 ^ F.prec ≤ value o.dt0) (hd1 : 6144 * p.eps2 * value o.dt0 ≤ value dx ^ 4)
      (hTu : u * (value o.tfinal + 1) ≤ value dx ^ 4 / (64 * (768 * p.eps2))) (ht : o.t0 + o.dt0 < o.tfinal)
      (hXT : 4 * (|value o.t0| + value o.tfinal + 1) < (2 : ℚ) ^ F.emax)
      (hlen : (o.maxSteps : ℝ) * ((1 + (u : ℝ)) ^ 34 - 1) ≤ a * (value dx : ℝ) ^ 2) (δ : ℚ) (hδ : δ = (o.maxSteps + 2) * (u * (value o.tfinal + 2)))
      (hTT : ((value o.tfinal - value o.t0 + δ : ℚ) : ℝ) ≤ T)
      (hini : ∀ c, In2 o.nx c → Ordinary (initialAny2 E.draw o.par.m o.nx c) ∧
        |(value (initialAny2 E.draw o.par.m o.nx c) : ℝ) - U 0 (centre2 or (value dx) c.1 c.2)| ≤ a * (value dx : ℝ) ^ 2)
      (W : Nat) (hW : W = Nat.log 10 o.maxSteps + 1) (m : Mem A (Ieee F)) (fuel : Nat) (hf1 : 1 ≤ fuel) (hf2 : o.maxSteps ≤ fuel),
      AllEnd sz (program E o none w fuel) m fun res _ => ∃ (N : Nat) (t d r : Nat → Ieee F) (v : Nat → Ieee F × Ieee F × Ieee F)
        (s : Nat → Int × Int → Ieee F) (st : Status (Ieee F)), 1 ≤ N ∧
        res = .done (savedFiles 0 o.saveEvery.natAbs t d (stepName o.base W)
            (fun k => vts2 E.io o.box.xbeg o.box.ybeg dx o.nx (s (k + 1))) N ++
          [(stepName (finalBase o.base) W (0 + N), vts2 E.io o.box.xbeg o.box.ybeg dx o.nx (s N) st)])
          (reportRows 0 o.logFreq.natAbs t d r v N) ∧
        ∀ k, k ≤ N → Ordinary (t k) ∧ ∃ T' : ℚ, |T' - (value (t k) - value o.t0)| ≤ δ ∧ (∀ c, In2 o.nx c → Ordinary (s k c)) ∧
          (sum2 o.nx o.nx fun i j => ((value (s k (i, j)) : ℝ) - U T' (centre2 or (value dx) i j)) ^ 2) ≤
            ((o.nx * o.nx : Int) : ℝ) * (Cst * (value dx : ℝ) ^ 2) ^ 2 ∧
          ∀ c, In2 o.nx c → ((value (s k c) : ℝ) - U T' (centre2 or (value dx) c.1 c.2)) ^ 2 ≤
            Cst ^ 2 * (L 0 * L 1) * (value dx : ℝ) ^ 2 := by
  obtain ⟨Cst, h0, B, c0, h00, H⟩ := C111_converges p he L hL T U hU a ha
  have heR : (0 : ℝ) < p.eps2 := by exact_mod_cast he
  refine ⟨Cst, min h0 (min 1 (768 * (p.eps2 : ℝ))), B, c0, lt_min h00 (lt_min one_pos (by positivity)), ?_⟩
  intro A _ F _ hp hmin hm u τ hr sz E o w heq hint hcfl hlf hms hM hbx hby hbz hdim hn hw ho hpf dx hdx odx hs hh hB el or
    oT o0 od ht0 hT hd0 hdτ hd1 hTu ht hXT hlen δ hδ hTT hini W hW m fuel hf1 hf2
  refine (C102_rk3ssp2 sz E o w heq hcfl hlf hms hM hbx hby hbz hdim hn hw hint dx hdx W hW m fuel hf1 (by dsimp only; omega)).mono fun res _ h => ?_
  obtain ⟨N, t, d, pr, r, e, v, s, hmar, hend, hs', hpr, -, hres⟩ := h
  refine ⟨N, t, d, r, v, s, _, hend.1, hres, ?_⟩
  have hNM : (N : Int) ≤ o.maxSteps := by
    have hb : (0 : Int) + N ≤ max (o.maxSteps : Int) (0 + 1) := by
      let : Max (Ieee F) := byLess
      exact hend.bound (o := ⟨o.t0, o.tfinal, o.dt0, false, o.maxSteps, 0, o.relTol, o.absTol⟩) (by dsimp only; omega)
    omega
  have x0 : 0 < value dx := hs.1
  have x1 : value dx ≤ 1 := by
    have : (value dx : ℝ) ≤ ((1 : ℚ) : ℝ) := by rw [Rat.cast_one]; exact (hh.trans (min_le_right _ _)).trans (min_le_left _ _)
    exact_mod_cast this
  have x4 : value dx ≤ 768 * p.eps2 := by
    have := (hh.trans (min_le_right _ _)).trans (min_le_right _ _)
    exact_mod_cast this
  obtain ⟨D, hD⟩ : ∃ D, D = value dx ^ 4 / (768 * p.eps2) := ⟨_, rfl⟩
  have D0 : 0 ≤ D := by rw [hD]; positivity
  have D1 : D ≤ 1 := by
    rw [hD, div_le_one (by positivity)]
    exact (pow_le_of_le_one x0.le x1 (by norm_num)).trans x4
  have hlo : value o.dt0 ≤ D / 8 := by
    rw [hD, div_div, le_div_iff₀ (by positivity)]
    linarith
  have hTD : u * (value o.tfinal + 1) ≤ D / 64 := by rw [hD, div_div]; convert hTu using 2; ring
  have last := last_step_ok hr hT D0 D1 hTD
  have times := ieee_times hr (by omega) hmar hend.1 (fun k hk hl => hend.2.2 (k + 1) (by omega) hk (.inl hl)) (hi := D / 8) (by linarith)
    oT o0 od hdτ hd0 ⟨le_rfl, hlo⟩ ht0 hT ht hXT (by linarith) (fun k hk hall => by
      rw [(hpr k (by omega)).2 (fun hl => hend.2.2 (k + 1) (by omega) hk (.inl hl))]
      exact hall k le_rfl)
  have hu := hr.unit.1
  have c00 := mul_nonneg hu (show 0 ≤ value o.tfinal + 2 by linarith)
  have kδ : ∀ k : Nat, k ≤ N → (k : ℚ) * (u * (value o.tfinal + 2)) + 2 * (u * (value o.tfinal + 2)) ≤ δ := by
    intro k hk
    have : (k : ℚ) ≤ o.maxSteps := by exact_mod_cast (show (k : Int) ≤ o.maxSteps by omega)
    rw [hδ, ← add_mul]
    exact mul_le_mul_of_nonneg_right (by linarith) c00
  intro k hk
  obtain ⟨q1, q2, q3⟩ := times.2 k hk
  refine ⟨q1, ∑ i ∈ Finset.range k, value (d i), q3.trans (by linarith [kδ k hk]), ?_⟩
  have hcast : ((∑ i ∈ Finset.range k, value (d i) : ℚ) : ℝ) = ∑ i ∈ Finset.range k, (value (d i) : ℝ) := by push_cast; rfl
  rw [hcast]
  refine H F hp hmin hm u τ hr o.nx (by omega) o.par ho hpf dx odx hs (hh.trans (min_le_left _ _)) hB el
    or t d _ s (.inl hs') k (fun i hi => ?_) ?_ ?_ hini
  · obtain ⟨g1, g2, g3⟩ := times.1 i (by omega)
    refine ⟨g1, g2, ?_⟩
    have g4 : value (d i) ≤ D / 6 := g3.trans (max_le (by linarith) last)
    have e : D / 6 = value dx ^ 4 / (4608 * p.eps2) := by rw [hD, div_div]; congr 1; ring
    rw [e, le_div_iff₀ (by positivity)] at g4
    linarith
  · rw [← hcast]
    refine le_trans ?_ hTT
    have := (abs_le.1 q3).2
    exact_mod_cast (by linarith [kδ k hk] : ∑ i ∈ Finset.range k, value (d i) ≤ value o.tfinal - value o.t0 + δ)
  · refine le_trans (mul_le_mul_of_nonneg_right ?_ ?_) hlen
    · exact_mod_cast (show (k : Int) ≤ o.maxSteps by omega)
    · have := sub_nonneg.2 (Near.one_le hr.unit.1 34)
      exact_mod_cast this

set_option maxHeartbeats 1600000 in
/-- C111. For every smooth periodic solution of the Cahn–Hilliard equation with rational parameters there is a number `Em`, independent of
the grid, the format and the tolerance, such that in the situation of `C111_converges` the error estimate of every step, in whatever order
its maximum is formed, is an ordinary number between 0 and `Em`. -/
theorem C111_errors (p : CHParams ℚ) (he : 0 < p.eps2) (L : Fin 2 → ℝ) (hL : ∀ a, 0 < L a) (T : ℝ)
    (U : ℝ → (Fin 2 → ℝ) → ℝ) (hU : CHSolution (realParams p) L T U) (a : ℝ) (ha : 0 ≤ a) :
    ∃ (h0 : ℝ) (B Em : ℚ), 0 < h0 ∧ 1 ≤ Em ∧ ∀ (F : IeeeFmt) (hp : 4 ≤ F.prec) (hmin : F.emin ≤ 0) (hm : 8 ≤ F.emax) (u τ : ℚ)
      (hr : Rounds F.toFloatFmt.round u τ) (n : Int) (hn : 1 ≤ n)
      (pf : CHParams (Ieee F)) (ho : Ordinary pf.eps2 ∧ Ordinary pf.sigma ∧ Ordinary pf.m)
      (hpf : value pf.eps2 = p.eps2 ∧ value pf.sigma = p.sigma ∧ value pf.m = p.m)
      (dx : Ieee F) (hdx : Ordinary dx) (hs : Spacing τ (value dx)) (hh : (value dx : ℝ) ≤ h0) (hB : B < 2 ^ F.emax * value dx ^ 4)
      (el : ∀ a, n * (value dx : ℝ) = L a) (o : Fin 2 → ℝ)
      (t d : Nat → Ieee F) (y : Int × Int → Ieee F) (s : Nat → Int × Int → Ieee F) (G : (Int × Int → Ieee F) → Int × Int → Ieee F)
      (hG : G = rhsOps2 pf dx n 0)
      (hy : s = iterates (fun _ dt y c => y c + dt * bs23Slope G dt y c) t d y)
      (k : Nat) (hd : ∀ i, i ≤ k → Ordinary (d i) ∧ 2 * τ ≤ value (d i) ∧ 4608 * p.eps2 * value (d i) ≤ value dx ^ 4)
      (hsum : ∑ i ∈ Finset.range (k + 1), (value (d i) : ℝ) ≤ T)
      (hlen : ((k + 1 : ℕ) : ℝ) * ((1 + (u : ℝ)) ^ 34 - 1) ≤ a * (value dx : ℝ) ^ 2)
      (hini : ∀ c, In2 n c → Ordinary (y c) ∧ |(value (y c) : ℝ) - U 0 (centre2 o (value dx) c.1 c.2)| ≤ a * (value dx : ℝ) ^ 2)
      (pad : Nat) (e : Ieee F) (hE : ∃ g, (letI : Max (Ieee F) := byLess;
          LargestGap (pairs n n) pad (bs23Slope G (d k) (s k)) (bs23SlopeHat G (d k) (s k)) g) ∧
        e = if 0 < d k * g then d k * g else 0),
      Ordinary e ∧ 0 ≤ value e ∧ value e ≤ Em := by
  obtain ⟨Cst, h0, B, c0, h00, H⟩ := C111_converges p he L hL T U hU a ha
  obtain ⟨b, b0, hb⟩ := sol_bound hL hU
  have heR : (0 : ℝ) < p.eps2 := by exact_mod_cast he
  have vol0 : 0 ≤ Cst ^ 2 * (L 0 * L 1) :=
    mul_nonneg (sq_nonneg _) (mul_nonneg (hL 0).le (hL 1).le)
  obtain ⟨M, hMd⟩ : ∃ M : ℕ, M = 2 * (⌈b + Cst ^ 2 * (L 0 * L 1) + 1⌉₊ + 1) := ⟨_, rfl⟩
  have hM : 2 ≤ M := by omega
  have hM2 : b + Cst ^ 2 * (L 0 * L 1) + 1 ≤ (M : ℝ) / 2 := by
    have := Nat.le_ceil (b + Cst ^ 2 * (L 0 * L 1) + 1)
    rw [hMd]; push_cast; linarith
  obtain ⟨E, hEd⟩ : ∃ E, E = 1 + |p.eps2| + |p.sigma| + |p.m| := ⟨_, rfl⟩
  have q1 := abs_nonneg p.eps2
  have q2 := abs_nonneg p.sigma
  have q3 := abs_nonneg p.m
  have E1 : 1 ≤ E := by linarith
  obtain ⟨Z, hZ⟩ : ∃ Z : ℚ, Z = E * ((M : ℚ) ^ 3 + E) := ⟨_, rfl⟩
  have Z0 : 0 ≤ Z := by rw [hZ]; positivity
  refine ⟨min (min h0 (4608 * (p.eps2 : ℝ))) (min (1 / (4 * (a + 1))) (Convg.limit p M)), max B (2 ^ 36 * Z),
    2 ^ 36 * Z / (4608 * p.eps2) + 1, lt_min (lt_min h00 (by positivity)) (lt_min (by positivity) (Convg.limit_pos he)), ?_, ?_⟩
  · have : 0 ≤ 2 ^ 36 * Z / (4608 * p.eps2) := by positivity
    linarith
  intro F hp hmin hm u τ hr n hn pf ho hpf dx hdx hs hh hB el o t d y s G hG hy k hd hsum hlen hini pad e hEr
  have hd1 := (hh.trans (min_le_left _ _)).trans (min_le_left _ _)
  have hd4 := (hh.trans (min_le_left _ _)).trans (min_le_right _ _)
  have hd2 := (hh.trans (min_le_right _ _)).trans (min_le_left _ _)
  have hd3 := (hh.trans (min_le_right _ _)).trans (min_le_right _ _)
  have x0 : 0 < value dx := hs.1
  have x1R : (value dx : ℝ) ≤ 1 := hd3.trans (min_le_left _ _)
  have x1 : value dx ≤ 1 := by exact_mod_cast x1R
  have D0 : 0 < value dx ^ 4 := by positivity
  have x4 : value dx ^ 4 ≤ 4608 * p.eps2 := by
    have : value dx ≤ 4608 * p.eps2 := by exact_mod_cast hd4
    exact (pow_le_of_le_one x0.le x1 (by norm_num)).trans this
  have hS : chSize E M (value dx) = 2 ^ 27 * (Z / value dx ^ 4) := by unfold chSize; rw [hZ]
  have hB2 : 2 ^ 36 * (Z / value dx ^ 4) < (2 : ℚ) ^ F.emax := by
    rw [← mul_div_assoc, div_lt_iff₀ D0]
    exact lt_of_le_of_lt (le_max_right _ _) hB
  have Y0 : 0 ≤ Z / value dx ^ 4 := by positivity
  -- states before and after the step
  have pos : ∀ i, i ≤ k → 0 ≤ (value (d i) : ℝ) := fun i hi => by
    have := hr.tiny.1
    exact_mod_cast (by linarith [(hd i hi).2.1] : 0 ≤ value (d i))
  have st : ∀ j, j ≤ k + 1 → ∀ c, In2 n c → Ordinary (s j c) ∧ |(value (s j c) : ℝ)| ≤ (M : ℝ) / 2 := by
    intro j hj c hc
    have hsum' : ∑ i ∈ Finset.range j, (value (d i) : ℝ) ≤ T := by
      refine le_trans (Finset.sum_le_sum_of_subset_of_nonneg (Finset.range_mono hj) fun i hi _ => pos i ?_) hsum
      have := Finset.mem_range.1 hi
      omega
    have hsum0 : 0 ≤ ∑ i ∈ Finset.range j, (value (d i) : ℝ) := Finset.sum_nonneg fun i hi => pos i (by
      have := Finset.mem_range.1 hi
      omega)
    obtain ⟨r1, -, r3⟩ := H F hp hmin hm u τ hr n hn pf ho hpf dx hdx hs hd1 (lt_of_le_of_lt (le_max_left _ _) hB) el o t d y s
      (.inr (by rw [hy, hG])) j (fun i hi => hd i (by omega)) hsum' (le_trans (mul_le_mul_of_nonneg_right (by exact_mod_cast hj) (by
        have := sub_nonneg.2 (Near.one_le hr.unit.1 34)
        exact_mod_cast this)) hlen) hini
    refine ⟨r1 c hc, ?_⟩
    have a1 := r3 c hc
    have a2 := hb _ hsum0 hsum' (centre2 o (value dx) c.1 c.2)
    have a3 : Cst ^ 2 * (L 0 * L 1) * (value dx : ℝ) ^ 2 ≤ Cst ^ 2 * (L 0 * L 1) * 1 :=
      mul_le_mul_of_nonneg_left (pow_le_one₀ (by exact_mod_cast x0.le) x1R) vol0
    generalize U (∑ i ∈ Finset.range j, (value (d i) : ℝ)) (centre2 o (value dx) c.1 c.2) = w at a1 a2
    have a4 : |(value (s j c) : ℝ) - w| ≤ Cst ^ 2 * (L 0 * L 1) + 1 := by
      have := abs_nonneg ((value (s j c) : ℝ) - w)
      have := sq_abs ((value (s j c) : ℝ) - w)
      nlinarith only [this, a1, a3, abs_nonneg ((value (s j c) : ℝ) - w)]
    have a5 := abs_sub_abs_le_abs_sub (value (s j c) : ℝ) w
    linarith
  have hst : ∀ j, j ≤ k + 1 → ∀ c, In2 n c → |value (s j c)| ≤ (M : ℚ) / 2 := fun j hj c hc => by
    have e : ((|value (s j c)| : ℚ) : ℝ) ≤ (((M : ℚ) / 2 : ℚ) : ℝ) := by push_cast; exact (st j hj c hc).2
    exact_mod_cast e
  obtain ⟨g1, g2, g3⟩ := hd k le_rfl
  have g0 : 0 ≤ value (d k) := by have := hr.tiny.1; linarith
  obtain ⟨D, hDd⟩ : ∃ D, D = value dx ^ 4 / (4608 * p.eps2) := ⟨_, rfl⟩
  have gD : value (d k) ≤ D := by rw [hDd, le_div_iff₀ (by positivity)]; linarith
  have D1 : D ≤ 1 := by rw [hDd]; exact (div_le_one (by positivity)).2 x4
  have hDp : 0 ≤ D := g0.trans gD
  obtain ⟨p', hp'⟩ : ∃ p' : CHParams (Fl F.toFloatFmt.round), p' = ⟨asFl pf.eps2, asFl pf.sigma, asFl pf.m⟩ := ⟨_, rfl⟩
  have vp : valuesOf p' = p := by
    rw [hp']
    show (⟨value pf.eps2, value pf.sigma, value pf.m⟩ : CHParams ℚ) = p
    rw [hpf.1, hpf.2.1, hpf.2.2]
  have s1 : Same pf.eps2 p'.eps2 E := by rw [hp']; exact ⟨ho.1, rfl, by show |value pf.eps2| ≤ E; rw [hpf.1]; linarith⟩
  have s2 : Same pf.sigma p'.sigma E := by rw [hp']; exact ⟨ho.2.1, rfl, by show |value pf.sigma| ≤ E; rw [hpf.2.1]; linarith⟩
  have s3 : Same pf.m p'.m E := by rw [hp']; exact ⟨ho.2.2, rfl, by show |value pf.m| ≤ E; rw [hpf.2.2]; linarith⟩
  have sx : Same dx (asFl dx) 1 := ⟨hdx, rfl, by show |value dx| ≤ 1; rw [abs_of_pos x0]; exact x1⟩
  have h34 : (1 + u) ^ 34 ≤ 5 / 4 := Convg.noise_small hr ha hd2 hs (dts := (List.range (k + 1)).map fun i => asFl (d i)) (dt := asFl (d k))
    (by rw [List.length_map, List.length_range]; exact hlen) (List.mem_map.2 ⟨k, List.mem_range.2 (by omega), rfl⟩)
  have M2 : (2 : ℚ) ≤ M := by exact_mod_cast hM
  have hX : 64 * chSize E M (value dx) < (2 : ℚ) ^ F.emax := by rw [hS]; linarith only [hB2, Y0]
  have hG' : chFieldA2 pf dx n 0 = G := by rw [hG, chFieldA2_eq]
  have hnew : s (k + 1) = fun c => s k c + d k * bs23Slope G (d k) (s k) c := by rw [hy]; rfl
  have sl := ieee_bs23_slopes2 hp hmin hm hr hn E1 M2 s1 s2 s3 sx hs hX h34
    (dt := d k) (dt' := asFl (d k)) (Same.of g1 (by rw [abs_of_nonneg g0]; linarith only [gD, D1])) g2
    (by rw [vp]; exact Convg.small he hM hs hd3 ⟨g2, g3⟩ hr) (a := s k) (x := fun c => asFl (s k c))
    (fun c hc => Same.of (st k (by omega) c hc).1 (hst k (by omega) c hc)) (fun c hc => by
      have h := hst (k + 1) le_rfl c hc
      rw [hnew] at h
      rw [hG']
      exact h.trans (by linarith only [M2]))
  rw [hG'] at sl
  have er := err_ok hp hmin hm (D := D) (S := 40 * chSize E M (value dx)) (by rw [hS]; positivity)
    (G := G) (dt := d k) (a := s k) (cells := pairs n n) (pad := pad) (e := e)
    (fun c hc => sl.1 c (mem_pairs.1 hc)) (fun c hc => sl.2 c (mem_pairs.1 hc))
    (by rw [hS]; linarith only [hB2, Y0]) ⟨g1, g0, gD⟩
    (by
      rw [hS]
      have : D * (40 * (2 ^ 27 * (Z / value dx ^ 4))) ≤ 1 * (40 * (2 ^ 27 * (Z / value dx ^ 4))) := mul_le_mul_of_nonneg_right D1 (by positivity)
      linarith only [hB2, Y0, this]) hEr
  refine ⟨er.ord, er.lo, er.hi.trans ?_⟩
  rw [hS, hDd]
  have e : 8 * (value dx ^ 4 / (4608 * p.eps2) * (40 * (2 ^ 27 * (Z / value dx ^ 4)))) = 320 * 2 ^ 27 * (Z / (4608 * p.eps2)) := by
    field_simp
    ring
  have : 0 ≤ Z / (4608 * p.eps2) := by positivity
  rw [e, mul_div_assoc]
  linarith only [this]

set_option maxHeartbeats 1600000 in
/-- C111, whole runs with the adaptive integrator. For every smooth periodic solution there are constants such that every execution of a fresh 2D Cahn–Hilliard run
with the adaptive integrator in floating-point arithmetic with overflow, infinities and NaN ends normally; and if its initial field is
within `a dx²` of the initial state of the solution, its largest step is at most `dx⁴ / (6144 ε²)`, its error tolerance is in the range of
the format and the format is precise and wide enough, then all proposed steps are ordinary and between the smallest and the largest step,
and every state of the run, and so every number in its files, is ordinary and close to the solution at a time that differs from the time
in the log by rounding only. -/
theorem C111_ode23 (p : CHParams ℚ) (he : 0 < p.eps2) (L : Fin 2 → ℝ) (hL : ∀ a, 0 < L a) (T : ℝ)
    (U : ℝ → (Fin 2 → ℝ) → ℝ) (hU : CHSolution (realParams p) L T U) (a : ℝ) (ha : 0 ≤ a) :
    ∃ (Cst h0 : ℝ) (B Em : ℚ), 0 ≤ Cst ∧ 0 < h0 ∧ ∀ (A : Type) [DecidableEq A] (F : IeeeFmt) [Pow (Ieee F) (Ieee F)]
      (hp : 4 ≤ F.prec) (hmin : F.emin ≤ 0) (hm : 64 ≤ F.emax) (u τ : ℚ) (hr : Rounds F.toFloatFmt.round u τ) (hu64 : u ≤ 1 / 64)
      (hτ53 : τ ≤ 1 / 2 ^ 53) (hP : PowFn (F := F) (· ^ ·))
      (sz : A → Int) (E : Env (Ieee F)) (o : RunOpts (Ieee F)) (w : ProgArr A)
      (heq : o.sel.equation = "cahn-hilliard") (hint : o.sel.integrator = "ode23") (hcfl : o.useCfl = false) (hlf : o.logFreq ≠ 0)
      (hms : 0 < o.maxSteps) (hM : o.maxSteps < 1000000)
      (hbx : o.sel.bcx ∈ ["periodic", "neumann", "dirichlet"]) (hby : o.sel.bcy ∈ ["periodic", "neumann", "dirichlet"])
      (hbz : o.sel.bcz ∈ ["periodic", "neumann", "dirichlet"])
      (hdim : o.sel.dimension = 2) (hn : 2 ≤ o.nx) (hw : Arrays2 sz w o.nx)
      (ho : Ordinary o.par.eps2 ∧ Ordinary o.par.sigma ∧ Ordinary o.par.m)
      (hpf : value o.par.eps2 = p.eps2 ∧ value o.par.sigma = p.sigma ∧ value o.par.m = p.m)
      (dx : Ieee F) (hdx : dx = (o.box.xend - o.box.xbeg) / (o.nx : Ieee F)) (odx : Ordinary dx) (hs : Spacing τ (value dx))
      (hh : (value dx : ℝ) ≤ h0) (hB : B < 2 ^ F.emax * value dx ^ 4)
      (el : ∀ a, o.nx * (value dx : ℝ) = L a) (or : Fin 2 → ℝ)
      (oT : Ordinary o.tfinal) (o0 : Ordinary o.t0) (od : Ordinary o.dt0) (ht0 : 0 ≤ value o.t0) (hT : 0 ≤ value o.tfinal)
      (omn : Ordinary o.minStep) (omx : Ordinary o.maxStep) (hm0 : 0 < value o.minStep) (hmτ : 4 * τ * 2 ^ F.prec ≤ value o.minStep)
      (hd : value o.minStep ≤ value o.dt0 ∧ value o.dt0 ≤ value o.maxStep) (hd1 : 6144 * p.eps2 * value o.maxStep ≤ value dx ^ 4)
      (ot : Ordinary o.errTol) (htol0 : 0 < value o.errTol) (htol1 : τ * Em ≤ value o.errTol) (htol2 : 2 * Em < 2 ^ F.emax * value o.errTol)
      (htol3 : 2 ^ 55 * value o.errTol < 2 ^ F.emax) (htol4 : 2 ^ 54 * τ * value o.errTol ≤ 1)
      (hTu : u * (value o.tfinal + 1) ≤ value dx ^ 4 / (64 * (768 * p.eps2))) (ht : o.t0 + o.dt0 < o.tfinal)
      (hXT : 4 * (|value o.t0| + value o.tfinal + 1) < (2 : ℚ) ^ F.emax)
      (hlen : (o.maxSteps : ℝ) * ((1 + (u : ℝ)) ^ 34 - 1) ≤ a * (value dx : ℝ) ^ 2) (δ : ℚ) (hδ : δ = (o.maxSteps + 2) * (u * (value o.tfinal + 2)))
      (hTT : ((value o.tfinal - value o.t0 + δ : ℚ) : ℝ) ≤ T)
      (hini : ∀ c, In2 o.nx c → Ordinary (initialAny2 E.draw o.par.m o.nx c) ∧
        |(value (initialAny2 E.draw o.par.m o.nx c) : ℝ) - U 0 (centre2 or (value dx) c.1 c.2)| ≤ a * (value dx : ℝ) ^ 2)
      (W : Nat) (hW : W = Nat.log 10 o.maxSteps + 1) (m : Mem A (Ieee F))
      (hz : ∀ a ∈ [w.rk.k1, w.rk.k2, w.rk.k3, w.rk.k4], ∀ n, m a n = 0) (fuel : Nat) (hf1 : 1 ≤ fuel) (hf2 : o.maxSteps ≤ fuel),
      AllEnd sz (program E o none w fuel) m fun res _ => ∃ (N : Nat) (t d r : Nat → Ieee F) (v : Nat → Ieee F × Ieee F × Ieee F)
        (s : Nat → Int × Int → Ieee F) (st : Status (Ieee F)), 1 ≤ N ∧
        res = .done (savedFiles 0 o.saveEvery.natAbs t d (stepName o.base W)
            (fun k => vts2 E.io o.box.xbeg o.box.ybeg dx o.nx (s (k + 1))) N ++
          [(stepName (finalBase o.base) W (0 + N), vts2 E.io o.box.xbeg o.box.ybeg dx o.nx (s N) st)])
          (reportRows 0 o.logFreq.natAbs t d r v N) ∧
        (∀ k, k + 1 < N → Ordinary (d k) ∧ value o.minStep ≤ value (d k) ∧ value (d k) ≤ value o.maxStep) ∧
        ∀ k, k ≤ N → Ordinary (t k) ∧ ∃ T' : ℚ, |T' - (value (t k) - value o.t0)| ≤ δ ∧ (∀ c, In2 o.nx c → Ordinary (s k c)) ∧
          (sum2 o.nx o.nx fun i j => ((value (s k (i, j)) : ℝ) - U T' (centre2 or (value dx) i j)) ^ 2) ≤
            ((o.nx * o.nx : Int) : ℝ) * (Cst * (value dx : ℝ) ^ 2) ^ 2 ∧
          ∀ c, In2 o.nx c → ((value (s k c) : ℝ) - U T' (centre2 or (value dx) c.1 c.2)) ^ 2 ≤
            Cst ^ 2 * (L 0 * L 1) * (value dx : ℝ) ^ 2 := by
  obtain ⟨Cst, h0, B, c0, h00, H⟩ := C111_converges p he L hL T U hU a ha
  obtain ⟨h0', B', Em, h00', hEm, HE⟩ := C111_errors p he L hL T U hU a ha
  have heR : (0 : ℝ) < p.eps2 := by exact_mod_cast he
  refine ⟨Cst, min (min h0 h0') (min 1 (768 * (p.eps2 : ℝ))), max B B', Em, c0, lt_min (lt_min h00 h00') (lt_min one_pos (by positivity)), ?_⟩
  intro A _ F _ hp hmin hm u τ hr hu64 hτ53 hP sz E o w heq hint hcfl hlf hms hM hbx hby hbz hdim hn hw ho hpf dx hdx odx hs hh hB el or
    oT o0 od ht0 hT omn omx hm0 hmτ hd hd1 ot htol0 htol1 htol2 htol3 htol4 hTu ht hXT hlen δ hδ hTT hini W hW m hz fuel hf1 hf2
  have hm8 : 8 ≤ F.emax := by omega
  refine (C102_ode23_2 sz E o w heq hcfl hlf hms hM hbx hby hbz hdim hn hw hint dx hdx W hW m hz fuel hf1 (by dsimp only; omega)).mono fun res _ h => ?_
  obtain ⟨N, t, d, pr, r, e, v, s, hmar, hend, hs', hpr, -, hres⟩ := h
  refine ⟨N, t, d, r, v, s, _, hend.1, hres, ?_⟩
  have nl : ∀ k, k + 1 < N → ¬ LastStep o.tfinal t pr k := fun k hk hl => hend.2.2 (k + 1) (by omega) hk (.inl hl)
  have hNM : (N : Int) ≤ o.maxSteps := by
    have hb : (0 : Int) + N ≤ max (o.maxSteps : Int) (0 + 1) := by
      let : Max (Ieee F) := byLess
      exact hend.bound (o := ⟨o.t0, o.tfinal, o.dt0, false, o.maxSteps, 0, o.relTol, o.absTol⟩) (by dsimp only; omega)
    omega
  have x0 : 0 < value dx := hs.1
  have x1 : value dx ≤ 1 := by
    have : (value dx : ℝ) ≤ ((1 : ℚ) : ℝ) := by rw [Rat.cast_one]; exact (hh.trans (min_le_right _ _)).trans (min_le_left _ _)
    exact_mod_cast this
  have x4 : value dx ≤ 768 * p.eps2 := by
    have := (hh.trans (min_le_right _ _)).trans (min_le_right _ _)
    exact_mod_cast this
  obtain ⟨D, hD⟩ : ∃ D, D = value dx ^ 4 / (768 * p.eps2) := ⟨_, rfl⟩
  have D0 : 0 ≤ D := by rw [hD]; positivity
  have D1 : D ≤ 1 := by
    rw [hD, div_le_one (by positivity)]
    exact (pow_le_of_le_one x0.le x1 (by norm_num)).trans x4
  have hmx : value o.maxStep ≤ D / 8 := by
    rw [hD, div_div, le_div_iff₀ (by positivity)]
    linarith only [hd1]
  have hTD : u * (value o.tfinal + 1) ≤ D / 64 := by rw [hD, div_div]; convert hTu using 2; ring
  have last := last_step_ok hr hT D0 D1 hTD
  have hu := hr.unit.1
  have τ0 := hr.tiny.1
  have last' : (1 + u) * (value o.maxStep + u * (value o.tfinal + value o.maxStep + τ)) + u * τ ≤ D / 6 := by
    refine le_trans ?_ last
    gcongr
  have e6 : D / 6 = value dx ^ 4 / (4608 * p.eps2) := by rw [hD, div_div]; congr 1; ring
  have c00 := mul_nonneg hu (show 0 ≤ value o.tfinal + 2 by linarith only [hT])
  have kδ : ∀ k : Nat, k ≤ N → (k : ℚ) * (u * (value o.tfinal + 2)) + 2 * (u * (value o.tfinal + 2)) ≤ δ := by
    intro k hk
    have : (k : ℚ) ≤ o.maxSteps := by exact_mod_cast (show (k : Int) ≤ o.maxSteps by omega)
    rw [hδ, ← add_mul]
    exact mul_le_mul_of_nonneg_right (by linarith only [this]) c00
  have noise : (0 : ℝ) ≤ (1 + (u : ℝ)) ^ 34 - 1 := by
    have := sub_nonneg.2 (Near.one_le hr.unit.1 34)
    exact_mod_cast this
  have len : ∀ k : Nat, k ≤ N → (k : ℝ) * ((1 + (u : ℝ)) ^ 34 - 1) ≤ a * (value dx : ℝ) ^ 2 := fun k hk =>
    le_trans (mul_le_mul_of_nonneg_right (by exact_mod_cast (show (k : Int) ≤ o.maxSteps by omega)) noise) hlen
  have hcast : ∀ k, ((∑ i ∈ Finset.range k, value (d i) : ℚ) : ℝ) = ∑ i ∈ Finset.range k, (value (d i) : ℝ) := fun k => by push_cast; rfl
  -- sizes and times as long as the proposals are in range
  have part : ∀ n, 1 ≤ n → n ≤ N → (∀ k, k + 1 < n → Ordinary (pr (k + 1)) ∧ value o.minStep ≤ value (pr (k + 1)) ∧ value (pr (k + 1)) ≤ value o.maxStep) →
      (∀ i, i < n → Ordinary (d i) ∧ 2 * τ ≤ value (d i) ∧ 4608 * p.eps2 * value (d i) ≤ value dx ^ 4) ∧
      ∀ k, k ≤ n → Ordinary (t k) ∧ |∑ i ∈ Finset.range k, value (d i) - (value (t k) - value o.t0)| ≤ δ ∧
        ∑ i ∈ Finset.range k, (value (d i) : ℝ) ≤ T := by
    intro n h1 hnN hpn
    have times := ieee_times hr (by omega) hmar h1 (fun k hk => nl k (by omega)) (lo := value o.minStep) (hi := value o.maxStep)
      (by linarith only [hmx, D1, D0]) oT o0 od hmτ hm0 hd ht0 hT ht hXT (by linarith only [last', D1, D0]) (fun k hk _ => hpn k hk)
    refine ⟨fun i hi => ?_, fun k hk => ?_⟩
    · obtain ⟨g1, g2, g3⟩ := times.1 i hi
      refine ⟨g1, g2, ?_⟩
      have g4 : value (d i) ≤ D / 6 := g3.trans (max_le (by linarith only [hmx, D0]) last')
      rw [e6, le_div_iff₀ (by positivity)] at g4
      linarith only [g4]
    · obtain ⟨q1, q2, q3⟩ := times.2 k hk
      have kd := kδ k (by omega)
      refine ⟨q1, q3.trans (by linarith only [kd, c00]), ?_⟩
      rw [← hcast]
      refine le_trans ?_ hTT
      have := (abs_le.1 q3).2
      exact_mod_cast (by linarith only [this, kd, q2] : ∑ i ∈ Finset.range k, value (d i) ≤ value o.tfinal - value o.t0 + δ)
  -- the proposals are in range
  have prop : ∀ k, k + 1 < N → Ordinary (pr (k + 1)) ∧ value o.minStep ≤ value (pr (k + 1)) ∧ value (pr (k + 1)) ≤ value o.maxStep := by
    intro k
    induction k using Nat.strong_induction_on with
    | _ k ih =>
      intro hk
      obtain ⟨sz1, tm⟩ := part (k + 1) (by omega) (by omega) fun j hj => ih j (by omega) (by omega)
      have eqd : ∀ i, i < k → d (i + 1) = pr (i + 1) := fun i hi => by
        rw [hmar.d_succ i, if_neg (fun h => nl (i + 1) (by omega) ⟨by omega, h⟩)]
      rw [(hpr k (by omega)).2 (nl k hk)]
      refine C108_sizes hr hp hmin hm hu64 hτ53 hP o.errTol o.minStep o.maxStep Em hEm ot htol0 htol1 htol2 htol3 htol4 omn omx
        (by have P1 : (1 : ℚ) ≤ 2 ^ F.prec := one_le_pow₀ (by norm_num)
            have := le_mul_of_one_le_right (show 0 ≤ 4 * τ by linarith only [τ0]) P1
            linarith only [this, hmτ, τ0]) hm0
        (hd.1.trans hd.2) (by linarith only [hmx, D1, D0]) d e k (by rw [hmar.d_zero]; exact ⟨od, hd⟩) (fun i hi => ?_) (fun i hi => ?_)
      · rw [eqd i hi]
        exact (hpr i (by omega)).2 (nl i (by omega))
      · exact HE F hp hmin hm8 u τ hr o.nx (by omega) o.par ho hpf dx odx hs
          ((hh.trans (min_le_left _ _)).trans (min_le_right _ _)) (lt_of_le_of_lt (le_max_right _ _) hB) el or t d _ s _ rfl hs' i
          (fun j hj => sz1 j (by omega)) (tm (i + 1) (by omega)).2.2 (len (i + 1) (by omega)) hini _ (e i) (hpr i (by omega)).1
  obtain ⟨sz1, tm⟩ := part N hend.1 le_rfl prop
  refine ⟨fun k hk => ?_, fun k hk => ?_⟩
  · cases k with
    | zero => rw [hmar.d_zero]; exact ⟨od, hd⟩
    | succ i =>
      rw [hmar.d_succ i, if_neg (fun h => nl (i + 1) hk ⟨by omega, h⟩)]
      exact prop i (by omega)
  · obtain ⟨q1, q2, q3⟩ := tm k hk
    refine ⟨q1, ∑ i ∈ Finset.range k, value (d i), q2, ?_⟩
    rw [hcast]
    exact H F hp hmin hm8 u τ hr o.nx (by omega) o.par ho hpf dx odx hs
      ((hh.trans (min_le_left _ _)).trans (min_le_left _ _)) (lt_of_le_of_lt (le_max_left _ _) hB) el
      or t d _ s (.inr hs') k (fun i hi => sz1 i (by omega)) q3 (len k hk) hini

/-! ### The hypotheses are met -/

/-- The hypotheses of `C111_converges` are met: a moving solution, a grid as fine as wished, a format precise and wide enough, a step
that is allowed, and exact initial data. -/
example : ∃ U : ℝ → (Fin 2 → ℝ) → ℝ, CHSolution (realParams ⟨1, 1, 0⟩) (fun _ => 1) 1 U ∧ U 0 0 ≠ U 1 0 ∧
    ∀ (h0 : ℝ) (B : ℚ), 0 < h0 → ∃ (F : IeeeFmt) (u τ : ℚ) (n : Int) (dx dt y : Ieee F), 4 ≤ F.prec ∧ F.emin ≤ 0 ∧ 8 ≤ F.emax ∧
      Rounds F.toFloatFmt.round u τ ∧ 0 < u ∧ 1 ≤ n ∧ (∃ e s m : Ieee F, (Ordinary e ∧ Ordinary s ∧ Ordinary m) ∧
        value e = 1 ∧ value s = 1 ∧ value m = 0) ∧ Ordinary dx ∧ Spacing τ (value dx) ∧ (value dx : ℝ) ≤ h0 ∧
      B < 2 ^ F.emax * value dx ^ 4 ∧ n * (value dx : ℝ) = 1 ∧ (Ordinary dt ∧ 2 * τ ≤ value dt ∧ 4608 * 1 * value dt ≤ value dx ^ 4) ∧
      ∑ i ∈ Finset.range 1, (value dt : ℝ) ≤ 1 ∧ ((1 : ℕ) : ℝ) * ((1 + (u : ℝ)) ^ 34 - 1) ≤ 1 * (value dx : ℝ) ^ 2 ∧
      ∀ c : Int × Int, Ordinary y ∧ |(value y : ℝ) - U 0 (centre2 0 (value dx) c.1 c.2)| ≤ 1 * (value dx : ℝ) ^ 2 := by
  refine ⟨_, uniform_solution (realParams ⟨1, 1, 0⟩) _ 1 1, ?_, fun h0 B hh => ?_⟩
  · have : Real.exp (-(1 * 1)) < 1 := by rw [Real.exp_lt_one_iff]; norm_num
    simp only [realParams, Rat.cast_one, Rat.cast_zero, mul_zero, neg_zero, Real.exp_zero]
    intro h
    linarith
  · obtain ⟨k, hk⟩ := exists_nat_gt (1 / h0)
    obtain ⟨b, hb⟩ := exists_nat_gt (B * (2 ^ k) ^ 4)
    obtain ⟨x, x0, x1, e, f⟩ := fine_facts k
    have one : Ordinary (.num 1 : Ieee (fineIeee k (b + 8))) := by
      have := fineIeee_ord (k := k) (e := b + 8) (n := 0) (by omega) (by omega)
      rwa [pow_zero, div_one] at this
    refine ⟨fineIeee k (b + 8), _, _, 2 ^ k, .num (1 / 2 ^ k), .num (1 / 2 ^ (4 * k + 13)), .num 1, ?_, ?_, ?_, fineIeee_rounds _ _,
      by positivity, one_le_pow₀ (by norm_num), ⟨.num 1, .num 1, .zero false, ⟨one, one, trivial⟩, rfl, rfl, rfl⟩,
      fineIeee_ord (by omega) (by omega), fine_spacing k, ?_, ?_, ?_, ⟨fineIeee_ord (by omega) (by omega), ?_, ?_⟩, ?_, ?_, fun c => ⟨one, ?_⟩⟩
    · show 4 ≤ 4 * k + 20
      omega
    · show -((16 * k + 100 : ℕ) : ℤ) ≤ 0
      omega
    · show (8 : ℤ) ≤ ((b + 8 : ℕ) : ℤ)
      omega
    · show (((1 / 2 ^ k : ℚ)) : ℝ) ≤ h0
      push_cast
      rw [div_le_iff₀ (by positivity)]
      rw [div_lt_iff₀ hh] at hk
      have : (k : ℝ) ≤ 2 ^ k := by exact_mod_cast (Nat.lt_two_pow_self (n := k)).le
      nlinarith
    · show B < 2 ^ ((b + 8 : ℕ) : ℤ) * (1 / 2 ^ k) ^ 4
      rw [zpow_natCast, div_pow, one_pow, ← mul_div_assoc, mul_one, lt_div_iff₀ (by positivity)]
      have h2 : (b : ℚ) ≤ 2 ^ b := by exact_mod_cast (Nat.lt_two_pow_self (n := b)).le
      have h3 : (2 : ℚ) ^ b ≤ 2 ^ (b + 8) := pow_le_pow_right₀ (by norm_num) (by omega)
      linarith
    · show (((2 : ℤ) ^ k : ℤ) : ℝ) * ((1 / 2 ^ k : ℚ) : ℝ) = 1
      push_cast
      field_simp
    · show 2 * (1 / 2 ^ (12 * k + 81)) ≤ (1 : ℚ) / 2 ^ (4 * k + 13)
      rw [f, f]
      have h : x ^ 12 ≤ x ^ 4 := pow_le_pow_of_le_one x0.le x1 (by norm_num)
      have h4 : 0 < x ^ 4 := by positivity
      generalize x ^ 12 = a at *
      generalize x ^ 4 = b at *
      norm_num
      linarith
    · show 4608 * 1 * (1 / 2 ^ (4 * k + 13)) ≤ ((1 : ℚ) / 2 ^ k) ^ 4
      rw [f, e]
      have h4 : 0 < x ^ 4 := by positivity
      generalize x ^ 4 = b at *
      norm_num
      linarith
    · show ∑ i ∈ Finset.range 1, (((1 / 2 ^ (4 * k + 13) : ℚ)) : ℝ) ≤ 1
      rw [Finset.sum_const, Finset.card_range, one_smul, f]
      have h4 : x ^ 4 ≤ 1 := pow_le_one₀ x0.le x1
      have : x ^ 4 / 2 ^ 13 ≤ 1 := by linarith
      exact_mod_cast this
    · show ((1 : ℕ) : ℝ) * ((1 + ((1 / 2 ^ (4 * k + 20) : ℚ) : ℝ)) ^ 34 - 1) ≤ 1 * ((1 / 2 ^ k : ℚ) : ℝ) ^ 2
      rw [f, e, Nat.cast_one, one_mul, one_mul]
      have h := fine_noise (x := (x : ℝ) ^ 4) (by positivity) (pow_le_one₀ (by exact_mod_cast x0.le) (by exact_mod_cast x1))
      have h2 : (x : ℝ) ^ 4 ≤ (x : ℝ) ^ 2 := pow_le_pow_of_le_one (by exact_mod_cast x0.le) (by exact_mod_cast x1) (by norm_num)
      have h3 : (0 : ℝ) ≤ (x : ℝ) ^ 4 := by positivity
      push_cast
      linarith
    · simp only [realParams, value, Rat.cast_one, Rat.cast_zero, mul_zero, neg_zero, Real.exp_zero, zero_add, mul_one, sub_self, abs_zero, one_mul]
      positivity

/-- Unit box of `2^k` cells per direction, zero mean, a few steps (test data). -/
def fineOpts2 (k e : ℕ) : RunOpts (Ieee (fineIeee k e)) where
  sel := ⟨2, "periodic", "periodic", "periodic", "cahn-hilliard", "rk3ssp", false⟩
  nx := 2 ^ k
  ny := 2 ^ k
  nz := 2 ^ k
  box := ⟨0, .num 1, 0, 0⟩
  variant := 1
  par := { m := 0, sigma := .num 1, eps2 := .num 1 }
  t0 := 0
  tfinal := .num 1
  dt0 := .num (1 / 2 ^ (4 * k + 13))
  useCfl := false
  maxSteps := 4
  relTol := 0
  absTol := 0
  errTol := 1
  minStep := 0
  maxStep := 1
  logFreq := 1
  saveEvery := 1
  logFile := []
  solFile := ['s']
  mg := ⟨1, 1, 100, 1, 1, 1, 1, "nearest"⟩

/-- The hypotheses of `C111_rk3ssp` are met for the state at rest, on grids as fine as wished. -/
theorem fine_run2 (h0 : ℝ) (B Em : ℚ) (hh : 0 < h0) : CHSolution (realParams ⟨1, 1, 0⟩) (fun _ : Fin 2 => 1) 2
      (fun t _ => (realParams ⟨1, 1, 0⟩).m + 0 * Real.exp (-((realParams ⟨1, 1, 0⟩).sigma * t))) ∧
    ∃ (k e : ℕ) (u τ : ℚ) (dx : Ieee (fineIeee k e)), 4 ≤ (fineIeee k e).prec ∧ (fineIeee k e).emin ≤ 0 ∧ 8 ≤ (fineIeee k e).emax ∧
      Rounds (fineIeee k e).toFloatFmt.round u τ ∧ dx = ((fineOpts2 k e).box.xend - (fineOpts2 k e).box.xbeg) / ((fineOpts2 k e).nx : Ieee _) ∧
      (u ≤ 1 / 64 ∧ τ ≤ 1 / 2 ^ 53 ∧ 64 ≤ (fineIeee k e).emax ∧ τ * Em ≤ 1 ∧ 2 * Em < 2 ^ (fineIeee k e).emax * 1 ∧
        2 ^ 55 * 1 < (2 : ℚ) ^ (fineIeee k e).emax ∧ 2 ^ 54 * τ * 1 ≤ 1 ∧ 4 * τ * 2 ^ (fineIeee k e).prec ≤ 1 / 2 ^ (4 * k + 14)) ∧
      2 ≤ (fineOpts2 k e).nx ∧
      Arrays2 (demoSize ((2 ^ k + 5) * (2 ^ k + 5)) ((2 ^ k + 4) * (2 ^ k + 4))) demoArr (fineOpts2 k e).nx ∧
      (Ordinary (fineOpts2 k e).par.eps2 ∧ Ordinary (fineOpts2 k e).par.sigma ∧ Ordinary (fineOpts2 k e).par.m) ∧
      (value (fineOpts2 k e).par.eps2 = 1 ∧ value (fineOpts2 k e).par.sigma = 1 ∧ value (fineOpts2 k e).par.m = 0) ∧
      Ordinary dx ∧ Spacing τ (value dx) ∧ (value dx : ℝ) ≤ h0 ∧ B < 2 ^ (fineIeee k e).emax * value dx ^ 4 ∧
      (fineOpts2 k e).nx * (value dx : ℝ) = 1 ∧ Ordinary (fineOpts2 k e).tfinal ∧ Ordinary (fineOpts2 k e).t0 ∧ Ordinary (fineOpts2 k e).dt0 ∧
      0 ≤ value (fineOpts2 k e).t0 ∧ 0 ≤ value (fineOpts2 k e).tfinal ∧ 0 < value (fineOpts2 k e).dt0 ∧
      4 * τ * 2 ^ (fineIeee k e).prec ≤ value (fineOpts2 k e).dt0 ∧ 6144 * 1 * value (fineOpts2 k e).dt0 ≤ value dx ^ 4 ∧
      u * (value (fineOpts2 k e).tfinal + 1) ≤ value dx ^ 4 / (64 * (768 * 1)) ∧
      (fineOpts2 k e).t0 + (fineOpts2 k e).dt0 < (fineOpts2 k e).tfinal ∧
      4 * (|value (fineOpts2 k e).t0| + value (fineOpts2 k e).tfinal + 1) < (2 : ℚ) ^ (fineIeee k e).emax ∧
      ((fineOpts2 k e).maxSteps : ℝ) * ((1 + (u : ℝ)) ^ 34 - 1) ≤ 1 * (value dx : ℝ) ^ 2 ∧
      ((value (fineOpts2 k e).tfinal - value (fineOpts2 k e).t0 +
        (((fineOpts2 k e).maxSteps : ℚ) + 2) * (u * (value (fineOpts2 k e).tfinal + 2)) : ℚ) : ℝ) ≤ 2 ∧
      ∀ c, In2 (fineOpts2 k e).nx c →
        Ordinary (initialAny2 (fun _ => 0) (fineOpts2 k e).par.m (fineOpts2 k e).nx c) ∧
        |(value (initialAny2 (fun _ => 0) (fineOpts2 k e).par.m (fineOpts2 k e).nx c) : ℝ) -
          ((realParams ⟨1, 1, 0⟩).m + 0 * Real.exp (-((realParams ⟨1, 1, 0⟩).sigma * 0)))| ≤ 1 * (value dx : ℝ) ^ 2 := by
  refine ⟨uniform_solution (realParams ⟨1, 1, 0⟩) _ 2 0, ?_⟩
  obtain ⟨n, hn'⟩ := exists_nat_gt (max (1 / h0) (Em : ℝ))
  have hn := lt_of_le_of_lt (le_max_left _ _) hn'
  have hEn : Em < n := by exact_mod_cast lt_of_le_of_lt (le_max_right _ _) hn'
  obtain ⟨k, hk⟩ : ∃ k, k = n + 1 := ⟨_, rfl⟩
  have hn2 : (n : ℝ) ≤ 2 ^ k := by
    have := (Nat.lt_two_pow_self (n := n)).le
    have h2 : n ≤ 2 ^ k := by rw [hk, pow_succ]; omega
    exact_mod_cast h2
  have k1 : (2 : Int) ≤ 2 ^ k := by
    calc (2 : Int) = 2 ^ 1 := by norm_num
      _ ≤ _ := pow_le_pow_right₀ (by norm_num) (by omega)
  obtain ⟨b, hb⟩ := exists_nat_gt (B * (2 ^ k) ^ 4)
  obtain ⟨x, x0, x1, ex, f⟩ := fine_facts k
  obtain ⟨e, he⟩ : ∃ e, e = b + 4 * k + 72 := ⟨_, rfl⟩
  have one : Ordinary (.num 1 : Ieee (fineIeee k e)) := by
    have := fineIeee_ord (k := k) (e := e) (n := 0) (by omega) (by omega)
    rwa [pow_zero, div_one] at this
  have big : ∀ j : ℕ, j < e → (2 : ℚ) ^ j < 2 ^ (fineIeee k e).emax := fun j hj => by
    show (2 : ℚ) ^ j < 2 ^ (e : ℤ)
    rw [zpow_natCast]
    exact pow_lt_pow_right₀ (by norm_num) hj
  have fl : IsFloat (fineIeee k e).toFloatFmt (2 ^ k) := ⟨2 ^ k, 0, by
    rw [abs_of_pos (by positivity)]
    show (2 : ℤ) ^ k < 2 ^ (4 * k + 20)
    exact pow_lt_pow_right₀ (by norm_num) (by omega), by
    show -((16 * k + 100 : ℕ) : ℤ) ≤ 0
    omega, by push_cast; rw [mul_one]⟩
  have cells : (((2 : ℤ) ^ k : ℤ) : Ieee (fineIeee k e)) = .num (2 ^ k) := by
    show Ieee.ofRat false (((2 : ℤ) ^ k : ℤ) : ℚ) = _
    push_cast
    unfold Ieee.ofRat
    rw [(fineIeee k e).toFloatFmt.round_float fl, if_neg (by positivity), if_neg (by positivity), if_neg]
    rw [abs_of_pos (by positivity), not_le]
    exact big k (by omega)
  have hdx : ((fineOpts2 k e).box.xend - (fineOpts2 k e).box.xbeg) / ((fineOpts2 k e).nx : Ieee _) = .num (1 / 2 ^ k) := by
    show ((.num 1 : Ieee (fineIeee k e)) - .zero false) / (((2 : ℤ) ^ k : ℤ) : Ieee (fineIeee k e)) = _
    rw [cells]
    show Ieee.ofRat false ((1 : ℚ) / 2 ^ k) = _
    have o := fineIeee_ord (k := k) (e := e) (n := k) (by omega) (by omega)
    unfold Ieee.ofRat
    rw [(fineIeee k e).toFloatFmt.round_float o.2.1, if_neg o.1, if_neg o.1, if_neg (not_le.2 o.2.2)]
  refine ⟨k, e, _, _, .num (1 / 2 ^ k), ?_, ?_, ?_, fineIeee_rounds _ _, hdx.symm, ?_, k1,
    ⟨by simp [demoArr], by simp [demoArr, demoSize, fineOpts2], by simp [demoArr, demoSize, fineOpts2]⟩, ⟨one, one, trivial⟩, ⟨rfl, rfl, rfl⟩,
    fineIeee_ord (by omega) (by omega), fine_spacing k, ?_, ?_, ?_, one, trivial, fineIeee_ord (by omega) (by omega), le_rfl,
    zero_le_one, ?_, ?_, ?_, ?_, ?_, ?_, ?_, ?_, fun c hc => ?_⟩
  · show 4 ≤ 4 * k + 20
    omega
  · show -((16 * k + 100 : ℕ) : ℤ) ≤ 0
    omega
  · show (8 : ℤ) ≤ (e : ℤ)
    omega
  · have p1 : (n : ℚ) ≤ 2 ^ k := by exact_mod_cast hn2
    refine ⟨one_div_le_one_div_of_le (by norm_num) ?_, one_div_le_one_div_of_le (by norm_num) (pow_le_pow_right₀ (by norm_num) (by omega)), ?_, ?_, ?_,
      ?_, ?_, ?_⟩
    · exact le_trans (by norm_num : (64 : ℚ) ≤ 2 ^ 6) (pow_le_pow_right₀ (by norm_num) (by omega))
    · show (64 : ℤ) ≤ (e : ℤ)
      omega
    · rw [one_div_mul_eq_div, div_le_one (by positivity)]
      exact (hEn.le.trans p1).trans (pow_le_pow_right₀ (by norm_num) (by omega))
    · rw [mul_one]
      have p2 := big (k + 1) (by omega)
      rw [pow_succ] at p2
      linarith only [p1, p2, hEn]
    · rw [mul_one]
      exact big 55 (by omega)
    · rw [mul_one, mul_one_div, div_le_one (by positivity)]
      exact pow_le_pow_right₀ (by norm_num) (by omega)
    · show 4 * (1 / 2 ^ (12 * k + 81)) * 2 ^ (4 * k + 20) ≤ (1 : ℚ) / 2 ^ (4 * k + 14)
      rw [le_div_iff₀ (by positivity), mul_one_div, div_mul_eq_mul_div, div_mul_eq_mul_div, div_le_one (by positivity),
        show (4 : ℚ) = 2 ^ 2 by norm_num, ← pow_add, ← pow_add]
      exact pow_le_pow_right₀ (by norm_num) (by omega)
  · show (((1 / 2 ^ k : ℚ)) : ℝ) ≤ h0
    push_cast
    rw [div_le_iff₀ (by positivity)]
    rw [div_lt_iff₀ hh] at hn
    nlinarith
  · show B < 2 ^ (e : ℤ) * (1 / 2 ^ k) ^ 4
    rw [zpow_natCast, div_pow, one_pow, ← mul_div_assoc, mul_one, lt_div_iff₀ (by positivity)]
    have h2 : (b : ℚ) ≤ 2 ^ b := by exact_mod_cast (Nat.lt_two_pow_self (n := b)).le
    have h3 : (2 : ℚ) ^ b ≤ 2 ^ e := pow_le_pow_right₀ (by norm_num) (by omega)
    linarith
  · show (((2 : ℤ) ^ k : ℤ) : ℝ) * ((1 / 2 ^ k : ℚ) : ℝ) = 1
    push_cast
    field_simp
  · show (0 : ℚ) < 1 / 2 ^ (4 * k + 13)
    positivity
  · show 4 * (1 / 2 ^ (12 * k + 81)) * 2 ^ (4 * k + 20) ≤ (1 : ℚ) / 2 ^ (4 * k + 13)
    have : 4 * (1 / 2 ^ (12 * k + 81)) * 2 ^ (4 * k + 20) = (1 : ℚ) / 2 ^ (8 * k + 59) := by
      have e1 : (2 : ℚ) ^ (12 * k + 81) = 2 ^ (8 * k + 59) * 2 ^ (4 * k + 20) * 4 := by
        rw [← pow_add, show (4 : ℚ) = 2 ^ 2 by norm_num, ← pow_add]; congr 1; omega
      rw [e1]; field_simp
    rw [this]
    exact one_div_le_one_div_of_le (by positivity) (pow_le_pow_right₀ (by norm_num) (by omega))
  · show 6144 * 1 * (1 / 2 ^ (4 * k + 13)) ≤ ((1 : ℚ) / 2 ^ k) ^ 4
    rw [f, ex]
    have h4 : 0 < x ^ 4 := by positivity
    generalize x ^ 4 = b at *
    norm_num
    linarith
  · show 1 / 2 ^ (4 * k + 20) * ((1 : ℚ) + 1) ≤ (1 / 2 ^ k) ^ 4 / (64 * (768 * 1))
    rw [f, ex]
    have h4 : 0 < x ^ 4 := by positivity
    generalize x ^ 4 = b at *
    norm_num
    linarith
  · show (.num (1 / 2 ^ (4 * k + 13)) : Ieee (fineIeee k e)) < .num 1
    rw [Ieee.lt_ordinary (fineIeee_ord (by omega) (by omega)) one]
    show (1 : ℚ) / 2 ^ (4 * k + 13) < 1
    rw [f]
    have h4 : x ^ 4 ≤ 1 := pow_le_one₀ x0.le x1
    linarith
  · show 4 * (|(0 : ℚ)| + 1 + 1) < (2 : ℚ) ^ (fineIeee k e).emax
    rw [abs_zero]
    exact lt_of_le_of_lt (by norm_num) (big 3 (by omega))
  · show ((4 : ℕ) : ℝ) * ((1 + ((1 / 2 ^ (4 * k + 20) : ℚ) : ℝ)) ^ 34 - 1) ≤ 1 * ((1 / 2 ^ k : ℚ) : ℝ) ^ 2
    rw [f, ex, one_mul]
    have h := fine_noise (x := (x : ℝ) ^ 4) (by positivity) (pow_le_one₀ (by exact_mod_cast x0.le) (by exact_mod_cast x1))
    have h2 : (x : ℝ) ^ 4 ≤ (x : ℝ) ^ 2 := pow_le_pow_of_le_one (by exact_mod_cast x0.le) (by exact_mod_cast x1) (by norm_num)
    have h3 : (0 : ℝ) ≤ (x : ℝ) ^ 4 := by positivity
    push_cast
    linarith
  · show (((1 : ℚ) - 0 + (((4 : ℕ) : ℚ) + 2) * (1 / 2 ^ (4 * k + 20) * (1 + 2)) : ℚ) : ℝ) ≤ 2
    rw [f]
    have h4 : x ^ 4 ≤ 1 := pow_le_one₀ x0.le x1
    have : (1 : ℚ) - 0 + (((4 : ℕ) : ℚ) + 2) * (x ^ 4 / 2 ^ 20 * (1 + 2)) ≤ 2 := by
      generalize x ^ 4 = b at *
      norm_num
      linarith
    exact_mod_cast this
  · have hz : ∃ s, initialAny2 (fun _ => (0 : Ieee (fineIeee k e))) (fineOpts2 k e).par.m (fineOpts2 k e).nx c =
        .zero s := by
      unfold initialAny2
      show ∃ s, (0 : Ieee (fineIeee k e)) + 0 - (kahan ((List.range _).map fun _ => (0 : Ieee (fineIeee k e)) + 0) / _ - 0) = .zero s
      rw [kahan_zeros]
      obtain ⟨N, hN⟩ : ∃ N, N = ((fineOpts2 k e).nx * (fineOpts2 k e).nx).toNat := ⟨_, rfl⟩
      have N0 : (N : ℚ) ≠ 0 := by
        have : (0 : Int) < 2 ^ k * 2 ^ k := by positivity
        have : N ≠ 0 := by rw [hN]; show ((2 : ℤ) ^ k * 2 ^ k).toNat ≠ 0; omega
        exact_mod_cast this
      rw [← hN]
      have q : ∃ s, (0 : Ieee (fineIeee k e)) / (N : Ieee (fineIeee k e)) = .zero s := by
        show ∃ s, Ieee.div (.zero false) (Ieee.ofRat false (N : ℚ)) = .zero s
        unfold Ieee.ofRat
        rw [if_neg N0]
        split
        · next h =>
          exfalso
          have h1 : (1 : ℚ) ≤ N := by exact_mod_cast Nat.one_le_iff_ne_zero.2 (by exact_mod_cast N0)
          have h2 := (fineIeee k e).toFloatFmt.round_mono (by show 1 ≤ 4 * k + 20; omega) h1
          rw [(fineIeee k e).toFloatFmt.round_float one.2.1, h] at h2
          linarith
        · split <;> exact ⟨_, rfl⟩
      obtain ⟨s, q⟩ := q
      rw [q]
      exact ⟨_, rfl⟩
    obtain ⟨s, hz⟩ := hz
    rw [hz]
    refine ⟨trivial, ?_⟩
    show |((0 : ℚ) : ℝ) - _| ≤ _
    simp only [realParams, Rat.cast_zero, zero_mul, add_zero, sub_self, abs_zero, one_mul]
    positivity

/-- The example run of C107 with the adaptive integrator. -/
def fineAdapt2 (k e : ℕ) : RunOpts (Ieee (fineIeee k e)) where
  sel := ⟨2, "periodic", "periodic", "periodic", "cahn-hilliard", "ode23", false⟩
  nx := 2 ^ k
  ny := 2 ^ k
  nz := 2 ^ k
  box := ⟨0, .num 1, 0, 0⟩
  variant := 1
  par := { m := 0, sigma := .num 1, eps2 := .num 1 }
  t0 := 0
  tfinal := .num 1
  dt0 := .num (1 / 2 ^ (4 * k + 13))
  useCfl := false
  maxSteps := 4
  relTol := 0
  absTol := 0
  errTol := .num 1
  minStep := .num (1 / 2 ^ (4 * k + 14))
  maxStep := .num (1 / 2 ^ (4 * k + 13))
  logFreq := 1
  saveEvery := 1
  logFile := []
  solFile := ['s']
  mg := ⟨1, 1, 100, 1, 1, 1, 1, "nearest"⟩

/-- The hypotheses of `C111_ode23` are met for the state at rest, on grids as fine as wished. -/
example (h0 : ℝ) (B Em : ℚ) (hh : 0 < h0) : CHSolution (realParams ⟨1, 1, 0⟩) (fun _ : Fin 2 => 1) 2
      (fun t _ => (realParams ⟨1, 1, 0⟩).m + 0 * Real.exp (-((realParams ⟨1, 1, 0⟩).sigma * t))) ∧
    ∃ (k e : ℕ) (u τ : ℚ) (dx : Ieee (fineIeee k e)), 4 ≤ (fineIeee k e).prec ∧ (fineIeee k e).emin ≤ 0 ∧ 8 ≤ (fineIeee k e).emax ∧
      Rounds (fineIeee k e).toFloatFmt.round u τ ∧ dx = ((fineAdapt2 k e).box.xend - (fineAdapt2 k e).box.xbeg) / ((fineAdapt2 k e).nx : Ieee _) ∧
      (u ≤ 1 / 64 ∧ τ ≤ 1 / 2 ^ 53 ∧ 64 ≤ (fineIeee k e).emax ∧ τ * Em ≤ value (fineAdapt2 k e).errTol ∧
        2 * Em < 2 ^ (fineIeee k e).emax * value (fineAdapt2 k e).errTol ∧
        2 ^ 55 * value (fineAdapt2 k e).errTol < (2 : ℚ) ^ (fineIeee k e).emax ∧ 2 ^ 54 * τ * value (fineAdapt2 k e).errTol ≤ 1) ∧
      2 ≤ (fineAdapt2 k e).nx ∧
      Arrays2 (demoSize ((2 ^ k + 5) * (2 ^ k + 5)) ((2 ^ k + 4) * (2 ^ k + 4))) demoArr (fineAdapt2 k e).nx ∧
      (Ordinary (fineAdapt2 k e).par.eps2 ∧ Ordinary (fineAdapt2 k e).par.sigma ∧ Ordinary (fineAdapt2 k e).par.m) ∧
      (value (fineAdapt2 k e).par.eps2 = 1 ∧ value (fineAdapt2 k e).par.sigma = 1 ∧ value (fineAdapt2 k e).par.m = 0) ∧
      Ordinary dx ∧ Spacing τ (value dx) ∧ (value dx : ℝ) ≤ h0 ∧ B < 2 ^ (fineIeee k e).emax * value dx ^ 4 ∧
      (fineAdapt2 k e).nx * (value dx : ℝ) = 1 ∧ Ordinary (fineAdapt2 k e).tfinal ∧ Ordinary (fineAdapt2 k e).t0 ∧ Ordinary (fineAdapt2 k e).dt0 ∧
      0 ≤ value (fineAdapt2 k e).t0 ∧ 0 ≤ value (fineAdapt2 k e).tfinal ∧ 0 < value (fineAdapt2 k e).minStep ∧
      (value (fineAdapt2 k e).minStep ≤ value (fineAdapt2 k e).dt0 ∧ value (fineAdapt2 k e).dt0 ≤ value (fineAdapt2 k e).maxStep) ∧
      4 * τ * 2 ^ (fineIeee k e).prec ≤ value (fineAdapt2 k e).minStep ∧ 6144 * 1 * value (fineAdapt2 k e).maxStep ≤ value dx ^ 4 ∧
      u * (value (fineAdapt2 k e).tfinal + 1) ≤ value dx ^ 4 / (64 * (768 * 1)) ∧
      (fineAdapt2 k e).t0 + (fineAdapt2 k e).dt0 < (fineAdapt2 k e).tfinal ∧
      4 * (|value (fineAdapt2 k e).t0| + value (fineAdapt2 k e).tfinal + 1) < (2 : ℚ) ^ (fineIeee k e).emax ∧
      ((fineAdapt2 k e).maxSteps : ℝ) * ((1 + (u : ℝ)) ^ 34 - 1) ≤ 1 * (value dx : ℝ) ^ 2 ∧
      ((value (fineAdapt2 k e).tfinal - value (fineAdapt2 k e).t0 +
        (((fineAdapt2 k e).maxSteps : ℚ) + 2) * (u * (value (fineAdapt2 k e).tfinal + 2)) : ℚ) : ℝ) ≤ 2 ∧
      ∀ c, In2 (fineAdapt2 k e).nx c →
        Ordinary (initialAny2 (fun _ => 0) (fineAdapt2 k e).par.m (fineAdapt2 k e).nx c) ∧
        |(value (initialAny2 (fun _ => 0) (fineAdapt2 k e).par.m (fineAdapt2 k e).nx c) : ℝ) -
          ((realParams ⟨1, 1, 0⟩).m + 0 * Real.exp (-((realParams ⟨1, 1, 0⟩).sigma * 0)))| ≤ 1 * (value dx : ℝ) ^ 2 := by
  obtain ⟨hU, k, e, u, τ, dx, a1, a2, a3, a4, a5, ⟨b1, b2, b3, b4, b5, b6, b7, b8⟩, a6, a7, a8, a9, a10, a11, a12, a13, a14, a15, a16, a17, a18,
    a19, -, -, a20⟩ := fine_run2 h0 B Em hh
  exact ⟨hU, k, e, u, τ, dx, a1, a2, a3, a4, a5, ⟨b1, b2, b3, b4, b5, b6, b7⟩, a6, a7, a8, a9, a10, a11, a12, a13, a14, a15, a16, a17, a18,
    a19, by show (0 : ℚ) < 1 / 2 ^ (4 * k + 14); positivity,
    ⟨one_div_le_one_div_of_le (by positivity) (pow_le_pow_right₀ (by norm_num) (by omega)), le_rfl⟩, b8, a20⟩

end Madg
