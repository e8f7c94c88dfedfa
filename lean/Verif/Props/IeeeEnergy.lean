/-
C114: in floating point the free energy of explicit Cahn–Hilliard runs rises by rounding only, and bounds every number of the run.
-/
import Verif.Proofs.EnergyRound
import Verif.Props.IeeeCH
import Verif.Props.IeeeCH2

set_option linter.unusedSectionVars false
set_option linter.unusedVariables false

namespace Madg
open Spec

/-- The step-size condition of the energy estimate follows from the one of the rounding analysis. -/
theorem rate_of_size {p : CHParams ℚ} {dx M dt : ℚ} (hσ : p.sigma = 0) (he : 0 ≤ p.eps2) (hdx : 0 < dx) (hM : 2 ≤ M) (hdt : 0 ≤ dt)
    (h : dt * rhsSize p dx M ≤ M / 13) :
    dt * (12 / dx ^ 2 * (27 * (M / 2) ^ 2 + 1 + p.eps2 * (12 / dx ^ 2))) ≤ 1 / 2 ∧
    dt * (8 / dx ^ 2 * (27 * (M / 2) ^ 2 + 1 + p.eps2 * (8 / dx ^ 2))) ≤ 1 / 2 := by
  have M0 : 0 < M := by linarith
  have e : rhsSize p dx M = M * (144 * p.eps2 / dx ^ 4 + 13 * (M ^ 2 + 1) / dx ^ 2) := by
    unfold rhsSize
    rw [hσ, abs_zero, abs_of_nonneg he]
    field_simp
    ring
  have h1 : dt * (144 * p.eps2 / dx ^ 4 + 13 * (M ^ 2 + 1) / dx ^ 2) ≤ 1 / 13 := by
    rw [e] at h
    refine le_of_mul_le_mul_left ?_ M0
    calc M * (dt * (144 * p.eps2 / dx ^ 4 + 13 * (M ^ 2 + 1) / dx ^ 2)) = dt * (M * (144 * p.eps2 / dx ^ 4 + 13 * (M ^ 2 + 1) / dx ^ 2)) := by ring
      _ ≤ M / 13 := h
      _ = M * (1 / 13) := by ring
  have a0 : 0 ≤ dt * (p.eps2 / dx ^ 4) := by positivity
  have b0 : 0 ≤ dt * (M ^ 2 / dx ^ 2) := by positivity
  have c0 : 0 ≤ dt * (1 / dx ^ 2) := by positivity
  have h2 : dt * (144 * p.eps2 / dx ^ 4 + 13 * (M ^ 2 + 1) / dx ^ 2) =
      144 * (dt * (p.eps2 / dx ^ 4)) + 13 * (dt * (M ^ 2 / dx ^ 2)) + 13 * (dt * (1 / dx ^ 2)) := by ring
  have h3 : dt * (12 / dx ^ 2 * (27 * (M / 2) ^ 2 + 1 + p.eps2 * (12 / dx ^ 2))) =
      144 * (dt * (p.eps2 / dx ^ 4)) + 81 * (dt * (M ^ 2 / dx ^ 2)) + 12 * (dt * (1 / dx ^ 2)) := by field_simp; ring
  have h4 : dt * (8 / dx ^ 2 * (27 * (M / 2) ^ 2 + 1 + p.eps2 * (8 / dx ^ 2))) =
      64 * (dt * (p.eps2 / dx ^ 4)) + 54 * (dt * (M ^ 2 / dx ^ 2)) + 8 * (dt * (1 / dx ^ 2)) := by field_simp; ring
  rw [h3, h4]
  rw [h2] at h1
  constructor <;> linarith

/-- Such steps are at most one. -/
theorem step_le_one {p : CHParams ℚ} {dx M dt : ℚ} (hdx : 0 < dx) (hx1 : dx ≤ 1) (hM : 2 ≤ M) (hdt : 0 ≤ dt)
    (h : dt * rhsSize p dx M ≤ M / 13) : dt ≤ 1 := by
  have M0 : 0 < M := by linarith
  have h1 : M ≤ rhsSize p dx M := by
    unfold rhsSize
    have a : 0 ≤ |p.eps2| * (144 * M / dx ^ 4) := by positivity
    have b : 0 ≤ |p.sigma| * (M + |p.m|) := by positivity
    have c : 13 * (M ^ 3 + M) ≤ 13 * (M ^ 3 + M) / dx ^ 2 := by
      rw [le_div_iff₀ (by positivity)]
      exact mul_le_of_le_one_right (by positivity) (pow_le_one₀ hdx.le hx1)
    have d : 0 ≤ M ^ 3 := by positivity
    linarith
  have := mul_le_mul_of_nonneg_left h1 hdt
  nlinarith

section
variable {F : IeeeFmt} (hp : 4 ≤ F.prec) (hmin : F.emin ≤ 0) (hm : 8 ≤ F.emax) {u τ : ℚ} (hr : Rounds F.toFloatFmt.round u τ)
  (h34 : (1 + u) ^ 34 ≤ 15 / 14) (pf : CHParams (Ieee F)) (ho : Ordinary pf.eps2 ∧ Ordinary pf.sigma ∧ Ordinary pf.m)
  (p : CHParams ℚ) (hpf : value pf.eps2 = p.eps2 ∧ value pf.sigma = p.sigma ∧ value pf.m = p.m)
  (hσ : p.sigma = 0) (he : 0 ≤ p.eps2) (dx : Ieee F) (hdx : Ordinary dx) (hs : Spacing τ (value dx)) (x1 : value dx ≤ 1)
  (M : ℚ) (hM : 2 ≤ M) (E : ℚ) (hE : E = 1 + |p.eps2| + |p.sigma| + |p.m|) (hX : 2 ^ 33 * (E * (M ^ 3 + E)) < 2 ^ F.emax * value dx ^ 4)
  (t d : Nat → Ieee F) (k : Nat) (hd : ∀ i, i < k → Ordinary (d i) ∧ 2 * τ ≤ value (d i) ∧ value (d i) * rhsSize p (value dx) M ≤ M / 13)
include hp hmin hm hr h34 ho hpf hσ he hdx hs x1 hM hE hX hd

/-- C114. Explicit steps on a periodic square grid in floating point with infinities and NaN, without relaxation term, from any field of
ordinary numbers whatsoever. If the step sizes are at most `M / 13` over the size of the right-hand side and the energy of the initial
field plus `k η` is at most `((M² - 4) / 8)²`, where `η` is `27/4 N ((1+u)^34 - 1) M² (M² + 8 ε²/dx²)`, then all states up to step `k`
consist of ordinary numbers of absolute value at most `M / 2`, and each step raises the free energy by at most `η`. -/
theorem C114_stable2 (n : Int) (hn : 1 ≤ n) (y : Int × Int → Ieee F) (s : Nat → Int × Int → Ieee F)
    (hy : s = iterates (ssprk3Method (rhsOps2 pf dx n)).step t d y ∨
      s = iterates (fun _ dt y c => y c + dt * bs23Slope (rhsOps2 pf dx n 0) dt y c) t d y)
    (hini : ∀ c, In2 n c → Ordinary (y c)) (en : Nat → ℚ)
    (hen : en = fun i => energy2 p.eps2 (value dx) n n (ext2 n fun a b => value (s i (a, b)))) (η : ℚ)
    (hη : η = 27 / 4 * ((n * n : Int) : ℚ) * (((1 + u) ^ 34 - 1) * (M ^ 2 * (M ^ 2 + 8 * p.eps2 / value dx ^ 2))))
    (h0 : en 0 + k * η ≤ ((M ^ 2 - 4) / 8) ^ 2) :
    (∀ i, i ≤ k → (∀ c, In2 n c → Ordinary (s i c) ∧ |value (s i c)| ≤ M / 2) ∧ en i ≤ en 0 + i * η) ∧
    ∀ i, i < k → en (i + 1) ≤ en i + η := by
  have q1 := abs_nonneg p.eps2
  have q2 := abs_nonneg p.sigma
  have q3 := abs_nonneg p.m
  have E1 : 1 ≤ E := by linarith
  have x0 : 0 < value dx := hs.1
  have M0 : 0 < M := by linarith
  have t0 := hr.tiny.1
  have hX' : 64 * chSize E M (value dx) < (2 : ℚ) ^ F.emax := by
    unfold chSize
    have e : 64 * (2 ^ 27 * (E * (M ^ 3 + E) / value dx ^ 4)) = 2 ^ 33 * (E * (M ^ 3 + E)) / value dx ^ 4 := by ring
    rw [e, div_lt_iff₀ (by positivity)]
    exact hX
  obtain ⟨p', hp'⟩ : ∃ p' : CHParams (Fl F.toFloatFmt.round), p' = ⟨asFl pf.eps2, asFl pf.sigma, asFl pf.m⟩ := ⟨_, rfl⟩
  have vp : valuesOf p' = p := by
    rw [hp']
    show (⟨value pf.eps2, value pf.sigma, value pf.m⟩ : CHParams ℚ) = p
    rw [hpf.1, hpf.2.1, hpf.2.2]
  have s1 : Same pf.eps2 p'.eps2 E := by rw [hp']; exact ⟨ho.1, rfl, by show |value pf.eps2| ≤ E; rw [hpf.1]; linarith⟩
  have s2 : Same pf.sigma p'.sigma E := by rw [hp']; exact ⟨ho.2.1, rfl, by show |value pf.sigma| ≤ E; rw [hpf.2.1]; linarith⟩
  have s3 : Same pf.m p'.m E := by rw [hp']; exact ⟨ho.2.2, rfl, by show |value pf.m| ≤ E; rw [hpf.2.2]; linarith⟩
  have sx : Same dx (asFl dx) 1 := ⟨hdx, rfl, by show |value dx| ≤ 1; rw [abs_of_pos x0]; exact x1⟩
  have hd0 : ∀ i, i < k → 0 ≤ value (d i) := fun i hi => by have := (hd i hi).2.1; linarith
  have noisy : ∃ Tb : RK3c, (Tb.b2 * Tb.a21 + Tb.b3 * (Tb.a31 + Tb.a32) = 1 / 2 ∧ Tb.b3 * Tb.a32 * Tb.a21 = 1 / 6) ∧
      ∀ i, i < k → (∀ c, In2 n c → Ordinary (s i c) ∧ |value (s i c)| ≤ M / 2) →
      (∀ c, In2 n c → Ordinary (s (i + 1) c)) ∧
      NoisyCells Tb (cells2 n) (chField2 (realParams p) (value dx : ℝ) n 0)
        (((9 / 4 * ((1 + u) ^ 34 - 1) : ℚ) : ℝ) * (M : ℝ)) (value (d i) : ℝ) (fun c => (value (s i c) : ℝ)) fun c => (value (s (i + 1) c) : ℝ) := by
    have hdt : ∀ i, i < k → Same (d i) (asFl (d i)) 1 := fun i hi => by
      refine ⟨(hd i hi).1, rfl, ?_⟩
      show |value (d i)| ≤ 1
      rw [abs_of_nonneg (hd0 i hi)]
      exact step_le_one x0 x1 hM (hd0 i hi) (hd i hi).2.2
    have hst : ∀ x : Int × Int → Ieee F, (∀ c, In2 n c → Ordinary (x c) ∧ |value (x c)| ≤ M / 2) →
        ∀ c, In2 n c → Same (x c) (asFl (x c)) (M / 2) := fun x hx c hc => ⟨(hx c hc).1, rfl, (hx c hc).2⟩
    rcases hy with rfl | rfl
    · refine ⟨ssp3c, by norm_num [ssp3c], fun i hi hb => ?_⟩
      have := ieee_rk3_noisy2 hp hmin hm hr hn E1 hM s1 s2 s3 sx hs hX' (by linarith) (hdt i hi) (hd i hi).2.1
        (by rw [vp]; exact (hd i hi).2.2.trans (by linarith)) (hst _ hb) (t i) _ rfl
      rw [vp, show chFieldA2 pf dx n = rhsOps2 pf dx n from funext fun t => chFieldA2_eq pf dx n t] at this
      exact this
    · refine ⟨bs3c, by norm_num [bs3c], fun i hi hb => ?_⟩
      have := ieee_bs23_noisy2 hp hmin hm hr hn E1 hM s1 s2 s3 sx hs hX' (by linarith) (hdt i hi) (hd i hi).2.1
        (by rw [vp]; exact (hd i hi).2.2.trans (by linarith)) (hst _ hb) _ rfl
      rw [vp, chFieldA2_eq] at this
      exact this
  have hs0 : s 0 = y := by rcases hy with rfl | rfl <;> rfl
  obtain ⟨Tb, ⟨o2, o3⟩, hst⟩ := noisy
  have ρ0 : 0 ≤ (1 + u) ^ 34 - 1 := sub_nonneg.2 (Near.one_le hr.unit.1 34)
  have N0 : (0 : ℚ) ≤ ((n * n : Int) : ℚ) := by exact_mod_cast mul_nonneg (by omega) (by omega : (0 : Int) ≤ n)
  have η0 : 0 ≤ η := by rw [hη]; positivity
  have hcast : ∀ i, ((en i : ℚ) : ℝ) = energy2 (realParams p).eps2 (value dx : ℝ) n n (per2 n fun c => (value (s i c) : ℝ)) := fun i => by
    rw [hen]; exact energy2_cast p.eps2 (value dx) n fun c => value (s i c)
  have hxR : (0 : ℝ) < (value dx : ℝ) := by exact_mod_cast x0
  have heR : 0 ≤ (realParams p).eps2 := by show (0 : ℝ) ≤ (p.eps2 : ℝ); exact_mod_cast he
  have hσR : (realParams p).sigma = 0 := by show ((p.sigma : ℚ) : ℝ) = 0; rw [hσ]; exact Rat.cast_zero
  have hMR : (2 : ℝ) ≤ (M : ℝ) := by exact_mod_cast hM
  have hlim : ∀ i, en i ≤ ((M ^ 2 - 4) / 8) ^ 2 →
      energy2 (realParams p).eps2 (value dx : ℝ) n n (per2 n fun c => (value (s i c) : ℝ)) ≤ ((((M : ℝ) / 2) ^ 2 - 1) / 2) ^ 2 := by
    intro i hi
    rw [← hcast]
    have e : (((((M : ℚ) ^ 2 - 4) / 8) ^ 2 : ℚ) : ℝ) = ((((M : ℝ) / 2) ^ 2 - 1) / 2) ^ 2 := by push_cast; ring
    rw [← e]
    exact_mod_cast hi
  have bnd : ∀ i, en i ≤ ((M ^ 2 - 4) / 8) ^ 2 → ∀ c, In2 n c → |value (s i c)| ≤ M / 2 := by
    intro i hi c hc
    have h : |(value (s i c) : ℝ)| ≤ (M : ℝ) / 2 := energy2_bounds hn hxR heR hσR hMR (hlim i hi) c hc
    have e : ((|value (s i c)| : ℚ) : ℝ) ≤ ((M / 2 : ℚ) : ℝ) := by push_cast; exact h
    exact_mod_cast e
  have step : ∀ i, i < k → (∀ c, In2 n c → Ordinary (s i c)) → en i ≤ ((M ^ 2 - 4) / 8) ^ 2 →
      (∀ c, In2 n c → Ordinary (s (i + 1) c)) ∧ en (i + 1) ≤ en i + η := by
    intro i hi ord hi'
    obtain ⟨a, b⟩ := hst i hi fun c hc => ⟨ord c hc, bnd i hi' c hc⟩
    refine ⟨a, ?_⟩
    have hκ : (value (d i) : ℝ) * (8 / (value dx : ℝ) ^ 2 * (27 * ((M : ℝ) / 2) ^ 2 + 1 + (realParams p).eps2 * (8 / (value dx : ℝ) ^ 2))) ≤ 1 / 2 := by
      have h : ((value (d i) * (8 / value dx ^ 2 * (27 * (M / 2) ^ 2 + 1 + p.eps2 * (8 / value dx ^ 2))) : ℚ) : ℝ) ≤ ((1 / 2 : ℚ) : ℝ) := by
        exact_mod_cast (rate_of_size hσ he x0 hM (hd0 i hi) (hd i hi).2.2).2
      push_cast at h
      exact h
    have h3 : 3 * ((((9 / 4 * ((1 + u) ^ 34 - 1) : ℚ) : ℝ)) * (M : ℝ)) ≤ (M : ℝ) / 2 := by
      have : 3 * (9 / 4 * ((1 + u) ^ 34 - 1) * M) ≤ M / 2 := by nlinarith
      exact_mod_cast this
    have h4 : (0 : ℝ) ≤ ((9 / 4 * ((1 + u) ^ 34 - 1) : ℚ) : ℝ) * (M : ℝ) := by
      have : 0 ≤ 9 / 4 * ((1 + u) ^ 34 - 1) * M := by positivity
      exact_mod_cast this
    have key := noisy_energy2 hn hxR heR hσR Tb o2 o3 hMR (by exact_mod_cast hd0 i hi) hκ h4 h3 (hlim i hi') b
    rw [← hcast, ← hcast] at key
    have e : ((n * n : Int) : ℝ) * (((M : ℝ) ^ 3 + (realParams p).eps2 * (8 / (value dx : ℝ) ^ 2 * (M : ℝ))) *
        (3 * (((9 / 4 * ((1 + u) ^ 34 - 1) : ℚ) : ℝ) * (M : ℝ)))) = ((η : ℚ) : ℝ) := by
      rw [hη]
      show ((n * n : Int) : ℝ) * (((M : ℝ) ^ 3 + (p.eps2 : ℝ) * (8 / (value dx : ℝ) ^ 2 * (M : ℝ))) * _) = _
      push_cast
      ring
    rw [e] at key
    exact_mod_cast key
  have main : ∀ i, i ≤ k → (∀ c, In2 n c → Ordinary (s i c)) ∧ en i ≤ en 0 + i * η := by
    intro i
    induction i with
    | zero => intro _; exact ⟨fun c hc => by rw [hs0]; exact hini c hc, by simp⟩
    | succ i ih =>
      intro hi
      obtain ⟨o, e⟩ := ih (by omega)
      have : (i : ℚ) * η ≤ k * η := mul_le_mul_of_nonneg_right (by exact_mod_cast (by omega : i ≤ k)) η0
      obtain ⟨a, b⟩ := step i (by omega) o (by linarith)
      refine ⟨a, b.trans ?_⟩
      push_cast
      linarith
  have low : ∀ i, i ≤ k → en i ≤ ((M ^ 2 - 4) / 8) ^ 2 := fun i hi => by
    have : (i : ℚ) * η ≤ k * η := mul_le_mul_of_nonneg_right (by exact_mod_cast hi) η0
    linarith [(main i hi).2]
  exact ⟨fun i hi => ⟨fun c hc => ⟨(main i hi).1 c hc, bnd i (low i hi) c hc⟩, (main i hi).2⟩,
    fun i hi => (step i hi (main i hi.le).1 (low i hi.le)).2⟩

/-- C114. Explicit steps on a periodic 3D grid in floating point with infinities and NaN, without relaxation term, from any field of
ordinary numbers whatsoever. If the step sizes are at most `M / 13` over the size of the right-hand side and the energy of the initial
field plus `k η` is at most `((M² - 4) / 8)²`, where `η` is `27/4 N ((1+u)^34 - 1) M² (M² + 12 ε²/dx²)`, then all states up to step `k`
consist of ordinary numbers of absolute value at most `M / 2`, and each step raises the free energy by at most `η`. -/
theorem C114_stable3 (nx ny nz : Int) (hn : 1 ≤ nx ∧ 1 ≤ ny ∧ 1 ≤ nz) (v : Int) (y : Int × Int × Int → Ieee F) (s : Nat → Int × Int × Int → Ieee F)
    (hy : s = iterates (ssprk3Method (rhsOps3 v pf dx .periodic .periodic .periodic nx ny nz)).step t d y ∨
      s = iterates (fun _ dt y c => y c + dt * bs23Slope (rhsOps3 v pf dx .periodic .periodic .periodic nx ny nz 0) dt y c) t d y)
    (hini : ∀ c, In3 nx ny nz c → Ordinary (y c)) (en : Nat → ℚ)
    (hen : en = fun i => energy3 p.eps2 (value dx) nx ny nz (ext3 .periodic .periodic .periodic nx ny nz fun a b c => value (s i (a, b, c)))) (η : ℚ)
    (hη : η = 27 / 4 * ((nx * ny * nz : Int) : ℚ) * (((1 + u) ^ 34 - 1) * (M ^ 2 * (M ^ 2 + 12 * p.eps2 / value dx ^ 2))))
    (h0 : en 0 + k * η ≤ ((M ^ 2 - 4) / 8) ^ 2) :
    (∀ i, i ≤ k → (∀ c, In3 nx ny nz c → Ordinary (s i c) ∧ |value (s i c)| ≤ M / 2) ∧ en i ≤ en 0 + i * η) ∧
    ∀ i, i < k → en (i + 1) ≤ en i + η := by
  have q1 := abs_nonneg p.eps2
  have q2 := abs_nonneg p.sigma
  have q3 := abs_nonneg p.m
  have E1 : 1 ≤ E := by linarith
  have x0 : 0 < value dx := hs.1
  have M0 : 0 < M := by linarith
  have t0 := hr.tiny.1
  have hX' : 64 * chSize E M (value dx) < (2 : ℚ) ^ F.emax := by
    unfold chSize
    have e : 64 * (2 ^ 27 * (E * (M ^ 3 + E) / value dx ^ 4)) = 2 ^ 33 * (E * (M ^ 3 + E)) / value dx ^ 4 := by ring
    rw [e, div_lt_iff₀ (by positivity)]
    exact hX
  obtain ⟨p', hp'⟩ : ∃ p' : CHParams (Fl F.toFloatFmt.round), p' = ⟨asFl pf.eps2, asFl pf.sigma, asFl pf.m⟩ := ⟨_, rfl⟩
  have vp : valuesOf p' = p := by
    rw [hp']
    show (⟨value pf.eps2, value pf.sigma, value pf.m⟩ : CHParams ℚ) = p
    rw [hpf.1, hpf.2.1, hpf.2.2]
  have s1 : Same pf.eps2 p'.eps2 E := by rw [hp']; exact ⟨ho.1, rfl, by show |value pf.eps2| ≤ E; rw [hpf.1]; linarith⟩
  have s2 : Same pf.sigma p'.sigma E := by rw [hp']; exact ⟨ho.2.1, rfl, by show |value pf.sigma| ≤ E; rw [hpf.2.1]; linarith⟩
  have s3 : Same pf.m p'.m E := by rw [hp']; exact ⟨ho.2.2, rfl, by show |value pf.m| ≤ E; rw [hpf.2.2]; linarith⟩
  have sx : Same dx (asFl dx) 1 := ⟨hdx, rfl, by show |value dx| ≤ 1; rw [abs_of_pos x0]; exact x1⟩
  have hd0 : ∀ i, i < k → 0 ≤ value (d i) := fun i hi => by have := (hd i hi).2.1; linarith
  have noisy : ∃ Tb : RK3c, (Tb.b2 * Tb.a21 + Tb.b3 * (Tb.a31 + Tb.a32) = 1 / 2 ∧ Tb.b3 * Tb.a32 * Tb.a21 = 1 / 6) ∧
      ∀ i, i < k → (∀ c, In3 nx ny nz c → Ordinary (s i c) ∧ |value (s i c)| ≤ M / 2) →
      (∀ c, In3 nx ny nz c → Ordinary (s (i + 1) c)) ∧
      NoisyCells Tb (cells3 nx ny nz) (chField3 (realParams p) (value dx : ℝ) .periodic .periodic .periodic nx ny nz 0)
        (((9 / 4 * ((1 + u) ^ 34 - 1) : ℚ) : ℝ) * (M : ℝ)) (value (d i) : ℝ) (fun c => (value (s i c) : ℝ)) fun c => (value (s (i + 1) c) : ℝ) := by
    have hdt : ∀ i, i < k → Same (d i) (asFl (d i)) 1 := fun i hi => by
      refine ⟨(hd i hi).1, rfl, ?_⟩
      show |value (d i)| ≤ 1
      rw [abs_of_nonneg (hd0 i hi)]
      exact step_le_one x0 x1 hM (hd0 i hi) (hd i hi).2.2
    have hst : ∀ x : Int × Int × Int → Ieee F, (∀ c, In3 nx ny nz c → Ordinary (x c) ∧ |value (x c)| ≤ M / 2) →
        ∀ c, In3 nx ny nz c → Same (x c) (asFl (x c)) (M / 2) := fun x hx c hc => ⟨(hx c hc).1, rfl, (hx c hc).2⟩
    rcases hy with rfl | rfl
    · refine ⟨ssp3c, by norm_num [ssp3c], fun i hi hb => ?_⟩
      have := ieee_rk3_noisy hp hmin hm hr hn.1 hn.2.1 hn.2.2 E1 hM s1 s2 s3 sx hs hX' (v := v) (by linarith) (hdt i hi) (hd i hi).2.1
        (by rw [vp]; exact (hd i hi).2.2.trans (by linarith)) (hst _ hb) (t i) _ rfl
      rw [vp, chFieldA_eq] at this
      exact this
    · refine ⟨bs3c, by norm_num [bs3c], fun i hi hb => ?_⟩
      have := ieee_bs23_noisy hp hmin hm hr hn.1 hn.2.1 hn.2.2 E1 hM s1 s2 s3 sx hs hX' (v := v) (by linarith) (hdt i hi) (hd i hi).2.1
        (by rw [vp]; exact (hd i hi).2.2.trans (by linarith)) (hst _ hb) _ rfl
      rw [vp, chFieldA_eq] at this
      exact this
  have hs0 : s 0 = y := by rcases hy with rfl | rfl <;> rfl
  obtain ⟨Tb, ⟨o2, o3⟩, hst⟩ := noisy
  have ρ0 : 0 ≤ (1 + u) ^ 34 - 1 := sub_nonneg.2 (Near.one_le hr.unit.1 34)
  have N0 : (0 : ℚ) ≤ ((nx * ny * nz : Int) : ℚ) := by exact_mod_cast mul_nonneg (mul_nonneg (by omega) (by omega)) (by omega : (0 : Int) ≤ nz)
  have η0 : 0 ≤ η := by rw [hη]; positivity
  have hcast : ∀ i, ((en i : ℚ) : ℝ) = energy3 (realParams p).eps2 (value dx : ℝ) nx ny nz (per3 nx ny nz fun c => (value (s i c) : ℝ)) := fun i => by
    rw [hen]; exact energy3_cast p.eps2 (value dx) nx ny nz fun c => value (s i c)
  have hxR : (0 : ℝ) < (value dx : ℝ) := by exact_mod_cast x0
  have heR : 0 ≤ (realParams p).eps2 := by show (0 : ℝ) ≤ (p.eps2 : ℝ); exact_mod_cast he
  have hσR : (realParams p).sigma = 0 := by show ((p.sigma : ℚ) : ℝ) = 0; rw [hσ]; exact Rat.cast_zero
  have hMR : (2 : ℝ) ≤ (M : ℝ) := by exact_mod_cast hM
  have hlim : ∀ i, en i ≤ ((M ^ 2 - 4) / 8) ^ 2 →
      energy3 (realParams p).eps2 (value dx : ℝ) nx ny nz (per3 nx ny nz fun c => (value (s i c) : ℝ)) ≤ ((((M : ℝ) / 2) ^ 2 - 1) / 2) ^ 2 := by
    intro i hi
    rw [← hcast]
    have e : (((((M : ℚ) ^ 2 - 4) / 8) ^ 2 : ℚ) : ℝ) = ((((M : ℝ) / 2) ^ 2 - 1) / 2) ^ 2 := by push_cast; ring
    rw [← e]
    exact_mod_cast hi
  have bnd : ∀ i, en i ≤ ((M ^ 2 - 4) / 8) ^ 2 → ∀ c, In3 nx ny nz c → |value (s i c)| ≤ M / 2 := by
    intro i hi c hc
    have h : |(value (s i c) : ℝ)| ≤ (M : ℝ) / 2 := energy3_bounds hn.1 hn.2.1 hn.2.2 hxR heR hσR hMR (hlim i hi) c hc
    have e : ((|value (s i c)| : ℚ) : ℝ) ≤ ((M / 2 : ℚ) : ℝ) := by push_cast; exact h
    exact_mod_cast e
  have step : ∀ i, i < k → (∀ c, In3 nx ny nz c → Ordinary (s i c)) → en i ≤ ((M ^ 2 - 4) / 8) ^ 2 →
      (∀ c, In3 nx ny nz c → Ordinary (s (i + 1) c)) ∧ en (i + 1) ≤ en i + η := by
    intro i hi ord hi'
    obtain ⟨a, b⟩ := hst i hi fun c hc => ⟨ord c hc, bnd i hi' c hc⟩
    refine ⟨a, ?_⟩
    have hκ : (value (d i) : ℝ) * (12 / (value dx : ℝ) ^ 2 * (27 * ((M : ℝ) / 2) ^ 2 + 1 + (realParams p).eps2 * (12 / (value dx : ℝ) ^ 2))) ≤ 1 / 2 := by
      have h : ((value (d i) * (12 / value dx ^ 2 * (27 * (M / 2) ^ 2 + 1 + p.eps2 * (12 / value dx ^ 2))) : ℚ) : ℝ) ≤ ((1 / 2 : ℚ) : ℝ) := by
        exact_mod_cast (rate_of_size hσ he x0 hM (hd0 i hi) (hd i hi).2.2).1
      push_cast at h
      exact h
    have h3 : 3 * ((((9 / 4 * ((1 + u) ^ 34 - 1) : ℚ) : ℝ)) * (M : ℝ)) ≤ (M : ℝ) / 2 := by
      have : 3 * (9 / 4 * ((1 + u) ^ 34 - 1) * M) ≤ M / 2 := by nlinarith
      exact_mod_cast this
    have h4 : (0 : ℝ) ≤ ((9 / 4 * ((1 + u) ^ 34 - 1) : ℚ) : ℝ) * (M : ℝ) := by
      have : 0 ≤ 9 / 4 * ((1 + u) ^ 34 - 1) * M := by positivity
      exact_mod_cast this
    have key := noisy_energy3 hn.1 hn.2.1 hn.2.2 hxR heR hσR Tb o2 o3 hMR (by exact_mod_cast hd0 i hi) hκ h4 h3 (hlim i hi') b
    rw [← hcast, ← hcast] at key
    have e : ((nx * ny * nz : Int) : ℝ) * (((M : ℝ) ^ 3 + (realParams p).eps2 * (12 / (value dx : ℝ) ^ 2 * (M : ℝ))) *
        (3 * (((9 / 4 * ((1 + u) ^ 34 - 1) : ℚ) : ℝ) * (M : ℝ)))) = ((η : ℚ) : ℝ) := by
      rw [hη]
      show ((nx * ny * nz : Int) : ℝ) * (((M : ℝ) ^ 3 + (p.eps2 : ℝ) * (12 / (value dx : ℝ) ^ 2 * (M : ℝ))) * _) = _
      push_cast
      ring
    rw [e] at key
    exact_mod_cast key
  have main : ∀ i, i ≤ k → (∀ c, In3 nx ny nz c → Ordinary (s i c)) ∧ en i ≤ en 0 + i * η := by
    intro i
    induction i with
    | zero => intro _; exact ⟨fun c hc => by rw [hs0]; exact hini c hc, by simp⟩
    | succ i ih =>
      intro hi
      obtain ⟨o, e⟩ := ih (by omega)
      have : (i : ℚ) * η ≤ k * η := mul_le_mul_of_nonneg_right (by exact_mod_cast (by omega : i ≤ k)) η0
      obtain ⟨a, b⟩ := step i (by omega) o (by linarith)
      refine ⟨a, b.trans ?_⟩
      push_cast
      linarith
  have low : ∀ i, i ≤ k → en i ≤ ((M ^ 2 - 4) / 8) ^ 2 := fun i hi => by
    have : (i : ℚ) * η ≤ k * η := mul_le_mul_of_nonneg_right (by exact_mod_cast hi) η0
    linarith [(main i hi).2]
  exact ⟨fun i hi => ⟨fun c hc => ⟨(main i hi).1 c hc, bnd i (low i hi) c hc⟩, (main i hi).2⟩,
    fun i hi => (step i hi (main i hi.le).1 (low i hi.le)).2⟩

end

/-! ### The energy at the start -/

/-- C114. A field with values in `[-1, 1]` has energy at most `N (1/4 + 4 ε²/dx²)` on a square grid. -/
theorem C114_initial2 {e dx : ℚ} (he : 0 ≤ e) (n : Int) (hn : 1 ≤ n) (y : Int → Int → ℚ)
    (hy : ∀ i j, (0 ≤ i ∧ i < n) → (0 ≤ j ∧ j < n) → |y i j| ≤ 1) :
    energy2 e dx n n (ext2 n y) ≤ ((n * n : Int) : ℚ) * (1 / 4 + 4 * e / dx ^ 2) := by
  have b : ∀ i j, |ext2 n y i j| ≤ 1 := fun i j => hy _ _ (wrapIdx_range i (by omega)) (wrapIdx_range j (by omega))
  have sq : ∀ {x z : ℚ}, |x| ≤ 1 → |z| ≤ 1 → (x - z) * (x - z) ≤ 4 := fun h1 h2 => by
    obtain ⟨a1, a2⟩ := abs_le.1 h1
    obtain ⟨b1, b2⟩ := abs_le.1 h2
    nlinarith
  have hsum : ∀ (f : Int → Int → ℚ) (C : ℚ), (∀ i j, f i j ≤ C) → sum2 n n f ≤ ((n * n : Int) : ℚ) * C := by
    intro f C hf
    unfold sum2
    refine (Finset.sum_le_sum fun i _ => Finset.sum_le_sum fun j _ => hf i j).trans (le_of_eq ?_)
    simp only [Finset.sum_const, Int.card_Ico, nsmul_eq_mul]
    have : ((n - 0).toNat : ℚ) = n := by exact_mod_cast (by omega : ((n - 0).toNat : Int) = n)
    rw [this]
    push_cast
    ring
  have h1 := hsum (fun i j => (ext2 n y i j ^ 2 - 1) ^ 2 / 4) (1 / 4) fun i j => by
    obtain ⟨a1, a2⟩ := abs_le.1 (b i j)
    have : ext2 n y i j ^ 2 ≤ 1 := by nlinarith
    nlinarith [sq_nonneg (ext2 n y i j)]
  have h2 := hsum (fun i j => (ext2 n y (i + 1) j - ext2 n y i j) * (ext2 n y (i + 1) j - ext2 n y i j) +
      (ext2 n y i (j + 1) - ext2 n y i j) * (ext2 n y i (j + 1) - ext2 n y i j)) 8 fun i j => by
    have a := sq (b (i + 1) j) (b i j)
    have c := sq (b i (j + 1)) (b i j)
    linarith
  have h3 : e / 2 * (grad2 n n (ext2 n y) (ext2 n y) / dx ^ 2) ≤ e / 2 * (((n * n : Int) : ℚ) * 8 / dx ^ 2) := by
    unfold grad2
    gcongr
  unfold energy2
  calc _ ≤ ((n * n : Int) : ℚ) * (1 / 4) + e / 2 * (((n * n : Int) : ℚ) * 8 / dx ^ 2) := add_le_add h1 h3
    _ = _ := by ring

/-- C114. The same in 3D, with energy at most `N (1/4 + 6 ε²/dx²)`. -/
theorem C114_initial3 {e dx : ℚ} (he : 0 ≤ e) (nx ny nz : Int) (hn : 1 ≤ nx ∧ 1 ≤ ny ∧ 1 ≤ nz) (y : Int → Int → Int → ℚ)
    (hy : ∀ i j k, (0 ≤ i ∧ i < nx) → (0 ≤ j ∧ j < ny) → (0 ≤ k ∧ k < nz) → |y i j k| ≤ 1) :
    energy3 e dx nx ny nz (ext3 .periodic .periodic .periodic nx ny nz y) ≤ ((nx * ny * nz : Int) : ℚ) * (1 / 4 + 6 * e / dx ^ 2) := by
  obtain ⟨z, hz⟩ : ∃ z, z = ext3 .periodic .periodic .periodic nx ny nz y := ⟨_, rfl⟩
  have b : ∀ i j k, |z i j k| ≤ 1 := fun i j k => by
    rw [hz]; exact hy _ _ _ (wrapIdx_range i (by omega)) (wrapIdx_range j (by omega)) (wrapIdx_range k (by omega))
  rw [← hz]
  have sq : ∀ {x z : ℚ}, |x| ≤ 1 → |z| ≤ 1 → (x - z) * (x - z) ≤ 4 := fun h1 h2 => by
    obtain ⟨a1, a2⟩ := abs_le.1 h1
    obtain ⟨b1, b2⟩ := abs_le.1 h2
    nlinarith
  have hsum : ∀ (f : Int → Int → Int → ℚ) (C : ℚ), (∀ i j k, f i j k ≤ C) → sum3 nx ny nz f ≤ ((nx * ny * nz : Int) : ℚ) * C := by
    intro f C hf
    unfold sum3
    refine (Finset.sum_le_sum fun i _ => Finset.sum_le_sum fun j _ => Finset.sum_le_sum fun k _ => hf i j k).trans (le_of_eq ?_)
    simp only [Finset.sum_const, Int.card_Ico, nsmul_eq_mul]
    have h1 : ((nx - 0).toNat : ℚ) = nx := by exact_mod_cast (by omega : ((nx - 0).toNat : Int) = nx)
    have h2 : ((ny - 0).toNat : ℚ) = ny := by exact_mod_cast (by omega : ((ny - 0).toNat : Int) = ny)
    have h3 : ((nz - 0).toNat : ℚ) = nz := by exact_mod_cast (by omega : ((nz - 0).toNat : Int) = nz)
    rw [h1, h2, h3]
    push_cast
    ring
  have h1 := hsum (fun i j k => (z i j k ^ 2 - 1) ^ 2 / 4) (1 / 4) fun i j k => by
    obtain ⟨a1, a2⟩ := abs_le.1 (b i j k)
    have : z i j k ^ 2 ≤ 1 := by nlinarith
    nlinarith [sq_nonneg (z i j k)]
  have h2 := hsum (fun i j k => (z (i + 1) j k - z i j k) * (z (i + 1) j k - z i j k) +
      (z i (j + 1) k - z i j k) * (z i (j + 1) k - z i j k) + (z i j (k + 1) - z i j k) * (z i j (k + 1) - z i j k)) 12 fun i j k => by
    have a := sq (b (i + 1) j k) (b i j k)
    have c := sq (b i (j + 1) k) (b i j k)
    have d := sq (b i j (k + 1)) (b i j k)
    linarith
  have h3 : e / 2 * (grad3 nx ny nz z z / dx ^ 2) ≤ e / 2 * (((nx * ny * nz : Int) : ℚ) * 12 / dx ^ 2) := by
    unfold grad3
    gcongr
  unfold energy3
  calc _ ≤ ((nx * ny * nz : Int) : ℚ) * (1 / 4) + e / 2 * (((nx * ny * nz : Int) : ℚ) * 12 / dx ^ 2) := add_le_add h1 h3
    _ = _ := by ring

/-! ### Whole runs -/

section
variable {A : Type} [DecidableEq A] {F : IeeeFmt} [Pow (Ieee F) (Ieee F)]
  (hp : 4 ≤ F.prec) (hmin : F.emin ≤ 0) (hm : 8 ≤ F.emax) {u τ : ℚ} (hr : Rounds F.toFloatFmt.round u τ) (h34 : (1 + u) ^ 34 ≤ 15 / 14)
  (sz : A → Int) (E : Env (Ieee F)) (o : RunOpts (Ieee F)) (w : ProgArr A)
  (heq : o.sel.equation = "cahn-hilliard") (hint : o.sel.integrator = "rk3ssp") (hcfl : o.useCfl = false) (hlf : o.logFreq ≠ 0)
  (hms : 0 < o.maxSteps) (p : CHParams ℚ)
  (ho : Ordinary o.par.eps2 ∧ Ordinary o.par.sigma ∧ Ordinary o.par.m)
  (hpf : value o.par.eps2 = p.eps2 ∧ value o.par.sigma = p.sigma ∧ value o.par.m = p.m) (hσ : p.sigma = 0) (he : 0 ≤ p.eps2)
  (dx : Ieee F) (hdx : dx = (o.box.xend - o.box.xbeg) / (o.nx : Ieee F)) (odx : Ordinary dx) (hs : Spacing τ (value dx)) (x1 : value dx ≤ 1)
  (M : ℚ) (hM : 2 ≤ M) (Q : ℚ) (hQ : Q = 1 + |p.eps2| + |p.sigma| + |p.m|) (hX : 2 ^ 33 * (Q * (M ^ 3 + Q)) < 2 ^ F.emax * value dx ^ 4)
  (oT : Ordinary o.tfinal) (o0 : Ordinary o.t0) (od : Ordinary o.dt0) (ht0 : 0 ≤ value o.t0) (hT : 0 ≤ value o.tfinal)
  (hd0 : 0 < value o.dt0) (hdτ : 4 * τ * 2 ^ F.prec ≤ value o.dt0) (hd1 : value o.dt0 * rhsSize p (value dx) M ≤ M / 18)
  (hTu : u * (value o.tfinal + 1) ≤ value o.dt0 / 8) (ht : o.t0 + o.dt0 < o.tfinal)
  (hXT : 4 * (|value o.t0| + value o.tfinal + 1) < (2 : ℚ) ^ F.emax)
include hp hmin hm hr h34 heq hint hcfl hlf hms ho hpf hσ he hdx odx hs x1 hM hQ hX oT o0 od ht0 hT hd0 hdτ hd1 hTu ht hXT

set_option maxHeartbeats 1600000 in
/-- C114, whole 2D runs. Every execution of a fresh run of the Cahn–Hilliard equation without relaxation term with `rk3ssp` in floating
point with overflow, infinities and NaN, whatever the tolerances and the order of the reductions, ends normally. If the initial field
has ordinary values in `[-1, 1]`, the step size is at most `M / 18` over the size of the right-hand side and
`N (1/4 + 4 ε²/dx²)` plus the allowed number of steps times `η` is at most `((M² - 4) / 8)²`, then every number of every state, and
so in every file, is ordinary and at most `M / 2`, and the free energy after `k` steps exceeds that of the initial field by at most
`k η`. Nothing is assumed about a solution of the equation. -/
theorem C114_rk3ssp2 (hms2 : o.maxSteps < 1000000)
    (hbx : o.sel.bcx ∈ ["periodic", "neumann", "dirichlet"]) (hby : o.sel.bcy ∈ ["periodic", "neumann", "dirichlet"])
    (hbz : o.sel.bcz ∈ ["periodic", "neumann", "dirichlet"])
    (hdim : o.sel.dimension = 2) (hn : 2 ≤ o.nx) (hw : Arrays2 sz w o.nx)
    (hini : ∀ c, In2 o.nx c → Ordinary (initialAny2 E.draw o.par.m o.nx c) ∧ |value (initialAny2 E.draw o.par.m o.nx c)| ≤ 1)
    (η : ℚ) (hη : η = 27 / 4 * ((o.nx * o.nx : Int) : ℚ) * (((1 + u) ^ 34 - 1) * (M ^ 2 * (M ^ 2 + 8 * p.eps2 / value dx ^ 2))))
    (h0 : ((o.nx * o.nx : Int) : ℚ) * (1 / 4 + 4 * p.eps2 / value dx ^ 2) + o.maxSteps * η ≤ ((M ^ 2 - 4) / 8) ^ 2)
    (W : Nat) (hW : W = Nat.log 10 o.maxSteps + 1) (m : Mem A (Ieee F)) (fuel : Nat) (hf1 : 1 ≤ fuel) (hf2 : o.maxSteps ≤ fuel) :
    AllEnd sz (program E o none w fuel) m fun res _ => ∃ (N : Nat) (t d r : Nat → Ieee F) (v : Nat → Ieee F × Ieee F × Ieee F)
      (s : Nat → Int × Int → Ieee F) (st : Status (Ieee F)), 1 ≤ N ∧
      res = .done (savedFiles 0 o.saveEvery.natAbs t d (stepName o.base W)
          (fun k => vts2 E.io o.box.xbeg o.box.ybeg dx o.nx (s (k + 1))) N ++
        [(stepName (finalBase o.base) W (0 + N), vts2 E.io o.box.xbeg o.box.ybeg dx o.nx (s N) st)])
        (reportRows 0 o.logFreq.natAbs t d r v N) ∧ s 0 = initialAny2 E.draw o.par.m o.nx ∧
      ∀ k, k ≤ N → Ordinary (t k) ∧ (∀ c, In2 o.nx c → Ordinary (s k c) ∧ |value (s k c)| ≤ M / 2) ∧
        energy2 p.eps2 (value dx) o.nx o.nx (ext2 o.nx fun a b => value (s k (a, b))) ≤
          energy2 p.eps2 (value dx) o.nx o.nx (ext2 o.nx fun a b => value (s 0 (a, b))) + k * η := by
  refine (C102_rk3ssp2 sz E o w heq hcfl hlf hms hms2 hbx hby hbz hdim hn hw hint dx hdx W hW m fuel hf1 (by dsimp only; omega)).mono fun res _ h => ?_
  obtain ⟨N, t, d, pr, r, e, v, s, hmar, hend, hs', hpr, -, hres⟩ := h
  have s0 : s 0 = initialAny2 E.draw o.par.m o.nx := by rw [hs']; rfl
  refine ⟨N, t, d, r, v, s, _, hend.1, hres, s0, ?_⟩
  have hNM : (N : Int) ≤ o.maxSteps := by
    have hb : (0 : Int) + N ≤ max (o.maxSteps : Int) (0 + 1) := by
      let : Max (Ieee F) := byLess
      exact hend.bound (o := ⟨o.t0, o.tfinal, o.dt0, false, o.maxSteps, 0, o.relTol, o.absTol⟩) (by dsimp only; omega)
    omega
  have x0 : 0 < value dx := hs.1
  have R0 : 0 < rhsSize p (value dx) M := by
    have := abs_nonneg p.m
    unfold rhsSize; positivity
  obtain ⟨D, hD⟩ : ∃ D, D = 8 * value o.dt0 := ⟨_, rfl⟩
  have D0 : 0 ≤ D := by linarith
  have D1 : D ≤ 1 := by
    have h1 : 13 * M ≤ rhsSize p (value dx) M := by
      unfold rhsSize
      have a : 0 ≤ |p.eps2| * (144 * M / value dx ^ 4) := by positivity
      have b : 0 ≤ |p.sigma| * (M + |p.m|) := by positivity
      have c : 13 * (M ^ 3 + M) ≤ 13 * (M ^ 3 + M) / value dx ^ 2 := by
        rw [le_div_iff₀ (by positivity)]
        exact mul_le_of_le_one_right (by positivity) (pow_le_one₀ x0.le x1)
      have d : 0 ≤ M ^ 3 := by positivity
      linarith
    have := mul_le_mul_of_nonneg_left h1 hd0.le
    nlinarith
  have hlo : value o.dt0 ≤ D / 8 := by linarith
  have hTD : u * (value o.tfinal + 1) ≤ D / 64 := by linarith
  have last := last_step_ok hr hT D0 D1 hTD
  have times := ieee_times hr (by omega) hmar hend.1 (fun k hk hl => hend.2.2 (k + 1) (by omega) hk (.inl hl)) (hi := D / 8) (by linarith)
    oT o0 od hdτ hd0 ⟨le_rfl, hlo⟩ ht0 hT ht hXT (by linarith) (fun k hk hall => by
      rw [(hpr k (by omega)).2 (fun hl => hend.2.2 (k + 1) (by omega) hk (.inl hl))]
      exact hall k le_rfl)
  have η0 : 0 ≤ η := by
    have ρ0 : 0 ≤ (1 + u) ^ 34 - 1 := sub_nonneg.2 (Near.one_le hr.unit.1 34)
    have N0 : (0 : ℚ) ≤ ((o.nx * o.nx : Int) : ℚ) := by exact_mod_cast mul_nonneg (by omega) (by omega : (0 : Int) ≤ o.nx)
    rw [hη]; positivity
  intro k hk
  have key := C114_stable2 hp hmin hm hr h34 o.par ho p hpf hσ he dx odx hs x1 M hM Q hQ hX t d k
    (fun i hi => by
      obtain ⟨g1, g2, g3⟩ := times.1 i (by omega)
      refine ⟨g1, g2, ?_⟩
      have g4 : value (d i) ≤ 4 / 3 * value o.dt0 := g3.trans (max_le (by linarith) (by linarith))
      have := mul_le_mul_of_nonneg_right g4 R0.le
      nlinarith) o.nx (by omega) _ s (.inl hs') (fun c hc => (hini c hc).1) _ rfl η hη
    (by
      have h1 := C114_initial2 (dx := value dx) he o.nx (by omega) (fun a b => value (s 0 (a, b)))
        fun i j h1 h2 => by rw [s0]; exact (hini (i, j) ⟨h1, h2⟩).2
      have h2 : (k : ℚ) * η ≤ o.maxSteps * η := mul_le_mul_of_nonneg_right (by exact_mod_cast (show (k : Int) ≤ o.maxSteps by omega)) η0
      linarith)
  exact ⟨(times.2 k hk).1, key.1 k le_rfl⟩

set_option maxHeartbeats 1600000 in
/-- C114, whole periodic 3D runs, in each variant of the code, likewise. -/
theorem C114_rk3ssp3 (hms2 : o.maxSteps < 2147483648)
    (hbx : o.sel.bcx = "periodic") (hby : o.sel.bcy = "periodic") (hbz : o.sel.bcz = "periodic")
    (hdim : o.sel.dimension = 3) (hv : o.variant = 0 ∨ o.variant = 1 ∨ o.variant = 2)
    (hn : 2 ≤ o.nx ∧ 2 ≤ o.ny ∧ 2 ≤ o.nz) (hw : Arrays3 sz w o.nx o.ny o.nz)
    (hini : ∀ c, In3 o.nx o.ny o.nz c → Ordinary (initialAny3 E.draw o.par.m o.nx o.ny o.nz c) ∧
      |value (initialAny3 E.draw o.par.m o.nx o.ny o.nz c)| ≤ 1)
    (η : ℚ) (hη : η = 27 / 4 * ((o.nx * o.ny * o.nz : Int) : ℚ) * (((1 + u) ^ 34 - 1) * (M ^ 2 * (M ^ 2 + 12 * p.eps2 / value dx ^ 2))))
    (h0 : ((o.nx * o.ny * o.nz : Int) : ℚ) * (1 / 4 + 6 * p.eps2 / value dx ^ 2) + o.maxSteps * η ≤ ((M ^ 2 - 4) / 8) ^ 2)
    (W : Nat) (hW : W = max (Nat.log 10 o.maxSteps + 1) 4) (m : Mem A (Ieee F)) (fuel : Nat) (hf1 : 1 ≤ fuel) (hf2 : o.maxSteps ≤ fuel) :
    AllEnd sz (program E o none w fuel) m fun res _ => ∃ (N : Nat) (t d r : Nat → Ieee F) (v : Nat → Ieee F × Ieee F × Ieee F)
      (s : Nat → Int × Int × Int → Ieee F) (st : Status (Ieee F)), 1 ≤ N ∧
      res = .done (savedFiles 0 o.saveEvery.natAbs t d (stepName o.base W)
          (fun k => vts3 E.io o.box.xbeg o.box.ybeg o.box.zbeg dx o.nx o.ny o.nz (s (k + 1))) N ++
        [(stepName (finalBase o.base) W (0 + N), vts3 E.io o.box.xbeg o.box.ybeg o.box.zbeg dx o.nx o.ny o.nz (s N) st)])
        (reportRows 0 o.logFreq.natAbs t d r v N) ∧ s 0 = initialAny3 E.draw o.par.m o.nx o.ny o.nz ∧
      ∀ k, k ≤ N → Ordinary (t k) ∧ (∀ c, In3 o.nx o.ny o.nz c → Ordinary (s k c) ∧ |value (s k c)| ≤ M / 2) ∧
        energy3 p.eps2 (value dx) o.nx o.ny o.nz (ext3 .periodic .periodic .periodic o.nx o.ny o.nz fun a b c => value (s k (a, b, c))) ≤
          energy3 p.eps2 (value dx) o.nx o.ny o.nz (ext3 .periodic .periodic .periodic o.nx o.ny o.nz fun a b c => value (s 0 (a, b, c))) +
            k * η := by
  refine (C102_rk3ssp3 sz E o w heq hcfl hlf hms hms2 (bx := .periodic) (bY := .periodic) (bz := .periodic) (by rw [hbx]; simp) (by rw [hby]; simp)
    (by rw [hbz]; simp) hdim hv hn hw hint dx hdx W hW m fuel hf1 (by dsimp only; omega)).mono fun res _ h => ?_
  obtain ⟨N, t, d, pr, r, e, v, s, hmar, hend, hs', hpr, -, hres⟩ := h
  have s0 : s 0 = initialAny3 E.draw o.par.m o.nx o.ny o.nz := by rw [hs']; rfl
  refine ⟨N, t, d, r, v, s, _, hend.1, hres, s0, ?_⟩
  have hNM : (N : Int) ≤ o.maxSteps := by
    have hb : (0 : Int) + N ≤ max (o.maxSteps : Int) (0 + 1) := by
      let : Max (Ieee F) := byLess
      exact hend.bound (o := ⟨o.t0, o.tfinal, o.dt0, false, o.maxSteps, 0, o.relTol, o.absTol⟩) (by dsimp only; omega)
    omega
  have x0 : 0 < value dx := hs.1
  have R0 : 0 < rhsSize p (value dx) M := by
    have := abs_nonneg p.m
    unfold rhsSize; positivity
  obtain ⟨D, hD⟩ : ∃ D, D = 8 * value o.dt0 := ⟨_, rfl⟩
  have D0 : 0 ≤ D := by linarith
  have D1 : D ≤ 1 := by
    have h1 : 13 * M ≤ rhsSize p (value dx) M := by
      unfold rhsSize
      have a : 0 ≤ |p.eps2| * (144 * M / value dx ^ 4) := by positivity
      have b : 0 ≤ |p.sigma| * (M + |p.m|) := by positivity
      have c : 13 * (M ^ 3 + M) ≤ 13 * (M ^ 3 + M) / value dx ^ 2 := by
        rw [le_div_iff₀ (by positivity)]
        exact mul_le_of_le_one_right (by positivity) (pow_le_one₀ x0.le x1)
      have d : 0 ≤ M ^ 3 := by positivity
      linarith
    have := mul_le_mul_of_nonneg_left h1 hd0.le
    nlinarith
  have hlo : value o.dt0 ≤ D / 8 := by linarith
  have hTD : u * (value o.tfinal + 1) ≤ D / 64 := by linarith
  have last := last_step_ok hr hT D0 D1 hTD
  have times := ieee_times hr (by omega) hmar hend.1 (fun k hk hl => hend.2.2 (k + 1) (by omega) hk (.inl hl)) (hi := D / 8) (by linarith)
    oT o0 od hdτ hd0 ⟨le_rfl, hlo⟩ ht0 hT ht hXT (by linarith) (fun k hk hall => by
      rw [(hpr k (by omega)).2 (fun hl => hend.2.2 (k + 1) (by omega) hk (.inl hl))]
      exact hall k le_rfl)
  have η0 : 0 ≤ η := by
    have ρ0 : 0 ≤ (1 + u) ^ 34 - 1 := sub_nonneg.2 (Near.one_le hr.unit.1 34)
    have N0 : (0 : ℚ) ≤ ((o.nx * o.ny * o.nz : Int) : ℚ) := by
      exact_mod_cast mul_nonneg (mul_nonneg (by omega) (by omega)) (by omega : (0 : Int) ≤ o.nz)
    rw [hη]; positivity
  intro k hk
  have key := C114_stable3 hp hmin hm hr h34 o.par ho p hpf hσ he dx odx hs x1 M hM Q hQ hX t d k
    (fun i hi => by
      obtain ⟨g1, g2, g3⟩ := times.1 i (by omega)
      refine ⟨g1, g2, ?_⟩
      have g4 : value (d i) ≤ 4 / 3 * value o.dt0 := g3.trans (max_le (by linarith) (by linarith))
      have := mul_le_mul_of_nonneg_right g4 R0.le
      nlinarith) o.nx o.ny o.nz ⟨by omega, by omega, by omega⟩ o.variant _ s (.inl hs') (fun c hc => (hini c hc).1) _ rfl η hη
    (by
      have h1 := C114_initial3 (dx := value dx) he o.nx o.ny o.nz ⟨by omega, by omega, by omega⟩ (fun a b c => value (s 0 (a, b, c)))
        fun i j k h1 h2 h3 => by rw [s0]; exact (hini (i, j, k) ⟨h1, h2, h3⟩).2
      have h2 : (k : ℚ) * η ≤ o.maxSteps * η := mul_le_mul_of_nonneg_right (by exact_mod_cast (show (k : Int) ≤ o.maxSteps by omega)) η0
      linarith)
  exact ⟨(times.2 k hk).1, key.1 k le_rfl⟩

end

/-- A 2D run of up to 100 steps without relaxation term in double precision (test data). -/
def calmOpts2 : RunOpts (Ieee ieee64) :=
  { blowOpts with
    sel := ⟨2, "periodic", "periodic", "periodic", "cahn-hilliard", "rk3ssp", false⟩
    box := ⟨0, .num 1, 0, 0⟩
    par := { m := 0, sigma := 0, eps2 := .num (1 / 16) }
    tfinal := .num 1
    dt0 := .num (1 / 2 ^ 16) }

/-- Its 3D counterpart (test data). -/
def calmOpts3 : RunOpts (Ieee ieee64) :=
  { calmOpts2 with
    sel := ⟨3, "periodic", "periodic", "periodic", "cahn-hilliard", "rk3ssp", false⟩
    nz := 2 }

/-- Numbers of the examples are ordinary in double precision. -/
theorem calm_ord (m : Int) (n : Nat) (hm : 0 < |m| ∧ |m| ≤ 8) (hn : n ≤ 60) : Ordinary (.num (m / 2 ^ n) : Ieee ieee64) := by
  have hm0 : (m : ℚ) ≠ 0 := by exact_mod_cast abs_pos.1 hm.1
  refine ⟨div_ne_zero hm0 (by positivity), ⟨m, -n, lt_of_le_of_lt hm.2 (by decide), ?_, ?_⟩, ?_⟩
  · show (-1074 : Int) ≤ -n
    omega
  · rw [zpow_neg, zpow_natCast]; rfl
  · have big : (2 : ℚ) ^ 60 < (2 : ℚ) ^ ieee64.emax := by
      rw [← zpow_natCast]
      exact zpow_lt_zpow_right₀ (by norm_num) (by decide)
    refine lt_of_le_of_lt ?_ big
    rw [abs_div, abs_of_pos (by positivity : (0 : ℚ) < 2 ^ n), div_le_iff₀ (by positivity)]
    have h1 : |(m : ℚ)| ≤ 8 := by exact_mod_cast hm.2
    have h2 : (1 : ℚ) ≤ 2 ^ n := one_le_pow₀ (by norm_num)
    linarith

/-- The hypotheses are met in double precision by a run from a field that is not uniform. -/
example [Pow (Ieee ieee64) (Ieee ieee64)] (E : Env (Ieee ieee64)) (hE : E.draw = fun n => if n = 0 then .num (1 / 256) else 0)
    (m : Mem _ (Ieee ieee64)) :
    AllEnd (demoSize 49 36) (program E calmOpts2 none demoArr 100) m fun res _ => (∃ files rows, res = .done files rows ∧ files ≠ []) ∧
      ∃ (N : Nat) (s : Nat → Int × Int → Ieee ieee64), 1 ≤ N ∧ s 0 (0, 0) = .num (3 / 1024) ∧ s 0 (0, 1) = .num (-1 / 1024) ∧
      ∀ k, k ≤ N → (∀ c, In2 2 c → Ordinary (s k c) ∧ |value (s k c)| ≤ 4) ∧
        energy2 (1 / 16) (1 / 2) 2 2 (ext2 2 fun a b => value (s k (a, b))) ≤
          energy2 (1 / 16) (1 / 2) 2 2 (ext2 2 fun a b => value (s 0 (a, b))) + k / 10 ^ 9 := by
  obtain ⟨u, τ, hr, hu, hτ, hs⟩ : ∃ u τ : ℚ, Rounds binary64.round u τ ∧ u = 1 / 2 ^ 53 ∧ 4 * τ * 2 ^ 53 ≤ 1 / 2 ^ 16 ∧ Spacing τ (1 / 2) :=
    ⟨_, _, binary64_rounds, rfl, by
      rw [mul_one_div, div_mul_eq_mul_div, div_le_iff₀ (by positivity), one_div_mul_eq_div, le_div_iff₀ (by positivity),
        show (4 : ℚ) = 2 ^ 2 by norm_num, ← pow_add, ← pow_add]
      exact pow_le_pow_right₀ (by norm_num) (by norm_num), spacing64 (by norm_num)⟩
  have big : (2 : ℚ) ^ 60 < (2 : ℚ) ^ ieee64.emax := by
    rw [← zpow_natCast]
    exact zpow_lt_zpow_right₀ (by norm_num) (by decide)
  have o1 : Ordinary (.num 1 : Ieee ieee64) := by simpa using calm_ord 1 0 (by norm_num) (by norm_num)
  have o2 : Ordinary (.num (1 / 2) : Ieee ieee64) := by simpa using calm_ord 1 1 (by norm_num) (by norm_num)
  have o16 : Ordinary (.num (1 / 16) : Ieee ieee64) := by have := calm_ord 1 4 (by norm_num) (by norm_num); norm_num at this ⊢; exact this
  have odt : Ordinary (.num (1 / 2 ^ 16) : Ieee ieee64) := by simpa using calm_ord 1 16 (by norm_num) (by norm_num)
  have val : ∀ c, In2 2 c → initialAny2 E.draw calmOpts2.par.m calmOpts2.nx c =
      if c = (0, 0) then .num ((3 : Int) / 2 ^ 10) else .num ((-1 : Int) / 2 ^ 10) := by
    rintro ⟨i, j⟩ ⟨h1, h2⟩
    rw [hE]
    obtain rfl | rfl : i = 0 ∨ i = 1 := by omega
    all_goals obtain rfl | rfl : j = 0 ∨ j = 1 := by omega
    all_goals decide +kernel
  obtain ⟨η, hη, hη2⟩ : ∃ η : ℚ, η = 27 / 4 * ((2 * 2 : Int) : ℚ) * (((1 + u) ^ 34 - 1) * (8 ^ 2 * (8 ^ 2 + 8 * (1 / 16) / (1 / 2) ^ 2))) ∧
    η ≤ 1 / 10 ^ 9 := ⟨_, rfl, by rw [hu]; norm_num⟩
  refine (C114_rk3ssp2 (F := ieee64) (by decide) (by decide) (by decide) hr (by rw [hu]; norm_num) (demoSize 49 36) E calmOpts2 demoArr rfl rfl
    rfl (by decide) (by decide) ⟨1 / 16, 0, 0⟩ ⟨o16, trivial, trivial⟩ ⟨rfl, rfl, rfl⟩ rfl (by norm_num) (.num (1 / 2)) (by decide +kernel) o2 hs
    (by show (1 / 2 : ℚ) ≤ 1; norm_num) 8 (by norm_num) _ rfl
    (by refine lt_of_lt_of_le (b := (2 : ℚ) ^ 60 * (1 / 2) ^ 4) (by norm_num) (mul_le_mul_of_nonneg_right big.le (by positivity))) o1 trivial odt le_rfl
    (by show (0 : ℚ) ≤ 1; norm_num) (by show (0 : ℚ) < 1 / 2 ^ 16; positivity) hτ
    (by show (1 / 2 ^ 16 : ℚ) * rhsSize ⟨1 / 16, 0, 0⟩ (1 / 2) 8 ≤ 8 / 18; unfold rhsSize; norm_num)
    (by show u * ((1 : ℚ) + 1) ≤ 1 / 2 ^ 16 / 8; rw [hu]; norm_num) (by decide +kernel)
    (lt_trans (by show 4 * (|(0 : ℚ)| + 1 + 1) < 2 ^ 60; norm_num) big) (by decide) (by simp [calmOpts2]) (by simp [calmOpts2])
    (by simp [calmOpts2]) rfl (by decide)
    ⟨by simp [demoArr], by simp [demoArr, demoSize, calmOpts2, blowOpts], by simp [demoArr, demoSize, calmOpts2, blowOpts]⟩
    (fun c hc => by
      rw [val c hc]
      split
      · exact ⟨calm_ord 3 10 (by norm_num) (by norm_num), by show |(((3 : Int) : ℚ) / 2 ^ 10)| ≤ 1; norm_num [abs_le]⟩
      · exact ⟨calm_ord (-1) 10 (by norm_num) (by norm_num), by show |(((-1 : Int) : ℚ) / 2 ^ 10)| ≤ 1; norm_num [abs_le]⟩) η hη
    (by show ((2 * 2 : Int) : ℚ) * (1 / 4 + 4 * (1 / 16) / (1 / 2) ^ 2) + ((100 : ℕ) : ℚ) * η ≤ ((8 ^ 2 - 4) / 8) ^ 2; norm_num at hη2 ⊢; linarith)
    3 (by simp only [calmOpts2, blowOpts]; decide +kernel) m 100 (by decide) (by decide)).mono fun res _ h => ?_
  obtain ⟨N, t, d, r, v, s, st, h1, h2, h3, h4⟩ := h
  refine ⟨⟨_, _, h2, by simp⟩, N, s, h1, ?_, ?_, fun k hk => ?_⟩
  · rw [h3, val _ (by unfold In2; norm_num)]; norm_num
  · rw [h3, val _ (by unfold In2; norm_num)]; norm_num
  · obtain ⟨-, a, b⟩ := h4 k hk
    refine ⟨fun c hc => ⟨(a c hc).1, (a c hc).2.trans (by norm_num)⟩, le_trans b ?_⟩
    have := mul_le_mul_of_nonneg_left hη2 (Nat.cast_nonneg (α := ℚ) k)
    rw [mul_one_div] at this
    exact add_le_add le_rfl this

/-- The hypotheses are met in double precision by a 3D run from a field that is not uniform. -/
example [Pow (Ieee ieee64) (Ieee ieee64)] (E : Env (Ieee ieee64)) (hE : E.draw = fun n => if n = 0 then .num (1 / 256) else 0)
    (m : Mem _ (Ieee ieee64)) :
    AllEnd (demoSize 343 216) (program E calmOpts3 none demoArr 100) m fun res _ => (∃ files rows, res = .done files rows ∧ files ≠ []) ∧
      ∃ (N : Nat) (s : Nat → Int × Int × Int → Ieee ieee64), 1 ≤ N ∧ s 0 (0, 0, 0) = .num (7 / 2048) ∧ s 0 (0, 1, 0) = .num (-1 / 2048) ∧
      ∀ k, k ≤ N → (∀ c, In3 2 2 2 c → Ordinary (s k c) ∧ |value (s k c)| ≤ 4) ∧
        energy3 (1 / 16) (1 / 2) 2 2 2 (ext3 .periodic .periodic .periodic 2 2 2 fun a b c => value (s k (a, b, c))) ≤
          energy3 (1 / 16) (1 / 2) 2 2 2 (ext3 .periodic .periodic .periodic 2 2 2 fun a b c => value (s 0 (a, b, c))) + k / 10 ^ 9 := by
  obtain ⟨u, τ, hr, hu, hτ, hs⟩ : ∃ u τ : ℚ, Rounds binary64.round u τ ∧ u = 1 / 2 ^ 53 ∧ 4 * τ * 2 ^ 53 ≤ 1 / 2 ^ 16 ∧ Spacing τ (1 / 2) :=
    ⟨_, _, binary64_rounds, rfl, by
      rw [mul_one_div, div_mul_eq_mul_div, div_le_iff₀ (by positivity), one_div_mul_eq_div, le_div_iff₀ (by positivity),
        show (4 : ℚ) = 2 ^ 2 by norm_num, ← pow_add, ← pow_add]
      exact pow_le_pow_right₀ (by norm_num) (by norm_num), spacing64 (by norm_num)⟩
  have big : (2 : ℚ) ^ 60 < (2 : ℚ) ^ ieee64.emax := by
    rw [← zpow_natCast]
    exact zpow_lt_zpow_right₀ (by norm_num) (by decide)
  have o1 : Ordinary (.num 1 : Ieee ieee64) := by simpa using calm_ord 1 0 (by norm_num) (by norm_num)
  have o2 : Ordinary (.num (1 / 2) : Ieee ieee64) := by simpa using calm_ord 1 1 (by norm_num) (by norm_num)
  have o16 : Ordinary (.num (1 / 16) : Ieee ieee64) := by have := calm_ord 1 4 (by norm_num) (by norm_num); norm_num at this ⊢; exact this
  have odt : Ordinary (.num (1 / 2 ^ 16) : Ieee ieee64) := by simpa using calm_ord 1 16 (by norm_num) (by norm_num)
  have val : ∀ c, In3 2 2 2 c → initialAny3 E.draw calmOpts3.par.m calmOpts3.nx calmOpts3.ny calmOpts3.nz c =
      if c = (0, 0, 0) then .num ((7 : Int) / 2 ^ 11) else .num ((-1 : Int) / 2 ^ 11) := by
    rintro ⟨i, j, l⟩ ⟨h1, h2, h3⟩
    dsimp only at h1 h2 h3
    rw [hE]
    obtain rfl | rfl : i = 0 ∨ i = 1 := by omega
    all_goals obtain rfl | rfl : j = 0 ∨ j = 1 := by omega
    all_goals obtain rfl | rfl : l = 0 ∨ l = 1 := by omega
    all_goals decide +kernel
  obtain ⟨η, hη, hη2⟩ : ∃ η : ℚ, η = 27 / 4 * ((2 * 2 * 2 : Int) : ℚ) * (((1 + u) ^ 34 - 1) * (8 ^ 2 * (8 ^ 2 + 12 * (1 / 16) / (1 / 2) ^ 2))) ∧
    η ≤ 1 / 10 ^ 9 := ⟨_, rfl, by rw [hu]; norm_num⟩
  refine (C114_rk3ssp3 (F := ieee64) (by decide) (by decide) (by decide) hr (by rw [hu]; norm_num) (demoSize 343 216) E calmOpts3 demoArr rfl rfl
    rfl (by decide) (by decide) ⟨1 / 16, 0, 0⟩ ⟨o16, trivial, trivial⟩ ⟨rfl, rfl, rfl⟩ rfl (by norm_num) (.num (1 / 2)) (by decide +kernel) o2 hs
    (by show (1 / 2 : ℚ) ≤ 1; norm_num) 8 (by norm_num) _ rfl
    (by refine lt_of_lt_of_le (b := (2 : ℚ) ^ 60 * (1 / 2) ^ 4) (by norm_num) (mul_le_mul_of_nonneg_right big.le (by positivity))) o1 trivial odt le_rfl
    (by show (0 : ℚ) ≤ 1; norm_num) (by show (0 : ℚ) < 1 / 2 ^ 16; positivity) hτ
    (by show (1 / 2 ^ 16 : ℚ) * rhsSize ⟨1 / 16, 0, 0⟩ (1 / 2) 8 ≤ 8 / 18; unfold rhsSize; norm_num)
    (by show u * ((1 : ℚ) + 1) ≤ 1 / 2 ^ 16 / 8; rw [hu]; norm_num) (by decide +kernel)
    (lt_trans (by show 4 * (|(0 : ℚ)| + 1 + 1) < 2 ^ 60; norm_num) big) (by decide) rfl rfl rfl rfl (.inr (.inl rfl)) (by decide)
    ⟨by simp [demoArr], by simp [demoArr, demoSize, calmOpts3, calmOpts2, blowOpts], by simp [demoArr, demoSize, calmOpts3, calmOpts2, blowOpts]⟩
    (fun c hc => by
      rw [val c hc]
      split
      · exact ⟨calm_ord 7 11 (by norm_num) (by norm_num), by show |(((7 : Int) : ℚ) / 2 ^ 11)| ≤ 1; norm_num [abs_le]⟩
      · exact ⟨calm_ord (-1) 11 (by norm_num) (by norm_num), by show |(((-1 : Int) : ℚ) / 2 ^ 11)| ≤ 1; norm_num [abs_le]⟩) η hη
    (by show ((2 * 2 * 2 : Int) : ℚ) * (1 / 4 + 6 * (1 / 16) / (1 / 2) ^ 2) + ((100 : ℕ) : ℚ) * η ≤ ((8 ^ 2 - 4) / 8) ^ 2; norm_num at hη2 ⊢; linarith)
    4 (by simp only [calmOpts3, calmOpts2, blowOpts]; decide +kernel) m 100 (by decide) (by decide)).mono fun res _ h => ?_
  obtain ⟨N, t, d, r, v, s, st, h1, h2, h3, h4⟩ := h
  refine ⟨⟨_, _, h2, by simp⟩, N, s, h1, ?_, ?_, fun k hk => ?_⟩
  · rw [h3, val _ (by unfold In3; norm_num)]; norm_num
  · rw [h3, val _ (by unfold In3; norm_num)]; norm_num
  · obtain ⟨-, a, b⟩ := h4 k hk
    refine ⟨fun c hc => ⟨(a c hc).1, (a c hc).2.trans (by norm_num)⟩, le_trans b ?_⟩
    have := mul_le_mul_of_nonneg_left hη2 (Nat.cast_nonneg (α := ℚ) k)
    rw [mul_one_div] at this
    exact add_le_add le_rfl this

end Madg
