/-
The discrete maximum principle for the Poisson problem: comparison with a concave barrier in z.
-/
import Verif.Proofs.PoisRK
import Verif.Proofs.RoundRK
import Verif.Proofs.CHLap

set_option linter.unusedSectionVars false
set_option linter.unusedVariables false

namespace Madg
open Spec Finset

section
variable {K : Type} [Field K] [LinearOrder K] [IsStrictOrderedRing K]

/-- One explicit step below the stability limit on a function bounded by a barrier in z. -/
theorem barrier_step {f : Int → Int → Int → K} {g : Int → K} {s z N : K} (h0 : 0 ≤ z) (h1 : z ≤ 1 / 6) {i j k : Int}
    (hg : g (k + 1) - 2 * g k + g (k - 1) = -s)
    (hc : |f i j k| ≤ N * g k) (hx : |f (i + 1) j k| ≤ N * g k) (hx' : |f (i - 1) j k| ≤ N * g k)
    (hy : |f i (j + 1) k| ≤ N * g k) (hy' : |f i (j - 1) k| ≤ N * g k)
    (hz : |f i j (k + 1)| ≤ N * g (k + 1)) (hz' : |f i j (k - 1)| ≤ N * g (k - 1)) :
    |f i j k + z * (d2x f i j k + d2y f i j k + d2z f i j k)| ≤ N * (g k - z * s) := by
  have e : f i j k + z * (d2x f i j k + d2y f i j k + d2z f i j k) = (1 - 6 * z) * f i j k +
      z * (f (i + 1) j k + f (i - 1) j k + f i (j + 1) k + f i (j - 1) k + f i j (k + 1) + f i j (k - 1)) := by
    simp only [d2x, d2y, d2z]; ring
  have a : |(1 - 6 * z) * f i j k| ≤ (1 - 6 * z) * (N * g k) := by
    rw [abs_mul, abs_of_nonneg (by linarith : 0 ≤ 1 - 6 * z)]
    exact mul_le_mul_of_nonneg_left hc (by linarith)
  have b : |f (i + 1) j k + f (i - 1) j k + f i (j + 1) k + f i (j - 1) k + f i j (k + 1) + f i j (k - 1)| ≤
      4 * (N * g k) + N * g (k + 1) + N * g (k - 1) := by
    rw [abs_le] at *
    constructor <;> linarith [hx.1, hx.2, hx'.1, hx'.2, hy.1, hy.2, hy'.1, hy'.2, hz.1, hz.2, hz'.1, hz'.2]
  have c : |z * (f (i + 1) j k + f (i - 1) j k + f i (j + 1) k + f i (j - 1) k + f i j (k + 1) + f i j (k - 1))| ≤
      z * (4 * (N * g k) + N * g (k + 1) + N * g (k - 1)) := by
    rw [abs_mul, abs_of_nonneg h0]
    exact mul_le_mul_of_nonneg_left b h0
  rw [e]
  refine (abs_add_le _ _).trans ((add_le_add a c).trans (le_of_eq ?_))
  have : g (k + 1) + g (k - 1) = 2 * g k - s := by linarith
  calc (1 - 6 * z) * (N * g k) + z * (4 * (N * g k) + N * g (k + 1) + N * g (k - 1))
      = (1 - 2 * z) * (N * g k) + z * N * (g (k + 1) + g (k - 1)) := by ring
    _ = N * (g k - z * s) := by rw [this]; ring

/-- The parabola that vanishes in the boundary cells. -/
def psi (nk k : Int) : K := ((k : K) + 1) * ((nk : K) - k)

theorem psi_second (nk k : Int) : psi nk (k + 1) - 2 * psi nk k + psi nk (k - 1) = (-2 : K) := by
  simp only [psi]; push_cast; ring

theorem psi_low (nk : Int) : psi nk (-1) = (0 : K) := by simp [psi]

theorem psi_high (nk : Int) : psi nk nk = (0 : K) := by simp [psi]

theorem psi_pos {nk k : Int} (h : 0 ≤ k ∧ k < nk) : (0 : K) < psi nk k := by
  have a : (0 : K) ≤ k := by exact_mod_cast h.1
  have b : (0 : K) < (nk : K) - k := by
    have : (k : K) < nk := by exact_mod_cast h.2
    linarith
  unfold psi
  positivity

theorem psi_nonneg {nk k : Int} (h : -1 ≤ k ∧ k ≤ nk) : (0 : K) ≤ psi nk k := by
  have a : (-1 : K) ≤ k := by exact_mod_cast h.1
  have b : (k : K) ≤ nk := by exact_mod_cast h.2
  exact mul_nonneg (by linarith) (by linarith)

theorem psi_le (nk k : Int) : psi nk k ≤ (((nk : K) + 1) ^ 2) / 4 := by
  unfold psi
  nlinarith [sq_nonneg (2 * (k : K) + 1 - nk)]

variable {dx : K} (hdx : 0 < dx) {ni nj nk : Int} (hi : 1 ≤ ni) (hj : 1 ≤ nj) (hk : 1 ≤ nk)

include hi hj in
/-- A bound in the interior and on the prescribed values is a bound of the continuation. -/
theorem extD_bound {b : Int → Int → Int → K} {v : Fld K} {g : Int → K} {N : K}
    (hv : ∀ c, In3 ni nj nk c → |v c| ≤ N * g c.2.2)
    (hb : ∀ i j k, (k = -1 ∨ k = nk) → |b i j k| ≤ N * g k) (i j k : Int) (h : -1 ≤ k ∧ k ≤ nk) :
    |extDirichlet ni nj nk b (fun i j k => v (i, j, k)) i j k| ≤ N * g k := by
  unfold extDirichlet
  split
  · next h' => exact hv (_, _, _) ⟨wrapIdx_range _ hi, wrapIdx_range _ hj, h'⟩
  · exact hb i j k (by omega)

include hdx hi hj in
/-- The same for the state continued by prescribed values. -/
theorem extD_step {b : Int → Int → Int → K} {v : Fld K} {g : Int → K} {s N dt : K} (h0 : 0 ≤ dt) (h1 : dt ≤ dx ^ 2 / 6)
    (hg : ∀ k, g (k + 1) - 2 * g k + g (k - 1) = -s)
    (hv : ∀ c, In3 ni nj nk c → |v c| ≤ N * g c.2.2)
    (hb : ∀ i j k, (k = -1 ∨ k = nk) → |b i j k| ≤ N * g k) (c : Int × Int × Int) (hc : In3 ni nj nk c) :
    |v c + dt * lap3 dx (extDirichlet ni nj nk b fun i j k => v (i, j, k)) c.1 c.2.1 c.2.2| ≤ N * (g c.2.2 - dt / dx ^ 2 * s) := by
  have B := extD_bound hi hj hv hb
  obtain ⟨i, j, k⟩ := c
  have hk' : 0 ≤ k ∧ k < nk := hc.2.2
  have d2 : 0 < dx ^ 2 := by positivity
  have := barrier_step (f := extDirichlet ni nj nk b fun i j k => v (i, j, k)) (g := g) (N := N) (div_nonneg h0 d2.le)
    (by rw [div_le_iff₀ d2]; linarith) (hg k) (B i j k (by omega)) (B (i + 1) j k (by omega)) (B (i - 1) j k (by omega))
    (B i (j + 1) k (by omega)) (B i (j - 1) k (by omega)) (B i j (k + 1) (by omega)) (B i j (k - 1) (by omega))
  refine le_trans (le_of_eq ?_) this
  congr 1
  have e : extDirichlet ni nj nk b (fun i j k => v (i, j, k)) i j k = v (i, j, k) := by
    unfold extDirichlet
    rw [if_pos hk', wrapIdx_of_int hc.1.1 hc.1.2, wrapIdx_of_int hc.2.1.1 hc.2.1.2]
  rw [e]
  simp only [lap3]
  ring

include hdx hi hj hk in
/-- Comparison: a function with `|Δ v| ≤ a` inside and `|v| ≤ b` on the boundary cells. -/
theorem max_principle {bd : Int → Int → Int → K} {v : Fld K} {a b : K} (ha : 0 < a) (hb0 : 0 ≤ b)
    (hb : ∀ i j k, (k = -1 ∨ k = nk) → |bd i j k| ≤ b)
    (hL : ∀ c, In3 ni nj nk c → |lap3 dx (extDirichlet ni nj nk bd fun i j k => v (i, j, k)) c.1 c.2.1 c.2.2| ≤ a) :
    ∀ c, In3 ni nj nk c → |v c| ≤ b + a * dx ^ 2 / 2 * psi nk c.2.2 := by
  have d2 : 0 < dx ^ 2 := by positivity
  set g : Int → K := fun k => b + a * dx ^ 2 / 2 * psi nk k with hgd
  have gp : ∀ c, In3 ni nj nk c → 0 < g c.2.2 := fun c hc => by
    have := psi_pos (K := K) hc.2.2
    show 0 < b + a * dx ^ 2 / 2 * psi nk c.2.2
    positivity
  have hg : ∀ k, g (k + 1) - 2 * g k + g (k - 1) = -(a * dx ^ 2) := fun k => by
    have := psi_second (K := K) nk k
    show (b + a * dx ^ 2 / 2 * psi nk (k + 1)) - 2 * (b + a * dx ^ 2 / 2 * psi nk k) + (b + a * dx ^ 2 / 2 * psi nk (k - 1)) = _
    linear_combination a * dx ^ 2 / 2 * this
  have hne : (cells3 ni nj nk).Nonempty := ⟨(0, 0, 0), (mem_cells3 _ _ _ _).2 ⟨⟨le_rfl, show 0 < ni by omega⟩, ⟨le_rfl, show 0 < nj by omega⟩,
    ⟨le_rfl, show 0 < nk by omega⟩⟩⟩
  obtain ⟨cs, hcs, hmax⟩ := Finset.exists_max_image (cells3 ni nj nk) (fun c => |v c| / g c.2.2) hne
  have hin := (mem_cells3 _ _ _ cs).1 hcs
  set N := |v cs| / g cs.2.2 with hN
  have hv : ∀ c, In3 ni nj nk c → |v c| ≤ N * g c.2.2 := fun c hc => by
    rw [← div_le_iff₀ (gp c hc)]
    exact hmax c ((mem_cells3 _ _ _ c).2 hc)
  have hN1 : N ≤ 1 := by
    by_contra hcon
    push Not at hcon
    have st := extD_step hdx hi hj (b := bd) (v := v) (g := g) (s := a * dx ^ 2) (N := N) (dt := dx ^ 2 / 6) (by positivity) le_rfl hg hv
      (fun i j k h => by
        have e : g k = b := by
          show b + a * dx ^ 2 / 2 * psi nk k = b
          rcases h with rfl | rfl
          · rw [psi_low]; ring
          · rw [psi_high]; ring
        rw [e]
        refine (hb i j k h).trans ?_
        nlinarith) cs hin
    have hl := hL cs hin
    have e1 : |v cs| = N * g cs.2.2 := by rw [hN, div_mul_cancel₀ _ (gp cs hin).ne']
    have tri : |v cs| ≤ |v cs + dx ^ 2 / 6 * lap3 dx (extDirichlet ni nj nk bd fun i j k => v (i, j, k)) cs.1 cs.2.1 cs.2.2| +
        dx ^ 2 / 6 * a := by
      have h2 : |dx ^ 2 / 6 * lap3 dx (extDirichlet ni nj nk bd fun i j k => v (i, j, k)) cs.1 cs.2.1 cs.2.2| ≤ dx ^ 2 / 6 * a := by
        rw [abs_mul, abs_of_nonneg (by positivity : 0 ≤ dx ^ 2 / 6)]
        exact mul_le_mul_of_nonneg_left hl (by positivity)
      have := abs_sub_le (v cs + dx ^ 2 / 6 * lap3 dx (extDirichlet ni nj nk bd fun i j k => v (i, j, k)) cs.1 cs.2.1 cs.2.2) 0
        (dx ^ 2 / 6 * lap3 dx (extDirichlet ni nj nk bd fun i j k => v (i, j, k)) cs.1 cs.2.1 cs.2.2)
      rw [add_sub_cancel_right, sub_zero, zero_sub, abs_neg] at this
      linarith
    have e2 : dx ^ 2 / 6 / dx ^ 2 = 1 / 6 := by field_simp
    rw [e2] at st
    have p : 0 < a * dx ^ 2 := by positivity
    nlinarith
  intro c hc
  have h1 := hv c hc
  have h2 := gp c hc
  show |v c| ≤ g c.2.2
  nlinarith

include hdx hi hj hk in
/-- The solution of the discrete problem is bounded by the height of the domain. -/
theorem pois_bound {e : Int → Int → Int → K} (he : ∀ i j k, |e i j k| ≤ 1) {us : Fld K} (hus : PoisSolves dx ni nj nk e us)
    (c : Int × Int × Int) (hc : In3 ni nj nk c) : |us c| ≤ 1 + 3 / 8 * (((nk : K) + 1) * dx) ^ 2 := by
  have := max_principle hdx hi hj hk (bd := e) (v := us) (a := 3) (b := 1) (by norm_num) (by norm_num) (fun i j k _ => he i j k)
    (fun c hc => by
      have h := hus c.1 c.2.1 c.2.2 hc.1 hc.2.1 hc.2.2
      unfold poisRhs at h
      have : lap3 dx (extDirichlet ni nj nk e fun i j k => us (i, j, k)) c.1 c.2.1 c.2.2 = -(3 * e c.1 c.2.1 c.2.2) := by linarith
      rw [this, abs_neg, abs_mul, abs_of_pos (by norm_num : (0 : K) < 3)]
      have := he c.1 c.2.1 c.2.2
      linarith) c hc
  refine this.trans ?_
  have h := psi_le (K := K) nk c.2.2
  have d2 : 0 < dx ^ 2 := by positivity
  have : 3 * dx ^ 2 / 2 * psi nk c.2.2 ≤ 3 * dx ^ 2 / 2 * (((nk : K) + 1) ^ 2 / 4) := mul_le_mul_of_nonneg_left h (by positivity)
  nlinarith

/-! ### Contraction of the explicit methods in a weighted maximum norm -/

/-- Weight between 1 and 2. -/
def phi (nk k : Int) : K := 1 + 4 * psi nk k / ((nk : K) + 1) ^ 2

/-- The error is bounded by `N` in the weighted maximum norm. -/
def Bd (ni nj nk : Int) (N : K) (e : Fld K) : Prop := ∀ c, In3 ni nj nk c → |e c| ≤ N * phi nk c.2.2

include hk in
theorem nk1_pos : (0 : K) < (nk : K) + 1 := by
  have : (0 : K) < nk := by exact_mod_cast (show 0 < nk by omega)
  linarith

include hk in
theorem phi_ge {k : Int} (h : -1 ≤ k ∧ k ≤ nk) : (1 : K) ≤ phi nk k := by
  have p := nk1_pos (K := K) hk
  have := psi_nonneg (K := K) h
  unfold phi
  have : 0 ≤ 4 * psi nk k / ((nk : K) + 1) ^ 2 := by positivity
  linarith

include hk in
theorem phi_le (k : Int) : phi nk k ≤ (2 : K) := by
  have p := nk1_pos (K := K) hk
  have := psi_le (K := K) nk k
  unfold phi
  have : 4 * psi nk k / ((nk : K) + 1) ^ 2 ≤ 1 := by
    rw [div_le_one (by positivity)]; linarith
  linarith

/-- The error map of an explicit Euler step. -/
def eulerL (dx dt : K) (ni nj nk : Int) : Fld K →ₗ[K] Fld K := LinearMap.id + dt • lapL dx ni nj nk

theorem eulerL_apply (dx dt : K) (ni nj nk : Int) (e : Fld K) (c : Int × Int × Int) :
    eulerL dx dt ni nj nk e c = e c + dt * lapL dx ni nj nk e c := by
  simp [eulerL]

include hdx hi hj hk in
theorem euler_bd {dt N : K} (h0 : 0 ≤ dt) (h1 : dt ≤ dx ^ 2 / 6) (hN : 0 ≤ N) {e : Fld K} (he : Bd ni nj nk N e) :
    Bd ni nj nk ((1 - 4 * dt / (((nk : K) + 1) * dx) ^ 2) * N) (eulerL dx dt ni nj nk e) := by
  intro c hc
  have p := nk1_pos (K := K) hk
  have d2 : 0 < dx ^ 2 := by positivity
  have hg : ∀ k, phi nk (k + 1) - 2 * phi nk k + phi nk (k - 1) = -(8 / ((nk : K) + 1) ^ 2) := fun k => by
    have := psi_second (K := K) nk k
    simp only [phi]
    have e : psi nk (k + 1) = (-2 : K) + 2 * psi nk k - psi nk (k - 1) := by linarith
    rw [e]; ring
  have := extD_step hdx hi hj (b := fun _ _ _ => 0) (v := e) (g := fun k => phi nk k) (s := 8 / ((nk : K) + 1) ^ 2) (N := N) h0 h1 hg he
    (fun i j k h => by
      rw [abs_zero]
      exact mul_nonneg hN (by have := phi_ge (K := K) hk (k := k) (by omega); linarith)) c hc
  rw [eulerL_apply]
  refine this.trans ?_
  have hp := phi_le (K := K) hk c.2.2
  have e1 : N * (phi nk c.2.2 - dt / dx ^ 2 * (8 / ((nk : K) + 1) ^ 2)) = N * phi nk c.2.2 - (4 * dt / (((nk : K) + 1) * dx) ^ 2 * N) * 2 := by
    field_simp; ring
  have e2 : (1 - 4 * dt / (((nk : K) + 1) * dx) ^ 2) * N * phi nk c.2.2 = N * phi nk c.2.2 - (4 * dt / (((nk : K) + 1) * dx) ^ 2 * N) * phi nk c.2.2 := by
    ring
  rw [e1, e2]
  have : 0 ≤ 4 * dt / (((nk : K) + 1) * dx) ^ 2 * N := by positivity
  nlinarith

end

/-! ### Perturbed steps -/

section
variable {K : Type} [Field K] [LinearOrder K] [IsStrictOrderedRing K] {ni nj nk : Int} (hk : 1 ≤ nk)
  {E : Fld K →ₗ[K] Fld K} {q : K} (hq0 : 0 ≤ q) (hq1 : q ≤ 1) (hE : ∀ N e, 0 ≤ N → Bd ni nj nk N e → Bd ni nj nk (q * N) (E e))
  {N δ : K} (hN : 0 ≤ N) (hδ : 0 ≤ δ) {e e2 e3 e' : Fld K} (he : Bd ni nj nk N e)
include hk hq0 hq1 hE hN hδ he

theorem Bd.close {a : K} {x y : Fld K} (hx : Bd ni nj nk a x) (h : ∀ c, In3 ni nj nk c → |y c - x c| ≤ δ) : Bd ni nj nk (a + δ) y := by
  intro c hc
  have p := phi_ge (K := K) hk (k := c.2.2) ⟨by have := hc.2.2.1; omega, by have := hc.2.2.2; omega⟩
  have h1 := hx c hc
  have h2 := h c hc
  have e : y c = x c + (y c - x c) := by ring
  have h3 := abs_add_le (x c) (y c - x c)
  rw [← e] at h3
  nlinarith

theorem rk3_stage2 (h2 : ∀ c, In3 ni nj nk c → |e2 c - E e c| ≤ δ) : Bd ni nj nk (q * N + δ) e2 :=
  Bd.close hk hq0 hq1 hE hN hδ he (hE N e hN he) h2

theorem rk3_stage3 (h2 : ∀ c, In3 ni nj nk c → |e2 c - E e c| ≤ δ)
    (h3 : ∀ c, In3 ni nj nk c → |e3 c - (e c + (1 / 4 * (E e c - e c) + 1 / 4 * (E e2 c - e2 c)))| ≤ δ) :
    Bd ni nj nk (3 / 4 * N + 1 / 4 * (q * (q * N + δ)) + 5 / 4 * δ) e3 := by
  intro c hc
  have p := phi_ge (K := K) hk (k := c.2.2) ⟨by have := hc.2.2.1; omega, by have := hc.2.2.2; omega⟩
  have b2 := rk3_stage2 hk hq0 hq1 hE hN hδ he h2
  have n2 : 0 ≤ q * N + δ := by positivity
  have a0 := abs_le.1 (he c hc)
  have a1 := abs_le.1 (hE _ _ n2 b2 c hc)
  have a2 := abs_le.1 (h2 c hc)
  have a3 := abs_le.1 (h3 c hc)
  have dp : δ ≤ δ * phi nk c.2.2 := le_mul_of_one_le_right hδ p
  have ex : (3 / 4 * N + 1 / 4 * (q * (q * N + δ)) + 5 / 4 * δ) * phi nk c.2.2 =
      3 / 4 * (N * phi nk c.2.2) + 1 / 4 * (q * (q * N + δ) * phi nk c.2.2) + 5 / 4 * (δ * phi nk c.2.2) := by ring
  rw [ex, abs_le]
  constructor <;> linarith

/-- A perturbed step of the strong-stability-preserving method. -/
theorem rk3_contract (h2 : ∀ c, In3 ni nj nk c → |e2 c - E e c| ≤ δ)
    (h3 : ∀ c, In3 ni nj nk c → |e3 c - (e c + (1 / 4 * (E e c - e c) + 1 / 4 * (E e2 c - e2 c)))| ≤ δ)
    (h4 : ∀ c, In3 ni nj nk c → |e' c - (e c + (1 / 6 * (E e c - e c) + 1 / 6 * (E e2 c - e2 c) + 2 / 3 * (E e3 c - e3 c)))| ≤ δ) :
    Bd ni nj nk ((1 - 2 / 3 * (1 - q)) * N + 4 * δ) e' := by
  intro c hc
  have p := phi_ge (K := K) hk (k := c.2.2) ⟨by have := hc.2.2.1; omega, by have := hc.2.2.2; omega⟩
  have b3 := rk3_stage3 hk hq0 hq1 hE hN hδ he h2 h3
  have n3 : 0 ≤ 3 / 4 * N + 1 / 4 * (q * (q * N + δ)) + 5 / 4 * δ := by positivity
  have a0 := abs_le.1 (he c hc)
  have a1 := abs_le.1 (hE _ _ n3 b3 c hc)
  have a3 := abs_le.1 (h3 c hc)
  have a4 := abs_le.1 (h4 c hc)
  have m : q * (3 / 4 * N + 1 / 4 * (q * (q * N + δ)) + 5 / 4 * δ) ≤ q * (N + 3 / 2 * δ) := by
    refine mul_le_mul_of_nonneg_left ?_ hq0
    have : q * (q * N + δ) ≤ 1 * (q * N + δ) := mul_le_mul_of_nonneg_right hq1 (by positivity)
    have : q * N ≤ 1 * N := mul_le_mul_of_nonneg_right hq1 hN
    linarith
  have m2 : q * (3 / 2 * δ) ≤ 1 * (3 / 2 * δ) := mul_le_mul_of_nonneg_right hq1 (by positivity)
  have m3 : q * (3 / 4 * N + 1 / 4 * (q * (q * N + δ)) + 5 / 4 * δ) * phi nk c.2.2 ≤ (q * N + 3 / 2 * δ) * phi nk c.2.2 :=
    mul_le_mul_of_nonneg_right (by linarith) (by linarith)
  have dp : δ ≤ δ * phi nk c.2.2 := le_mul_of_one_le_right hδ p
  have ex : ((1 - 2 / 3 * (1 - q)) * N + 4 * δ) * phi nk c.2.2 =
      1 / 3 * (N * phi nk c.2.2) + 2 / 3 * ((q * N + 3 / 2 * δ) * phi nk c.2.2) + 3 * (δ * phi nk c.2.2) := by ring
  rw [ex, abs_le]
  constructor <;> linarith

theorem bs_stage2 (h2 : ∀ c, In3 ni nj nk c → |e2 c - (e c + 1 / 2 * (E e c - e c))| ≤ δ) : Bd ni nj nk (N + δ) e2 := by
  intro c hc
  have p := phi_ge (K := K) hk (k := c.2.2) ⟨by have := hc.2.2.1; omega, by have := hc.2.2.2; omega⟩
  have a0 := abs_le.1 (he c hc)
  have a1 := abs_le.1 (hE _ _ hN he c hc)
  have a2 := abs_le.1 (h2 c hc)
  have dp : δ ≤ δ * phi nk c.2.2 := le_mul_of_one_le_right hδ p
  have m : q * N * phi nk c.2.2 ≤ N * phi nk c.2.2 := mul_le_mul_of_nonneg_right (mul_le_of_le_one_left hN hq1) (by linarith)
  rw [add_mul, abs_le]
  constructor <;> linarith

theorem bs_stage3 (h2 : ∀ c, In3 ni nj nk c → |e2 c - (e c + 1 / 2 * (E e c - e c))| ≤ δ)
    (h3 : ∀ c, In3 ni nj nk c → |e3 c - (e c + (0 * (E e c - e c) + 3 / 4 * (E e2 c - e2 c)))| ≤ δ) :
    Bd ni nj nk (N + 5 / 2 * δ) e3 := by
  obtain ⟨d1, hd1⟩ : ∃ d1 : Fld K, d1 = e2 - (1 / 2 : K) • (e + E e) := ⟨_, rfl⟩
  have bd1 : Bd ni nj nk δ d1 := fun c hc => by
    have p := phi_ge (K := K) hk (k := c.2.2) ⟨by have := hc.2.2.1; omega, by have := hc.2.2.2; omega⟩
    have := h2 c hc
    have e1 : d1 c = e2 c - (e c + 1 / 2 * (E e c - e c)) := by
      simp only [hd1, Pi.sub_apply, Pi.smul_apply, Pi.add_apply, smul_eq_mul]; ring
    rw [e1]
    exact this.trans (le_mul_of_one_le_right hδ p)
  have ee : E e2 = (1 / 2 : K) • (E e + E (E e)) + E d1 := by
    have : e2 = (1 / 2 : K) • (e + E e) + d1 := by rw [hd1]; abel
    conv_lhs => rw [this]
    rw [map_add, map_smul, map_add]
  intro c hc
  have p := phi_ge (K := K) hk (k := c.2.2) ⟨by have := hc.2.2.1; omega, by have := hc.2.2.2; omega⟩
  have qN : 0 ≤ q * N := by positivity
  have a0 := abs_le.1 (he c hc)
  have a1 := abs_le.1 (hE _ _ qN (hE _ _ hN he) c hc)
  have a2 := abs_le.1 (bd1 c hc)
  have a3 := abs_le.1 (hE _ _ hδ bd1 c hc)
  have a4 := abs_le.1 (h3 c hc)
  have dp : δ ≤ δ * phi nk c.2.2 := le_mul_of_one_le_right hδ p
  have m : q * (q * N) * phi nk c.2.2 ≤ N * phi nk c.2.2 := mul_le_mul_of_nonneg_right ((mul_le_of_le_one_left (mul_nonneg hq0 hN) hq1).trans (mul_le_of_le_one_left hN hq1)) (by linarith)
  have m2 : q * δ * phi nk c.2.2 ≤ δ * phi nk c.2.2 := mul_le_mul_of_nonneg_right (mul_le_of_le_one_left hδ hq1) (by linarith)
  have e1 : E e2 c = 1 / 2 * (E e c + E (E e) c) + E d1 c := by rw [ee]; rfl
  have e2' : e2 c = 1 / 2 * (e c + E e c) + d1 c := by
    have : d1 c = e2 c - 1 / 2 * (e c + E e c) := by rw [hd1]; rfl
    rw [this]; ring
  rw [e1, e2'] at a4
  have ex : (N + 5 / 2 * δ) * phi nk c.2.2 = N * phi nk c.2.2 + 5 / 2 * (δ * phi nk c.2.2) := by ring
  rw [ex, abs_le]
  constructor <;> linarith

/-- A perturbed step of the Bogacki–Shampine method. -/
theorem bs_contract (h2 : ∀ c, In3 ni nj nk c → |e2 c - (e c + 1 / 2 * (E e c - e c))| ≤ δ)
    (h3 : ∀ c, In3 ni nj nk c → |e3 c - (e c + (0 * (E e c - e c) + 3 / 4 * (E e2 c - e2 c)))| ≤ δ)
    (h4 : ∀ c, In3 ni nj nk c → |e' c - (e c + (2 / 9 * (E e c - e c) + 1 / 3 * (E e2 c - e2 c) + 4 / 9 * (E e3 c - e3 c)))| ≤ δ) :
    Bd ni nj nk ((1 - 2 / 3 * (1 - q)) * N + 4 * δ) e' := by
  obtain ⟨d1, hd1⟩ : ∃ d1 : Fld K, d1 = e2 - (1 / 2 : K) • (e + E e) := ⟨_, rfl⟩
  obtain ⟨d2, hd2⟩ : ∃ d2 : Fld K, d2 = e3 - (e + (3 / 4 : K) • (E e2 - e2)) := ⟨_, rfl⟩
  have bd1 : Bd ni nj nk δ d1 := fun c hc => by
    have p := phi_ge (K := K) hk (k := c.2.2) ⟨by have := hc.2.2.1; omega, by have := hc.2.2.2; omega⟩
    have := h2 c hc
    have e1 : d1 c = e2 c - (e c + 1 / 2 * (E e c - e c)) := by
      simp only [hd1, Pi.sub_apply, Pi.smul_apply, Pi.add_apply, smul_eq_mul]; ring
    rw [e1]
    exact this.trans (le_mul_of_one_le_right hδ p)
  have bd2 : Bd ni nj nk δ d2 := fun c hc => by
    have p := phi_ge (K := K) hk (k := c.2.2) ⟨by have := hc.2.2.1; omega, by have := hc.2.2.2; omega⟩
    have := h3 c hc
    have e1 : d2 c = e3 c - (e c + (0 * (E e c - e c) + 3 / 4 * (E e2 c - e2 c))) := by
      simp only [hd2, Pi.sub_apply, Pi.smul_apply, Pi.add_apply, smul_eq_mul]; ring
    rw [e1]
    exact this.trans (le_mul_of_one_le_right hδ p)
  have x2 : e2 = (1 / 2 : K) • (e + E e) + d1 := by rw [hd1]; abel
  have ee : E e2 = (1 / 2 : K) • (E e + E (E e)) + E d1 := by
    conv_lhs => rw [x2]
    rw [map_add, map_smul, map_add]
  have x3 : e3 = (5 / 8 : K) • e + (3 / 8 : K) • E (E e) + (3 / 4 : K) • (E d1 - d1) + d2 := by
    have : e3 = e + (3 / 4 : K) • (E e2 - e2) + d2 := by rw [hd2]; abel
    rw [this, ee, x2]
    funext c
    simp only [Pi.add_apply, Pi.sub_apply, Pi.smul_apply, smul_eq_mul]
    ring
  have ee3 : E e3 = (5 / 8 : K) • E e + (3 / 8 : K) • E (E (E e)) + (3 / 4 : K) • (E (E d1) - E d1) + E d2 := by
    conv_lhs => rw [x3]
    simp only [map_add, map_smul, map_sub]
  intro c hc
  have p := phi_ge (K := K) hk (k := c.2.2) ⟨by have := hc.2.2.1; omega, by have := hc.2.2.2; omega⟩
  have qN : 0 ≤ q * N := by positivity
  have qqN : 0 ≤ q * (q * N) := by positivity
  have qd : 0 ≤ q * δ := by positivity
  have a0 := abs_le.1 (he c hc)
  have a1 := abs_le.1 (hE _ _ hN he c hc)
  have a3 := abs_le.1 (hE _ _ qqN (hE _ _ qN (hE _ _ hN he)) c hc)
  have c0 := abs_le.1 (bd1 c hc)
  have c1 := abs_le.1 (hE _ _ hδ bd1 c hc)
  have c2 := abs_le.1 (hE _ _ qd (hE _ _ hδ bd1) c hc)
  have g0 := abs_le.1 (bd2 c hc)
  have g1 := abs_le.1 (hE _ _ hδ bd2 c hc)
  have a4 := abs_le.1 (h4 c hc)
  have dp : δ ≤ δ * phi nk c.2.2 := le_mul_of_one_le_right hδ p
  have m2 : q * δ * phi nk c.2.2 ≤ δ * phi nk c.2.2 := mul_le_mul_of_nonneg_right (mul_le_of_le_one_left hδ hq1) (by linarith)
  have m3 : q * (q * δ) * phi nk c.2.2 ≤ δ * phi nk c.2.2 := mul_le_mul_of_nonneg_right ((mul_le_of_le_one_left (mul_nonneg hq0 hδ) hq1).trans (mul_le_of_le_one_left hδ hq1)) (by linarith)
  have m4 : q * (q * (q * N)) * phi nk c.2.2 ≤ q * N * phi nk c.2.2 := mul_le_mul_of_nonneg_right ((mul_le_of_le_one_left (mul_nonneg hq0 (mul_nonneg hq0 hN)) hq1).trans
    (mul_le_of_le_one_left (mul_nonneg hq0 hN) hq1)) (by linarith)
  have f1 : E e2 c = 1 / 2 * (E e c + E (E e) c) + E d1 c := by rw [ee]; rfl
  have f2 : e2 c = 1 / 2 * (e c + E e c) + d1 c := congrFun x2 c
  have f3 : e3 c = 5 / 8 * e c + 3 / 8 * E (E e) c + 3 / 4 * (E d1 c - d1 c) + d2 c := congrFun x3 c
  have f4 : E e3 c = 5 / 8 * E e c + 3 / 8 * E (E (E e)) c + 3 / 4 * (E (E d1) c - E d1 c) + E d2 c := by rw [ee3]; rfl
  rw [f1, f2, f3, f4] at a4
  have ex : ((1 - 2 / 3 * (1 - q)) * N + 4 * δ) * phi nk c.2.2 =
      1 / 3 * (N * phi nk c.2.2) + 2 / 3 * (q * N * phi nk c.2.2) + 4 * (δ * phi nk c.2.2) := by ring
  rw [ex, abs_le]
  constructor <;> linarith

end

end Madg
