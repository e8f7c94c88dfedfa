/-
Linear theory of the V-cycle with an explicit smoother, in terms of symmetric forms.
-/
import Mathlib.Algebra.Module.LinearMap.Basic
import Mathlib.LinearAlgebra.BilinearMap
import Mathlib.Algebra.Order.Field.Basic
import Mathlib.Algebra.Field.Basic
import Mathlib.Tactic.Ring
import Mathlib.Tactic.Linarith
import Mathlib.Tactic.NormNum
import Mathlib.Tactic.FieldSimp
import Mathlib.Tactic.Positivity
import Mathlib.Tactic.LinearCombination

set_option linter.unusedSectionVars false
set_option linter.unusedVariables false

namespace Madg
variable {K V : Type} [Field K] [LinearOrder K] [IsStrictOrderedRing K] [AddCommGroup V] [Module K V]

/-- A nonnegative symmetric form with a symmetric operator that is between 0 and 12/5. -/
structure SymOp (b : V →ₗ[K] V →ₗ[K] K) (X : V →ₗ[K] V) : Prop where
  symm : ∀ u v, b u v = b v u
  nonneg : ∀ u, 0 ≤ b u u
  self : ∀ u v, b (X u) v = b u (X v)
  low : ∀ u, 0 ≤ b u (X u)

/-- Cauchy–Schwarz for a nonnegative symmetric form. -/
theorem form_cs (f : V → V → K) (hadd : ∀ u v (a : K), f (u + a • v) (u + a • v) = f u u + 2 * a * f u v + a ^ 2 * f v v)
    (h0 : ∀ u, 0 ≤ f u u) (u v : V) : f u v ^ 2 ≤ f u u * f v v := by
  rcases eq_or_lt_of_le (h0 v) with hv | hv
  · rcases eq_or_ne (f u v) 0 with h | h
    · rw [h, ← hv]; simp
    · exfalso
      have := h0 (u + (-(f u u + 1) / (2 * f u v)) • v)
      rw [hadd u v, ← hv] at this
      have e : f u u + 2 * (-(f u u + 1) / (2 * f u v)) * f u v + (-(f u u + 1) / (2 * f u v)) ^ 2 * 0 = -1 := by
        field_simp; ring
      rw [e] at this
      linarith
  · have := h0 (u + (-(f u v) / f v v) • v)
    rw [hadd u v] at this
    have e : f u u + 2 * (-(f u v) / f v v) * f u v + (-(f u v) / f v v) ^ 2 * f v v = f u u - f u v ^ 2 / f v v := by
      field_simp; ring
    rw [e, sub_nonneg, div_le_iff₀ hv] at this
    exact this

variable {b : V →ₗ[K] V →ₗ[K] K} {X : V →ₗ[K] V}

/-- The smoother `1 - X + X²/2 - X³/6`. -/
def smo (X : V →ₗ[K] V) : V →ₗ[K] V :=
  LinearMap.id - X + (1 / 2 : K) • (X ∘ₗ X) - (1 / 6 : K) • (X ∘ₗ X ∘ₗ X)

theorem smo_apply (v : V) : smo X v = v - X v + (1 / 2 : K) • X (X v) - (1 / 6 : K) • X (X (X v)) := rfl

theorem smo_comm (v : V) : smo X (X v) = X (smo X v) := by
  simp only [smo_apply, map_sub, map_add, map_smul]

section
variable (h : SymOp b X)
include h

theorem SymOp.en_symm (u v : V) : b u (X v) = b v (X u) := by rw [← h.self, h.symm]

theorem SymOp.smo_self (u v : V) : b (smo X u) v = b u (smo X v) := by
  simp only [smo_apply, map_sub, map_add, map_smul, LinearMap.sub_apply, LinearMap.add_apply, LinearMap.smul_apply, h.self]

/-- The smoother reduces the energy. -/
theorem SymOp.smo_energy (hup : ∀ u, b u (X u) ≤ 12 / 5 * b u u) (v : V) :
    b (smo X v) (X (smo X v)) ≤ b v (X v) - 1 / 8 * b (X v) (X v) := by
  have hw : ∀ w, 0 ≤ 12 / 5 * b w w - b w (X w) := fun w => by linarith [hup w]
  set x1 := X v
  have f5 := h.low (X (X x1))
  have f4 := hw (X (X x1))
  have f3 := h.low ((12 / 5 : K) • X x1 - X (X x1))
  have f2 := hw ((12 / 5 : K) • X x1 - X (X x1))
  have f1 := h.low ((144 / 25 : K) • x1 - (24 / 5 : K) • X x1 + X (X x1))
  have f0 := hw ((144 / 25 : K) • x1 - (24 / 5 : K) • X x1 + X (X x1))
  simp only [smo_apply, map_sub, map_add, map_smul, LinearMap.sub_apply, LinearMap.add_apply, LinearMap.smul_apply, h.self,
    smul_eq_mul, x1] at f0 f1 f2 f3 f4 f5 ⊢
  linarith

theorem SymOp.smo_le (hup : ∀ u, b u (X u) ≤ 12 / 5 * b u u) (v : V) : b (smo X v) (X (smo X v)) ≤ b v (X v) := by
  have := h.smo_energy hup v
  linarith [h.nonneg (X v)]

/-- If `X` is bounded below, so is its square by itself. -/
theorem SymOp.square {c : K} (hc : 0 < c) (hlow : ∀ u, c * b u u ≤ b u (X u)) (v : V) : c * b v (X v) ≤ b (X v) (X v) := by
  have hcs := form_cs (fun u v => b u v) (fun u v a => by
    simp only [map_add, map_smul, LinearMap.add_apply, LinearMap.smul_apply, smul_eq_mul, h.symm v u]; ring) h.nonneg v (X v)
  rcases eq_or_lt_of_le (h.low v) with h0 | h0
  · rw [← h0, mul_zero]; exact h.nonneg _
  · have h1 := hlow v
    have h2 := h.nonneg (X v)
    have : b v (X v) * (c * b v (X v)) ≤ b v (X v) * b (X v) (X v) := by
      calc b v (X v) * (c * b v (X v)) = c * b v (X v) ^ 2 := by ring
        _ ≤ c * (b v v * b (X v) (X v)) := mul_le_mul_of_nonneg_left hcs hc.le
        _ = (c * b v v) * b (X v) (X v) := by ring
        _ ≤ _ := mul_le_mul_of_nonneg_right h1 h2
    exact le_of_mul_le_mul_left this h0

theorem SymOp.smo_contract (hup : ∀ u, b u (X u) ≤ 12 / 5 * b u u) {c : K} (hc : 0 < c) (hlow : ∀ u, c * b u u ≤ b u (X u))
    (v : V) : b (smo X v) (X (smo X v)) ≤ (1 - c / 8) * b v (X v) := by
  have h1 := h.smo_energy hup v
  have h2 := h.square hc hlow v
  linarith

/-- The slope of a smoothing pass controls the error before it. -/
theorem SymOp.slope_lower (v : V) : 25 / 64 * b (X v) (X v) ≤ b (smo X v - v) (smo X v - v) := by
  set w := X v with hwd
  have f1 := h.nonneg (X (X w) - (3 : K) • X w + (9 / 4 : K) • w)
  have f2 := h.nonneg (X w - (3 / 2 : K) • w)
  simp only [smo_apply, map_sub, map_add, map_smul, LinearMap.sub_apply, LinearMap.add_apply, LinearMap.smul_apply, h.self,
    smul_eq_mul, hwd] at f1 f2 ⊢
  linarith

end

theorem SymOp.iter {b : V →ₗ[K] V →ₗ[K] K} {X : V →ₗ[K] V} (h : SymOp b X) (hup : ∀ u, b u (X u) ≤ 12 / 5 * b u u) {ρ : K}
    (hρ : 0 ≤ ρ) (hc : ∀ v, b (smo X v) (X (smo X v)) ≤ ρ * b v (X v)) (n : Nat) (v : V) :
    b ((smo X ^ n) v) (X ((smo X ^ n) v)) ≤ ρ ^ n * b v (X v) := by
  induction n with
  | zero => simp
  | succ n ih =>
    rw [pow_succ', Module.End.mul_apply]
    refine (hc _).trans ?_
    rw [pow_succ', mul_assoc]
    exact mul_le_mul_of_nonneg_left ih hρ

theorem SymOp.pow_self {b : V →ₗ[K] V →ₗ[K] K} {X : V →ₗ[K] V} (h : SymOp b X) (n : Nat) (u v : V) :
    b ((smo X ^ n) u) (X v) = b u (X ((smo X ^ n) v)) := by
  induction n generalizing v with
  | zero => simp
  | succ n ih =>
    rw [pow_succ', Module.End.mul_apply, h.smo_self, smo_comm, ih, ← pow_succ', pow_succ, Module.End.mul_apply]

/-- Levels with the forms, operators, transfers and inverses. -/
structure Hier (K V : Type) [Field K] [AddCommGroup V] [Module K V] where
  b : Nat → V →ₗ[K] V →ₗ[K] K
  X : Nat → V →ₗ[K] V
  R : Nat → V →ₗ[K] V
  T : Nat → V →ₗ[K] V
  I : Nat → V →ₗ[K] V
  r : Nat → K

/-- Properties of `nlev` levels: symmetric operators, transfers that are adjoint up to the factor `κ`, the Galerkin operator
being `γ` times the coarse operator. The operators `X` are scaled such that `X = -dt L`, with `dt' = q dt`. -/
structure Hier.Ok (Q : Hier K V) (nlev : Nat) (q : K) : Prop where
  sym : ∀ ℓ, ℓ < nlev → SymOp (Q.b ℓ) (Q.X ℓ)
  up : ∀ ℓ, ℓ < nlev → ∀ u, Q.b ℓ u (Q.X ℓ u) ≤ 12 / 5 * Q.b ℓ u u
  adj : ∀ ℓ, ℓ + 1 < nlev → ∀ w v, Q.b ℓ (Q.T ℓ w) v = 8 * Q.b (ℓ + 1) w (Q.R ℓ v)
  gal : ∀ ℓ, ℓ + 1 < nlev → ∀ w w', q * Q.b (ℓ + 1) w (Q.R ℓ (Q.X ℓ (Q.T ℓ w'))) = 2 * Q.b (ℓ + 1) w (Q.X (ℓ + 1) w')
  inv : ∀ ℓ, ℓ + 1 < nlev → ∀ w v, Q.b (ℓ + 1) w (Q.X (ℓ + 1) (Q.I (ℓ + 1) v)) = q * Q.b (ℓ + 1) w v

/-- Error propagation of a V-cycle with `n` passes before and after. -/
def Hier.err (Q : Hier K V) (n : Nat) : Nat → Nat → V →ₗ[K] V
  | 0, ℓ => smo (Q.X ℓ) ^ (n + n)
  | d + 1, ℓ => (smo (Q.X ℓ) ^ n) ∘ₗ
      (LinearMap.id - Q.r ℓ • (Q.T ℓ ∘ₗ (LinearMap.id - Q.err n d (ℓ + 1)) ∘ₗ Q.I (ℓ + 1) ∘ₗ Q.R ℓ ∘ₗ Q.X ℓ)) ∘ₗ (smo (Q.X ℓ) ^ n)

/-- The coarse-grid correction alone. -/
def Hier.cgc (Q : Hier K V) (n d ℓ : Nat) : V →ₗ[K] V :=
  LinearMap.id - Q.r ℓ • (Q.T ℓ ∘ₗ (LinearMap.id - Q.err n d (ℓ + 1)) ∘ₗ Q.I (ℓ + 1) ∘ₗ Q.R ℓ ∘ₗ Q.X ℓ)

theorem Hier.cgc_apply (Q : Hier K V) (n d ℓ : Nat) (e : V) : Q.cgc n d ℓ e =
    e - Q.r ℓ • Q.T ℓ (Q.I (ℓ + 1) (Q.R ℓ (Q.X ℓ e)) - Q.err n d (ℓ + 1) (Q.I (ℓ + 1) (Q.R ℓ (Q.X ℓ e)))) := rfl

theorem Hier.err_succ (Q : Hier K V) (n d ℓ : Nat) (e : V) :
    Q.err n (d + 1) ℓ e = (smo (Q.X ℓ) ^ n) (Q.cgc n d ℓ ((smo (Q.X ℓ) ^ n) e)) := rfl

/-- Symmetric in the energy form, between 0 and 1. -/
structure Firm (b : V →ₗ[K] V →ₗ[K] K) (X E : V →ₗ[K] V) : Prop where
  self : ∀ u v, b (E u) (X v) = b u (X (E v))
  low : ∀ u, 0 ≤ b (E u) (X u)
  up : ∀ u, b (E u) (X u) ≤ b u (X u)

theorem Firm.square {b : V →ₗ[K] V →ₗ[K] K} {X E : V →ₗ[K] V} (h : SymOp b X) (f : Firm b X E) (u : V) :
    b (E u) (X (E u)) ≤ b (E u) (X u) := by
  have hcs := form_cs (fun u v => b (E u) (X v)) (fun u v a => by
    have : b (E v) (X u) = b (E u) (X v) := by rw [f.self, h.en_symm]
    simp only [map_add, map_smul, LinearMap.add_apply, LinearMap.smul_apply, smul_eq_mul, this]; ring) f.low u (E u)
  have h0 : 0 ≤ b (E u) (X (E u)) := h.low _
  rcases eq_or_lt_of_le h0 with h0' | h0'
  · rw [← h0']; exact f.low u
  · have h1 := f.up (E u)
    have h2 := f.low u
    have : b (E u) (X (E u)) * b (E u) (X (E u)) ≤ b (E u) (X u) * b (E u) (X (E u)) := by
      calc _ = b (E u) (X (E u)) ^ 2 := by ring
        _ ≤ _ := hcs
        _ ≤ _ := mul_le_mul_of_nonneg_left h1 h2
    exact le_of_mul_le_mul_right this h0'

section
variable {Q : Hier K V} {nlev : Nat} {q : K} (hQ : Q.Ok nlev q) (hq : 0 < q)
include hQ hq

/-- The correction in terms of the coarse energy. -/
theorem Hier.Ok.cross {ℓ : Nat} (hℓ : ℓ + 1 < nlev) (e g : V) :
    q * Q.b ℓ (Q.T ℓ g) (Q.X ℓ e) = 8 * Q.b (ℓ + 1) g (Q.X (ℓ + 1) (Q.I (ℓ + 1) (Q.R ℓ (Q.X ℓ e)))) := by
  rw [hQ.adj ℓ hℓ, hQ.inv ℓ hℓ]; ring

theorem Hier.Ok.coarse {ℓ : Nat} (hℓ : ℓ + 1 < nlev) (g g' : V) :
    q * Q.b ℓ (Q.T ℓ g) (Q.X ℓ (Q.T ℓ g')) = 16 * Q.b (ℓ + 1) g (Q.X (ℓ + 1) g') := by
  rw [hQ.adj ℓ hℓ, show q * (8 * Q.b (ℓ + 1) g (Q.R ℓ (Q.X ℓ (Q.T ℓ g')))) = 8 * (q * Q.b (ℓ + 1) g (Q.R ℓ (Q.X ℓ (Q.T ℓ g')))) by ring,
    hQ.gal ℓ hℓ]
  ring

theorem Hier.Ok.cgc_le {n d ℓ : Nat} (hℓ : ℓ + 1 < nlev) (hf : Firm (Q.b (ℓ + 1)) (Q.X (ℓ + 1)) (Q.err n d (ℓ + 1)))
    (h0 : 0 ≤ Q.r ℓ) (h1 : Q.r ℓ ≤ 1) (e : V) :
    Q.b ℓ (Q.cgc n d ℓ e) (Q.X ℓ (Q.cgc n d ℓ e)) ≤ Q.b ℓ e (Q.X ℓ e) := by
  have hs := hQ.sym ℓ (by omega)
  have hs1 := hQ.sym (ℓ + 1) hℓ
  rw [Q.cgc_apply]
  set y := Q.I (ℓ + 1) (Q.R ℓ (Q.X ℓ e)) with hy
  set E := Q.err n d (ℓ + 1)
  set g := y - E y with hg
  have c1 := hQ.cross hq hℓ e g
  have c2 := hQ.coarse hq hℓ g g
  rw [← hy] at c1
  have c3 : Q.b ℓ e (Q.X ℓ (Q.T ℓ g)) = Q.b ℓ (Q.T ℓ g) (Q.X ℓ e) := hs.en_symm _ _
  have sq := hf.square hs1 y
  have key : Q.b (ℓ + 1) g (Q.X (ℓ + 1) g) ≤ Q.b (ℓ + 1) g (Q.X (ℓ + 1) y) := by
    rw [hg]
    simp only [map_sub, LinearMap.sub_apply]
    have : Q.b (ℓ + 1) y (Q.X (ℓ + 1) (E y)) = Q.b (ℓ + 1) (E y) (Q.X (ℓ + 1) y) := hs1.en_symm _ _
    linarith
  have gn := hs1.low g
  simp only [map_sub, map_smul, LinearMap.sub_apply, LinearMap.smul_apply, smul_eq_mul, c3]
  have fin : q * (2 * Q.b ℓ (Q.T ℓ g) (Q.X ℓ e) - Q.r ℓ * Q.b ℓ (Q.T ℓ g) (Q.X ℓ (Q.T ℓ g))) =
      16 * (Q.b (ℓ + 1) g (Q.X (ℓ + 1) y) - Q.r ℓ * Q.b (ℓ + 1) g (Q.X (ℓ + 1) g)) := by
    linear_combination 2 * c1 - Q.r ℓ * c2
  have pos : 0 ≤ Q.b (ℓ + 1) g (Q.X (ℓ + 1) y) - Q.r ℓ * Q.b (ℓ + 1) g (Q.X (ℓ + 1) g) := by
    have := mul_le_mul_of_nonneg_right h1 gn
    linarith
  have pos2 : 0 ≤ 2 * Q.b ℓ (Q.T ℓ g) (Q.X ℓ e) - Q.r ℓ * Q.b ℓ (Q.T ℓ g) (Q.X ℓ (Q.T ℓ g)) := by
    have : 0 ≤ q * (2 * Q.b ℓ (Q.T ℓ g) (Q.X ℓ e) - Q.r ℓ * Q.b ℓ (Q.T ℓ g) (Q.X ℓ (Q.T ℓ g))) := by rw [fin]; linarith
    exact nonneg_of_mul_nonneg_right this hq
  have := mul_nonneg h0 pos2
  linarith

theorem Hier.Ok.cgc_firm {n d ℓ : Nat} (hℓ : ℓ + 1 < nlev) (hf : Firm (Q.b (ℓ + 1)) (Q.X (ℓ + 1)) (Q.err n d (ℓ + 1)))
    (h0 : 0 ≤ Q.r ℓ) (h1 : Q.r ℓ ≤ 1 / 2) : Firm (Q.b ℓ) (Q.X ℓ) (Q.cgc n d ℓ) := by
  have hs := hQ.sym ℓ (by omega)
  have hs1 := hQ.sym (ℓ + 1) hℓ
  set E := Q.err n d (ℓ + 1) with hE
  have form : ∀ u v, q * Q.b ℓ (Q.cgc n d ℓ u) (Q.X ℓ v) = q * Q.b ℓ u (Q.X ℓ v) - 8 * Q.r ℓ *
      (Q.b (ℓ + 1) (Q.I (ℓ + 1) (Q.R ℓ (Q.X ℓ u))) (Q.X (ℓ + 1) (Q.I (ℓ + 1) (Q.R ℓ (Q.X ℓ v)))) -
        Q.b (ℓ + 1) (E (Q.I (ℓ + 1) (Q.R ℓ (Q.X ℓ u)))) (Q.X (ℓ + 1) (Q.I (ℓ + 1) (Q.R ℓ (Q.X ℓ v))))) := by
    intro u v
    rw [Q.cgc_apply, ← hE]
    have c := hQ.cross hq hℓ v (Q.I (ℓ + 1) (Q.R ℓ (Q.X ℓ u)) - E (Q.I (ℓ + 1) (Q.R ℓ (Q.X ℓ u))))
    simp only [map_sub, map_smul, LinearMap.sub_apply, LinearMap.smul_apply, smul_eq_mul] at c ⊢
    linear_combination -(Q.r ℓ) * c
  have sy : ∀ u v, Q.b ℓ (Q.cgc n d ℓ u) (Q.X ℓ v) = Q.b ℓ u (Q.X ℓ (Q.cgc n d ℓ v)) := by
    intro u v
    rw [hs.en_symm u]
    refine mul_left_cancel₀ hq.ne' ?_
    rw [form, form, hs.en_symm v u, hs1.en_symm (Q.I (ℓ + 1) (Q.R ℓ (Q.X ℓ v))),
      hf.self (Q.I (ℓ + 1) (Q.R ℓ (Q.X ℓ v))), hs1.en_symm (Q.I (ℓ + 1) (Q.R ℓ (Q.X ℓ v)))]
  refine ⟨sy, fun u => ?_, fun u => ?_⟩
  · set y := Q.I (ℓ + 1) (Q.R ℓ (Q.X ℓ u)) with hy
    have f := form u u
    rw [← hy] at f
    have c1 := hQ.cross hq hℓ u y
    rw [← hy] at c1
    have c2 := hQ.coarse hq hℓ y y
    have p := hs.low (u - (1 / 2 : K) • Q.T ℓ y)
    have c3 : Q.b ℓ u (Q.X ℓ (Q.T ℓ y)) = Q.b ℓ (Q.T ℓ y) (Q.X ℓ u) := hs.en_symm _ _
    simp only [map_sub, map_smul, LinearMap.sub_apply, LinearMap.smul_apply, smul_eq_mul, c3] at p
    have p' := mul_nonneg hq.le p
    have l := hf.low y
    have y0 := hs1.low y
    have a1 : Q.r ℓ * (Q.b (ℓ + 1) y (Q.X (ℓ + 1) y) - Q.b (ℓ + 1) (E y) (Q.X (ℓ + 1) y)) ≤
        1 / 2 * Q.b (ℓ + 1) y (Q.X (ℓ + 1) y) := by
      have hu := hf.up y
      calc _ ≤ 1 / 2 * (Q.b (ℓ + 1) y (Q.X (ℓ + 1) y) - Q.b (ℓ + 1) (E y) (Q.X (ℓ + 1) y)) :=
            mul_le_mul_of_nonneg_right h1 (by linarith)
        _ ≤ _ := by linarith
    have p2 : 0 ≤ q * Q.b ℓ u (Q.X ℓ u) - 4 * Q.b (ℓ + 1) y (Q.X (ℓ + 1) y) := by
      have : q * (Q.b ℓ u (Q.X ℓ u) - 1 / 2 * Q.b ℓ (Q.T ℓ y) (Q.X ℓ u) -
          1 / 2 * (Q.b ℓ (Q.T ℓ y) (Q.X ℓ u) - 1 / 2 * Q.b ℓ (Q.T ℓ y) (Q.X ℓ (Q.T ℓ y)))) =
          q * Q.b ℓ u (Q.X ℓ u) - 4 * Q.b (ℓ + 1) y (Q.X (ℓ + 1) y) := by linear_combination -c1 + 1 / 4 * c2
      rw [← this]
      refine le_of_le_of_eq p' ?_
      ring
    have : 0 ≤ q * Q.b ℓ (Q.cgc n d ℓ u) (Q.X ℓ u) := by rw [f]; linarith
    exact nonneg_of_mul_nonneg_right this hq
  · have f := form u u
    have hu := hf.up (Q.I (ℓ + 1) (Q.R ℓ (Q.X ℓ u)))
    have : 0 ≤ Q.r ℓ * (Q.b (ℓ + 1) (Q.I (ℓ + 1) (Q.R ℓ (Q.X ℓ u))) (Q.X (ℓ + 1) (Q.I (ℓ + 1) (Q.R ℓ (Q.X ℓ u)))) -
        Q.b (ℓ + 1) (E (Q.I (ℓ + 1) (Q.R ℓ (Q.X ℓ u)))) (Q.X (ℓ + 1) (Q.I (ℓ + 1) (Q.R ℓ (Q.X ℓ u))))) :=
      mul_nonneg h0 (by linarith)
    have : q * Q.b ℓ (Q.cgc n d ℓ u) (Q.X ℓ u) ≤ q * Q.b ℓ u (Q.X ℓ u) := by rw [f]; linarith
    exact le_of_mul_le_mul_left this hq

/-- Coarse cycles with relaxation at most one half. -/
theorem Hier.Ok.err_firm (n d : Nat) : ∀ ℓ, ℓ + d < nlev → (∀ j, ℓ ≤ j → j < ℓ + d → 0 ≤ Q.r j ∧ Q.r j ≤ 1 / 2) →
    Firm (Q.b ℓ) (Q.X ℓ) (Q.err n d ℓ) := by
  induction d with
  | zero =>
    intro ℓ hℓ _
    have hs := hQ.sym ℓ (by omega)
    have hp := hs.pow_self
    refine ⟨fun u v => hp (n + n) u v, fun u => ?_, fun u => ?_⟩
    all_goals
      have e : Q.b ℓ (Q.err n 0 ℓ u) (Q.X ℓ u) = Q.b ℓ ((smo (Q.X ℓ) ^ n) u) (Q.X ℓ ((smo (Q.X ℓ) ^ n) u)) := by
        change Q.b ℓ ((smo (Q.X ℓ) ^ (n + n)) u) (Q.X ℓ u) = _
        rw [pow_add, Module.End.mul_apply, hp]
    · rw [e]; exact hs.low _
    · rw [e]
      have := hs.iter (hQ.up ℓ (by omega)) zero_le_one (fun v => by rw [one_mul]; exact hs.smo_le (hQ.up ℓ (by omega)) v) n u
      rwa [one_pow, one_mul] at this
  | succ d ih =>
    intro ℓ hℓ hr
    have hs := hQ.sym ℓ (by omega)
    have hp := hs.pow_self
    have hc := hQ.cgc_firm hq (n := n) (d := d) (ℓ := ℓ) (by omega)
      (ih (ℓ + 1) (by omega) fun j h1 h2 => hr j (by omega) (by omega)) (hr ℓ le_rfl (by omega)).1 (hr ℓ le_rfl (by omega)).2
    refine ⟨fun u v => ?_, fun u => ?_, fun u => ?_⟩
    · rw [Q.err_succ, Q.err_succ, hp, hc.self, hp]
    · rw [Q.err_succ, hp]; exact hc.low _
    · rw [Q.err_succ, hp]
      refine (hc.up _).trans ?_
      have := hs.iter (hQ.up ℓ (by omega)) zero_le_one (fun v => by rw [one_mul]; exact hs.smo_le (hQ.up ℓ (by omega)) v) n u
      rwa [one_pow, one_mul] at this

/-- The correction of the finest level does not increase the energy. -/
theorem Hier.Ok.cgc_top (n d : Nat) (hd : d + 1 < nlev) (hrf : 0 ≤ Q.r 0 ∧ Q.r 0 ≤ 1)
    (hrc : ∀ j, 1 ≤ j → j < 1 + d → 0 ≤ Q.r j ∧ Q.r j ≤ 1 / 2) (e : V) :
    Q.b 0 (Q.cgc n d 0 e) (Q.X 0 (Q.cgc n d 0 e)) ≤ Q.b 0 e (Q.X 0 e) :=
  hQ.cgc_le hq (by omega) (hQ.err_firm hq n d 1 (by omega) hrc) hrf.1 hrf.2 e

end

end Madg
