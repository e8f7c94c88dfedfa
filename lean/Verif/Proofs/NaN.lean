/-
How NaN spreads.
-/
import Verif.Model.IEEE
import Verif.Spec.NaN
import Verif.Spec.RunFl
import Verif.Proofs.BC3
import Mathlib.Tactic.IntervalCases

namespace Madg
open Spec

/-! ### The numbers -/

namespace Ieee
variable {F : IeeeFmt}

theorem add_nan (x : Ieee F) : add x nan = nan := by cases x <;> rfl
theorem nan_add (x : Ieee F) : add nan x = nan := by cases x <;> rfl
theorem mul_nan (x : Ieee F) : mul x nan = nan := by cases x <;> rfl
theorem nan_mul (x : Ieee F) : mul nan x = nan := by cases x <;> rfl
theorem div_nan (x : Ieee F) : div x nan = nan := by cases x <;> rfl
theorem nan_div (x : Ieee F) : div nan x = nan := by cases x <;> rfl
theorem ltb_nan (x : Ieee F) : ltb x nan = false := by cases x <;> rfl
theorem nan_ltb (x : Ieee F) : ltb nan x = false := by cases x <;> rfl
theorem leb_nan (x : Ieee F) : leb x nan = false := by cases x <;> rfl
theorem nan_leb (x : Ieee F) : leb nan x = false := by cases x <;> rfl

theorem isNaN : IsNaN (nan : Ieee F) where
  add_left := nan_add
  add_right := add_nan
  sub_left _ := nan_add _
  sub_right x := add_nan x
  mul_left := nan_mul
  mul_right := mul_nan
  div_left := nan_div
  div_right := div_nan
  neg := rfl
  pow _ := rfl
  lt_left x h := by rw [show (nan < x) = (ltb nan x = true) from rfl, nan_ltb] at h; cases h
  lt_right x h := by rw [show (x < nan) = (ltb x nan = true) from rfl, ltb_nan] at h; cases h
  le_left x h := by rw [show (nan ≤ x) = (leb nan x = true) from rfl, nan_leb] at h; cases h
  le_right x h := by rw [show (x ≤ nan) = (leb x nan = true) from rfl, leb_nan] at h; cases h

theorem selects : Selects (Ieee F) where
  max x y := by show stdMax x y = x ∨ stdMax x y = y; unfold stdMax; split <;> simp
  min x y := by show stdMin x y = x ∨ stdMin x y = y; unfold stdMin; split <;> simp

end Ieee

/-! ### The right-hand side -/

section
variable {K : Type} [Arith K] [LT K] [LE K] {nan : K} (h : IsNaN nan)
include h

theorem stencil_nan (e dx2 dx4 s mm : K) (f : Int → Int → Int → K) {a b d : Int} (hm : a.natAbs + b.natAbs + d.natAbs ≤ 2)
    (hf : f a b d = nan) :
    -e * ((42 * f 0 0 0 - 12 * (f 1 0 0 + f 0 1 0 + f 0 0 1 + f (-1) 0 0 + f 0 (-1) 0 + f 0 0 (-1)) +
      f 2 0 0 + f 0 2 0 + f 0 0 2 + f (-2) 0 0 + f 0 (-2) 0 + f 0 0 (-2) +
      2 * (f (-1) (-1) 0 + f (-1) 1 0 + f 1 (-1) 0 + f 1 1 0 + f (-1) 0 (-1) + f 1 0 (-1) + f 0 (-1) (-1) + f 0 1 (-1) +
        f (-1) 0 1 + f 1 0 1 + f 0 (-1) 1 + f 0 1 1)) / dx4) +
    ((f (-1) 0 0 ^ 3 - f (-1) 0 0) + (f 1 0 0 ^ 3 - f 1 0 0) + (f 0 (-1) 0 ^ 3 - f 0 (-1) 0) + (f 0 1 0 ^ 3 - f 0 1 0) +
      (f 0 0 (-1) ^ 3 - f 0 0 (-1)) + (f 0 0 1 ^ 3 - f 0 0 1) - 6 * (f 0 0 0 ^ 3 - f 0 0 0)) / dx2 -
    s * (f 0 0 0 - mm) = nan := by
  have h1 : -2 ≤ a ∧ a ≤ 2 := by omega
  have h2 : -2 ≤ b ∧ b ≤ 2 := by omega
  have h3 : -2 ≤ d ∧ d ≤ 2 := by omega
  obtain ⟨a1, a2⟩ := h1
  obtain ⟨b1, b2⟩ := h2
  obtain ⟨d1, d2⟩ := h3
  have p := h.pow 2
  interval_cases a <;> interval_cases b <;> interval_cases d <;> first
    | (exfalso; revert hm; decide)
    | simp only [hf, h.add_left, h.add_right, h.sub_left, h.sub_right, h.mul_left, h.mul_right, h.div_left]

theorem rhs_nan (v : Int) (par : CHParams K) (dx : K) {bx bY bz : BCType} {nx ny nz : Int} (t : K) (u : Int × Int × Int → K)
    {c c' : Int × Int × Int} (hc' : In3 nx ny nz c') (hm : moves c c' ≤ 2) (hu : u c' = nan) :
    rhsOps3 v par dx bx bY bz nx ny nz t u c = nan := by
  obtain ⟨i, j, k⟩ := c
  obtain ⟨i', j', k'⟩ := c'
  obtain ⟨a, rfl⟩ : ∃ a, i' = i + a := ⟨i' - i, by ring⟩
  obtain ⟨b, rfl⟩ : ∃ b, j' = j + b := ⟨j' - j, by ring⟩
  obtain ⟨d, rfl⟩ : ∃ d, k' = k + d := ⟨k' - k, by ring⟩
  unfold moves at hm
  dsimp only at hm
  obtain ⟨⟨x1, x2⟩, ⟨y1, y2⟩, z1, z2⟩ := hc'
  exact stencil_nan h par.eps2 (dx * dx) _ par.sigma par.m
    (fun x y z => ext3 bx bY bz nx ny nz (fun i j k => u (i, j, k)) (i + x) (j + y) (k + z)) (a := a) (b := b) (d := d) (by omega)
    (by unfold ext3; rw [extIdx_of_int x1 x2, extIdx_of_int y1 y2, extIdx_of_int z1 z2]; exact hu)

omit [Arith K] [LT K] [LE K] h in
theorem moves_triangle (a b c : Int × Int × Int) : moves a c ≤ moves a b + moves b c := by
  unfold moves
  have h1 := Int.natAbs_add_le (a.1 - b.1) (b.1 - c.1)
  have h2 := Int.natAbs_add_le (a.2.1 - b.2.1) (b.2.1 - c.2.1)
  have h3 := Int.natAbs_add_le (a.2.2 - b.2.2) (b.2.2 - c.2.2)
  rw [sub_add_sub_cancel] at h1 h2 h3
  omega

omit [Arith K] [LT K] [LE K] h in
theorem move_one {nx ny nz : Int} {c c0 : Int × Int × Int} (hc : In3 nx ny nz c) (h0 : In3 nx ny nz c0) :
    ∃ c', In3 nx ny nz c' ∧ moves c c' ≤ 1 ∧ moves c' c0 ≤ moves c c0 - 1 := by
  obtain ⟨i, j, k⟩ := c
  obtain ⟨i', j', k'⟩ := c0
  unfold In3 at *
  unfold moves
  dsimp only at *
  rcases lt_trichotomy i i' with e | e | e
  · exact ⟨(i + 1, j, k), by dsimp only; omega, by dsimp only; omega, by dsimp only; omega⟩
  · rcases lt_trichotomy j j' with e | e | e
    · exact ⟨(i, j + 1, k), by dsimp only; omega, by dsimp only; omega, by dsimp only; omega⟩
    · rcases lt_trichotomy k k' with e | e | e
      · exact ⟨(i, j, k + 1), by dsimp only; omega, by dsimp only; omega, by dsimp only; omega⟩
      · exact ⟨(i, j, k), by dsimp only; omega, by dsimp only; omega, by dsimp only; omega⟩
      · exact ⟨(i, j, k - 1), by dsimp only; omega, by dsimp only; omega, by dsimp only; omega⟩
    · exact ⟨(i, j - 1, k), by dsimp only; omega, by dsimp only; omega, by dsimp only; omega⟩
  · exact ⟨(i - 1, j, k), by dsimp only; omega, by dsimp only; omega, by dsimp only; omega⟩

/-- The cells within `r` moves of `c0` are all NaN. -/
theorem rhs_spread (v : Int) (par : CHParams K) (dx : K) {bx bY bz : BCType} {nx ny nz : Int} (t : K) (u : Int × Int × Int → K)
    {c0 : Int × Int × Int} (h0 : In3 nx ny nz c0) {r : Nat} (hu : ∀ c, In3 nx ny nz c → moves c c0 ≤ r → u c = nan) :
    ∀ c, In3 nx ny nz c → moves c c0 ≤ r + 2 → rhsOps3 v par dx bx bY bz nx ny nz t u c = nan := by
  intro c hc hm
  obtain ⟨c', h1, h2, h3⟩ : ∃ c', In3 nx ny nz c' ∧ moves c c' ≤ 2 ∧ moves c' c0 ≤ r := by
    obtain ⟨c1, a1, a2, a3⟩ := move_one hc h0
    obtain ⟨c2, b1, b2, b3⟩ := move_one a1 h0
    have := moves_triangle c c1 c2
    exact ⟨c2, b1, by omega, by omega⟩
  exact rhs_nan h v par dx t u h1 h2 (hu c' h1 h3)

theorem step_spread (v : Int) (par : CHParams K) (dx : K) {bx bY bz : BCType} {nx ny nz : Int} (t dt : K) (u : Int × Int × Int → K)
    {c0 : Int × Int × Int} (h0 : In3 nx ny nz c0) {r : Nat} (hu : ∀ c, In3 nx ny nz c → moves c c0 ≤ r → u c = nan) :
    ∀ c, In3 nx ny nz c → moves c c0 ≤ r + 6 → ssprk3Step (rhsOps3 v par dx bx bY bz nx ny nz) t dt u c = nan := by
  have k1 := rhs_spread h v par dx (bx := bx) (bY := bY) (bz := bz) t u h0 hu
  obtain ⟨F, hF⟩ : ∃ F, F = rhsOps3 v par dx bx bY bz nx ny nz := ⟨_, rfl⟩
  rw [← hF] at k1 ⊢
  have k2 := rhs_spread h v par dx (bx := bx) (bY := bY) (bz := bz) (t + 1 * dt) (fun c => u c + dt * 1 * F t u c) h0 (r := r + 2)
    (fun c hc hm => by rw [k1 c hc hm, h.mul_right, h.add_right])
  rw [← hF] at k2
  have k3 := rhs_spread h v par dx (bx := bx) (bY := bY) (bz := bz) (t + 1 / 2 * dt)
    (fun c => u c + dt * (1 / 4 * F t u c + 1 / 4 * F (t + 1 * dt) (fun c => u c + dt * 1 * F t u c) c)) h0 (r := r + 4)
    (fun c hc hm => by rw [k2 c hc hm]; simp only [h.add_right, h.mul_right])
  rw [← hF] at k3
  intro c hc hm
  show u c + dt * (_ + _ + 2 / 3 * F (t + 1 / 2 * dt) _ c) = nan
  rw [k3 c hc (by omega)]
  simp only [h.add_right, h.mul_right]

theorem iterates_spread (v : Int) (par : CHParams K) (dx : K) {bx bY bz : BCType} {nx ny nz : Int} (t d : Nat → K)
    (u0 : Int × Int × Int → K) {c0 : Int × Int × Int} (h0 : In3 nx ny nz c0) {k : Nat}
    (hu : iterates (ssprk3Step (rhsOps3 v par dx bx bY bz nx ny nz)) t d u0 k c0 = nan) :
    ∀ j c, In3 nx ny nz c → moves c c0 ≤ 6 * j → iterates (ssprk3Step (rhsOps3 v par dx bx bY bz nx ny nz)) t d u0 (k + j) c = nan
  | 0, c, hc, hm => by
    have : c = c0 := by
      unfold moves at hm
      exact Prod.ext (by omega) (Prod.ext (by omega) (by omega))
    rw [this]; exact hu
  | j + 1, c, hc, hm => by
    show ssprk3Step _ _ _ _ c = nan
    exact step_spread h v par dx _ _ _ h0 (r := 6 * j) (iterates_spread v par dx t d u0 h0 hu j) c hc (by omega)

end

end Madg
