/-
No overflow in the index arithmetic.
-/
import Verif.Model.Int32
import Verif.Proofs.Grid3
import Verif.Proofs.Grid2
import Mathlib.Tactic.Linarith

namespace Madg

theorem chk32_ok {x : Int} (h0 : -2147483648 ≤ x) (h1 : x ≤ 2147483647) : chk32 x = some x := if_pos ⟨h0, h1⟩

theorem chk32_fail {x : Int} (h : 2147483647 < x) : chk32 x = none := if_neg fun hx => by
  have := hx.2; omega

theorem add32_ok {a b : Int} (h0 : -2147483648 ≤ a + b) (h1 : a + b ≤ 2147483647) : add32 a b = some (a + b) := chk32_ok h0 h1
theorem sub32_ok {a b : Int} (h0 : -2147483648 ≤ a - b) (h1 : a - b ≤ 2147483647) : sub32 a b = some (a - b) := chk32_ok h0 h1
theorem mul32_ok {a b : Int} (h0 : -2147483648 ≤ a * b) (h1 : a * b ≤ 2147483647) : mul32 a b = some (a * b) := chk32_ok h0 h1

theorem tdiv_range {a b : Int} (ha : 0 ≤ a) (hb : 1 ≤ b) : 0 ≤ a.tdiv b ∧ a.tdiv b ≤ a := by
  rw [Int.tdiv_eq_ediv_of_nonneg ha]
  exact ⟨Int.ediv_nonneg ha (by omega), Int.ediv_le_self b ha⟩

theorem div32_ok {a b : Int} (ha : 0 ≤ a) (h1 : a ≤ 2147483647) (hb : 1 ≤ b) : div32 a b = some (a.tdiv b) := by
  unfold div32
  obtain ⟨h2, h3⟩ := tdiv_range ha hb
  rw [if_neg (by omega)]
  exact chk32_ok (by omega) (by omega)

theorem mod32_ok {a b : Int} (ha : 0 ≤ a) (h1 : a ≤ 2147483647) (hb : 1 ≤ b) : mod32 a b = some (a.tmod b) := by
  unfold mod32
  obtain ⟨h2, h3⟩ := tdiv_range ha hb
  rw [if_neg (by omega), chk32_ok (by omega) (by omega)]
  rfl

theorem padded32_ok {n h : Int} (hn : 1 ≤ n) (hh : 0 ≤ h) (hv : n + 2 * h ≤ 2147483647) : padded32 n h = some (n + 2 * h) := by
  unfold padded32
  rw [mul32_ok (by omega) (by omega)]
  exact add32_ok (by omega) (by omega)

theorem padded32_fail {n h : Int} (_hn : 1 ≤ n) (hh : 0 ≤ h) (hv : 2147483647 < n + 2 * h) : padded32 n h = none := by
  unfold padded32 mul32
  by_cases h2 : 2 * h ≤ 2147483647
  · rw [chk32_ok (by omega) h2]
    exact chk32_fail hv
  · rw [chk32_fail (by omega)]; rfl

theorem le_mul_right' {a b : Int} (ha : 0 ≤ a) (hb : 1 ≤ b) : a ≤ a * b := by nlinarith
theorem le_mul_left' {a b : Int} (ha : 0 ≤ a) (hb : 1 ≤ b) : a ≤ b * a := by nlinarith

/-- Bounds following from the padded volume. -/
theorem vol_bounds {a b c : Int} (ha : 1 ≤ a) (hb : 1 ≤ b) (hc : 1 ≤ c) :
    a ≤ a * b * c ∧ b ≤ a * b * c ∧ c ≤ a * b * c ∧ a * b ≤ a * b * c ∧ b * c ≤ a * b * c ∧ 1 ≤ b * c ∧ 1 ≤ a * b := by
  have hab : 1 ≤ a * b := by nlinarith
  have hbc : 1 ≤ b * c := by nlinarith
  have e : a * b * c = a * (b * c) := by ring
  have h1 : a * b ≤ a * b * c := le_mul_right' (by omega) hc
  have h2 : c ≤ a * b * c := le_mul_left' (by omega) hab
  have h3 : b * c ≤ a * b * c := by rw [e]; exact le_mul_left' (by omega) ha
  have h4 : a ≤ a * b := le_mul_right' (by omega) hb
  have h5 : b ≤ a * b := le_mul_left' (by omega) ha
  exact ⟨by omega, by omega, h2, h1, h3, hbc, hab⟩

section
variable {g : Grid3} (hg : g.Ok) (hv : g.size ≤ 2147483647)
include hg

theorem Grid3.ext_pos : 1 ≤ g.nih ∧ 1 ≤ g.njh ∧ 1 ≤ g.nkh := by
  obtain ⟨hi, hj, hk, hh⟩ := hg
  unfold Grid3.nih Grid3.njh Grid3.nkh
  omega

include hv

theorem Grid3.padded_ok : padded32 g.ni g.nhalo = some g.nih ∧ padded32 g.nj g.nhalo = some g.njh ∧
    padded32 g.nk g.nhalo = some g.nkh := by
  obtain ⟨p1, p2, p3⟩ := Grid3.ext_pos hg
  obtain ⟨b1, b2, b3, -⟩ := vol_bounds p1 p2 p3
  obtain ⟨hi, hj, hk, hh⟩ := hg
  have hs : g.size = g.nih * g.njh * g.nkh := rfl
  rw [hs] at hv
  exact ⟨padded32_ok hi hh (b1.trans hv), padded32_ok hj hh (b2.trans hv), padded32_ok hk hh (b3.trans hv)⟩

theorem Grid3.at32_ok {i j k : Int} (hp : g.Pad i j k) : g.at32 i j k = some (g.at3 i j k) := by
  obtain ⟨p1, p2, p3⟩ := Grid3.ext_pos hg
  obtain ⟨b1, b2, b3, b4, b5, b6, b7⟩ := vol_bounds p1 p2 p3
  obtain ⟨-, e2, e3⟩ := Grid3.padded_ok hg hv
  have hb := Grid3.at3_bounds hp
  have hh := hg.hh
  unfold Grid3.at32
  rw [e2, e3]
  show get1DindexFrom3D32 i j k g.nhalo g.njh g.nkh = _
  unfold Grid3.at3 get1DindexFrom3D at hb ⊢
  have hs : g.size = g.nih * g.njh * g.nkh := rfl
  rw [hs] at hv hb
  obtain ⟨⟨i1, i2⟩, ⟨j1, j2⟩, ⟨k1, k2⟩⟩ := hp
  have k3 : k + g.nhalo < g.nkh := by unfold Grid3.nkh; omega
  have j3 : j + g.nhalo < g.njh := by unfold Grid3.njh; omega
  have i3 : i + g.nhalo < g.nih := by unfold Grid3.nih; omega
  have n1 : 0 ≤ (i + g.nhalo) * (g.njh * g.nkh) := mul_nonneg (by omega) (by omega)
  have n2 : 0 ≤ (j + g.nhalo) * g.nkh := mul_nonneg (by omega) (by omega)
  unfold get1DindexFrom3D32
  rw [add32_ok (by omega) (by omega)]
  show (do
    let b ← mul32 g.njh g.nkh
    let ab ← mul32 (i + g.nhalo) b
    let c ← add32 j g.nhalo
    let d ← mul32 c g.nkh
    let e ← add32 ab d
    let f ← add32 k g.nhalo
    add32 e f : Option Int) = _
  rw [mul32_ok (by omega) (by omega)]
  show (do
    let ab ← mul32 (i + g.nhalo) (g.njh * g.nkh)
    let c ← add32 j g.nhalo
    let d ← mul32 c g.nkh
    let e ← add32 ab d
    let f ← add32 k g.nhalo
    add32 e f : Option Int) = _
  rw [mul32_ok (by omega) (by omega), add32_ok (by omega) (by omega)]
  show (do
    let d ← mul32 (j + g.nhalo) g.nkh
    let e ← add32 ((i + g.nhalo) * (g.njh * g.nkh)) d
    let f ← add32 k g.nhalo
    add32 e f : Option Int) = _
  rw [mul32_ok (by omega) (by omega), add32_ok (a := k) (by omega) (by omega)]
  show (do
    let e ← add32 ((i + g.nhalo) * (g.njh * g.nkh)) ((j + g.nhalo) * g.nkh)
    add32 e (k + g.nhalo) : Option Int) = _
  rw [add32_ok (by omega) (by omega)]
  exact add32_ok (by omega) (by omega)

theorem Grid3.getIJK32_ok {n : Int} (h0 : 0 ≤ n) (h1 : n < g.size) :
    g.getIJK32 n = some (g.getI n, g.getJ n, g.getK n) := by
  obtain ⟨p1, p2, p3⟩ := Grid3.ext_pos hg
  obtain ⟨b1, b2, b3, b4, b5, b6, b7⟩ := vol_bounds p1 p2 p3
  obtain ⟨-, e2, e3⟩ := Grid3.padded_ok hg hv
  have hh := hg.hh
  have hp := Grid3.pad_get hg h0 h1
  have hni : g.nih = g.ni + 2 * g.nhalo := rfl
  have hnj : g.njh = g.nj + 2 * g.nhalo := rfl
  have hnk : g.nkh = g.nk + 2 * g.nhalo := rfl
  obtain ⟨hi, hj, hk, -⟩ := hg
  obtain ⟨⟨i1, i2⟩, ⟨j1, j2⟩, ⟨k1, k2⟩⟩ := hp
  have hs : g.size = g.nih * g.njh * g.nkh := rfl
  rw [hs] at hv h1
  obtain ⟨q0, q1⟩ := tdiv_range h0 p3
  unfold Grid3.getIJK32
  unfold Grid3.getI Grid3.getJ Grid3.getK at *
  rw [e2, e3]
  simp only [Option.bind_eq_bind, Option.bind_some, Option.pure_def]
  rw [mul32_ok (by omega) (by omega)]
  simp only [Option.bind_some]
  rw [div32_ok h0 (by omega) b6, div32_ok h0 (by omega) p3, mod32_ok h0 (by omega) p3]
  simp only [Option.bind_some]
  rw [mod32_ok q0 (by omega) p2, sub32_ok (by omega) (by omega)]
  simp only [Option.bind_some]
  rw [sub32_ok (by omega) (by omega), sub32_ok (by omega) (by omega)]
  rfl

end

theorem Grid3.size32_iff {g : Grid3} (hg : g.Ok) : (g.size ≤ 2147483647 → g.size32 = some g.size) ∧
    (2147483647 < g.size → g.size32 = none) := by
  obtain ⟨p1, p2, p3⟩ := Grid3.ext_pos hg
  obtain ⟨b1, b2, b3, b4, b5, b6, b7⟩ := vol_bounds p1 p2 p3
  have hs : g.size = g.nih * g.njh * g.nkh := rfl
  constructor
  · intro hv
    obtain ⟨e1, e2, e3⟩ := Grid3.padded_ok hg hv
    rw [hs] at hv
    unfold Grid3.size32
    rw [e1, e2, e3]
    simp only [Option.bind_eq_bind, Option.bind_some]
    rw [mul32_ok (by omega) (by omega)]
    simp only [Option.bind_some]
    rw [mul32_ok (by omega) (by omega)]
    rfl
  · intro hv
    obtain ⟨hi, hj, hk, hh⟩ := hg
    rw [hs] at hv
    have hp : ∀ n, 1 ≤ n → padded32 n g.nhalo = some (n + 2 * g.nhalo) ∨ padded32 n g.nhalo = none := by
      intro n hn
      by_cases h : n + 2 * g.nhalo ≤ 2147483647
      · exact Or.inl (padded32_ok hn hh h)
      · exact Or.inr (padded32_fail hn hh (by omega))
    unfold Grid3.size32
    simp only [Option.bind_eq_bind]
    rcases hp g.ni hi with e | e
    · rw [e, Option.bind_some]
      rcases hp g.nj hj with e' | e'
      · rw [e', Option.bind_some]
        by_cases h : g.nih * g.njh ≤ 2147483647
        · have e3 : mul32 (g.ni + 2 * g.nhalo) (g.nj + 2 * g.nhalo) = some (g.nih * g.njh) := mul32_ok (a := g.nih) (b := g.njh) (by omega) h
          rw [e3, Option.bind_some]
          rcases hp g.nk hk with e'' | e''
          · rw [e'', Option.bind_some]; exact chk32_fail hv
          · rw [e'']; rfl
        · have e3 : mul32 (g.ni + 2 * g.nhalo) (g.nj + 2 * g.nhalo) = none := chk32_fail (by simpa [Grid3.nih, Grid3.njh] using h)
          rw [e3]; rfl
      · rw [e']; rfl
    · rw [e]; rfl

section
variable {g : Grid2} (hg : g.Ok) (hv : g.size ≤ 2147483647)
include hg hv

theorem Grid2.facts : 1 ≤ g.nih ∧ 1 ≤ g.njh ∧ g.nih ≤ 2147483647 ∧ g.njh ≤ 2147483647 ∧
    padded32 g.ni g.nhalo = some g.nih ∧ padded32 g.nj g.nhalo = some g.njh := by
  obtain ⟨hi, hj, hh⟩ := hg
  have p1 : 1 ≤ g.nih := by unfold Grid2.nih; omega
  have p2 : 1 ≤ g.njh := by unfold Grid2.njh; omega
  have hs : g.size = g.nih * g.njh := rfl
  rw [hs] at hv
  have h1 : g.nih ≤ 2147483647 := (le_mul_right' (by omega) p2).trans hv
  have h2 : g.njh ≤ 2147483647 := (le_mul_left' (by omega) p1).trans hv
  exact ⟨p1, p2, h1, h2, padded32_ok hi hh h1, padded32_ok hj hh h2⟩

theorem Grid2.at32_ok {i j : Int} (hp : g.Pad i j) : g.at32 i j = some (g.at2 i j) := by
  obtain ⟨p1, p2, h1, h2, -, e2⟩ := Grid2.facts hg hv
  have hb := Grid2.at2_bounds hp
  obtain ⟨hi, hj, hh⟩ := hg
  obtain ⟨⟨i1, i2⟩, ⟨j1, j2⟩⟩ := hp
  have i3 : i + g.nhalo < g.nih := by unfold Grid2.nih; omega
  have hnj : g.njh = g.nj + 2 * g.nhalo := rfl
  have hs : g.size = g.nih * g.njh := rfl
  rw [hs] at hv hb
  have n1 : 0 ≤ (i + g.nhalo) * g.njh := mul_nonneg (by omega) (by omega)
  have n2 : (i + g.nhalo) * g.njh + g.njh ≤ g.nih * g.njh := by nlinarith
  unfold Grid2.at32
  rw [e2]
  simp only [Option.bind_eq_bind, Option.bind_some]
  unfold get1Dindex32
  unfold Grid2.at2 get1Dindex at *
  rw [add32_ok (by omega) (by omega)]
  simp only [Option.bind_eq_bind, Option.bind_some]
  rw [mul32_ok (by omega) (by omega)]
  simp only [Option.bind_some]
  rw [add32_ok (by omega) (by omega)]
  simp only [Option.bind_some]
  exact add32_ok (by omega) (by omega)

theorem Grid2.getIJ32_ok {n : Int} (h0 : 0 ≤ n) (h1 : n < g.size) : g.getIJ32 n = some (g.getI n, g.getJ n) := by
  obtain ⟨p1, p2, h1', h2', -, e2⟩ := Grid2.facts hg hv
  obtain ⟨⟨⟨i1, i2⟩, ⟨j1, j2⟩⟩, -⟩ := Grid2.pad_get hg h0 h1
  obtain ⟨hi, hj, hh⟩ := hg
  have hni : g.nih = g.ni + 2 * g.nhalo := rfl
  have hnj : g.njh = g.nj + 2 * g.nhalo := rfl
  unfold Grid2.getIJ32
  unfold Grid2.getI Grid2.getJ at *
  rw [e2]
  simp only [Option.bind_eq_bind, Option.bind_some, Option.pure_def]
  rw [div32_ok h0 (by omega) p2, mod32_ok h0 (by omega) p2]
  simp only [Option.bind_some]
  rw [sub32_ok (by omega) (by omega), sub32_ok (by omega) (by omega)]
  rfl

theorem Grid2.size32_ok : g.size32 = some g.size := by
  obtain ⟨p1, p2, h1', h2', e1, e2⟩ := Grid2.facts hg hv
  have hs : g.size = g.nih * g.njh := rfl
  have : 0 ≤ g.nih * g.njh := mul_nonneg (by omega) (by omega)
  rw [hs] at hv
  unfold Grid2.size32
  rw [e1, e2]
  simp only [Option.bind_eq_bind, Option.bind_some]
  rw [mul32_ok (by omega) (by omega)]
  rfl

end

end Madg
