/-
Coordinates (C06).
-/
import Verif.Proofs.Coords
import Mathlib.Data.Rat.Defs
import Mathlib.Algebra.Order.Field.Rat

namespace Madg
open Spec
variable {A K : Type} [DecidableEq A] [Field K] [CharZero K]

/-- Three dimensions: the constructor fills the coordinate arrays safely, touching nothing else; vertices are corner plus
integer multiples of `dx`, centres are corner plus half-integer multiples, neighbouring centres are `dx` apart, and the
vertices `0` and `ni` are the two ends of the box in x. -/
theorem C06_coordinates3 (g : Grid3) (hi : 1 ≤ g.ni) (xbeg xend ybeg zbeg : K)
    {sz : A → Int} (x y z xv yv zv : A) (hnd : [x, y, z, xv, yv, zv].Nodup)
    (hs : ∀ a ∈ [x, y, z], sz a = (g.ni + 2 * g.nhalo) * (g.nj + 2 * g.nhalo) * (g.nk + 2 * g.nhalo))
    (hsv : ∀ a ∈ [xv, yv, zv], sz a = (g.ni + 1 + 2 * g.nhalo) * (g.nj + 1 + 2 * g.nhalo) * (g.nk + 1 + 2 * g.nhalo))
    (m : Mem A K) (dx : K) (hdx : dx = (xend - xbeg) / (g.ni : K)) :
    ∃ m', Det sz (g.fillCoords ⟨xbeg, xend, ybeg, zbeg⟩ ⟨x, y, z, xv, yv, zv⟩) m m' ∧
      (∀ a, a ∉ [x, y, z, xv, yv, zv] → m' a = m a) ∧
      -- vertices
      (∀ i j k, -g.nhalo ≤ i → i ≤ g.ni + g.nhalo → -g.nhalo ≤ j → j ≤ g.nj + g.nhalo → -g.nhalo ≤ k → k ≤ g.nk + g.nhalo →
        m' xv (g.vert.at3 i j k) = xbeg + (i : K) * dx ∧ m' yv (g.vert.at3 i j k) = ybeg + (j : K) * dx ∧
        m' zv (g.vert.at3 i j k) = zbeg + (k : K) * dx) ∧
      -- centres
      (∀ i j k, -g.nhalo ≤ i → i < g.ni + g.nhalo → -g.nhalo ≤ j → j < g.nj + g.nhalo → -g.nhalo ≤ k → k < g.nk + g.nhalo →
        m' x (g.at3 i j k) = xbeg + ((i : K) + 1 / 2) * dx ∧ m' y (g.at3 i j k) = ybeg + ((j : K) + 1 / 2) * dx ∧
        m' z (g.at3 i j k) = zbeg + ((k : K) + 1 / 2) * dx) ∧
      -- spacing of the centres
      (∀ i j k, -g.nhalo ≤ i → i + 1 < g.ni + g.nhalo → -g.nhalo ≤ j → j < g.nj + g.nhalo → -g.nhalo ≤ k → k < g.nk + g.nhalo →
        m' x (g.at3 (i + 1) j k) - m' x (g.at3 i j k) = dx) ∧
      (∀ i j k, -g.nhalo ≤ i → i < g.ni + g.nhalo → -g.nhalo ≤ j → j + 1 < g.nj + g.nhalo → -g.nhalo ≤ k → k < g.nk + g.nhalo →
        m' y (g.at3 i (j + 1) k) - m' y (g.at3 i j k) = dx) ∧
      (∀ i j k, -g.nhalo ≤ i → i < g.ni + g.nhalo → -g.nhalo ≤ j → j < g.nj + g.nhalo → -g.nhalo ≤ k → k + 1 < g.nk + g.nhalo →
        m' z (g.at3 i j (k + 1)) - m' z (g.at3 i j k) = dx) ∧
      -- ends of the box in x
      (0 ≤ g.nhalo → ∀ j k, 0 ≤ j → j ≤ g.nj → 0 ≤ k → k ≤ g.nk →
        m' xv (g.vert.at3 0 j k) = xbeg ∧ m' xv (g.vert.at3 g.ni j k) = xend) := by
  obtain ⟨m', d, v, c, f⟩ := coords3_det (K := K) (g := g) (sz := sz) (w := ⟨x, y, z, xv, yv, zv⟩) ⟨hnd, hs, hsv⟩ ⟨xbeg, xend, ybeg, zbeg⟩ m
  have hb : (Box.mk xbeg xend ybeg zbeg).dx g.ni = dx := hdx.symm
  rw [hb] at v c
  have c' : ∀ i j k, -g.nhalo ≤ i → i < g.ni + g.nhalo → -g.nhalo ≤ j → j < g.nj + g.nhalo → -g.nhalo ≤ k → k < g.nk + g.nhalo →
        m' x (g.at3 i j k) = xbeg + ((i : K) + 1 / 2) * dx ∧ m' y (g.at3 i j k) = ybeg + ((j : K) + 1 / 2) * dx ∧
        m' z (g.at3 i j k) = zbeg + ((k : K) + 1 / 2) * dx := by
    intro i j k h1 h2 h3 h4 h5 h6
    obtain ⟨e1, e2, e3⟩ := c i j k ⟨⟨h1, h2⟩, ⟨h3, h4⟩, ⟨h5, h6⟩⟩
    simp only at e1 e2 e3
    rw [e1, e2, e3]
    push_cast
    refine ⟨?_, ?_, ?_⟩ <;> field_simp <;> ring
  have v' : ∀ i j k, -g.nhalo ≤ i → i ≤ g.ni + g.nhalo → -g.nhalo ≤ j → j ≤ g.nj + g.nhalo → -g.nhalo ≤ k → k ≤ g.nk + g.nhalo →
        m' xv (g.vert.at3 i j k) = xbeg + (i : K) * dx ∧ m' yv (g.vert.at3 i j k) = ybeg + (j : K) * dx ∧
        m' zv (g.vert.at3 i j k) = zbeg + (k : K) * dx := by
    intro i j k h1 h2 h3 h4 h5 h6
    have := v i j k (Grid3.vert_pad.2 ⟨⟨h1, by omega⟩, ⟨h3, by omega⟩, ⟨h5, by omega⟩⟩)
    simpa only [mul_comm] using this
  refine ⟨m', d, f, v', c', ?_, ?_, ?_, ?_⟩
  · intro i j k h1 h2 h3 h4 h5 h6
    rw [(c' (i + 1) j k (by omega) h2 h3 h4 h5 h6).1, (c' i j k h1 (by omega) h3 h4 h5 h6).1]
    push_cast; ring
  · intro i j k h1 h2 h3 h4 h5 h6
    rw [(c' i (j + 1) k h1 h2 (by omega) h4 h5 h6).2.1, (c' i j k h1 h2 h3 (by omega) h5 h6).2.1]
    push_cast; ring
  · intro i j k h1 h2 h3 h4 h5 h6
    rw [(c' i j (k + 1) h1 h2 h3 h4 (by omega) h6).2.2, (c' i j k h1 h2 h3 h4 h5 (by omega)).2.2]
    push_cast; ring
  · intro hh j k h1 h2 h3 h4
    have hn : (g.ni : K) ≠ 0 := by
      have : g.ni ≠ 0 := by omega
      exact_mod_cast this
    rw [(v' 0 j k (by omega) (by omega) (by omega) (by omega) (by omega) (by omega)).1,
      (v' g.ni j k (by omega) (by omega) (by omega) (by omega) (by omega) (by omega)).1, hdx]
    refine ⟨by simp, by field_simp; ring⟩

/-- Two dimensions. -/
theorem C06_coordinates2 (n nhalo : Int) (hi : 1 ≤ n) (xbeg xend ybeg zbeg : K) (g : Grid2) (hg : g = ⟨n, n, nhalo⟩)
    {sz : A → Int} (x y z xv yv zv : A) (hnd : [x, y, xv, yv].Nodup)
    (hs : ∀ a ∈ [x, y], sz a = (n + 2 * nhalo) * (n + 2 * nhalo))
    (hsv : ∀ a ∈ [xv, yv], sz a = (n + 1 + 2 * nhalo) * (n + 1 + 2 * nhalo))
    (m : Mem A K) (dx : K) (hdx : dx = (xend - xbeg) / (n : K)) :
    ∃ m', Det sz (g.fillCoords ⟨xbeg, xend, ybeg, zbeg⟩ ⟨x, y, z, xv, yv, zv⟩) m m' ∧
      (∀ a, a ∉ [x, y, xv, yv] → m' a = m a) ∧
      (∀ i j, -nhalo ≤ i → i ≤ n + nhalo → -nhalo ≤ j → j ≤ n + nhalo →
        m' xv (g.vert.at2 i j) = xbeg + (i : K) * dx ∧ m' yv (g.vert.at2 i j) = ybeg + (j : K) * dx) ∧
      (∀ i j, -nhalo ≤ i → i < n + nhalo → -nhalo ≤ j → j < n + nhalo →
        m' x (g.at2 i j) = xbeg + ((i : K) + 1 / 2) * dx ∧ m' y (g.at2 i j) = ybeg + ((j : K) + 1 / 2) * dx) ∧
      (∀ i j, -nhalo ≤ i → i + 1 < n + nhalo → -nhalo ≤ j → j < n + nhalo →
        m' x (g.at2 (i + 1) j) - m' x (g.at2 i j) = dx) ∧
      (∀ i j, -nhalo ≤ i → i < n + nhalo → -nhalo ≤ j → j + 1 < n + nhalo →
        m' y (g.at2 i (j + 1)) - m' y (g.at2 i j) = dx) ∧
      (0 ≤ nhalo → ∀ j, 0 ≤ j → j ≤ n → m' xv (g.vert.at2 0 j) = xbeg ∧ m' xv (g.vert.at2 n j) = xend) := by
  subst hg
  obtain ⟨m', d, v, c, f⟩ := coords2_det (K := K) (g := ⟨n, n, nhalo⟩) rfl (sz := sz) (w := ⟨x, y, z, xv, yv, zv⟩) hnd hs hsv ⟨xbeg, xend, ybeg, zbeg⟩ m
  have hb : (Box.mk xbeg xend ybeg zbeg).dx n = dx := hdx.symm
  simp only [hb] at v c
  have c' : ∀ i j, -nhalo ≤ i → i < n + nhalo → -nhalo ≤ j → j < n + nhalo →
        m' x ((Grid2.mk n n nhalo).at2 i j) = xbeg + ((i : K) + 1 / 2) * dx ∧
        m' y ((Grid2.mk n n nhalo).at2 i j) = ybeg + ((j : K) + 1 / 2) * dx := by
    intro i j h1 h2 h3 h4
    obtain ⟨e1, e2⟩ := c i j ⟨⟨h1, h2⟩, ⟨h3, h4⟩⟩
    rw [e1, e2]
    push_cast
    refine ⟨?_, ?_⟩ <;> field_simp <;> ring
  have v' : ∀ i j, -nhalo ≤ i → i ≤ n + nhalo → -nhalo ≤ j → j ≤ n + nhalo →
        m' xv ((Grid2.mk n n nhalo).vert.at2 i j) = xbeg + (i : K) * dx ∧
        m' yv ((Grid2.mk n n nhalo).vert.at2 i j) = ybeg + (j : K) * dx := by
    intro i j h1 h2 h3 h4
    have := v i j ((Grid2.vert_pad rfl).2 ⟨⟨h1, by simp only; omega⟩, ⟨h3, by simp only; omega⟩⟩)
    simpa only [mul_comm] using this
  refine ⟨m', d, f, v', c', ?_, ?_, ?_⟩
  · intro i j h1 h2 h3 h4
    rw [(c' (i + 1) j (by omega) h2 h3 h4).1, (c' i j h1 (by omega) h3 h4).1]
    push_cast; ring
  · intro i j h1 h2 h3 h4
    rw [(c' i (j + 1) h1 h2 (by omega) h4).2, (c' i j h1 h2 h3 (by omega)).2]
    push_cast; ring
  · intro hh j h1 h2
    have hn : (n : K) ≠ 0 := by
      have : n ≠ 0 := by omega
      exact_mod_cast this
    rw [(v' 0 j (by omega) (by omega) (by omega) (by omega)).1, (v' n j (by omega) (by omega) (by omega) (by omega)).1, hdx]
    refine ⟨by simp, by field_simp; ring⟩

/-- A 4×3×2 box with two halo layers, arrays numbered 0…5. -/
example : ∃ m', Det (fun a : Fin 6 => if a.val < 3 then 336 else 504)
    ((Grid3.mk 4 3 2 2).fillCoords (⟨-1, 3, 0, 5⟩ : Box ℚ) ⟨0, 1, 2, 3, 4, 5⟩) (fun _ _ => 0) m' ∧
    m' 0 ((Grid3.mk 4 3 2 2).at3 0 0 0) = -1 / 2 := by
  obtain ⟨m', d, -, -, c, -⟩ := C06_coordinates3 (K := ℚ) (Grid3.mk 4 3 2 2) (by decide) (-1) 3 0 5
    (sz := fun a : Fin 6 => if a.val < 3 then 336 else 504) 0 1 2 3 4 5 (by decide) (by decide) (by decide) (fun _ _ => 0) 1 (by norm_num)
  refine ⟨m', d, ?_⟩
  rw [(c 0 0 0 (by decide) (by decide) (by decide) (by decide) (by decide) (by decide)).1]
  norm_num

end Madg
