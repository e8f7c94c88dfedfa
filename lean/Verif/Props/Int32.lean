/-
32-bit index arithmetic and recorded sizes (C03).
-/
import Verif.Proofs.Int32

namespace Madg

/-- Three dimensions: when the padded volume fits in `int`, element offsets and their inverse evaluate without signed
overflow or division by zero, and give the exact values. -/
theorem C03_index3_no_overflow (g : Grid3) (hi : 1 ≤ g.ni) (hj : 1 ≤ g.nj) (hk : 1 ≤ g.nk) (hh : 0 ≤ g.nhalo)
    (hv : (g.ni + 2 * g.nhalo) * (g.nj + 2 * g.nhalo) * (g.nk + 2 * g.nhalo) ≤ 2147483647) :
    (∀ i j k, -g.nhalo ≤ i → i < g.ni + g.nhalo → -g.nhalo ≤ j → j < g.nj + g.nhalo →
      -g.nhalo ≤ k → k < g.nk + g.nhalo →
      g.at32 i j k = some ((i + g.nhalo) * ((g.nj + 2 * g.nhalo) * (g.nk + 2 * g.nhalo)) +
        (j + g.nhalo) * (g.nk + 2 * g.nhalo) + (k + g.nhalo)) ∧
      (g.at32 i j k).bind g.getIJK32 = some (i, j, k)) ∧
    (∀ n, 0 ≤ n → n < (g.ni + 2 * g.nhalo) * (g.nj + 2 * g.nhalo) * (g.nk + 2 * g.nhalo) →
      ∃ i j k, g.getIJK32 n = some (i, j, k) ∧ g.at32 i j k = some n ∧
        (-g.nhalo ≤ i ∧ i < g.ni + g.nhalo) ∧ (-g.nhalo ≤ j ∧ j < g.nj + g.nhalo) ∧ (-g.nhalo ≤ k ∧ k < g.nk + g.nhalo)) := by
  have hg : g.Ok := ⟨hi, hj, hk, hh⟩
  have hv' : g.size ≤ 2147483647 := hv
  refine ⟨?_, ?_⟩
  · intro i j k h1 h2 h3 h4 h5 h6
    have hp : g.Pad i j k := ⟨⟨h1, h2⟩, ⟨h3, h4⟩, ⟨h5, h6⟩⟩
    have hb := Grid3.at3_bounds hp
    refine ⟨Grid3.at32_ok hg hv' hp, ?_⟩
    rw [Grid3.at32_ok hg hv' hp, Option.bind_some, Grid3.getIJK32_ok hg hv' hb.1 hb.2, Grid3.getI_at3 hp, Grid3.getJ_at3 hp,
      Grid3.getK_at3 hp]
  · intro n h0 h1
    have hp := Grid3.pad_get hg h0 h1
    refine ⟨_, _, _, Grid3.getIJK32_ok hg hv' h0 h1, ?_, hp.1, hp.2.1, hp.2.2⟩
    rw [Grid3.at32_ok hg hv' hp, Grid3.at3_get hg h0]

/-- The element count handed to the allocator overflows exactly when the padded volume exceeds `INT_MAX`. -/
theorem C03_size3_overflow_iff (g : Grid3) (hi : 1 ≤ g.ni) (hj : 1 ≤ g.nj) (hk : 1 ≤ g.nk) (hh : 0 ≤ g.nhalo) :
    ((g.ni + 2 * g.nhalo) * (g.nj + 2 * g.nhalo) * (g.nk + 2 * g.nhalo) ≤ 2147483647 →
      g.size32 = some ((g.ni + 2 * g.nhalo) * (g.nj + 2 * g.nhalo) * (g.nk + 2 * g.nhalo))) ∧
    (2147483647 < (g.ni + 2 * g.nhalo) * (g.nj + 2 * g.nhalo) * (g.nk + 2 * g.nhalo) → g.size32 = none) :=
  Grid3.size32_iff ⟨hi, hj, hk, hh⟩

/-- Two dimensions. -/
theorem C03_index2_no_overflow (g : Grid2) (hi : 1 ≤ g.ni) (hj : 1 ≤ g.nj) (hh : 0 ≤ g.nhalo)
    (hv : (g.ni + 2 * g.nhalo) * (g.nj + 2 * g.nhalo) ≤ 2147483647) :
    g.size32 = some ((g.ni + 2 * g.nhalo) * (g.nj + 2 * g.nhalo)) ∧
    (∀ i j, -g.nhalo ≤ i → i < g.ni + g.nhalo → -g.nhalo ≤ j → j < g.nj + g.nhalo →
      g.at32 i j = some ((i + g.nhalo) * (g.nj + 2 * g.nhalo) + g.nhalo + j) ∧
      (g.at32 i j).bind g.getIJ32 = some (i, j)) ∧
    (∀ n, 0 ≤ n → n < (g.ni + 2 * g.nhalo) * (g.nj + 2 * g.nhalo) →
      ∃ i j, g.getIJ32 n = some (i, j) ∧ g.at32 i j = some n ∧
        (-g.nhalo ≤ i ∧ i < g.ni + g.nhalo) ∧ (-g.nhalo ≤ j ∧ j < g.nj + g.nhalo)) := by
  have hg : g.Ok := ⟨hi, hj, hh⟩
  have hv' : g.size ≤ 2147483647 := hv
  refine ⟨Grid2.size32_ok hg hv', ?_, ?_⟩
  · intro i j h1 h2 h3 h4
    have hp : g.Pad i j := ⟨⟨h1, h2⟩, ⟨h3, h4⟩⟩
    have hb := Grid2.at2_bounds hp
    refine ⟨Grid2.at32_ok hg hv' hp, ?_⟩
    rw [Grid2.at32_ok hg hv' hp, Option.bind_some, Grid2.getIJ32_ok hg hv' hb.1 hb.2, (Grid2.get_at2 hp).1, (Grid2.get_at2 hp).2]
  · intro n h0 h1
    obtain ⟨hp, he⟩ := Grid2.pad_get hg h0 h1
    refine ⟨_, _, Grid2.getIJ32_ok hg hv' h0 h1, ?_, hp.1, hp.2⟩
    rw [Grid2.at32_ok hg hv' hp, he]

/-- The size an array reports is the requested element count exactly when the byte count fits in `int_t`. Element sizes
are 4 (`int_t`, `float`) and 8 (`double`). -/
theorem C03_reported_size (e n : Int) (he : e = 4 ∨ e = 8) (hn : 0 ≤ n) (hn' : n ≤ 2147483647) :
    reportedSize e n = n ↔ n * e ≤ 2147483647 := by
  unfold reportedSize recordedBytes toSizeT toInt32
  rcases he with rfl | rfl <;> constructor <;> intro h <;> omega

/-- Counterexamples to the unrestricted claim, both of at most `INT_MAX` elements: 2^28 doubles report a negative size,
2^29 doubles report size 0. -/
theorem C03_reported_size_wrong :
    reportedSize 8 268435456 = -268435456 ∧ reportedSize 8 536870912 = 0 := by
  decide

/-- The hypotheses hold for a 1024³ grid with two halo layers, whose padded volume 1028³ fits in `int` while its byte
count does not. -/
example : (1 : Int) ≤ (Grid3.mk 1024 1024 1024 2).ni ∧
    ((1024 : Int) + 2 * 2) * (1024 + 2 * 2) * (1024 + 2 * 2) ≤ 2147483647 ∧
    ¬ (((1024 : Int) + 2 * 2) * (1024 + 2 * 2) * (1024 + 2 * 2)) * 8 ≤ 2147483647 := by decide

example : (Grid3.mk 1024 1024 1024 2).at32 1025 1025 1025 = some (1028 * 1028 * 1028 - 1) := by decide

end Madg
