/-
Specification vocabulary for the free energy of a field on a periodic grid, with the long-range part that belongs to the
relaxation term `-σ(u - m)`.
-/
import Verif.Spec.Ops3
import Verif.Spec.Ops2
import Verif.Spec.Semi
import Verif.Spec.Sums
import Mathlib.Data.Real.Basic

namespace Madg.Spec

/-- Periodic continuation of a field on a 3D grid. -/
def per3 (ni nj nk : Int) (u : Int × Int × Int → ℝ) : Int → Int → Int → ℝ :=
  ext3 .periodic .periodic .periodic ni nj nk fun i j k => u (i, j, k)

/-- `φ` solves `Δφ = m - u` on the periodic grid. -/
noncomputable def Potential3 (dx m : ℝ) (ni nj nk : Int) (u φ : Int × Int × Int → ℝ) : Prop :=
  ∀ c, In3 ni nj nk c → lap3 dx (per3 ni nj nk φ) c.1 c.2.1 c.2.2 = m - u c

/-- Free energy: double well, interface, and `σ/2 ∑ |∇φ|²` of a potential `φ` of the field. -/
noncomputable def freeEnergy3 (p : CHParams ℝ) (dx : ℝ) (ni nj nk : Int) (u φ : Int × Int × Int → ℝ) : ℝ :=
  energy3 p.eps2 dx ni nj nk (per3 ni nj nk u) +
    p.sigma / 2 * (grad3 ni nj nk (per3 ni nj nk φ) (per3 ni nj nk φ) / dx ^ 2)

/-- Chemical potential `u³ - u - ε²Δu + σφ`. -/
noncomputable def chemPot3 (p : CHParams ℝ) (dx : ℝ) (ni nj nk : Int) (u φ : Int × Int × Int → ℝ) (i j k : Int) : ℝ :=
  per3 ni nj nk u i j k ^ 3 - per3 ni nj nk u i j k - p.eps2 * lap3 dx (per3 ni nj nk u) i j k + p.sigma * per3 ni nj nk φ i j k

/-- Dissipation `∑ |∇μ|²` of the chemical potential. -/
noncomputable def dissipation3 (p : CHParams ℝ) (dx : ℝ) (ni nj nk : Int) (u φ : Int × Int × Int → ℝ) : ℝ :=
  grad3 ni nj nk (chemPot3 p dx ni nj nk u φ) (chemPot3 p dx ni nj nk u φ) / dx ^ 2

/-- Periodic continuation of a field on a 2D grid. -/
def per2 (n : Int) (u : Int × Int → ℝ) : Int → Int → ℝ := ext2 n fun i j => u (i, j)

/-- `φ` solves `Δφ = m - u` on the periodic grid. -/
noncomputable def Potential2 (dx m : ℝ) (n : Int) (u φ : Int × Int → ℝ) : Prop :=
  ∀ c, In2 n c → lap2 dx (per2 n φ) c.1 c.2 = m - u c

/-- 2D version of `freeEnergy3`. -/
noncomputable def freeEnergy2 (p : CHParams ℝ) (dx : ℝ) (n : Int) (u φ : Int × Int → ℝ) : ℝ :=
  energy2 p.eps2 dx n n (per2 n u) + p.sigma / 2 * (grad2 n n (per2 n φ) (per2 n φ) / dx ^ 2)

/-- 2D version of `chemPot3`. -/
noncomputable def chemPot2 (p : CHParams ℝ) (dx : ℝ) (n : Int) (u φ : Int × Int → ℝ) (i j : Int) : ℝ :=
  per2 n u i j ^ 3 - per2 n u i j - p.eps2 * lap2 dx (per2 n u) i j + p.sigma * per2 n φ i j

/-- 2D version of `dissipation3`. -/
noncomputable def dissipation2 (p : CHParams ℝ) (dx : ℝ) (n : Int) (u φ : Int × Int → ℝ) : ℝ :=
  grad2 n n (chemPot2 p dx n u φ) (chemPot2 p dx n u φ) / dx ^ 2

end Madg.Spec
