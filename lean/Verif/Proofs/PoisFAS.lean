/-
The multigrid integrator on the Poisson problem implements the full approximation scheme.
-/
import Verif.Spec.PoisFAS
import Verif.Proofs.FAS
import Verif.Proofs.MGPoisson

set_option linter.unusedSectionVars false
set_option linter.unusedVariables false

namespace Madg
open Spec
variable {A K : Type} [DecidableEq A] [Field K] [CharZero K]
  {nlev : Nat} {g : Nat → Grid3} {bx bY bz : BCType} {G : Nat → Geom3} {mode : String}
  {arr : Nat → MGRole → A} {co : Nat → Fin 3 → A} {sz : A → Int}

theorem poissonMG_implements (hH : PHierOk nlev g bx bY bz G mode arr co sz) (dx : Nat → K) (sn cs : K → K) (cfl rf rc : K)
    (un : Bool) (m₀ : Mem A K) :
    (poissonMG nlev G dx sn cs co arr mode cfl rf rc un).Implements (fun ℓ => In3 (g ℓ).ni (g ℓ).nj (g ℓ).nk)
      (fun ℓ (c : Int × Int × Int) => (g ℓ).at3 c.1 c.2.1 c.2.2)
      (fun ℓ => poisF (dx ℓ) (g ℓ) (coordE sn cs g co m₀ ℓ)) (fun ℓ => fillP (g ℓ) (coordE sn cs g co m₀ ℓ))
      (fun ℓ => restrT (g (ℓ + 1)) (g ℓ))
      (fun ℓ => if mode = "nearest" then nearT (g (ℓ + 1)) (g ℓ) else linT (g (ℓ + 1)) (g ℓ))
      (poisFas g (coordE sn cs g co m₀) dx mode cfl rf rc) := by
  have hl := hH.levels
  refine ⟨fun _ _ _ _ _ => rfl, ?_, ?_, fun _ _ => rfl, fun _ => rfl⟩
  · intro ℓ hℓ w u hu c hc
    have hℓ' : ℓ + 1 < nlev := hℓ
    obtain ⟨h1, o1, e1, -⟩ := hl (ℓ + 1) hℓ'
    obtain ⟨ei, ej, ek, eh⟩ := (hl ℓ (by omega)).2.2.2 hℓ'
    obtain ⟨i, j, k⟩ := c
    have hin : (g (ℓ + 1)).Pad i j k := by unfold In3 at hc; unfold Grid3.Pad; dsimp only at hc; omega
    obtain ⟨g1, g2, g3⟩ := Grid3.get_at3 hin
    dsimp only
    unfold restrT poisFas
    rw [g1, g2, g3]
    dsimp only
    unfold In3 at hc
    dsimp only at hc
    have q : ∀ x y z, (x = 2 * i ∨ x = 2 * i + 1) → (y = 2 * j ∨ y = 2 * j + 1) → (z = 2 * k ∨ z = 2 * k + 1) →
        w ((g ℓ).at3 x y z) = u (x, y, z) := fun x y z hx hy hz =>
      hu (x, y, z) (by unfold In3; dsimp only; omega)
    unfold avg8
    dsimp only
    rw [q _ _ _ (Or.inl rfl) (Or.inl rfl) (Or.inl rfl), q _ _ _ (Or.inl rfl) (Or.inl rfl) (Or.inr rfl),
      q _ _ _ (Or.inl rfl) (Or.inr rfl) (Or.inl rfl), q _ _ _ (Or.inl rfl) (Or.inr rfl) (Or.inr rfl),
      q _ _ _ (Or.inr rfl) (Or.inl rfl) (Or.inl rfl), q _ _ _ (Or.inr rfl) (Or.inl rfl) (Or.inr rfl),
      q _ _ _ (Or.inr rfl) (Or.inr rfl) (Or.inl rfl), q _ _ _ (Or.inr rfl) (Or.inr rfl) (Or.inr rfl)]
  · intro ℓ hℓ w a a0 hw c hc
    have hℓ' : ℓ + 1 < nlev := hℓ
    obtain ⟨h1, o1, e1, -⟩ := hl (ℓ + 1) hℓ'
    obtain ⟨h0, -, -, hf⟩ := hl ℓ (by omega)
    obtain ⟨ei, ej, ek, eh⟩ := hf hℓ'
    have hsz : (poissonMG nlev G dx sn cs co arr mode cfl rf rc un).size (ℓ + 1) = (g (ℓ + 1)).size := congrArg Grid3.size e1
    rw [hsz] at hw
    obtain ⟨i, j, k⟩ := c
    unfold In3 at hc
    dsimp only at hc ⊢
    have hin : (g ℓ).Pad i j k := by unfold Grid3.Pad; omega
    obtain ⟨g1, g2, g3⟩ := Grid3.get_at3 hin
    have hw' : ∀ x y z, (g (ℓ + 1)).Pad x y z → w ((g (ℓ + 1)).at3 x y z) =
        extDirichlet (g (ℓ + 1)).ni (g (ℓ + 1)).nj (g (ℓ + 1)).nk (fun _ _ _ => 0) (fun i j k => a (i, j, k) - a0 (i, j, k)) x y z :=
      fun x y z hp => by
        obtain ⟨b0, b1⟩ := Grid3.at3_bounds hp
        obtain ⟨q1, q2, q3⟩ := Grid3.get_at3 hp
        rw [hw _ b0 b1]
        unfold fillP extDirichlet
        rw [q1, q2, q3]
        split
        · rfl
        · exact sub_self _
    unfold poisFas
    dsimp only
    split
    · unfold nearT
      rw [g1, g2, g3, hw' _ _ _ (by unfold Grid3.Pad; omega)]
      unfold extDirichlet
      rw [if_pos (by omega), wrapIdx_of_int (by omega) (by omega), wrapIdx_of_int (by omega) (by omega)]
    · unfold linT
      rw [g1, g2, g3]
      exact trilinSwapped_congr fun x y z hx hy hz => hw' x y z (by unfold Grid3.Pad; omega)

end Madg
