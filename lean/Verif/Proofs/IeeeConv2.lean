/-
Steps of the explicit methods on 2D Cahn–Hilliard states of floating-point numbers as noisy steps of the exact scheme.
-/
import Verif.Proofs.IeeeCH2
import Verif.Proofs.IeeeConv
import Verif.Proofs.RoundConv2
import Mathlib.Logic.Encodable.Basic
import Mathlib.Logic.Equiv.List

set_option linter.unusedSectionVars false
set_option linter.unusedVariables false

namespace Madg
open Spec
variable {F : IeeeFmt}

/-- A place for every cell. -/
def cellLoc2 (c : Int × Int) : Int := (Encodable.encode c : Nat)

/-- A memory with given contents. -/
def memOf2 {K : Type} [Zero K] (g : Nat → Int × Int → K) : Mem Nat K := fun a n =>
  match (Encodable.decode n.toNat : Option (Int × Int)) with
  | some c => g a c
  | none => 0

theorem memOf_loc2 {K : Type} [Zero K] (g : Nat → Int × Int → K) (a : Nat) (c : Int × Int) : memOf2 g a (cellLoc2 c) = g a c := by
  unfold memOf2 cellLoc2
  rw [Int.toNat_natCast, Encodable.encodek]

section
variable {K : Type} [Arith K] (Φ : K → (Int × Int → K) → Int × Int → K) (P : Int × Int → Prop) (t dt : K)
  (x : Int × Int → K)

/-- A step of a method as a relation of memories. -/
theorem rk3_post_of2 : ∃ m m' : Mem Nat K, Rk3Post P cellLoc2 Φ ⟨0, 1, 2, 3, 4, 5, 6⟩ t dt m m' ∧
    (∀ c, m 0 (cellLoc2 c) = x c) ∧ (∀ c, m' 0 (cellLoc2 c) = (ssprk3Method Φ).step t dt x c) ∧
    (∀ c, m' 2 (cellLoc2 c) = Φ t x c) ∧ ∀ c, m' 3 (cellLoc2 c) = Φ (t + 1 * dt) (fun c => x c + dt * 1 * Φ t x c) c := by
  obtain ⟨k1, h1⟩ : ∃ k, k = Φ t x := ⟨_, rfl⟩
  obtain ⟨k2, h2⟩ : ∃ k, k = Φ (t + 1 * dt) (fun c => x c + dt * 1 * k1 c) := ⟨_, rfl⟩
  obtain ⟨k3, h3⟩ : ∃ k, k = Φ (t + 1 / 2 * dt) (fun c => x c + dt * (1 / 4 * k1 c + 1 / 4 * k2 c)) := ⟨_, rfl⟩
  obtain ⟨g, hg⟩ : ∃ g : Nat → Int × Int → K, g = fun a c => match a with
    | 2 => k1 c
    | 3 => k2 c
    | 4 => k3 c
    | 1 => 1 / 6 * k1 c + 1 / 6 * k2 c + 2 / 3 * k3 c
    | _ => x c + dt * (1 / 6 * k1 c + 1 / 6 * k2 c + 2 / 3 * k3 c) := ⟨_, rfl⟩
  have g2 : g 2 = k1 := by rw [hg]; rfl
  have g3 : g 3 = k2 := by rw [hg]; rfl
  have g4 : g 4 = k3 := by rw [hg]; rfl
  have g1 : ∀ c, g 1 c = 1 / 6 * k1 c + 1 / 6 * k2 c + 2 / 3 * k3 c := fun c => by rw [hg]; rfl
  have g0 : ∀ c, g 0 c = x c + dt * (1 / 6 * k1 c + 1 / 6 * k2 c + 2 / 3 * k3 c) := fun c => by rw [hg]; rfl
  have ein : inner cellLoc2 (memOf2 fun _ => x) 0 = x := funext fun c => memOf_loc2 (fun _ => x) 0 c
  refine ⟨memOf2 fun _ => x, memOf2 g, ⟨?_, ?_, ?_, ?_, ?_⟩, ?_, ?_, ?_, ?_⟩
  · intro c _
    dsimp only
    rw [ein, memOf_loc2, g2, h1]
  · intro c _
    simp only [memOf_loc2, g2, g3]
    rw [h2]
  · intro c _
    simp only [memOf_loc2, g2, g3, g4]
    rw [h3]
  · intro c _
    simp only [memOf_loc2, g2, g3, g4, g0]
  · intro c _
    simp only [memOf_loc2, g2, g3, g4, g1]
  · intro c; rw [memOf_loc2]
  · intro c
    rw [memOf_loc2, g0, h3, h2, h1]
    rfl
  · intro c; rw [memOf_loc2, g2, h1]
  · intro c; rw [memOf_loc2, g3, h2, h1]

theorem ode23_post_of2 (hΦ : ∀ s t, Φ s = Φ t) : ∃ m m' : Mem Nat K, Ode23Post P cellLoc2 Φ ⟨0, 1, 2, 3, 4, 5, 6⟩ t dt m m' ∧
    (∀ c, m 0 (cellLoc2 c) = x c) ∧ (∀ c, m' 0 (cellLoc2 c) = x c + dt * bs23Slope (Φ t) dt x c) ∧
    (∀ c, m' 2 (cellLoc2 c) = Φ t x c) ∧ ∀ c, m' 3 (cellLoc2 c) = Φ t (fun c => x c + dt * (1 / 2) * Φ t x c) c := by
  obtain ⟨k1, h1⟩ : ∃ k, k = Φ t x := ⟨_, rfl⟩
  obtain ⟨k2, h2⟩ : ∃ k, k = Φ t (fun c => x c + dt * (1 / 2) * k1 c) := ⟨_, rfl⟩
  obtain ⟨k3, h3⟩ : ∃ k, k = Φ t (fun c => x c + dt * (0 * k1 c + 3 / 4 * k2 c)) := ⟨_, rfl⟩
  obtain ⟨y, hy⟩ : ∃ y : Int × Int → K, y = fun c => x c + dt * (2 / 9 * k1 c + 1 / 3 * k2 c + 4 / 9 * k3 c) := ⟨_, rfl⟩
  obtain ⟨g, hg⟩ : ∃ g : Nat → Int × Int → K, g = fun a c => match a with
    | 2 => k1 c
    | 3 => k2 c
    | 4 => k3 c
    | 5 => Φ t y c
    | _ => y c := ⟨_, rfl⟩
  have g2 : g 2 = k1 := by rw [hg]; rfl
  have g3 : g 3 = k2 := by rw [hg]; rfl
  have g4 : g 4 = k3 := by rw [hg]; rfl
  have g5 : g 5 = Φ t y := by rw [hg]; rfl
  have g0 : g 0 = y := by rw [hg]; rfl
  have ein : inner cellLoc2 (memOf2 fun _ => x) 0 = x := funext fun c => memOf_loc2 (fun _ => x) 0 c
  have ein' : inner cellLoc2 (memOf2 g) 0 = y := funext fun c => (memOf_loc2 g 0 c).trans (by rw [g0])
  refine ⟨memOf2 fun _ => x, memOf2 g, ⟨?_, ?_, ?_, ?_, ?_⟩, ?_, ?_, ?_, ?_⟩
  · intro c _
    dsimp only
    rw [ein, memOf_loc2, g2, h1]
  · intro c _
    simp only [memOf_loc2, g2, g3]
    rw [h2]; exact congrFun (congrFun (hΦ _ _) _) _
  · intro c _
    simp only [memOf_loc2, g2, g3, g4]
    rw [h3]; exact congrFun (congrFun (hΦ _ _) _) _
  · intro c _
    dsimp only
    rw [ein', memOf_loc2, g5]; exact congrFun (congrFun (hΦ _ _) _) _
  · intro c _
    simp only [memOf_loc2, g2, g3, g4, g0]
    rw [hy]
  · intro c; rw [memOf_loc2]
  · intro c
    rw [memOf_loc2, g0, hy, h3, h2, h1]
    rfl
  · intro c; rw [memOf_loc2, g2, h1]
  · intro c; rw [memOf_loc2, g3, h2, h1]

end

section
variable (hp : 4 ≤ F.prec) (he : F.emin ≤ 0) (hm : 8 ≤ F.emax) {u τ : ℚ} (hr : Rounds F.toFloatFmt.round u τ)
  {n : Int} (hn : 1 ≤ n) {E M : ℚ} (hE : 1 ≤ E) (hM2 : 2 ≤ M)
  {p : CHParams (Ieee F)} {p' : CHParams (Fl F.toFloatFmt.round)}
  (h1 : Same p.eps2 p'.eps2 E) (h2 : Same p.sigma p'.sigma E) (h3 : Same p.m p'.m E) {dx : Ieee F} {dx' : Fl F.toFloatFmt.round}
  (hdx : Same dx dx' 1) (hs : Spacing τ dx'.val) (hX : 64 * chSize E M dx'.val < (2 : ℚ) ^ F.emax) (h34 : (1 + u) ^ 34 ≤ 5 / 4)
  {dt : Ieee F} {dt' : Fl F.toFloatFmt.round} (hdt : Same dt dt' 1) (hdt2 : 2 * τ ≤ dt'.val)
  (hd : dt'.val * rhsSize (valuesOf p') dx'.val M ≤ M / 4)
  {a : Int × Int → Ieee F} {x : Int × Int → Fl F.toFloatFmt.round} (ha : ∀ c, In2 n c → Same (a c) (x c) (M / 2))
include hp he hm hr hn hE hM2 h1 h2 h3 hdx hs hX h34 hdt hdt2 hd ha

omit hdt hdt2 hd h34 ha in
/-- The right-hand side of fields of ordinary numbers. -/
theorem same_field2 (a : Int × Int → Ieee F) (x : Int × Int → Fl F.toFloatFmt.round) (ha : ∀ c, In2 n c → Same (a c) (x c) M)
    (t : Ieee F) (t' : Fl F.toFloatFmt.round) (c : Int × Int) :
    Same (chFieldA2 p dx n t a c) (chFieldA2 p' dx' n t' x c) (chSize E M dx'.val) := by
  have := (chSize_ge hr (le_refl (1 : Int)) (le_refl (1 : Int)) (le_refl (1 : Int)) hE hM2 hdx hs).2
  exact Same.ch2 hp he hm hr hE (by linarith) h1 h2 h3 hdx hs (by linarith) (fun i j => ha _ ⟨wrapIdx_range i (by omega), wrapIdx_range j (by omega)⟩) _ _

/-- A step of rk3ssp from a state of ordinary numbers: the new state has ordinary numbers only, and the step is a noisy step of the exact
scheme. -/
theorem ieee_rk3_noisy2 (t : Ieee F) (y : Int × Int → Ieee F)
    (hy : y = (ssprk3Method (chFieldA2 p dx n)).step t dt a) :
    (∀ c, In2 n c → Ordinary (y c)) ∧
    NoisyCells ssp3c (cells2 n) (chField2 (realParams (valuesOf p')) (dx'.val : ℝ) n 0)
      (((9 / 4 * ((1 + u) ^ 34 - 1) : ℚ) : ℝ) * (M : ℝ)) (dt'.val : ℝ) (fun c => (value (a c) : ℝ)) (fun c => (value (y c) : ℝ)) := by
  obtain ⟨m, m', q, hm0, hs0, hk1, hk2⟩ := rk3_post_of2 (chFieldA2 p' dx' n) (In2 n) (asFl t) dt' x
  have b1 : ∀ c, In2 n c → |(m 0 (cellLoc2 c)).val| ≤ M / 2 := fun c hc => by rw [hm0]; exact (ha c hc).le
  have d0 : |dt'.val| = dt'.val := abs_of_nonneg (by have := hr.tiny.1; linarith)
  obtain ⟨-, x2, x3⟩ := Gen.rk3_stages hr (rhsSize_ge hr (le_refl (1 : Int)) (le_refl (1 : Int)) (le_refl (1 : Int)) (show 1 ≤ M by linarith) hs (p := p')) (FE := chField2 (valuesOf p') dx'.val n 0)
    (fun t y hy c _ => near_field2 hr hn (by linarith) hs hy c) (by linarith) h34 hM2 (by rw [d0]; exact hdt2) (by rw [d0]; exact hd) q b1
  have ns := rk3_noisy2 (A := Nat) (loc := cellLoc2) (w := ⟨0, 1, 2, 3, 4, 5, 6⟩) (m := m) (p := p') hr hn hM2 hs h34 hdt2 hd b1 q
  have sz := chSize_ge hr (le_refl (1 : Int)) (le_refl (1 : Int)) (le_refl (1 : Int)) hE hM2 hdx hs
  have same : ∀ c, In2 n c → Same (y c) (m' 0 (cellLoc2 c)) (64 * chSize E M dx'.val) := by
    intro c hc
    rw [hs0, hy]
    refine Same.rk3_bounded (P := In2 n) hp he hm (M := M) (Q := chSize E M dx'.val)
      (G := chFieldA2 p dx n t) (G' := chFieldA2 p' dx' n (asFl t))
      (fun a x hax c _ => same_field2 hp he hm hr hn hE hM2 h1 h2 h3 hdx hs hX a x hax t (asFl t) c)
      (by linarith) sz.1 hX hdt (fun c hc => (ha c hc).mono (by linarith)) t (asFl t) (fun c hc => ?_) (fun c hc => ?_) c hc
    · have := x2 c hc
      dsimp only at this
      rw [hm0, hk1] at this
      exact this
    · have := x3 c hc
      dsimp only at this
      rw [hm0, hk1, hk2] at this
      exact this
  refine ⟨fun c hc => (same c hc).ord, ?_⟩
  have e1 : ∀ c ∈ cells2 n, (value (a c) : ℝ) = ((m 0 (cellLoc2 c)).val : ℝ) := fun c hc => by
    rw [hm0, (ha c ((mem_cells2 n c).1 hc)).val]
  have e2 : ∀ c ∈ cells2 n, (value (y c) : ℝ) = ((m' 0 (cellLoc2 c)).val : ℝ) := fun c hc => by
    rw [(same c ((mem_cells2 n c).1 hc)).val]
  refine NoisyCells.swap e1 e2 (fun s hs => ?_) ns
  have eq : ∀ c, In2 n c → (value (a c) : ℝ) = ((m 0 (cellLoc2 c)).val : ℝ) := fun c hc => e1 c ((mem_cells2 n c).2 hc)
  rw [chField2_abs _ _ 0 _ _ eq hn s ((mem_cells2 n s).1 hs),
    chField2_abs _ _ 0 _ _ (fun _ _ => rfl) hn s ((mem_cells2 n s).1 hs)]

/-- The same for a step of the Bogacki–Shampine method. -/
theorem ieee_bs23_noisy2 (y : Int × Int → Ieee F)
    (hy : y = fun c => a c + dt * bs23Slope (chFieldA2 p dx n 0) dt a c) :
    (∀ c, In2 n c → Ordinary (y c)) ∧
    NoisyCells bs3c (cells2 n) (chField2 (realParams (valuesOf p')) (dx'.val : ℝ) n 0)
      (((9 / 4 * ((1 + u) ^ 34 - 1) : ℚ) : ℝ) * (M : ℝ)) (dt'.val : ℝ) (fun c => (value (a c) : ℝ)) (fun c => (value (y c) : ℝ)) := by
  obtain ⟨m, m', q, hm0, hs0, hk1, hk2⟩ := ode23_post_of2 (chFieldA2 p' dx' n) (In2 n) 0 dt' x
    (fun _ _ => rfl)
  have b1 : ∀ c, In2 n c → |(m 0 (cellLoc2 c)).val| ≤ M / 2 := fun c hc => by rw [hm0]; exact (ha c hc).le
  have d0 : |dt'.val| = dt'.val := abs_of_nonneg (by have := hr.tiny.1; linarith)
  obtain ⟨-, x2, x3⟩ := Gen.ode23_stages hr (rhsSize_ge hr (le_refl (1 : Int)) (le_refl (1 : Int)) (le_refl (1 : Int)) (show 1 ≤ M by linarith) hs (p := p')) (FE := chField2 (valuesOf p') dx'.val n 0)
    (fun t y hy c _ => near_field2 hr hn (by linarith) hs hy c) (by linarith) h34 hM2 (by rw [d0]; exact hdt2) (by rw [d0]; exact hd) q b1
  have ns := ode23_noisy2 (A := Nat) (loc := cellLoc2) (w := ⟨0, 1, 2, 3, 4, 5, 6⟩) (m := m) (p := p') hr hn hM2 hs h34 hdt2 hd b1 q
  have sz := chSize_ge hr (le_refl (1 : Int)) (le_refl (1 : Int)) (le_refl (1 : Int)) hE hM2 hdx hs
  have same : ∀ c, In2 n c → Same (y c) (m' 0 (cellLoc2 c)) (64 * chSize E M dx'.val) := by
    intro c hc
    rw [hs0, hy]
    refine Same.bs23_bounded (P := In2 n) hp he hm (M := M) (Q := chSize E M dx'.val)
      (G := chFieldA2 p dx n 0) (G' := chFieldA2 p' dx' n 0)
      (fun a x hax c _ => same_field2 hp he hm hr hn hE hM2 h1 h2 h3 hdx hs hX a x hax 0 0 c)
      (by linarith) sz.1 hX hdt (fun c hc => (ha c hc).mono (by linarith)) (fun c hc => ?_) (fun c hc => ?_) c hc
    · have := x2 c hc
      dsimp only at this
      rw [hm0, hk1] at this
      exact this
    · have := x3 c hc
      dsimp only at this
      rw [hm0, hk1, hk2] at this
      exact this
  refine ⟨fun c hc => (same c hc).ord, ?_⟩
  have e1 : ∀ c ∈ cells2 n, (value (a c) : ℝ) = ((m 0 (cellLoc2 c)).val : ℝ) := fun c hc => by
    rw [hm0, (ha c ((mem_cells2 n c).1 hc)).val]
  have e2 : ∀ c ∈ cells2 n, (value (y c) : ℝ) = ((m' 0 (cellLoc2 c)).val : ℝ) := fun c hc => by
    rw [(same c ((mem_cells2 n c).1 hc)).val]
  refine NoisyCells.swap e1 e2 (fun s hs => ?_) ns
  have eq : ∀ c, In2 n c → (value (a c) : ℝ) = ((m 0 (cellLoc2 c)).val : ℝ) := fun c hc => e1 c ((mem_cells2 n c).2 hc)
  rw [chField2_abs _ _ 0 _ _ eq hn s ((mem_cells2 n s).1 hs),
    chField2_abs _ _ 0 _ _ (fun _ _ => rfl) hn s ((mem_cells2 n s).1 hs)]

end

end Madg
