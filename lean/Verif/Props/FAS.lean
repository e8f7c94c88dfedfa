/-
The multigrid step as a whole (C76).
-/
import Verif.Proofs.MGGen
import Verif.Proofs.MGCH
import Verif.Props.Multigrid

set_option linter.unusedSectionVars false
set_option linter.unusedVariables false

namespace Madg
open Spec

/-- The full approximation scheme for the 3D Cahn–Hilliard equations: on each level the discrete right-hand side of that
level's grid and spacing, cell averages for restriction, piecewise constant or (as coded) linear interpolation of the
extended change for prolongation, smoothing steps `cfl dx^4`, and relaxation factors for the finest and the other levels. -/
def Spec.chFas {K : Type} [Field K] (g : Nat → Grid3) (bx bY bz : BCType) (dx : Nat → K) (p : CHParams K) (mode : String)
    (cfl rf rc : K) : Fas (Int × Int × Int) K where
  F ℓ := chField3 p (dx ℓ) bx bY bz (g ℓ).ni (g ℓ).nj (g ℓ).nk 0
  R _ u c := avg8 (fun x y z => u (x, y, z)) c.1 c.2.1 c.2.2
  T ℓ w c :=
    if mode = "nearest" then w (c.1 / 2, c.2.1 / 2, c.2.2 / 2)
    else trilinSwapped (ext3 bx bY bz (g (ℓ + 1)).ni (g (ℓ + 1)).nj (g (ℓ + 1)).nk fun i j k => w (i, j, k)) c.1 c.2.1 c.2.2
  dt ℓ := cfl * dx ℓ ^ 4
  relax ℓ := if ℓ = 0 then rf else rc

section
variable {A K : Type} [DecidableEq A] [Field K] [LinearOrder K] [CharZero K]
  {nlev : Nat} {g : Nat → Grid3} {bx bY bz : BCType} {G : Nat → Geom3} {v : Int} {mode : String}
  {arr : Nat → MGRole → A} {wk : Nat → Fin 4 → A} {sz : A → Int}

theorem chMG_implements (hH : HierOk nlev g bx bY bz G v mode arr wk sz) (dx : Nat → K) (p : CHParams K) (cfl rf rc : K)
    (un : Bool) :
    (chMG nlev G dx v p wk arr mode cfl rf rc un).Implements (fun ℓ => In3 (g ℓ).ni (g ℓ).nj (g ℓ).nk)
      (fun ℓ (c : Int × Int × Int) => (g ℓ).at3 c.1 c.2.1 c.2.2)
      (fun ℓ => chField3 p (dx ℓ) bx bY bz (g ℓ).ni (g ℓ).nj (g ℓ).nk 0) (fun ℓ => fillH (g ℓ) bx bY bz)
      (fun ℓ => restrT (g (ℓ + 1)) (g ℓ))
      (fun ℓ => if mode = "nearest" then nearT (g (ℓ + 1)) (g ℓ) else linT (g (ℓ + 1)) (g ℓ))
      (chFas g bx bY bz dx p mode cfl rf rc) := by
  have hl := hH.levels
  refine ⟨fun _ _ _ _ _ => rfl, ?_, ?_, fun _ _ => rfl, fun _ => rfl⟩
  · intro ℓ hℓ w u hu c hc
    have hℓ' : ℓ + 1 < nlev := hℓ
    obtain ⟨h1, o1, e1, -⟩ := hl (ℓ + 1) hℓ'
    obtain ⟨ei, ej, ek, eh⟩ := (hl ℓ (by omega)).2.2.2 hℓ'
    obtain ⟨i, j, k⟩ := c
    have hin : (g (ℓ + 1)).Pad i j k := by unfold In3 at hc; unfold Grid3.Pad; dsimp only at hc; omega
    obtain ⟨g1, g2, g3⟩ := Grid3.get_at3 hin
    dsimp only
    unfold restrT chFas
    rw [g1, g2, g3]
    dsimp only
    unfold In3 at hc
    dsimp only at hc
    have q : ∀ x y z, (x = 2 * i ∨ x = 2 * i + 1) → (y = 2 * j ∨ y = 2 * j + 1) → (z = 2 * k ∨ z = 2 * k + 1) →
        w ((g ℓ).at3 x y z) = u (x, y, z) := fun x y z hx hy hz =>
      hu (x, y, z) (by unfold In3; dsimp only; omega)
    unfold avg8
    dsimp only
    rw [q _ _ _ (Or.inl rfl) (Or.inl rfl) (Or.inl rfl), q _ _ _ (Or.inl rfl) (Or.inl rfl) (Or.inr rfl),
      q _ _ _ (Or.inl rfl) (Or.inr rfl) (Or.inl rfl), q _ _ _ (Or.inl rfl) (Or.inr rfl) (Or.inr rfl),
      q _ _ _ (Or.inr rfl) (Or.inl rfl) (Or.inl rfl), q _ _ _ (Or.inr rfl) (Or.inl rfl) (Or.inr rfl),
      q _ _ _ (Or.inr rfl) (Or.inr rfl) (Or.inl rfl), q _ _ _ (Or.inr rfl) (Or.inr rfl) (Or.inr rfl)]
  · intro ℓ hℓ w a a0 hw c hc
    have hℓ' : ℓ + 1 < nlev := hℓ
    obtain ⟨h1, o1, e1, -⟩ := hl (ℓ + 1) hℓ'
    obtain ⟨h0, -, -, hf⟩ := hl ℓ (by omega)
    obtain ⟨ei, ej, ek, eh⟩ := hf hℓ'
    have hsz : (chMG nlev G dx v p wk arr mode cfl rf rc un).size (ℓ + 1) = (g (ℓ + 1)).size := congrArg Grid3.size e1
    rw [hsz] at hw
    obtain ⟨i, j, k⟩ := c
    unfold In3 at hc
    dsimp only at hc ⊢
    have hin : (g ℓ).Pad i j k := by unfold Grid3.Pad; omega
    obtain ⟨g1, g2, g3⟩ := Grid3.get_at3 hin
    have hw' : ∀ x y z, (g (ℓ + 1)).Pad x y z → w ((g (ℓ + 1)).at3 x y z) =
        ext3 bx bY bz (g (ℓ + 1)).ni (g (ℓ + 1)).nj (g (ℓ + 1)).nk (fun i j k => a (i, j, k) - a0 (i, j, k)) x y z :=
      fun x y z hp => by
        obtain ⟨b0, b1⟩ := Grid3.at3_bounds hp
        obtain ⟨q1, q2, q3⟩ := Grid3.get_at3 hp
        rw [hw _ b0 b1]
        unfold fillH ext3
        rw [q1, q2, q3]
    unfold chFas
    dsimp only
    split
    · unfold nearT
      rw [g1, g2, g3, hw' _ _ _ (by unfold Grid3.Pad; omega)]
      unfold ext3
      rw [extIdx_of_int (by omega) (by omega), extIdx_of_int (by omega) (by omega), extIdx_of_int (by omega) (by omega)]
    · unfold linT
      rw [g1, g2, g3]
      exact trilinSwapped_congr fun x y z hx hy hz => hw' x y z (by unfold Grid3.Pad; omega)

variable (hH : HierOk nlev g bx bY bz G v mode arr wk sz) (dx : Nat → K) (p : CHParams K) (cfl rf rc : K) (un : Bool)
  (M : MG A K) (hMdef : M = chMG nlev G dx v p wk arr mode cfl rf rc un)
include hH hMdef

/-- C76. One cycle with at least one smoothing pass is one V-cycle of the full approximation scheme for the equation of the
step, whatever the other arrays hold and for every thread schedule and reduction order: the interior of the state becomes the
scheme's field, the array whose norm is tested the mean slope of its last smoothing pass. On every level the first pass
uses the step the smoother had, all later ones `cfl dx^4` with that level's spacing. -/
theorem C76_cycle (hL : nlev ≤ 6) (n : Nat) (hn : 1 ≤ n) (cyc : List Int) (hcyc : getMGCycle nlev n = .ok cyc)
    (dt time : K) (hdt : un = true → dt ≠ 0) (dts : Nat → K) (m : Mem A K) (u s old : Int × Int × Int → K)
    (hu : ∀ c, In3 (g 0).ni (g 0).nj (g 0).nk c → m (arr 0 .state) ((g 0).at3 c.1 c.2.1 c.2.2) = u c)
    (ho : ∀ c, In3 (g 0).ni (g 0).nj (g 0).nk c → m (arr 0 .old) ((g 0).at3 c.1 c.2.1 c.2.2) = old c)
    (us : (Int × Int × Int → K) × (Int × Int × Int → K))
    (hus : us = (chFas g bx bY bz dx p mode cfl rf rc).cycle n dts (nlev - 1) 0
      (fun w c => chField3 p (dx 0) bx bY bz (g 0).ni (g 0).nj (g 0).nk 0 w c - if un then (w c - old c) / dt else 0) (u, s)) :
    ∃ dts' m', CDet sz (M.stages dt time cyc ⟨0, dts⟩) m ⟨0, dts'⟩ m' ∧
      (∀ c, In3 (g 0).ni (g 0).nj (g 0).nk c → m' (arr 0 .state) ((g 0).at3 c.1 c.2.1 c.2.2) = us.1 c ∧
        m' (arr 0 .dstate) ((g 0).at3 c.1 c.2.1 c.2.2) = us.2 c ∧
        m' (arr 0 .old) ((g 0).at3 c.1 c.2.1 c.2.2) = old c) ∧
      (∀ i j k, (g 0).Pad i j k → m' (arr 0 .state) ((g 0).at3 i j k) =
        ext3 bx bY bz (g 0).ni (g 0).nj (g 0).nk (fun i j k => us.1 (i, j, k)) i j k) ∧
      (∀ ℓ, ℓ < nlev → dts' ℓ = cfl * dx ℓ ^ 4) := by
  have hM := chMG_ok hH dx p cfl rf rc un
  have hS := chMG_implements hH dx p cfl rf rc un
  rw [← hMdef] at hM hS
  have hnl : M.nlev = nlev := by rw [hMdef]; rfl
  have ha : M.arr = arr := by rw [hMdef]; rfl
  have hun : M.unsteady = un := by rw [hMdef]; rfl
  have hp := hH.pos
  rw [getMGCycle_eq (by omega) (by omega) (by omega), show ((nlev : Int) - 1).toNat = nlev - 1 by omega] at hcyc
  cases hcyc
  rw [← ha] at hu ho ⊢
  obtain ⟨dts', m', d, -, q, t, e⟩ := mg_cycle hM hS (d := nlev - 1) (by omega) n hn dt time dts dts (fun _ _ => rfl) m
    (holds_none m) (u, s) old hu ho us (by rw [hus, hun]; rfl)
  have hsz : M.size 0 = (g 0).size := by rw [hMdef]; exact congrArg Grid3.size (hH.levels 0 hp).2.2.1
  refine ⟨dts', m', d, q, fun i j k hp => ?_, fun ℓ hℓ => ?_⟩
  · obtain ⟨b0, b1⟩ := Grid3.at3_bounds hp
    obtain ⟨g1, g2, g3⟩ := Grid3.get_at3 hp
    rw [t _ b0 (by rw [hsz]; exact b1)]
    show fillH (g 0) bx bY bz us.1 _ = _
    unfold fillH
    rw [g1, g2, g3]
  · rw [e ℓ (by omega), hMdef]; rfl

/-- C76. A whole step of the multigrid integrator: it applies V-cycles of the scheme to the backward Euler (or steady)
equation, starting from the old state, until the tested norm has fallen by the tolerance or the cycles are used up, and
leaves the last field in the state. -/
theorem C76_time_step (hL : nlev ≤ 6) (n : Nat) (hn : 1 ≤ n) (cyc : List Int) (hcyc : getMGCycle nlev n = .ok cyc)
    (rt : K → K) (tol : K) (maxCycles : Int) (time dt : K) (hdt : un = true → dt ≠ 0) (dts : Nat → K) (m : Mem A K)
    (u : Int × Int × Int → K)
    (hu : ∀ c, In3 (g 0).ni (g 0).nj (g 0).nk c → m (arr 0 .state) ((g 0).at3 c.1 c.2.1 c.2.2) = u c)
    (U : Nat → (Int × Int × Int → K) × (Int × Int × Int → K))
    (hU : U = (chFas g bx bY bz dx p mode cfl rf rc).iterate n (nlev - 1) dts
      (fun w c => chField3 p (dx 0) bx bY bz (g 0).ni (g 0).nj (g 0).nk 0 w c - if un then (w c - u c) / dt else 0)
      (u, chField3 p (dx 0) bx bY bz (g 0).ni (g 0).nj (g 0).nk 0 u))
    (res : Nat → K) (hres : ∀ i, res i = rt (sum3 (g 0).ni (g 0).nj (g 0).nk (fun x y z => (U i).2 (x, y, z) ^ 2) /
      ((g 0).ni * (g 0).nj * (g 0).nk : K))) :
    ∃ (rep : MGReport K) (m' : Mem A K), CDet sz (M.doTimeStep cyc rt tol maxCycles time dt dts) m rep m' ∧
      (rep.cycles ≠ 0 ↔ ∃ k : Nat, (k : Int) < maxCycles ∧ res 0 ≠ 0 ∧ res (k + 1) / res 0 ≤ tol) ∧
      (rep.cycles ≠ 0 → rep.resN = res rep.cycles ∧ res rep.cycles / res 0 ≤ tol ∧
        (∀ i, i + 1 < rep.cycles → ¬ (res (i + 1) / res 0 ≤ tol)) ∧
        ∀ c, In3 (g 0).ni (g 0).nj (g 0).nk c → m' (arr 0 .state) ((g 0).at3 c.1 c.2.1 c.2.2) = (U rep.cycles).1 c) ∧
      (rep.cycles = 0 → rep.resN = res maxCycles.toNat ∧
        ∀ c, In3 (g 0).ni (g 0).nj (g 0).nk c → m' (arr 0 .state) ((g 0).at3 c.1 c.2.1 c.2.2) = (U maxCycles.toNat).1 c) ∧
      (1 ≤ maxCycles → ∀ ℓ, ℓ < nlev → rep.dts ℓ = cfl * dx ℓ ^ 4) ∧ (maxCycles ≤ 0 → rep.dts = dts) := by
  have hM := chMG_ok hH dx p cfl rf rc un
  have hS := chMG_implements hH dx p cfl rf rc un
  have hNrm := chMG_norm hH dx p cfl rf rc un M hMdef rt
  rw [← hMdef] at hM hS
  have hnl : M.nlev = nlev := by rw [hMdef]; rfl
  have ha : M.arr = arr := by rw [hMdef]; rfl
  have hun : M.unsteady = un := by rw [hMdef]; rfl
  have hp := hH.pos
  rw [getMGCycle_eq (by omega) (by omega) (by omega), show ((nlev : Int) - 1).toNat = nlev - 1 by omega] at hcyc
  cases hcyc
  obtain ⟨rep, m', d, -, q⟩ := mg_time_step hM hS (d := nlev - 1) (by omega) n hn rt tol maxCycles time dt (by rw [hun]; exact hdt) dts dts
    (fun _ _ => rfl) m
    (holds_none m) u (by rw [ha]; exact hu) U (by rw [hU, hun]; rfl) res (fun μ i h => by
      rw [hNrm, hres]
      congr 2
      exact sum3_congr fun x y z hx hy hz => by
        have := h (x, y, z) ⟨hx, hy, hz⟩
        rw [ha] at this
        dsimp only at this
        rw [this])
  rw [ha, hnl] at q
  refine ⟨rep, m', d, q.1, q.2.1, q.2.2.1, fun h ℓ hℓ => ?_, q.2.2.2.2.1⟩
  rw [q.2.2.2.1 h ℓ hℓ, hMdef]; rfl

end

/-- The hypotheses of `C76_cycle` and `C76_time_step` hold together: two levels, one pass, a non-constant field. -/
example : ∃ (g : Nat → Grid3) (G : Nat → Geom3) (arr : Nat → MGRole → Nat × (MGRole ⊕ Fin 4)) (wk : Nat → Fin 4 → Nat × (MGRole ⊕ Fin 4))
    (sz : Nat × (MGRole ⊕ Fin 4) → Int) (m : Mem (Nat × (MGRole ⊕ Fin 4)) ℚ) (u : Int × Int × Int → ℚ),
    HierOk 2 g .periodic .neumann .periodic G 0 "nearest" arr wk sz ∧ (∃ cyc, getMGCycle (2 : Nat) (1 : Nat) = .ok cyc) ∧
    (∀ c, In3 (g 0).ni (g 0).nj (g 0).nk c → m (arr 0 .state) ((g 0).at3 c.1 c.2.1 c.2.2) = u c) ∧ u (0, 0, 0) ≠ u (1, 0, 0) := by
  have ok : ∀ ℓ, (levelGrid ⟨4, 4, 8, 2⟩ (min ℓ 1)).Ok := fun ℓ => by
    have : min ℓ 1 = 0 ∨ min ℓ 1 = 1 := by omega
    rcases this with h | h <;> rw [h] <;> exact ⟨by decide, by decide, by decide, by decide⟩
  refine ⟨fun ℓ => levelGrid ⟨4, 4, 8, 2⟩ (min ℓ 1), fun ℓ => _, fun ℓ ρ => (ℓ, .inl ρ), fun ℓ x => (ℓ, .inr x),
    fun a => (levelGrid ⟨4, 4, 8, 2⟩ (min a.1 1)).size, fun _ n => n,
    fun c => (((levelGrid ⟨4, 4, 8, 2⟩ 0).at3 c.1 c.2.1 c.2.2 : Int) : ℚ),
    ⟨by decide, rfl, fun ℓ hℓ => ?_, fun ℓ hℓ => ?_, fun ℓ _ => mkGeom3_ok (ok ℓ) _ _ _, by decide, by decide,
      fun i ρ j σ e => (by cases e; exact ⟨rfl, rfl⟩), fun i ρ j σ e => (by cases e; exact ⟨rfl, rfl⟩),
      fun i ρ j x e => (by cases e), fun _ _ _ => rfl, fun _ _ _ => rfl⟩, ⟨_, rfl⟩, fun c _ => rfl, ?_⟩
  · have : ℓ = 0 ∨ ℓ = 1 := by omega
    rcases this with rfl | rfl <;> decide
  · have : ℓ = 0 := by omega
    subst this; rfl
  · have : (levelGrid ⟨4, 4, 8, 2⟩ 0).at3 0 0 0 ≠ (levelGrid ⟨4, 4, 8, 2⟩ 0).at3 1 0 0 := by decide
    dsimp only
    exact_mod_cast this

end Madg
