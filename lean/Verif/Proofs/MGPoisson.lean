/-
The Poisson hierarchy meets the contracts of the multigrid proofs.
-/
import Verif.Model.MGPoisson
import Verif.Spec.Poisson
import Verif.Proofs.Poisson
import Verif.Proofs.MGCH

set_option linter.unusedSectionVars false
set_option linter.unusedVariables false

namespace Madg
open Spec
variable {A K : Type} [DecidableEq A] [Field K]

/-- Right-hand side of the Poisson problem on interior fields. -/
def poisF (dx : K) (g : Grid3) (e : Int → Int → Int → K) (u : Int × Int × Int → K) (c : Int × Int × Int) : K :=
  poisRhs dx g.ni g.nj g.nk e (fun i j k => u (i, j, k)) c.1 c.2.1 c.2.2

/-- Extension of an interior field to the padded box, by array offset. -/
def fillP (g : Grid3) (e : Int → Int → Int → K) (u : Int × Int × Int → K) (n : Int) : K :=
  extDirichlet g.ni g.nj g.nk e (fun i j k => u (i, j, k)) (g.getI n) (g.getJ n) (g.getK n)

theorem extDirichlet_congr {ni nj nk : Int} (hi : 1 ≤ ni) (hj : 1 ≤ nj) {e u v : Int → Int → Int → K}
    (h : ∀ i j k, (0 ≤ i ∧ i < ni) → (0 ≤ j ∧ j < nj) → (0 ≤ k ∧ k < nk) → u i j k = v i j k) (i j k : Int) :
    extDirichlet ni nj nk e u i j k = extDirichlet ni nj nk e v i j k := by
  unfold extDirichlet
  split
  · next hk => exact h _ _ _ (wrapIdx_range _ hi) (wrapIdx_range _ hj) hk
  · rfl

theorem poisF_congr (dx : K) {g : Grid3} (hi : 1 ≤ g.ni) (hj : 1 ≤ g.nj) (e : Int → Int → Int → K)
    {u v : Int × Int × Int → K} (h : ∀ c, In3 g.ni g.nj g.nk c → u c = v c) (c : Int × Int × Int) :
    poisF dx g e u c = poisF dx g e v c := by
  have : extDirichlet g.ni g.nj g.nk e (fun i j k => u (i, j, k)) = extDirichlet g.ni g.nj g.nk e (fun i j k => v (i, j, k)) := by
    funext i j k
    exact extDirichlet_congr hi hj (fun i j k a b c => h (i, j, k) ⟨a, b, c⟩) i j k
  unfold poisF poisRhs
  rw [this]

/-- The content of the coordinate arrays in `m₀`. -/
noncomputable def coordFx (co : Nat → Fin 3 → A) (m₀ : Mem A K) (a : A) : Option (Int → K) := by
  classical exact if ∃ ℓ x, a = co ℓ x then some (m₀ a) else none

theorem coordFx_co (co : Nat → Fin 3 → A) (m₀ : Mem A K) (ℓ : Nat) (x : Fin 3) : coordFx co m₀ (co ℓ x) = some (m₀ (co ℓ x)) := by
  unfold coordFx; rw [if_pos ⟨ℓ, x, rfl⟩]

theorem coordFx_none {co : Nat → Fin 3 → A} (m₀ : Mem A K) {a : A} (h : ∀ ℓ x, a ≠ co ℓ x) : coordFx co m₀ a = none := by
  unfold coordFx; rw [if_neg]; rintro ⟨ℓ, x, e⟩; exact h _ _ e

theorem coordFx_ne {co : Nat → Fin 3 → A} {m₀ : Mem A K} {a : A} (h : coordFx co m₀ a = none) (ℓ : Nat) (x : Fin 3) : a ≠ co ℓ x := by
  rintro rfl; rw [coordFx_co] at h; cases h

theorem coordFx_holds (co : Nat → Fin 3 → A) (m₀ : Mem A K) : Holds (coordFx co m₀) m₀ := by
  intro a v e
  unfold coordFx at e
  split at e
  · cases e; rfl
  · cases e

/-- Boundary values and a third of the source on level `ℓ`, from the coordinates in `m₀`. -/
def coordE (sn cs : K → K) (g : Nat → Grid3) (co : Nat → Fin 3 → A) (m₀ : Mem A K) (ℓ : Nat) (i j k : Int) : K :=
  sn (m₀ (co ℓ 0) ((g ℓ).at3 i j k)) * cs (m₀ (co ℓ 1) ((g ℓ).at3 i j k)) * cs (m₀ (co ℓ 2) ((g ℓ).at3 i j k))

/-- A Poisson hierarchy as the constructor builds it. -/
structure PHierOk (nlev : Nat) (g : Nat → Grid3) (bx bY bz : BCType) (G : Nat → Geom3) (mode : String)
    (arr : Nat → MGRole → A) (co : Nat → Fin 3 → A) (sz : A → Int) : Prop where
  pos : 1 ≤ nlev
  halo : (g 0).nhalo = 2
  ext : ∀ ℓ, ℓ < nlev → 2 ≤ (g ℓ).ni ∧ 2 ≤ (g ℓ).nj ∧ 2 ≤ (g ℓ).nk
  coarsen : ∀ ℓ, ℓ + 1 < nlev → (g ℓ).coarsen = .ok (g (ℓ + 1))
  geom : ∀ ℓ, ℓ < nlev → mkGeom3 (g ℓ) bx bY bz = .ok (G ℓ)
  mode : mode = "nearest" ∨ mode = "linear"
  arrInj : ∀ i ρ j σ, arr i ρ = arr j σ → i = j ∧ ρ = σ
  apart : ∀ i ρ j x, arr i ρ ≠ co j x
  arrSize : ∀ ℓ, ℓ < nlev → ∀ ρ, sz (arr ℓ ρ) = (g ℓ).size
  coSize : ∀ ℓ, ℓ < nlev → ∀ x, sz (co ℓ x) = (g ℓ).size

theorem PHierOk.levels {nlev : Nat} {g : Nat → Grid3} {bx bY bz : BCType} {G : Nat → Geom3} {mode : String}
    {arr : Nat → MGRole → A} {co : Nat → Fin 3 → A} {sz : A → Int}
    (h : PHierOk nlev g bx bY bz G mode arr co sz) : ∀ ℓ, ℓ < nlev →
      (g ℓ).nhalo = 2 ∧ (G ℓ).Ok ∧ (G ℓ).g = g ℓ ∧ (ℓ + 1 < nlev → Fine (g (ℓ + 1)) (g ℓ)) := by
  intro ℓ
  induction ℓ with
  | zero =>
    intro h0
    have := h.ext 0 h0
    obtain ⟨a, b, -⟩ := Geom3.ok_of_mk ⟨by omega, by omega, by omega, by have := h.halo; omega⟩ (h.geom 0 h0)
    refine ⟨h.halo, a, b, fun h1 => ?_⟩
    exact (fine_of_coarsen (by omega) (by omega) (by omega) (by have := h.halo; omega) (h.coarsen 0 h1)).2
  | succ ℓ ih =>
    intro h0
    obtain ⟨i1, i2, i3, i4⟩ := ih (by omega)
    have hh : (g (ℓ + 1)).nhalo = 2 := by rw [← (i4 h0).h, i1]
    have := h.ext _ h0
    obtain ⟨a, b, -⟩ := Geom3.ok_of_mk ⟨by omega, by omega, by omega, by omega⟩ (h.geom _ h0)
    refine ⟨hh, a, b, fun h1 => ?_⟩
    exact (fine_of_coarsen (by omega) (by omega) (by omega) (by omega) (h.coarsen _ h1)).2

/-- The right-hand side of a level meets the contract. -/
theorem pois_fill {g : Nat → Grid3} {ℓ : Nat} (hn : 2 ≤ (g ℓ).ni ∧ 2 ≤ (g ℓ).nj ∧ 2 ≤ (g ℓ).nk) (hh : (g ℓ).nhalo = 2)
    {bx bY bz : BCType} {G : Geom3} (hG : mkGeom3 (g ℓ) bx bY bz = .ok G) {sz : A → Int} {co : Nat → Fin 3 → A}
    (hsz : ∀ x, sz (co ℓ x) = (g ℓ).size) (m₀ : Mem A K) (sn cs : K → K) (dx : K) :
    FillRhs sz (g ℓ).size (fun _ => False) (coordFx co m₀) (In3 (g ℓ).ni (g ℓ).nj (g ℓ).nk)
      (fun c : Int × Int × Int => (g ℓ).at3 c.1 c.2.1 c.2.2)
      (poisF dx (g ℓ) (coordE sn cs g co m₀ ℓ)) (fillP (g ℓ) (coordE sn cs g co m₀ ℓ))
      (fun s r _ => G.poissonRHS sn cs dx ⟨s, r, co ℓ 0, co ℓ 1, co ℓ 2⟩) := by
  have hok : (g ℓ).Ok := ⟨by omega, by omega, by omega, by omega⟩
  obtain ⟨hGok, hg, -⟩ := Geom3.ok_of_mk hok hG
  have hpad : ∀ c, In3 (g ℓ).ni (g ℓ).nj (g ℓ).nk c → (g ℓ).Pad c.1 c.2.1 c.2.2 := by
    intro c hc; unfold In3 at hc; unfold Grid3.Pad; omega
  refine ⟨fun c hc => Grid3.at3_bounds (hpad c hc), fun u v h c _ => poisF_congr dx (by omega) (by omega) _ h c, ?_, ?_, ?_⟩
  · intro u w h n _ _
    exact extDirichlet_congr (by omega) (by omega) (fun i j k a b c => h (i, j, k) ⟨a, b, c⟩) _ _ _
  · intro u c hc
    obtain ⟨e1, e2, e3⟩ := Grid3.get_at3 (hpad c hc)
    unfold In3 at hc
    unfold fillP extDirichlet
    rw [e1, e2, e3, if_pos hc.2.2, wrapIdx_of_int hc.1.1 hc.1.2, wrapIdx_of_int hc.2.1.1 hc.2.1.2]
  · intro s r t m hfx hne _ _ hs hr hzs hzr
    have hx : ∀ x, m (co ℓ x) = m₀ (co ℓ x) := fun x => hfx _ _ (coordFx_co co m₀ ℓ x)
    have ns := coordFx_ne hs
    have nr := coordFx_ne hr
    have hw : (⟨s, r, co ℓ 0, co ℓ 1, co ℓ 2⟩ : PoisArr A).Ok G.g sz := by
      rw [hg]
      exact ⟨hne, ⟨(ns _ _).symm, (ns _ _).symm, (ns _ _).symm⟩, ⟨(nr _ _).symm, (nr _ _).symm, (nr _ _).symm⟩, hzs, hzr,
        hsz _, hsz _, hsz _⟩
    have hE : (⟨s, r, co ℓ 0, co ℓ 1, co ℓ 2⟩ : PoisArr A).exact G.g sn cs m = coordE sn cs g co m₀ ℓ := by
      funext i j k
      unfold PoisArr.exact coordE
      simp only [hx, hg]
    obtain ⟨m', d, v, vc, -, f⟩ := poisson_det (K := K) hGok hw (by rw [hg]; omega) (by rw [hg]; omega) (by rw [hg]; omega)
      (by rw [hg]; omega) sn cs dx m
    rw [hE] at v vc
    rw [hg] at v vc
    refine ⟨m', d, ?_, ?_, fun b h1 h2 _ => f b h1 h2⟩
    · intro c hc; exact v _ _ _ hc
    · intro n h0 h1
      have h := vc _ _ _ (Grid3.pad_get hok h0 h1)
      rw [Grid3.at3_get hok h0] at h
      exact h

theorem poissonMG_ok [CharZero K] {nlev : Nat} {g : Nat → Grid3} {bx bY bz : BCType} {G : Nat → Geom3}
    {mode : String} {arr : Nat → MGRole → A} {co : Nat → Fin 3 → A} {sz : A → Int}
    (h : PHierOk nlev g bx bY bz G mode arr co sz) (dx : Nat → K) (sn cs : K → K) (cfl rf rc : K) (un : Bool) (m₀ : Mem A K) :
    (poissonMG nlev G dx sn cs co arr mode cfl rf rc un).Ok sz (fun _ => False) (coordFx co m₀)
      (fun ℓ => In3 (g ℓ).ni (g ℓ).nj (g ℓ).nk) (fun ℓ (c : Int × Int × Int) => (g ℓ).at3 c.1 c.2.1 c.2.2)
      (fun ℓ => poisF (dx ℓ) (g ℓ) (coordE sn cs g co m₀ ℓ)) (fun ℓ => fillP (g ℓ) (coordE sn cs g co m₀ ℓ))
      (fun ℓ => restrT (g (ℓ + 1)) (g ℓ))
      (fun ℓ => if mode = "nearest" then nearT (g (ℓ + 1)) (g ℓ) else linT (g (ℓ + 1)) (g ℓ))
      (prolReads mode g) (prolWrites mode g) := by
  have hl := h.levels
  refine ⟨h.arrInj, ?_, fun _ _ h => h, fun ℓ ρ => coordFx_none m₀ (h.apart ℓ ρ), fun _ h => h.elim, ?_, ?_, ?_, ?_, ?_, ?_⟩
  · intro ℓ hℓ ρ
    change sz (arr ℓ ρ) = (G ℓ).g.size
    rw [(hl ℓ hℓ).2.2.1]; exact h.arrSize ℓ hℓ ρ
  · intro ℓ hℓ
    have e : (poissonMG nlev G dx sn cs co arr mode cfl rf rc un).size ℓ = (g ℓ).size := by
      change (G ℓ).g.size = _; rw [(hl ℓ hℓ).2.2.1]
    rw [e]
    exact pois_fill (h.ext ℓ hℓ) (hl ℓ hℓ).1 (h.geom ℓ hℓ) (h.coSize ℓ hℓ) m₀ sn cs (dx ℓ)
  · intro ℓ hℓ
    obtain ⟨-, -, e0, f0⟩ := hl ℓ (by exact Nat.lt_of_succ_lt hℓ)
    obtain ⟨-, o1, e1, -⟩ := hl (ℓ + 1) hℓ
    have := restrict_transfer (K := K) o1 (gf := (G ℓ).g) (by rw [e1, e0]; exact f0 hℓ) sz
    change Transfer sz (G ℓ).g.size (G (ℓ + 1)).g.size _ _ _ (fun f c => (G (ℓ + 1)).restrict (G ℓ).g f c)
    rw [e0, e1] at this ⊢
    exact this
  · intro ℓ hℓ
    obtain ⟨n0, -, e0, f0⟩ := hl ℓ (by exact Nat.lt_of_succ_lt hℓ)
    obtain ⟨n1, o1, e1, -⟩ := hl (ℓ + 1) hℓ
    change Transfer sz (G (ℓ + 1)).g.size (G ℓ).g.size _ _ _ (fun c f => (G (ℓ + 1)).prolong (G ℓ).g mode c f)
    unfold prolReads prolWrites Geom3.prolong
    rcases h.mode with rfl | rfl
    · simp only [if_true]
      have := nearest_transfer (K := K) o1 (gf := (G ℓ).g) (by rw [e1, e0]; exact f0 hℓ) sz
      rw [e0, e1] at this ⊢
      exact this
    · simp only [show ("linear" = "nearest") = False from by decide, if_false, if_true]
      have := linear_transfer (K := K) o1 (gf := (G ℓ).g) (by rw [e1, e0]; exact f0 hℓ) (by rw [e1]; omega) sz
      rw [e0, e1] at this ⊢
      exact this
  · intro ℓ hℓ n hn
    obtain ⟨n1, o1, e1, -⟩ := hl (ℓ + 1) hℓ
    change 0 ≤ n ∧ n < (G (ℓ + 1)).g.size
    rw [e1]
    unfold prolReads at hn
    split at hn
    · obtain ⟨⟨i, j, k⟩, hc, rfl⟩ := hn
      exact Grid3.at3_bounds (by unfold In3 at hc; unfold Grid3.Pad; omega)
    · obtain ⟨x, y, z, hx, hy, hz, rfl⟩ := hn
      exact Grid3.at3_bounds (by unfold Grid3.Pad; omega)
  · intro ℓ hℓ n hn
    unfold prolWrites
    split
    · exact hn
    · obtain ⟨⟨i, j, k⟩, hc, rfl⟩ := hn
      unfold In3 at hc
      dsimp only at hc
      exact ⟨i, j, k, by omega, by omega, by omega, rfl⟩
  · intro n hn
    obtain ⟨-, o0, e0, -⟩ := hl 0 h.pos
    obtain ⟨i, j, k, hi, e⟩ := o0.mem_int.1 hn
    rw [e0] at hi e
    exact onInt_iff.2 ⟨i, j, k, hi, e⟩

end Madg
