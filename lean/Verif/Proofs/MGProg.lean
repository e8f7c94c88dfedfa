/-
The multigrid part of the program: coarse discretizations, and the hierarchies from the arrays.
-/
import Verif.Proofs.MGRun
import Verif.Proofs.ProgramRun
import Verif.Proofs.MGCH
import Verif.Proofs.MGPoisson
import Verif.Proofs.PoisFAS
import Verif.Props.Multigrid

set_option linter.unusedSectionVars false

namespace Madg
open Spec

/-- All coordinate arrays of a discretization. -/
def CoordArr.all {A : Type} (w : CoordArr A) : List A := [w.x, w.y, w.z, w.xv, w.yv, w.zv]

section
variable {A : Type} [DecidableEq A] {sz : A → Int}

/-- Cell centres of the grid `g` in the box `b`. -/
def Centres (b : Box ℝ) (g : Grid3) (w : CoordArr A) (m : Mem A ℝ) : Prop :=
  ∀ i j k, g.Pad i j k → m w.x (g.at3 i j k) = b.xbeg + b.dx g.ni * (i + 1 / 2) ∧
    m w.y (g.at3 i j k) = b.ybeg + b.dx g.ni * (j + 1 / 2) ∧ m w.z (g.at3 i j k) = b.zbeg + b.dx g.ni * (k + 1 / 2)

theorem centres_of {b : Box ℝ} {g : Grid3} {w : CoordArr A} {m' : Mem A ℝ} (h : ∀ i j k, g.Pad i j k →
        m' w.x (g.at3 i j k) = 1 / 2 * ((b.xbeg + b.dx g.ni * (i : ℝ)) + (b.xbeg + b.dx g.ni * ((i + 1 : Int) : ℝ))) ∧
        m' w.y (g.at3 i j k) = 1 / 2 * ((b.ybeg + b.dx g.ni * (j : ℝ)) + (b.ybeg + b.dx g.ni * ((j + 1 : Int) : ℝ))) ∧
        m' w.z (g.at3 i j k) = 1 / 2 * ((b.zbeg + b.dx g.ni * (k : ℝ)) + (b.zbeg + b.dx g.ni * ((k + 1 : Int) : ℝ)))) :
    Centres b g w m' := by
  intro i j k hp
  obtain ⟨h1, h2, h3⟩ := h i j k hp
  rw [h1, h2, h3]
  push_cast
  exact ⟨by ring, by ring, by ring⟩

theorem Centres.congr {b : Box ℝ} {g : Grid3} {w : CoordArr A} {m m' : Mem A ℝ} (h : Centres b g w m)
    (e : ∀ a ∈ w.all, m' a = m a) : Centres b g w m' := by
  intro i j k hp
  rw [e w.x (by simp [CoordArr.all]), e w.y (by simp [CoordArr.all]), e w.z (by simp [CoordArr.all])]
  exact h i j k hp

theorem mgGeoms_det {b : Box ℝ} {co : Nat → CoordArr A} {gg : Nat → Grid3} {GG : Nat → Geom3} {N : Nat} {bx bY bz : BCType}
    (hc : ∀ ℓ, ℓ + 1 < N → (gg ℓ).coarsen = .ok (gg (ℓ + 1)))
    (hG : ∀ ℓ, ℓ < N → mkGeom3 (gg ℓ) bx bY bz = .ok (GG ℓ)) (hg : ∀ ℓ, ℓ < N → (GG ℓ).g = gg ℓ)
    (hco : ∀ ℓ, ℓ < N → (co ℓ).Ok sz (gg ℓ)) (hdis : ∀ ℓ j, ℓ ≠ j → ∀ a ∈ (co ℓ).all, a ∉ (co j).all) :
    ∀ more ℓ, ℓ + more < N → ∀ m : Mem A ℝ, ∃ m', CDet sz (mgGeoms b co bx bY bz more ℓ (GG ℓ)) m
        ((List.range more).map fun j => GG (ℓ + 1 + j)) m' ∧
      (∀ j, ℓ < j → j ≤ ℓ + more → Centres b (gg j) (co j) m') ∧
      ∀ a, (∀ j, ℓ < j → j ≤ ℓ + more → a ∉ (co j).all) → m' a = m a := by
  intro more
  induction more with
  | zero =>
    intro ℓ _ m
    exact ⟨m, CDet.ret _ _, fun j h1 h2 => by omega, fun _ _ => rfl⟩
  | succ more ih =>
    intro ℓ hN m
    obtain ⟨m1, d1, -, d3, d4⟩ := coords3_det (hco (ℓ + 1) (by omega)) b m
    obtain ⟨m2, e1, e2, e3⟩ := ih (ℓ + 1) (by omega) m1
    refine ⟨m2, ?_, fun j h1 h2 => ?_, fun a ha => ?_⟩
    · rw [mgGeoms.eq_2]
      refine (CDet.ofExcept (show (GG ℓ).g.coarsen = .ok (gg (ℓ + 1)) by rw [hg ℓ (by omega)]; exact hc ℓ (by omega)) m).bind ?_
      refine (CDet.ofExcept (hG (ℓ + 1) (by omega)) m).bind ((CDet.ofHost d1).bind (e1.bind ?_))
      have : (List.range (more + 1)).map (fun j => GG (ℓ + 1 + j)) =
          GG (ℓ + 1) :: (List.range more).map fun j => GG (ℓ + 1 + 1 + j) := by
        rw [List.range_succ_eq_map, List.map_cons, List.map_map]
        congr 1
        refine List.map_congr_left fun j _ => ?_
        show GG (ℓ + 1 + (j + 1)) = _
        congr 1; omega
      rw [this]
      exact CDet.ret _ _
    · by_cases hj : j = ℓ + 1
      · subst hj
        refine (centres_of d3).congr fun a ha => e3 a fun j' h3 h4 => hdis _ _ (by omega) a ha
      · exact e2 j (by omega) (by omega)
    · rw [e3 a fun j h1 h2 => ha j (by omega) (by omega), d4 a (ha (ℓ + 1) (by omega) (by omega))]

/-! ### The arrays -/

variable {w : ProgArr A} {L : Nat} {nx ny nz : Int} (hw : ArraysMG sz w L nx ny nz)
include hw

theorem Spec.ArraysMG.ne {a b : MGName} (h : a ≠ b) : named w a ≠ named w b := fun e => h (hw.distinct e)

theorem Spec.ArraysMG.all_eq (ℓ : Nat) : (w.mgCo ℓ).all = [named w (.coord ℓ 0), named w (.coord ℓ 1), named w (.coord ℓ 2),
    named w (.coord ℓ 3), named w (.coord ℓ 4), named w (.coord ℓ 5)] := rfl

theorem Spec.ArraysMG.mem_all {ℓ : Nat} {a : A} (h : a ∈ (w.mgCo ℓ).all) : ∃ x, a = named w (.coord ℓ x) := by
  rw [hw.all_eq] at h
  simp only [List.mem_cons, List.not_mem_nil, or_false] at h
  rcases h with h | h | h | h | h | h <;> exact ⟨_, h⟩

theorem Spec.ArraysMG.coord_apart {ℓ j : Nat} (h : ℓ ≠ j) : ∀ a ∈ (w.mgCo ℓ).all, a ∉ (w.mgCo j).all := by
  intro a h1 h2
  obtain ⟨x, rfl⟩ := hw.mem_all h1
  obtain ⟨y, e⟩ := hw.mem_all h2
  have := hw.distinct e
  injection this with e1 _
  exact h e1

theorem Spec.ArraysMG.field_apart {ℓ j : Nat} {ρ : MGRole} : ∀ a ∈ (w.mgCo ℓ).all, a ≠ w.mgArr j ρ := by
  intro a h1 h2
  obtain ⟨x, rfl⟩ := hw.mem_all h1
  have : MGName.coord ℓ x = MGName.field j ρ := hw.distinct h2
  cases this

theorem Spec.ArraysMG.work_apart {ℓ j : Nat} {x : Fin 4} : ∀ a ∈ (w.mgCo ℓ).all, a ≠ w.mgWk j x := by
  intro a h1 h2
  obtain ⟨y, rfl⟩ := hw.mem_all h1
  have : MGName.coord ℓ y = MGName.work j x := hw.distinct h2
  cases this

theorem Spec.ArraysMG.coords {ℓ : Nat} (hℓ : ℓ < L) : (w.mgCo ℓ).Ok sz (levelGrid ⟨nx, ny, nz, 2⟩ ℓ) := by
  have hsize : (levelGrid ⟨nx, ny, nz, 2⟩ ℓ).size = (nx / 2 ^ ℓ + 4) * (ny / 2 ^ ℓ + 4) * (nz / 2 ^ ℓ + 4) := rfl
  have hvsize : (levelGrid ⟨nx, ny, nz, 2⟩ ℓ).vert.size = (nx / 2 ^ ℓ + 5) * (ny / 2 ^ ℓ + 5) * (nz / 2 ^ ℓ + 5) := by
    simp only [levelGrid, Grid3.size, Grid3.vert]; ring
  refine ⟨?_, fun a ha => ?_, fun a ha => ?_⟩
  · have h6 : ([0, 1, 2, 3, 4, 5] : List (Fin 6)).Nodup := by decide
    have := h6.map (f := fun x => named w (.coord ℓ x)) fun x y e => by
      have := hw.distinct e
      injection this
    exact this
  · rw [hsize]
    simp only [List.mem_cons, List.not_mem_nil, or_false] at ha
    rcases ha with rfl | rfl | rfl
    · exact hw.centres ℓ hℓ 0 (by decide)
    · exact hw.centres ℓ hℓ 1 (by decide)
    · exact hw.centres ℓ hℓ 2 (by decide)
  · rw [hvsize]
    simp only [List.mem_cons, List.not_mem_nil, or_false] at ha
    rcases ha with rfl | rfl | rfl
    · exact hw.vertices ℓ hℓ 3 (by decide)
    · exact hw.vertices ℓ hℓ 4 (by decide)
    · exact hw.vertices ℓ hℓ 5 (by decide)

/-- The centre arrays of the levels. -/
theorem Spec.ArraysMG.centre_eq (ℓ : Nat) (x : Fin 3) :
    (![(w.mgCo ℓ).x, (w.mgCo ℓ).y, (w.mgCo ℓ).z] : Fin 3 → A) x = named w (.coord ℓ (x.castLE (by decide))) := by
  match x with
  | 0 => rfl
  | 1 => rfl
  | 2 => rfl

variable (hL : 1 ≤ L) (hd : 2 ^ (L - 1) ∣ nx ∧ 2 ^ (L - 1) ∣ ny ∧ 2 ^ (L - 1) ∣ nz)
  (hb : 2 ^ L ≤ nx ∧ 2 ^ L ≤ ny ∧ 2 ^ L ≤ nz)
include hL hd hb

omit hw in
theorem level_facts : (∀ ℓ, ℓ + 1 < L → (levelGrid ⟨nx, ny, nz, 2⟩ ℓ).coarsen = .ok (levelGrid ⟨nx, ny, nz, 2⟩ (ℓ + 1))) ∧
    ∀ ℓ, ℓ < L → 2 ≤ (levelGrid ⟨nx, ny, nz, 2⟩ ℓ).ni ∧ 2 ≤ (levelGrid ⟨nx, ny, nz, 2⟩ ℓ).nj ∧
      2 ≤ (levelGrid ⟨nx, ny, nz, 2⟩ ℓ).nk := by
  have e : L - 1 + 1 = L := by omega
  obtain ⟨h1, h2⟩ := C72_hierarchy (L - 1) ⟨nx, ny, nz, 2⟩ hd (by rw [e]; exact hb.1) (by rw [e]; exact hb.2.1)
    (by rw [e]; exact hb.2.2)
  exact ⟨fun ℓ hℓ => h1 ℓ (by omega), fun ℓ hℓ => h2 ℓ (by omega)⟩

/-- The geometry of level `ℓ`. -/
noncomputable def levelGeom (nx ny nz : Int) (bx bY bz : BCType) (ℓ : Nat) : Geom3 :=
  { g := levelGrid ⟨nx, ny, nz, 2⟩ ℓ, xbc := bx, ybc := bY, zbc := bz,
    interior := (levelGrid ⟨nx, ny, nz, 2⟩ ℓ).interiorVals, donor := (levelGrid ⟨nx, ny, nz, 2⟩ ℓ).donorVals,
    receiver := (levelGrid ⟨nx, ny, nz, 2⟩ ℓ).receiverVals }

omit hw in
theorem levelGeom_mk (bx bY bz : BCType) {ℓ : Nat} (hℓ : ℓ < L) :
    mkGeom3 (levelGrid ⟨nx, ny, nz, 2⟩ ℓ) bx bY bz = .ok (levelGeom nx ny nz bx bY bz ℓ) := by
  have := (level_facts hL hd hb).2 ℓ hℓ
  exact mkGeom3_ok ⟨by omega, by omega, by omega, by show (0 : Int) ≤ 2; omega⟩ bx bY bz

theorem Spec.ArraysMG.hier {mode : String} (hmode : mode = "nearest" ∨ mode = "linear") {v : Int}
    (hv : v = 0 ∨ v = 1 ∨ v = 2) {bx bY bz : BCType} {G : Nat → Geom3} (hG : ∀ ℓ, ℓ < L → G ℓ = levelGeom nx ny nz bx bY bz ℓ) :
    HierOk L (levelGrid ⟨nx, ny, nz, 2⟩) bx bY bz G v mode w.mgArr w.mgWk sz := by
  obtain ⟨h1, h2⟩ := level_facts hL hd hb
  refine ⟨hL, rfl, h2, h1, fun ℓ hℓ => by rw [hG ℓ hℓ]; exact levelGeom_mk hL hd hb bx bY bz hℓ, hv, hmode, ?_, ?_, ?_, ?_, ?_⟩
  · intro i ρ j σ e
    have : MGName.field i ρ = MGName.field j σ := hw.distinct e
    injection this with e1 e2; exact ⟨e1, e2⟩
  · intro i ρ j σ e
    have : MGName.work i ρ = MGName.work j σ := hw.distinct e
    injection this with e1 e2; exact ⟨e1, e2⟩
  · intro i ρ j σ e
    have : MGName.field i ρ = MGName.work j σ := hw.distinct e
    cases this
  · exact fun ℓ hℓ ρ => hw.fields ℓ hℓ ρ
  · exact fun ℓ hℓ ρ => hw.works ℓ hℓ ρ

theorem Spec.ArraysMG.phier {mode : String} (hmode : mode = "nearest" ∨ mode = "linear") {bx bY bz : BCType}
    {G : Nat → Geom3} (hG : ∀ ℓ, ℓ < L → G ℓ = levelGeom nx ny nz bx bY bz ℓ) :
    PHierOk L (levelGrid ⟨nx, ny, nz, 2⟩) bx bY bz G mode w.mgArr
      (fun ℓ => ![(w.mgCo ℓ).x, (w.mgCo ℓ).y, (w.mgCo ℓ).z]) sz := by
  obtain ⟨h1, h2⟩ := level_facts hL hd hb
  refine ⟨hL, rfl, h2, h1, fun ℓ hℓ => by rw [hG ℓ hℓ]; exact levelGeom_mk hL hd hb bx bY bz hℓ, hmode, ?_, ?_, ?_, ?_⟩
  · intro i ρ j σ e
    have : MGName.field i ρ = MGName.field j σ := hw.distinct e
    injection this with e1 e2; exact ⟨e1, e2⟩
  · intro i ρ j σ e
    rw [hw.centre_eq] at e
    have : MGName.field i ρ = MGName.coord j _ := hw.distinct e
    cases this
  · exact fun ℓ hℓ ρ => hw.fields ℓ hℓ ρ
  · intro ℓ hℓ x
    rw [hw.centre_eq]
    refine hw.centres ℓ hℓ _ ?_
    simp [Fin.castLE]

/-- The constructor: cycle, coarse levels with their coordinates. -/
theorem Spec.ArraysMG.build (b : Box ℝ) (bx bY bz : BCType) (m : Mem A ℝ) :
    ∃ l m', CDet sz (mgGeoms b w.mgCo bx bY bz (L - 1) 0 (levelGeom nx ny nz bx bY bz 0)) m l m' ∧
      (∀ ℓ, ℓ < L → (levelGeom nx ny nz bx bY bz 0 :: l).getD ℓ (levelGeom nx ny nz bx bY bz 0) = levelGeom nx ny nz bx bY bz ℓ) ∧
      (∀ ℓ, 1 ≤ ℓ → ℓ < L → Centres b (levelGrid ⟨nx, ny, nz, 2⟩ ℓ) (w.mgCo ℓ) m') ∧
      ∀ a, (∀ ℓ, 1 ≤ ℓ → ℓ < L → a ∉ (w.mgCo ℓ).all) → m' a = m a := by
  obtain ⟨m', h1, h2, h3⟩ := mgGeoms_det (sz := sz) (b := b) (co := w.mgCo) (gg := levelGrid ⟨nx, ny, nz, 2⟩)
    (GG := levelGeom nx ny nz bx bY bz) (N := L) (bx := bx) (bY := bY) (bz := bz) (level_facts hL hd hb).1
    (fun ℓ hℓ => levelGeom_mk hL hd hb bx bY bz hℓ) (fun _ _ => rfl) (fun ℓ hℓ => hw.coords hℓ)
    (fun ℓ j h => hw.coord_apart h) (L - 1) 0 (by omega) m
  refine ⟨_, m', h1, fun ℓ hℓ => ?_, fun ℓ h4 h5 => h2 ℓ (by omega) (by omega), fun a ha => h3 a fun j h4 h5 => ha j (by omega) (by omega)⟩
  cases ℓ with
  | zero => rfl
  | succ ℓ =>
    rw [List.getD_cons_succ, List.getD_eq_getElem?_getD, List.getElem?_map, List.getElem?_range (by omega)]
    show levelGeom nx ny nz bx bY bz (0 + 1 + ℓ) = _
    congr 1; omega

end

end Madg
