/-
The Cahn–Hilliard hierarchy meets the contracts of the multigrid proofs.
-/
import Verif.Model.MGCH
import Verif.Proofs.MGFixed
import Verif.Proofs.RKCH
import Verif.Props.Transfer
import Verif.Proofs.Interior
import Mathlib.Algebra.CharZero.Defs

set_option linter.unusedSectionVars false
set_option linter.unusedVariables false

namespace Madg
open Spec
variable {A K : Type} [DecidableEq A] [Field K]

/-- Extension of an interior field to the padded box, by array offset. -/
def fillH (g : Grid3) (bx bY bz : BCType) (u : Int × Int × Int → K) (n : Int) : K :=
  ext3 bx bY bz g.ni g.nj g.nk (fun i j k => u (i, j, k)) (g.getI n) (g.getJ n) (g.getK n)

theorem ch3_fill {g : Grid3} (hn : 2 ≤ g.ni ∧ 2 ≤ g.nj ∧ 2 ≤ g.nk) (hh : g.nhalo = 2) {xbc ybc zbc : BCType}
    {G : Geom3} (hG : mkGeom3 g xbc ybc zbc = .ok G) {v : Int} (hv : v = 0 ∨ v = 1 ∨ v = 2)
    {sz : A → Int} {l1 l2 l3 l4 : A} (hnd : [l1, l2, l3, l4].Nodup) (hsz : ∀ a ∈ [l1, l2, l3, l4], sz a = g.size)
    (scratch : A → Prop) (hscr : ∀ a ∈ [l1, l2, l3, l4], scratch a)
    (p : CHParams K) (dx : K) :
    FillRhs sz g.size scratch (fun _ => none) (In3 g.ni g.nj g.nk) (fun c : Int × Int × Int => g.at3 c.1 c.2.1 c.2.2)
      (chField3 p dx xbc ybc zbc g.ni g.nj g.nk 0) (fillH g xbc ybc zbc)
      (fun s r _ => G.evalRHS v p dx ⟨s, r, l1, l2, l3, l4⟩) := by
  have hok : g.Ok := ⟨by omega, by omega, by omega, by omega⟩
  have hC := ch3_contract hn hh hG hv hnd hsz p dx
  obtain ⟨hGok, rfl, rfl, rfl, rfl⟩ := Geom3.ok_of_mk hok hG
  have hv' : ctorCH3 v = .ok () := by unfold ctorCH3; rw [if_pos (by omega)]
  have hpad : ∀ c, In3 G.g.ni G.g.nj G.g.nk c → G.g.Pad c.1 c.2.1 c.2.2 := by
    intro c hc; unfold In3 at hc; unfold Grid3.Pad; omega
  refine ⟨hC.range, fun u w h c hc => hC.interior 0 u w h c hc, ?_, ?_, ?_⟩
  · intro u w h n _ _
    unfold fillH ext3
    exact h _ ⟨extIdx_range _ (by omega), extIdx_range _ (by omega), extIdx_range _ (by omega)⟩
  · intro u c hc
    obtain ⟨e1, e2, e3⟩ := Grid3.get_at3 (hpad c hc)
    unfold In3 at hc
    unfold fillH ext3
    rw [e1, e2, e3, extIdx_of_int hc.1.1 hc.1.2, extIdx_of_int hc.2.1.1 hc.2.1.2, extIdx_of_int hc.2.2.1 hc.2.2.2]
  · intro s r t m _ hne hs hr _ _ hzs hzr
    have hnd' : [s, r, l1, l2, l3, l4].Nodup := by
      rw [List.nodup_cons, List.nodup_cons]
      refine ⟨?_, fun h => hr (hscr _ h), hnd⟩
      rw [List.mem_cons]
      rintro (h | h)
      · exact hne h
      · exact hs (hscr _ h)
    have hsz' : ∀ a ∈ [s, r, l1, l2, l3, l4], sz a = G.g.size := by
      intro a ha
      rw [List.mem_cons, List.mem_cons] at ha
      rcases ha with rfl | rfl | ha
      · exact hzs
      · exact hzr
      · exact hsz a ha
    obtain ⟨m', hd, hp, -, ho⟩ := evalRHS_det hGok (w := ⟨s, r, l1, l2, l3, l4⟩) ⟨hnd', hsz'⟩ (by omega) (by omega)
      (by omega) (by omega) hv' p dx m
    refine ⟨m', hd, ?_, ?_, ?_⟩
    · intro c hc; exact hp.rhs _ _ _ hc
    · intro n h0 h1
      have h := hp.state _ _ _ (Grid3.pad_get hok h0 h1)
      rw [Grid3.at3_get hok h0] at h
      exact h
    · intro b h1 h2 h3
      refine hp.frame b ?_
      rw [List.mem_cons, List.mem_cons, not_or, not_or]
      exact ⟨h1, h2, fun h => h3 (hscr _ h)⟩

/-- Interior offsets. -/
theorem onInt_iff {g : Grid3} {n : Int} : onInt (In3 g.ni g.nj g.nk) (fun c : Int × Int × Int => g.at3 c.1 c.2.1 c.2.2) n ↔
    ∃ i j k, g.Int3 i j k ∧ g.at3 i j k = n := by
  constructor
  · rintro ⟨⟨i, j, k⟩, h, e⟩; exact ⟨i, j, k, h, e⟩
  · rintro ⟨i, j, k, h, e⟩; exact ⟨(i, j, k), h, e⟩

/-- Restriction by array offset. -/
def restrT (gc gf : Grid3) (u : Int → K) (n : Int) : K :=
  avg8 (fun x y z => u (gf.at3 x y z)) (gc.getI n) (gc.getJ n) (gc.getK n)

theorem restrict_transfer {Gc : Geom3} (hG : Gc.Ok) {gf : Grid3} (hf : Fine Gc.g gf) (sz : A → Int) :
    Transfer sz gf.size Gc.g.size
      (onInt (In3 gf.ni gf.nj gf.nk) fun c : Int × Int × Int => gf.at3 c.1 c.2.1 c.2.2)
      (onInt (In3 Gc.g.ni Gc.g.nj Gc.g.nk) fun c : Int × Int × Int => Gc.g.at3 c.1 c.2.1 c.2.2)
      (restrT (K := K) Gc.g gf) (Gc.restrict gf) := by
  obtain ⟨ei, ej, ek, eh⟩ := hf
  have rd : ∀ (u w : Int → K), (∀ n, onInt (In3 gf.ni gf.nj gf.nk) (fun c : Int × Int × Int => gf.at3 c.1 c.2.1 c.2.2) n → u n = w n) →
      ∀ n, onInt (In3 Gc.g.ni Gc.g.nj Gc.g.nk) (fun c : Int × Int × Int => Gc.g.at3 c.1 c.2.1 c.2.2) n →
      restrT Gc.g gf u n = restrT Gc.g gf w n := by
    rintro u w h n ⟨⟨i, j, k⟩, hc, rfl⟩
    have hi : Gc.g.Int3 i j k := hc
    obtain ⟨e1, e2, e3⟩ := Grid3.get_at3 (hi.pad hG.ok)
    dsimp only
    unfold restrT
    rw [e1, e2, e3]
    obtain ⟨⟨a1, a2⟩, ⟨b1, b2⟩, ⟨c1, c2⟩⟩ := hi
    have q : ∀ x y z, (x = 2 * i ∨ x = 2 * i + 1) → (y = 2 * j ∨ y = 2 * j + 1) → (z = 2 * k ∨ z = 2 * k + 1) →
        u (gf.at3 x y z) = w (gf.at3 x y z) := fun x y z hx hy hz =>
      h _ ⟨(x, y, z), ⟨⟨by dsimp only; omega, by dsimp only; omega⟩, ⟨by dsimp only; omega, by dsimp only; omega⟩,
        ⟨by dsimp only; omega, by dsimp only; omega⟩⟩, rfl⟩
    unfold avg8
    simp only [q _ _ _ (Or.inl rfl) (Or.inl rfl) (Or.inl rfl), q _ _ _ (Or.inl rfl) (Or.inl rfl) (Or.inr rfl),
      q _ _ _ (Or.inl rfl) (Or.inr rfl) (Or.inl rfl), q _ _ _ (Or.inl rfl) (Or.inr rfl) (Or.inr rfl),
      q _ _ _ (Or.inr rfl) (Or.inl rfl) (Or.inl rfl), q _ _ _ (Or.inr rfl) (Or.inl rfl) (Or.inr rfl),
      q _ _ _ (Or.inr rfl) (Or.inr rfl) (Or.inl rfl), q _ _ _ (Or.inr rfl) (Or.inr rfl) (Or.inr rfl)]
  refine ⟨rd, ?_, ?_⟩
  · intro u h n hn
    rw [rd u (fun _ => 0) h n hn]
    simp [restrT, avg8]
  · intro s r m hne hs hr
    obtain ⟨m', d, w⟩ := restrict_det (K := K) hG ⟨ei, ej, ek, eh⟩ hne hs hr m
    refine ⟨m', d, ?_, ?_, w.frame⟩
    · rintro n ⟨⟨i, j, k⟩, hc, rfl⟩
      have hi : Gc.g.Int3 i j k := hc
      obtain ⟨e1, e2, e3⟩ := Grid3.get_at3 (hi.pad hG.ok)
      dsimp only
      unfold restrT
      rw [e1, e2, e3]
      exact w.view i j k hi
    · intro n hn
      exact w.out n fun i j k h e => hn ⟨(i, j, k), h, e⟩

/-- Piecewise constant prolongation by array offset. -/
def nearT (gc gf : Grid3) (u : Int → K) (n : Int) : K :=
  u (gc.at3 (gf.getI n / 2) (gf.getJ n / 2) (gf.getK n / 2))

theorem nearest_transfer {Gc : Geom3} (hG : Gc.Ok) {gf : Grid3} (hf : Fine Gc.g gf) (sz : A → Int) :
    Transfer sz Gc.g.size gf.size
      (onInt (In3 Gc.g.ni Gc.g.nj Gc.g.nk) fun c : Int × Int × Int => Gc.g.at3 c.1 c.2.1 c.2.2)
      (onInt (In3 gf.ni gf.nj gf.nk) fun c : Int × Int × Int => gf.at3 c.1 c.2.1 c.2.2)
      (nearT (K := K) Gc.g gf) (fun c f => Gc.prolongNearest gf c f) := by
  have hf' := hf
  obtain ⟨ei, ej, ek, eh⟩ := hf
  have hokf : gf.Ok := hf'.ok hG.ok
  have rd : ∀ (u w : Int → K), (∀ n, onInt (In3 Gc.g.ni Gc.g.nj Gc.g.nk) (fun c : Int × Int × Int => Gc.g.at3 c.1 c.2.1 c.2.2) n → u n = w n) →
      ∀ n, onInt (In3 gf.ni gf.nj gf.nk) (fun c : Int × Int × Int => gf.at3 c.1 c.2.1 c.2.2) n →
      nearT Gc.g gf u n = nearT Gc.g gf w n := by
    rintro u w h n ⟨⟨i, j, k⟩, hc, rfl⟩
    have hi : gf.Int3 i j k := hc
    obtain ⟨e1, e2, e3⟩ := Grid3.get_at3 (hi.pad hokf)
    dsimp only
    unfold nearT
    rw [e1, e2, e3]
    obtain ⟨⟨a1, a2⟩, ⟨b1, b2⟩, ⟨c1, c2⟩⟩ := hi
    exact h _ ⟨(i / 2, j / 2, k / 2), ⟨⟨by dsimp only; omega, by dsimp only; omega⟩, ⟨by dsimp only; omega, by dsimp only; omega⟩,
        ⟨by dsimp only; omega, by dsimp only; omega⟩⟩, rfl⟩
  refine ⟨rd, ?_, ?_⟩
  · intro u h n hn
    rw [rd u (fun _ => 0) h n hn]; rfl
  · intro s r m hne hs hr
    obtain ⟨m', d, w⟩ := nearest_det (K := K) hG hf' (Ne.symm hne) hr hs m
    refine ⟨m', d, ?_, ?_, w.frame⟩
    · rintro n ⟨⟨i, j, k⟩, hc, rfl⟩
      have hi : gf.Int3 i j k := hc
      obtain ⟨e1, e2, e3⟩ := Grid3.get_at3 (hi.pad hokf)
      dsimp only
      unfold nearT
      rw [e1, e2, e3]
      exact w.view i j k hi
    · intro n hn
      exact w.out n fun i j k h e => hn ⟨(i, j, k), h, e⟩

/-- Cells within one layer of the interior. -/
def In3p (g : Grid3) (n : Int) : Prop :=
  ∃ x y z, (-1 ≤ x ∧ x ≤ g.ni) ∧ (-1 ≤ y ∧ y ≤ g.nj) ∧ (-1 ≤ z ∧ z ≤ g.nk) ∧ g.at3 x y z = n

/-- Linear prolongation (as coded) by array offset. -/
def linT (gc gf : Grid3) (u : Int → K) (n : Int) : K :=
  trilinSwapped (fun x y z => u (gc.at3 x y z)) (gf.getI n) (gf.getJ n) (gf.getK n)

theorem lin1_congr {w w' : Int → K} {x : Int} (h0 : w ((x - 1) / 2) = w' ((x - 1) / 2))
    (h1 : w ((x - 1) / 2 + 1) = w' ((x - 1) / 2 + 1)) : lin1 w x = lin1 w' x := by
  unfold lin1; rw [h0, h1]

theorem lin1r_congr {w w' : Int → K} {x : Int} (h0 : w ((x - 1) / 2) = w' ((x - 1) / 2))
    (h1 : w ((x - 1) / 2 + 1) = w' ((x - 1) / 2 + 1)) : lin1r w x = lin1r w' x := by
  unfold lin1r; rw [h0, h1]

theorem trilinSwapped_congr {u w : Int → Int → Int → K} {x y z : Int}
    (h : ∀ a b c, (a = (x - 1) / 2 ∨ a = (x - 1) / 2 + 1) → (b = (y - 1) / 2 ∨ b = (y - 1) / 2 + 1) →
      (c = (z - 1) / 2 ∨ c = (z - 1) / 2 + 1) → u a b c = w a b c) : trilinSwapped u x y z = trilinSwapped w x y z := by
  unfold trilinSwapped
  have hb : ∀ b c, (b = (y - 1) / 2 ∨ b = (y - 1) / 2 + 1) → (c = (z - 1) / 2 ∨ c = (z - 1) / 2 + 1) →
      (if b = (y - 1) / 2 then lin1 (fun a => u a b c) x else lin1r (fun a => u a b c) x) =
      (if b = (y - 1) / 2 then lin1 (fun a => w a b c) x else lin1r (fun a => w a b c) x) := by
    intro b c hb hc
    have e1 := lin1_congr (w := fun a => u a b c) (w' := fun a => w a b c) (x := x) (h _ b c (Or.inl rfl) hb hc) (h _ b c (Or.inr rfl) hb hc)
    have e2 := lin1r_congr (w := fun a => u a b c) (w' := fun a => w a b c) (x := x) (h _ b c (Or.inl rfl) hb hc) (h _ b c (Or.inr rfl) hb hc)
    rw [e1, e2]
  refine lin1_congr ?_ ?_
  · exact lin1_congr (hb _ _ (Or.inl rfl) (Or.inl rfl)) (hb _ _ (Or.inr rfl) (Or.inl rfl))
  · exact lin1_congr (hb _ _ (Or.inl rfl) (Or.inr rfl)) (hb _ _ (Or.inr rfl) (Or.inr rfl))

theorem trilinSwapped_zero (x y z : Int) : trilinSwapped (fun _ _ _ => (0 : K)) x y z = 0 := by
  unfold trilinSwapped lin1 lin1r; simp

theorem linear_transfer [CharZero K] {Gc : Geom3} (hG : Gc.Ok) {gf : Grid3} (hf : Fine Gc.g gf) (h1 : 1 ≤ Gc.g.nhalo)
    (sz : A → Int) :
    Transfer sz Gc.g.size gf.size (In3p Gc.g) (In3p gf) (linT (K := K) Gc.g gf) (fun c f => Gc.prolongLinear gf c f) := by
  have hf' := hf
  obtain ⟨ei, ej, ek, eh⟩ := hf
  have hokf : gf.Ok := hf'.ok hG.ok
  have get : ∀ {x y z : Int}, (-1 ≤ x ∧ x ≤ gf.ni) → (-1 ≤ y ∧ y ≤ gf.nj) → (-1 ≤ z ∧ z ≤ gf.nk) →
      gf.getI (gf.at3 x y z) = x ∧ gf.getJ (gf.at3 x y z) = y ∧ gf.getK (gf.at3 x y z) = z := fun hx hy hz =>
    Grid3.get_at3 (by unfold Grid3.Pad; omega)
  have rd : ∀ (u w : Int → K), (∀ n, In3p Gc.g n → u n = w n) → ∀ n, In3p gf n → linT Gc.g gf u n = linT Gc.g gf w n := by
    rintro u w h n ⟨x, y, z, hx, hy, hz, rfl⟩
    obtain ⟨e1, e2, e3⟩ := get hx hy hz
    unfold linT
    rw [e1, e2, e3]
    refine trilinSwapped_congr fun a b c ha hb hc => ?_
    exact h _ ⟨a, b, c, by omega, by omega, by omega, rfl⟩
  refine ⟨rd, ?_, ?_⟩
  · intro u h n hn
    rw [rd u (fun _ => 0) h n hn]; exact trilinSwapped_zero _ _ _
  · intro s r m hne hs hr
    obtain ⟨m', d, w, o, f⟩ := linear_det' (K := K) (Gc := Gc) hf' h1 (Ne.symm hne) hr hs m
    refine ⟨m', d, ?_, ?_, f⟩
    · rintro n ⟨x, y, z, hx, hy, hz, rfl⟩
      obtain ⟨e1, e2, e3⟩ := get hx hy hz
      unfold linT
      rw [e1, e2, e3]
      exact w x y z hx hy hz
    · intro n hn
      exact o n fun x y z hx hy hz e => hn ⟨x, y, z, hx, hy, hz, e⟩

/-! ### The hierarchy -/

theorem holds_none (m : Mem A K) : Holds (fun _ => none) m := fun _ _ e => nomatch e


/-- A Cahn–Hilliard hierarchy as the constructor builds it. -/
structure HierOk (nlev : Nat) (g : Nat → Grid3) (bx bY bz : BCType) (G : Nat → Geom3) (v : Int) (mode : String)
    (arr : Nat → MGRole → A) (wk : Nat → Fin 4 → A) (sz : A → Int) : Prop where
  pos : 1 ≤ nlev
  halo : (g 0).nhalo = 2
  ext : ∀ ℓ, ℓ < nlev → 2 ≤ (g ℓ).ni ∧ 2 ≤ (g ℓ).nj ∧ 2 ≤ (g ℓ).nk
  coarsen : ∀ ℓ, ℓ + 1 < nlev → (g ℓ).coarsen = .ok (g (ℓ + 1))
  geom : ∀ ℓ, ℓ < nlev → mkGeom3 (g ℓ) bx bY bz = .ok (G ℓ)
  variant : v = 0 ∨ v = 1 ∨ v = 2
  mode : mode = "nearest" ∨ mode = "linear"
  arrInj : ∀ i ρ j σ, arr i ρ = arr j σ → i = j ∧ ρ = σ
  wkInj : ∀ i x j y, wk i x = wk j y → i = j ∧ x = y
  apart : ∀ i ρ j x, arr i ρ ≠ wk j x
  arrSize : ∀ ℓ, ℓ < nlev → ∀ ρ, sz (arr ℓ ρ) = (g ℓ).size
  wkSize : ∀ ℓ, ℓ < nlev → ∀ x, sz (wk ℓ x) = (g ℓ).size

/-- Offsets read and written by the prolongation. -/
def prolReads (mode : String) (g : Nat → Grid3) (ℓ : Nat) : Int → Prop :=
  if mode = "nearest" then
    onInt (In3 (g (ℓ + 1)).ni (g (ℓ + 1)).nj (g (ℓ + 1)).nk) fun c : Int × Int × Int => (g (ℓ + 1)).at3 c.1 c.2.1 c.2.2
  else In3p (g (ℓ + 1))

def prolWrites (mode : String) (g : Nat → Grid3) (ℓ : Nat) : Int → Prop :=
  if mode = "nearest" then
    onInt (In3 (g ℓ).ni (g ℓ).nj (g ℓ).nk) fun c : Int × Int × Int => (g ℓ).at3 c.1 c.2.1 c.2.2
  else In3p (g ℓ)

theorem HierOk.levels {nlev : Nat} {g : Nat → Grid3} {bx bY bz : BCType} {G : Nat → Geom3} {v : Int} {mode : String}
    {arr : Nat → MGRole → A} {wk : Nat → Fin 4 → A} {sz : A → Int}
    (h : HierOk nlev g bx bY bz G v mode arr wk sz) : ∀ ℓ, ℓ < nlev →
      (g ℓ).nhalo = 2 ∧ (G ℓ).Ok ∧ (G ℓ).g = g ℓ ∧ (ℓ + 1 < nlev → Fine (g (ℓ + 1)) (g ℓ)) := by
  intro ℓ
  induction ℓ with
  | zero =>
    intro h0
    have := h.ext 0 h0
    obtain ⟨a, b, -⟩ := Geom3.ok_of_mk ⟨by omega, by omega, by omega, by have := h.halo; omega⟩ (h.geom 0 h0)
    refine ⟨h.halo, a, b, fun h1 => ?_⟩
    exact (fine_of_coarsen (by omega) (by omega) (by omega) (by have := h.halo; omega) (h.coarsen 0 h1)).2
  | succ ℓ ih =>
    intro h0
    obtain ⟨i1, i2, i3, i4⟩ := ih (by omega)
    have hh : (g (ℓ + 1)).nhalo = 2 := by rw [← (i4 h0).h, i1]
    have := h.ext _ h0
    obtain ⟨a, b, -⟩ := Geom3.ok_of_mk ⟨by omega, by omega, by omega, by omega⟩ (h.geom _ h0)
    refine ⟨hh, a, b, fun h1 => ?_⟩
    exact (fine_of_coarsen (by omega) (by omega) (by omega) (by omega) (h.coarsen _ h1)).2

theorem chMG_ok [CharZero K] {nlev : Nat} {g : Nat → Grid3} {bx bY bz : BCType} {G : Nat → Geom3} {v : Int}
    {mode : String} {arr : Nat → MGRole → A} {wk : Nat → Fin 4 → A} {sz : A → Int}
    (h : HierOk nlev g bx bY bz G v mode arr wk sz) (dx : Nat → K) (p : CHParams K) (cfl rf rc : K) (un : Bool) :
    (chMG nlev G dx v p wk arr mode cfl rf rc un).Ok sz (fun b => ∃ ℓ x, b = wk ℓ x) (fun _ => none)
      (fun ℓ => In3 (g ℓ).ni (g ℓ).nj (g ℓ).nk) (fun ℓ (c : Int × Int × Int) => (g ℓ).at3 c.1 c.2.1 c.2.2)
      (fun ℓ => chField3 p (dx ℓ) bx bY bz (g ℓ).ni (g ℓ).nj (g ℓ).nk 0) (fun ℓ => fillH (g ℓ) bx bY bz)
      (fun ℓ => restrT (g (ℓ + 1)) (g ℓ))
      (fun ℓ => if mode = "nearest" then nearT (g (ℓ + 1)) (g ℓ) else linT (g (ℓ + 1)) (g ℓ))
      (prolReads mode g) (prolWrites mode g) := by
  have hl := h.levels
  refine ⟨h.arrInj, ?_, ?_, fun _ _ => rfl, fun _ _ => rfl, ?_, ?_, ?_, ?_, ?_, ?_⟩
  · intro ℓ hℓ ρ
    change sz (arr ℓ ρ) = (G ℓ).g.size
    rw [(hl ℓ hℓ).2.2.1]; exact h.arrSize ℓ hℓ ρ
  · rintro ℓ ρ ⟨j, x, e⟩; exact h.apart _ _ _ _ e
  · intro ℓ hℓ
    have e : (chMG nlev G dx v p wk arr mode cfl rf rc un).size ℓ = (g ℓ).size := by
      change (G ℓ).g.size = _; rw [(hl ℓ hℓ).2.2.1]
    rw [e]
    refine ch3_fill (h.ext ℓ hℓ) (hl ℓ hℓ).1 (h.geom ℓ hℓ) h.variant ?_ ?_ _ ?_ p (dx ℓ)
    · have : [wk ℓ 0, wk ℓ 1, wk ℓ 2, wk ℓ 3] = [(0 : Fin 4), 1, 2, 3].map (wk ℓ) := rfl
      rw [this]
      exact List.Nodup.map (fun a b e => (h.wkInj _ _ _ _ e).2) (by decide)
    · intro a ha
      simp only [List.mem_cons, List.not_mem_nil, or_false] at ha
      rcases ha with rfl | rfl | rfl | rfl <;> exact h.wkSize ℓ hℓ _
    · intro a ha
      simp only [List.mem_cons, List.not_mem_nil, or_false] at ha
      rcases ha with rfl | rfl | rfl | rfl <;> exact ⟨ℓ, _, rfl⟩
  · intro ℓ hℓ
    obtain ⟨-, -, e0, f0⟩ := hl ℓ (by exact Nat.lt_of_succ_lt hℓ)
    obtain ⟨-, o1, e1, -⟩ := hl (ℓ + 1) hℓ
    have := restrict_transfer (K := K) o1 (gf := (G ℓ).g) (by rw [e1, e0]; exact f0 hℓ) sz
    change Transfer sz (G ℓ).g.size (G (ℓ + 1)).g.size _ _ _ (fun f c => (G (ℓ + 1)).restrict (G ℓ).g f c)
    rw [e0, e1] at this ⊢
    exact this
  · intro ℓ hℓ
    obtain ⟨n0, -, e0, f0⟩ := hl ℓ (by exact Nat.lt_of_succ_lt hℓ)
    obtain ⟨n1, o1, e1, -⟩ := hl (ℓ + 1) hℓ
    change Transfer sz (G (ℓ + 1)).g.size (G ℓ).g.size _ _ _ (fun c f => (G (ℓ + 1)).prolong (G ℓ).g mode c f)
    unfold prolReads prolWrites Geom3.prolong
    rcases h.mode with rfl | rfl
    · simp only [if_true]
      have := nearest_transfer (K := K) o1 (gf := (G ℓ).g) (by rw [e1, e0]; exact f0 hℓ) sz
      rw [e0, e1] at this ⊢
      exact this
    · simp only [show ("linear" = "nearest") = False from by decide, if_false, if_true]
      have := linear_transfer (K := K) o1 (gf := (G ℓ).g) (by rw [e1, e0]; exact f0 hℓ) (by rw [e1]; omega) sz
      rw [e0, e1] at this ⊢
      exact this
  · intro ℓ hℓ n hn
    obtain ⟨n1, o1, e1, -⟩ := hl (ℓ + 1) hℓ
    change 0 ≤ n ∧ n < (G (ℓ + 1)).g.size
    rw [e1]
    unfold prolReads at hn
    split at hn
    · obtain ⟨⟨i, j, k⟩, hc, rfl⟩ := hn
      exact Grid3.at3_bounds (by unfold In3 at hc; unfold Grid3.Pad; omega)
    · obtain ⟨x, y, z, hx, hy, hz, rfl⟩ := hn
      exact Grid3.at3_bounds (by unfold Grid3.Pad; omega)
  · intro ℓ hℓ n hn
    unfold prolWrites
    split
    · exact hn
    · obtain ⟨⟨i, j, k⟩, hc, rfl⟩ := hn
      unfold In3 at hc
      dsimp only at hc
      exact ⟨i, j, k, by omega, by omega, by omega, rfl⟩
  · intro n hn
    obtain ⟨-, o0, e0, -⟩ := hl 0 h.pos
    obtain ⟨i, j, k, hi, e⟩ := o0.mem_int.1 hn
    rw [e0] at hi e
    exact onInt_iff.2 ⟨i, j, k, hi, e⟩

end Madg
