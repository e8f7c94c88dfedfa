import Verif.Proofs.Grid3
import Verif.Spec.Ext

set_option linter.unusedSectionVars false
set_option linter.unusedVariables false

namespace Madg
open Spec
variable {A K : Type} [DecidableEq A]

/-- The discretization is what the constructor builds. -/
structure Geom3.Ok (G : Geom3) : Prop where
  ok : G.g.Ok
  int : G.interior = G.g.interiorVals
  don : G.donor = G.g.donorVals
  recv : G.receiver = G.g.receiverVals

theorem Geom3.ok_of_mk {g : Grid3} {x y z : BCType} {G : Geom3} (hg : g.Ok) (h : mkGeom3 g x y z = .ok G) :
    G.Ok ∧ G.g = g ∧ G.xbc = x ∧ G.ybc = y ∧ G.zbc = z := by
  rw [mkGeom3_ok hg] at h
  cases h
  exact ⟨⟨hg, rfl, rfl, rfl⟩, rfl, rfl, rfl, rfl⟩

/-- `m'` is `m` with the padded array `a` replaced by itself looked up at `σ`-transformed coordinates. -/
structure Fills (g : Grid3) (a : A) (m m' : Mem A K) (σ τ υ : Int → Int) : Prop where
  view : ∀ i j k, g.Pad i j k → m' a (g.at3 i j k) = m a (g.at3 (σ i) (τ j) (υ k))
  out : ∀ n, ¬ (0 ≤ n ∧ n < g.size) → m' a n = m a n
  frame : ∀ b, b ≠ a → m' b = m b

theorem Fills.id (g : Grid3) (a : A) (m : Mem A K) : Fills g a m m (fun i => i) (fun j => j) (fun k => k) :=
  ⟨fun _ _ _ _ => rfl, fun _ _ => rfl, fun _ _ => rfl⟩

theorem Fills.trans {g : Grid3} {a : A} {m m1 m2 : Mem A K} {σ τ υ σ' τ' υ' : Int → Int}
    (h1 : Fills g a m m1 σ τ υ) (h2 : Fills g a m1 m2 σ' τ' υ')
    (hp : ∀ i j k, g.Pad i j k → g.Pad (σ' i) (τ' j) (υ' k)) :
    Fills g a m m2 (fun i => σ (σ' i)) (fun j => τ (τ' j)) (fun k => υ (υ' k)) :=
  ⟨fun i j k h => by rw [h2.view i j k h, h1.view _ _ _ (hp i j k h)],
   fun n hn => by rw [h2.out n hn, h1.out n hn],
   fun b hb => by rw [h2.frame b hb, h1.frame b hb]⟩

theorem Fills.congr {g : Grid3} {a : A} {m m' : Mem A K} {σ τ υ σ' τ' υ' : Int → Int}
    (h : Fills g a m m' σ τ υ)
    (hc : ∀ i j k, g.Pad i j k → σ i = σ' i ∧ τ j = τ' j ∧ υ k = υ' k) : Fills g a m m' σ' τ' υ' :=
  ⟨fun i j k hp => by obtain ⟨h1, h2, h3⟩ := hc i j k hp; rw [h.view i j k hp, h1, h2, h3], h.out, h.frame⟩

/-- Location of a cell of array `a`. -/
def Grid3.loc (g : Grid3) (a : A) (c : Int × Int × Int) : A × Int := (a, g.at3 c.1 c.2.1 c.2.2)

theorem Grid3.loc_inj {g : Grid3} {a : A} {c c' : Int × Int × Int}
    (h : g.Pad c.1 c.2.1 c.2.2) (h' : g.Pad c'.1 c'.2.1 c'.2.2) (e : g.loc a c = g.loc a c') : c = c' := by
  have := Grid3.at3_inj h h' (by simpa [Grid3.loc] using e)
  obtain ⟨i, j, k⟩ := c; obtain ⟨i', j', k'⟩ := c'
  simpa using this

theorem donor1_range {n h i : Int} (hn : 1 ≤ n) (hh : h ≤ n) (h1 : -h ≤ i) (h2 : i < n + h) :
    0 ≤ Grid3.donor1 n i ∧ Grid3.donor1 n i < n := by
  unfold Grid3.donor1; split
  · omega
  · split <;> omega

theorem donor1_eq_wrap {n h i : Int} (hn : 1 ≤ n) (hh : h ≤ n) (h1 : -h ≤ i) (h2 : i < n + h) :
    Grid3.donor1 n i = wrapIdx n i := by
  unfold Grid3.donor1 wrapIdx
  split
  · rw [← Int.add_emod_right, Int.emod_eq_of_lt] <;> omega
  · split
    · rw [← Int.sub_emod_right, Int.emod_eq_of_lt] <;> omega
    · rw [Int.emod_eq_of_lt] <;> omega

theorem donor1_of_int {n i : Int} (h1 : 0 ≤ i) (h2 : i < n) : Grid3.donor1 n i = i := by
  unfold Grid3.donor1; rw [if_neg (by omega), if_neg (by omega)]

theorem wrapIdx_of_int {n i : Int} (h1 : 0 ≤ i) (h2 : i < n) : wrapIdx n i = i := Int.emod_eq_of_lt h1 h2

theorem clampIdx_range {n : Int} (i : Int) (hn : 1 ≤ n) : 0 ≤ clampIdx n i ∧ clampIdx n i < n := by
  unfold clampIdx; omega

theorem clampIdx_of_int {n i : Int} (h1 : 0 ≤ i) (h2 : i < n) : clampIdx n i = i := by
  unfold clampIdx; omega

theorem wrapIdx_range {n : Int} (i : Int) (hn : 1 ≤ n) : 0 ≤ wrapIdx n i ∧ wrapIdx n i < n :=
  ⟨Int.emod_nonneg _ (by omega), Int.emod_lt_of_pos _ (by omega)⟩

theorem extIdx_range {bc : BCType} {n : Int} (i : Int) (hn : 1 ≤ n) :
    0 ≤ extIdx bc n i ∧ extIdx bc n i < n := by
  cases bc
  · exact wrapIdx_range i hn
  · exact clampIdx_range i hn
  · exact wrapIdx_range i hn

theorem extIdx_of_int {bc : BCType} {n i : Int} (h1 : 0 ≤ i) (h2 : i < n) : extIdx bc n i = i := by
  cases bc
  · exact wrapIdx_of_int h1 h2
  · exact clampIdx_of_int h1 h2
  · exact wrapIdx_of_int h1 h2

theorem periodic_pool {G : Geom3} (hG : G.Ok) (a : A) :
    (G.applyPeriodic a : Host A K) = [G.g.haloCells.map fun c =>
      .load a (G.g.at3 (Grid3.donor1 G.g.ni c.1) (Grid3.donor1 G.g.nj c.2.1) (Grid3.donor1 G.g.nk c.2.2))
        fun v => .store a (G.g.at3 c.1 c.2.1 c.2.2) v (.pure ())] := by
  unfold Geom3.applyPeriodic
  rw [hG.don, hG.recv]
  congr 1
  refine List.ext_getElem (by simp [Grid3.donorVals]) ?_
  intro i h1 h2
  have hi : i < G.g.haloCells.length := by simpa using h2
  simp [Prog.idx, Grid3.donorVals, Grid3.receiverVals, List.getElem?_eq_getElem hi, Prog.wr]

theorem periodic_det {G : Geom3} (hG : G.Ok) {sz : A → Int} {a : A} (hs : sz a = G.g.size)
    (hi : G.g.nhalo ≤ G.g.ni) (hj : G.g.nhalo ≤ G.g.nj) (hk : G.g.nhalo ≤ G.g.nk) (m : Mem A K) :
    ∃ m', Det sz (G.applyPeriodic a) m m' ∧
      Fills G.g a m m' (wrapIdx G.g.ni) (wrapIdx G.g.nj) (wrapIdx G.g.nk) := by
  rw [periodic_pool hG]
  have hgi := hG.ok.hi; have hgj := hG.ok.hj; have hgk := hG.ok.hk
  set g := G.g
  have hdon : ∀ c ∈ g.haloCells, g.Int3 (Grid3.donor1 g.ni c.1) (Grid3.donor1 g.nj c.2.1)
      (Grid3.donor1 g.nk c.2.2) := by
    intro c hc
    obtain ⟨⟨p1, p2, p3⟩, -⟩ := Grid3.mem_haloCells.1 hc
    exact ⟨donor1_range hgi hi p1.1 p1.2, donor1_range hgj hj p2.1 p2.2,
      donor1_range hgk hk p3.1 p3.2⟩
  refine ⟨_, det_cells (Grid3.nodup_haloCells g) (g.loc a)
    (fun c => m a (g.at3 (Grid3.donor1 g.ni c.1) (Grid3.donor1 g.nj c.2.1) (Grid3.donor1 g.nk c.2.2)))
    m ?_ ?_ ?_, ?_⟩
  · intro c hc c' hc' e
    exact Grid3.loc_inj (Grid3.mem_haloCells.1 hc).1 (Grid3.mem_haloCells.1 hc').1 e
  · intro c hc
    refine ⟨?_, ?_, fun v => ⟨?_, rfl, trivial⟩⟩
    · rw [InB, hs]; exact Grid3.at3_bounds ((hdon c hc).pad hG.ok)
    · intro c' hc' _ e
      have h1 := Grid3.mem_haloCells.1 hc'
      have h2 := Grid3.at3_inj h1.1 ((hdon c hc).pad hG.ok) (by simpa [Grid3.loc] using e)
      apply h1.2
      obtain ⟨e1, e2, e3⟩ := h2
      rw [e1, e2, e3]; exact hdon c hc
    · rw [InB, hs]; exact Grid3.at3_bounds (Grid3.mem_haloCells.1 hc).1
  · intro c hc
    exact Mem.set_same _ _ _ _
  · refine ⟨?_, ?_, ?_⟩
    · intro i j k hp
      have hw1 := donor1_eq_wrap hgi hi hp.1.1 hp.1.2
      have hw2 := donor1_eq_wrap hgj hj hp.2.1.1 hp.2.1.2
      have hw3 := donor1_eq_wrap hgk hk hp.2.2.1 hp.2.2.2
      by_cases hint : g.Int3 i j k
      · rw [Mem.upd_miss]
        · rw [wrapIdx_of_int hint.1.1 hint.1.2, wrapIdx_of_int hint.2.1.1 hint.2.1.2,
            wrapIdx_of_int hint.2.2.1 hint.2.2.2]
        · intro c hc e
          have h1 := Grid3.mem_haloCells.1 hc
          obtain ⟨e1, e2, e3⟩ := Grid3.at3_inj h1.1 hp (by simpa [Grid3.loc] using e)
          exact h1.2 (by rw [e1, e2, e3]; exact hint)
      · rw [Mem.upd_hit (c := (i, j, k)) _ (Grid3.mem_haloCells.2 ⟨hp, hint⟩) rfl]
        · simp only [hw1, hw2, hw3]
        · intro c' hc' e
          exact Grid3.loc_inj (Grid3.mem_haloCells.1 hc').1 hp e
    · intro n hn
      rw [Mem.upd_miss]
      intro c hc e
      apply hn
      have : g.at3 c.1 c.2.1 c.2.2 = n := by simpa [Grid3.loc] using e
      rw [← this]; exact Grid3.at3_bounds (Grid3.mem_haloCells.1 hc).1
    · intro b hb
      exact Mem.upd_ne fun c _ => fun e => hb e.symm

theorem forEach_congr {ι : Type} {xs : List ι} {f f' : ι → Prog A K Unit} (h : ∀ x ∈ xs, f x = f' x) :
    Prog.forEach xs f = Prog.forEach xs f' := by
  induction xs with
  | nil => rfl
  | cons x xs ih =>
    simp only [Prog.forEach]
    rw [h x (by simp), ih (fun y hy => h y (by simp [hy]))]

/-- The two clamp loops of one axis, as one loop over the halo coordinates of that axis. -/
theorem clampLoops (n h : Int) (hn : 1 ≤ n) (f : Int → Int → Prog A K Unit) :
    ((Prog.forEach (irange (-h) 0) fun i => f 0 i).bind fun _ =>
      Prog.forEach (irange n (n + h)) fun i => f (n - 1) i) =
    Prog.forEach (irange (-h) 0 ++ irange n (n + h)) fun i => f (clampIdx n i) i := by
  rw [forEach_append]
  congr 1
  · refine forEach_congr ?_
    intro i hi; simp only [mem_irange] at hi
    congr 1; unfold clampIdx; omega
  · funext _
    refine forEach_congr ?_
    intro i hi; simp only [mem_irange] at hi
    congr 1; unfold clampIdx; omega

/-- Halo coordinates of one axis. -/
def halo1 (n h : Int) : List Int := irange (-h) 0 ++ irange n (n + h)

theorem mem_halo1 {n h i : Int} : i ∈ halo1 n h ↔ (-h ≤ i ∧ i < 0) ∨ (n ≤ i ∧ i < n + h) := by
  simp [halo1]

theorem nodup_halo1 {n h : Int} (hn : 0 ≤ n) : (halo1 n h).Nodup := by
  unfold halo1
  rw [List.nodup_append]
  refine ⟨nodup_irange _ _, nodup_irange _ _, ?_⟩
  rintro x hx y hy rfl
  simp only [mem_irange] at hx hy; omega

/-- A Neumann fill along one axis.  `mk x y z` puts the axis coordinate `x`, outer coordinate `y`, middle
coordinate `z` in place. -/
theorem neumann_axis {sz : A → Int} {g : Grid3} {a : A} (hg : g.Ok) (hs : sz a = g.size) (m : Mem A K)
    (n lo1 hi1 lo2 hi2 : Int) (hn : 1 ≤ n) (mk : Int → Int → Int → Int × Int × Int)
    (hmk : ∀ x y z x' y' z', mk x y z = mk x' y' z' → x = x' ∧ y = y' ∧ z = z')
    (hpad : ∀ x y z, (-g.nhalo ≤ x ∧ x < n + g.nhalo) → (lo1 ≤ y ∧ y < hi1) → (lo2 ≤ z ∧ z < hi2) →
      g.Pad (mk x y z).1 (mk x y z).2.1 (mk x y z).2.2)
    (hex : ∀ i j k, g.Pad i j k → ∃ x y z, mk x y z = (i, j, k) ∧ (-g.nhalo ≤ x ∧ x < n + g.nhalo) ∧
      (lo1 ≤ y ∧ y < hi1) ∧ (lo2 ≤ z ∧ z < hi2)) :
    ∃ m', Det sz [forAll lo1 hi1 fun y => Prog.forEach (irange lo2 hi2) fun z =>
        (Prog.forEach (irange (-g.nhalo) 0) fun x =>
          .load a (g.at3 (mk 0 y z).1 (mk 0 y z).2.1 (mk 0 y z).2.2) fun v =>
            .store a (g.at3 (mk x y z).1 (mk x y z).2.1 (mk x y z).2.2) v (.pure ())).bind fun _ =>
        Prog.forEach (irange n (n + g.nhalo)) fun x =>
          .load a (g.at3 (mk (n - 1) y z).1 (mk (n - 1) y z).2.1 (mk (n - 1) y z).2.2) fun v =>
            .store a (g.at3 (mk x y z).1 (mk x y z).2.1 (mk x y z).2.2) v (.pure ())] m m' ∧
      (∀ x y z, (-g.nhalo ≤ x ∧ x < n + g.nhalo) → (lo1 ≤ y ∧ y < hi1) → (lo2 ≤ z ∧ z < hi2) →
        m' a (g.at3 (mk x y z).1 (mk x y z).2.1 (mk x y z).2.2) =
        m a (g.at3 (mk (clampIdx n x) y z).1 (mk (clampIdx n x) y z).2.1 (mk (clampIdx n x) y z).2.2)) ∧
      (∀ n, ¬ (0 ≤ n ∧ n < g.size) → m' a n = m a n) ∧ (∀ b, b ≠ a → m' b = m b) := by
  have hh := hg.hh
  let us : List (Int × Int) := (irange lo2 hi2).flatMap fun z => (halo1 n g.nhalo).map fun x => (z, x)
  have hus : ∀ u : Int × Int, u ∈ us ↔ (lo2 ≤ u.1 ∧ u.1 < hi2) ∧ u.2 ∈ halo1 n g.nhalo := by
    rintro ⟨z, x⟩
    simp only [us, List.mem_flatMap, List.mem_map, mem_irange, Prod.mk.injEq]
    constructor
    · rintro ⟨z', hz, x', hx, rfl, rfl⟩; exact ⟨hz, hx⟩
    · rintro ⟨hz, hx⟩; exact ⟨z, hz, x, hx, rfl, rfl⟩
  have hndus : us.Nodup := by
    refine nodup_flatMap_disj Prod.fst (nodup_irange _ _) ?_ ?_
    · intro z _
      exact (nodup_halo1 (by omega)).map (fun a b h => by simpa using h)
    · intro z _ b hb
      obtain ⟨x, _, rfl⟩ := List.mem_map.1 hb; rfl
  let body : Int → Int × Int → Prog A K Unit := fun y u =>
    .load a (g.at3 (mk (clampIdx n u.2) y u.1).1 (mk (clampIdx n u.2) y u.1).2.1
      (mk (clampIdx n u.2) y u.1).2.2) fun v =>
      .store a (g.at3 (mk u.2 y u.1).1 (mk u.2 y u.1).2.1 (mk u.2 y u.1).2.2) v (.pure ())
  have hpool : (forAll lo1 hi1 fun y => Prog.forEach (irange lo2 hi2) fun z =>
        (Prog.forEach (irange (-g.nhalo) 0) fun x =>
          .load a (g.at3 (mk 0 y z).1 (mk 0 y z).2.1 (mk 0 y z).2.2) fun v =>
            .store a (g.at3 (mk x y z).1 (mk x y z).2.1 (mk x y z).2.2) v (.pure ())).bind fun _ =>
        Prog.forEach (irange n (n + g.nhalo)) fun x =>
          .load a (g.at3 (mk (n - 1) y z).1 (mk (n - 1) y z).2.1 (mk (n - 1) y z).2.2) fun v =>
            .store a (g.at3 (mk x y z).1 (mk x y z).2.1 (mk x y z).2.2) v (.pure ()) : Pool A K) =
      (irange lo1 hi1).map fun y => Prog.forEach us (body y) := by
    unfold forAll
    congr 1
    funext y
    simp only [us, forEach_flatMap, forEach_map, halo1]
    congr 1
    funext z
    exact clampLoops n g.nhalo hn (fun s x =>
      .load a (g.at3 (mk s y z).1 (mk s y z).2.1 (mk s y z).2.2) fun v =>
        .store a (g.at3 (mk x y z).1 (mk x y z).2.1 (mk x y z).2.2) v (.pure ()))
  rw [hpool]
  let cell : Int × (Int × Int) → Int × Int × Int := fun c => mk c.2.2 c.1 c.2.1
  have hcellpad : ∀ c : Int × (Int × Int), c.1 ∈ irange lo1 hi1 → c.2 ∈ us →
      g.Pad (cell c).1 (cell c).2.1 (cell c).2.2 := by
    intro c h1 h2
    have h2' := (hus c.2).1 h2
    have h3 := mem_halo1.1 h2'.2
    exact hpad _ _ _ (by omega) (by simpa using h1) h2'.1
  have hsrcpad : ∀ x y z, (lo1 ≤ y ∧ y < hi1) → (lo2 ≤ z ∧ z < hi2) →
      g.Pad (mk (clampIdx n x) y z).1 (mk (clampIdx n x) y z).2.1 (mk (clampIdx n x) y z).2.2 := by
    intro x y z hy hz
    have := clampIdx_range x hn
    exact hpad _ _ _ (by omega) hy hz
  refine ⟨_, det_cells_nested (nodup_irange _ _) (fun _ _ => hndus) (fun c => g.loc a (cell c))
    (fun c => m a (g.at3 (mk (clampIdx n c.2.2) c.1 c.2.1).1 (mk (clampIdx n c.2.2) c.1 c.2.1).2.1
      (mk (clampIdx n c.2.2) c.1 c.2.1).2.2)) m ?_ ?_ ?_, ?_, ?_, ?_⟩
  · rintro ⟨y, z, x⟩ h1 h2 ⟨y', z', x'⟩ h1' h2' e
    have := Grid3.loc_inj (hcellpad _ h1 h2) (hcellpad _ h1' h2') e
    obtain ⟨e1, e2, e3⟩ := hmk _ _ _ _ _ _ this
    simp only at e1 e2 e3
    rw [e1, e2, e3]
  · rintro ⟨y, z, x⟩ h1 h2
    have h2' := (hus (z, x)).1 h2
    have hy : lo1 ≤ y ∧ y < hi1 := by simpa using h1
    refine ⟨?_, ?_, fun v => ⟨?_, rfl, trivial⟩⟩
    · rw [InB, hs]; exact Grid3.at3_bounds (hsrcpad x y z hy h2'.1)
    · rintro ⟨y', z', x'⟩ h1' h2'' _ e
      have e' : cell (y', z', x') = mk (clampIdx n x) y z :=
        Grid3.loc_inj (a := a) (hcellpad _ h1' h2'') (hsrcpad x y z hy h2'.1) e
      obtain ⟨e1, -, -⟩ := hmk _ _ _ _ _ _ e'
      have h3 := mem_halo1.1 ((hus (z', x')).1 h2'').2
      have h4 := clampIdx_range x hn
      simp only at e1 h3
      omega
    · rw [InB, hs]; exact Grid3.at3_bounds (hcellpad _ h1 h2)
  · intro c h1 h2
    exact Mem.set_same _ _ _ _
  · intro x y z hx hy hz
    by_cases hin : 0 ≤ x ∧ x < n
    · rw [Mem.upd_miss, clampIdx_of_int hin.1 hin.2]
      rintro ⟨y', z', x'⟩ ⟨h1', h2'⟩ e
      have e' : cell (y', z', x') = mk x y z :=
        Grid3.loc_inj (a := a) (hcellpad _ h1' h2') (hpad _ _ _ hx hy hz) e
      obtain ⟨e1, -, -⟩ := hmk _ _ _ _ _ _ e'
      have h3 := mem_halo1.1 ((hus (z', x')).1 h2').2
      simp only at e1 h3
      omega
    · have hmem : (z, x) ∈ us := (hus (z, x)).2 ⟨hz, mem_halo1.2 (by omega)⟩
      rw [Mem.upd_hit (c := (y, z, x)) _ ⟨by simpa using hy, hmem⟩ rfl]
      rintro ⟨y', z', x'⟩ ⟨h1', h2'⟩ e
      have e' : cell (y', z', x') = mk x y z :=
        Grid3.loc_inj (a := a) (hcellpad _ h1' h2') (hpad _ _ _ hx hy hz) e
      obtain ⟨e1, e2, e3⟩ := hmk _ _ _ _ _ _ e'
      simp only at e1 e2 e3
      rw [e1, e2, e3]
  · intro p hp
    rw [Mem.upd_miss]
    rintro c ⟨h1, h2⟩ e
    apply hp
    have : g.at3 (cell c).1 (cell c).2.1 (cell c).2.2 = p := by simpa [Grid3.loc] using e
    rw [← this]; exact Grid3.at3_bounds (hcellpad c h1 h2)
  · intro b hb
    exact Mem.upd_ne fun c _ => fun e => hb e.symm

theorem neumannX_det {G : Geom3} (hG : G.Ok) {sz : A → Int} {a : A} (hs : sz a = G.g.size) (m : Mem A K) :
    ∃ m', Det sz (G.applyNeumannBCX a) m m' ∧
      Fills G.g a m m' (clampIdx G.g.ni) (fun j => j) (fun k => k) := by
  obtain ⟨m', h1, h2, h3, h4⟩ := neumann_axis (K := K) hG.ok hs m G.g.ni (-G.g.nhalo) (G.g.nj + G.g.nhalo)
    (-G.g.nhalo) (G.g.nk + G.g.nhalo) hG.ok.hi (fun x y z => (x, y, z)) (by simp) (fun x y z hx hy hz =>
      ⟨hx, hy, hz⟩) (fun i j k h => ⟨i, j, k, rfl, h.1, h.2.1, h.2.2⟩)
  exact ⟨m', h1, ⟨fun i j k h => h2 i j k h.1 h.2.1 h.2.2, h3, h4⟩⟩

theorem neumannY_det {G : Geom3} (hG : G.Ok) {sz : A → Int} {a : A} (hs : sz a = G.g.size) (m : Mem A K) :
    ∃ m', Det sz (G.applyNeumannBCY a) m m' ∧
      Fills G.g a m m' (fun i => i) (clampIdx G.g.nj) (fun k => k) := by
  obtain ⟨m', h1, h2, h3, h4⟩ := neumann_axis (K := K) hG.ok hs m G.g.nj (-G.g.nhalo) (G.g.ni + G.g.nhalo)
    (-G.g.nhalo) (G.g.nk + G.g.nhalo) hG.ok.hj (fun x y z => (y, x, z)) (by simp)
    (fun x y z hx hy hz => ⟨hy, hx, hz⟩) (fun i j k h => ⟨j, i, k, rfl, h.2.1, h.1, h.2.2⟩)
  exact ⟨m', h1, ⟨fun i j k h => h2 j i k h.2.1 h.1 h.2.2, h3, h4⟩⟩

theorem neumannZ_det {G : Geom3} (hG : G.Ok) {sz : A → Int} {a : A} (hs : sz a = G.g.size) (m : Mem A K) :
    ∃ m', Det sz (G.applyNeumannBCZ a) m m' ∧
      Fills G.g a m m' (fun i => i) (fun j => j) (clampIdx G.g.nk) := by
  obtain ⟨m', h1, h2, h3, h4⟩ := neumann_axis (K := K) hG.ok hs m G.g.nk (-G.g.nhalo) (G.g.ni + G.g.nhalo)
    (-G.g.nhalo) (G.g.nj + G.g.nhalo) hG.ok.hk (fun x y z => (y, z, x)) (by simp)
    (fun x y z hx hy hz => ⟨hy, hz, hx⟩) (fun i j k h => ⟨k, i, j, rfl, h.2.2, h.1, h.2.1⟩)
  exact ⟨m', h1, ⟨fun i j k h => h2 k i j h.2.2 h.1 h.2.1, h3, h4⟩⟩

/-- One conditional axis of `applyNeumann`. -/
theorem neumann_if {sz : A → Int} {g : Grid3} {a : A} {h : Host A K} (c : Prop) [Decidable c] (m : Mem A K)
    {σ τ υ : Int → Int} (hdet : ∃ m', Det sz h m m' ∧ Fills g a m m' σ τ υ) :
    ∃ m', Det sz (if c then h else []) m m' ∧
      Fills g a m m' (fun i => if c then σ i else i) (fun j => if c then τ j else j)
        (fun k => if c then υ k else k) := by
  by_cases hc : c
  · simpa [hc] using hdet
  · simp only [hc, if_false]; exact ⟨m, det_nil _ _, Fills.id _ _ _⟩

theorem neumann_det {G : Geom3} (hG : G.Ok) {sz : A → Int} {a : A} (hs : sz a = G.g.size) (m : Mem A K) :
    ∃ m', Det sz (G.applyNeumann a) m m' ∧
      Fills G.g a m m' (fun i => if G.xbc = .neumann then clampIdx G.g.ni i else i)
        (fun j => if G.ybc = .neumann then clampIdx G.g.nj j else j)
        (fun k => if G.zbc = .neumann then clampIdx G.g.nk k else k) := by
  have hi := hG.ok.hi; have hj := hG.ok.hj; have hk := hG.ok.hk; have hh := hG.ok.hh
  obtain ⟨m1, d1, f1⟩ := neumann_if (G.xbc = .neumann) m (neumannX_det hG hs m)
  obtain ⟨m2, d2, f2⟩ := neumann_if (G.ybc = .neumann) m1 (neumannY_det hG hs m1)
  obtain ⟨m3, d3, f3⟩ := neumann_if (G.zbc = .neumann) m2 (neumannZ_det hG hs m2)
  refine ⟨m3, det_append (det_append d1 d2) d3, ?_⟩
  have p2 : ∀ i j k, G.g.Pad i j k → G.g.Pad (if G.ybc = .neumann then i else i)
      (if G.ybc = .neumann then clampIdx G.g.nj j else j) (if G.ybc = .neumann then k else k) := by
    intro i j k h
    have := clampIdx_range j hj
    simp only [ite_self]
    unfold Grid3.Pad at *
    split <;> omega
  have p3 : ∀ i j k, G.g.Pad i j k → G.g.Pad (if G.zbc = .neumann then i else i)
      (if G.zbc = .neumann then j else j) (if G.zbc = .neumann then clampIdx G.g.nk k else k) := by
    intro i j k h
    have := clampIdx_range k hk
    simp only [ite_self]
    unfold Grid3.Pad at *
    split <;> omega
  have := (f1.trans f2 p2).trans f3 p3
  simpa using this

/-- Boundary fill as performed before every right-hand-side evaluation. -/
theorem bc_det {G : Geom3} (hG : G.Ok) {sz : A → Int} {a : A} (hs : sz a = G.g.size)
    (hi : G.g.nhalo ≤ G.g.ni) (hj : G.g.nhalo ≤ G.g.nj) (hk : G.g.nhalo ≤ G.g.nk) (m : Mem A K) :
    ∃ m', Det sz (G.applyPeriodic a ++ G.applyNeumann a) m m' ∧
      Fills G.g a m m' (extIdx G.xbc G.g.ni) (extIdx G.ybc G.g.nj) (extIdx G.zbc G.g.nk) := by
  have hgi := hG.ok.hi; have hgj := hG.ok.hj; have hgk := hG.ok.hk; have hh := hG.ok.hh
  obtain ⟨m1, d1, f1⟩ := periodic_det hG hs hi hj hk m
  obtain ⟨m2, d2, f2⟩ := neumann_det hG hs m1
  refine ⟨m2, det_append d1 d2, (f1.trans f2 ?_).congr ?_⟩
  · intro i j k h
    have h1 := clampIdx_range i hgi
    have h2 := clampIdx_range j hgj
    have h3 := clampIdx_range k hgk
    unfold Grid3.Pad at *
    refine ⟨?_, ?_, ?_⟩ <;> split <;> omega
  · intro i j k _
    have key : ∀ (bc : BCType) (n x : Int), 1 ≤ n →
        wrapIdx n (if bc = .neumann then clampIdx n x else x) = extIdx bc n x := by
      intro bc n x hn
      cases bc
      · rfl
      · have := clampIdx_range x hn
        exact wrapIdx_of_int this.1 this.2
      · rfl
    exact ⟨key _ _ _ hgi, key _ _ _ hgj, key _ _ _ hgk⟩

end Madg
