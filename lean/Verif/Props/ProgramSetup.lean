/-
C92: which configurations run, and how the others end.
-/
import Verif.Spec.Setup
import Verif.Props.ProgramPois

set_option linter.unusedSectionVars false
set_option linter.unusedVariables false

namespace Madg
open Spec

section
variable {A K : Type} [DecidableEq A] {sz : A → Int} {α β : Type}

theorem Fails.fail (e : Err) : Fails sz (.fail e : Cmd A K α) := by
  intro m o h
  cases h
  exact ⟨_, rfl⟩

def Never (sz : A → Int) (R : α) (c : Cmd A K α) : Prop := ∀ m m', ¬ CmdOut sz c m (.ok (R, m'))

theorem Never.bind {R : β} {c : Cmd A K α} {f : α → Cmd A K β} (h : ∀ x, Never sz R (f x)) : Never sz R (c.bind f) := by
  intro m m' hb
  rw [cmdOut_bind] at hb
  obtain ⟨x, m1, -, h2⟩ | ⟨e, -, h2⟩ := hb
  · exact h x m1 m' h2
  · cases h2

theorem Never.fail {R : α} (e : Err) : Never sz R (.fail e : Cmd A K α) := by
  intro m m' h
  cases h

theorem Never.ret {R S : α} (h : S ≠ R) : Never sz R (.ret S : Cmd A K α) := by
  intro m m' h'
  cases h'
  exact h rfl

theorem Never.ofExcept {R : β} {e : Except Err α} {f : α → Cmd A K β} (h : ∀ x, e = .ok x → Never sz R (f x)) :
    Never sz R ((Cmd.ofExcept e).bind f) := by
  cases e with
  | error e => exact Never.fail e
  | ok x => exact h x rfl

theorem Never.ofSetup {R : β} {e : Except SetupErr α} {f : α → Cmd A K β} (h : ∀ x, e = .ok x → Never sz R (f x)) :
    Never sz R ((ofSetup e).bind f) := by
  cases e with
  | error e => exact Never.fail _
  | ok x => exact h x rfl

/-- Every execution ends with the error `e`. -/
def Ends (sz : A → Int) (c : Cmd A K α) (m : Mem A K) (e : Err) : Prop := ∀ r, CmdOut sz c m r ↔ r = .error e

theorem Ends.fail (e : Err) (m : Mem A K) : Ends sz (.fail e : Cmd A K α) m e :=
  fun _ => ⟨fun h => by cases h; rfl, fun h => by rw [h]; constructor⟩

theorem CDet.ends {c : Cmd A K α} {f : α → Cmd A K β} {m m1 : Mem A K} {x : α} {e : Err} (h : CDet sz c m x m1)
    (hf : Ends sz (f x) m1 e) : Ends sz (c.bind f) m e := by
  intro r
  rw [cmdOut_bind]
  constructor
  · rintro (⟨y, m2, h1, h2⟩ | ⟨e', h1, -⟩)
    · cases (h _).1 h1
      exact (hf _).1 h2
    · cases (h _).1 h1
  · intro hr
    exact Or.inl ⟨x, m1, (h _).2 rfl, (hf _).2 hr⟩

theorem never_run [Field K] [LinearOrder K] {H : Type} {S : Sim A K H} (o : TimeOpts K) (lf se : Int) (base : Text) (ic : Cmd A K Unit)
    (h0 : H) (fuel : Nat) : Never sz .unmodelled (S.run o lf se base ic h0 fuel) := by
  unfold Sim.run
  refine Never.bind fun _ => ?_
  split
  · exact Never.fail _
  · refine Never.bind fun r => ?_
    match r with
    | none => exact Never.ret (by intro h; cases h)
    | some (d, st) => exact Never.bind fun _ => Never.ret (by intro h; cases h)

theorem fails_run [Field K] [LinearOrder K] {H : Type} {S : Sim A K H} {o : TimeOpts K} (h : o.useCfl = true) (lf se : Int) (base : Text)
    (ic : Cmd A K Unit) (h0 : H) (fuel : Nat) : Fails sz (S.run o lf se base ic h0 fuel) := by
  unfold Sim.run
  refine Fails.bind fun _ => ?_
  rw [if_pos h]
  exact Fails.fail _

end

theorem geomFactory_some {s : SetupOpts} {gk : GeomKind} (h : geomFactory s = .ok gk) :
    (∀ b ∈ [s.bcx, s.bcy, s.bcz], b ∈ ["periodic", "neumann", "dirichlet"]) ∧
    ((s.dimension = 2 ∧ gk = .cart2) ∨ (s.dimension = 3 ∧ ∃ x y z, gk = .cart3 x y z)) := by
  have pb : ∀ t n, parseBC t = .ok n → t ∈ ["periodic", "neumann", "dirichlet"] := by
    intro t n h
    unfold parseBC at h
    split at h
    · simp_all
    · split at h
      · simp_all
      · split at h
        · simp_all
        · cases h
  unfold geomFactory at h
  cases hx : parseBC s.bcx with
  | error e => rw [hx] at h; cases h
  | ok x =>
    cases hy : parseBC s.bcy with
    | error e => rw [hx, hy] at h; cases h
    | ok y =>
      cases hz : parseBC s.bcz with
      | error e => rw [hx, hy, hz] at h; cases h
      | ok z =>
        refine ⟨fun b hb => ?_, ?_⟩
        · simp only [List.mem_cons, List.not_mem_nil, or_false] at hb
          rcases hb with rfl | rfl | rfl
          · exact pb _ _ hx
          · exact pb _ _ hy
          · exact pb _ _ hz
        · rw [hx, hy, hz] at h
          simp only [Except.bind] at h
          split at h
          · rename_i hd; cases h; exact Or.inl ⟨hd, rfl⟩
          · split at h
            · rename_i hd; cases h; exact Or.inr ⟨hd, _, _, _, rfl⟩
            · cases h

theorem readField_useCfl {K : Type} {io : RealText K} {o o' : TimeOpts K} {e : Option String × Text} (h : readField io o e = .ok o') :
    o'.useCfl = o.useCfl := by
  unfold readField at h
  split at h
  · cases h; rfl
  · split at h
    · cases h
    · split at h
      · split at h
        · cases h; rfl
        · cases h
      · split at h
        · split at h
          · cases h; rfl
          · cases h
        · split at h
          · split at h
            · cases h; rfl
            · cases h
          · cases h; rfl

theorem readFields_useCfl {K : Type} {io : RealText K} : ∀ (l : List (Option String × Text)) {o o' : TimeOpts K},
    l.foldlM (readField io) o = .ok o' → o'.useCfl = o.useCfl
  | [], o, o', h => by cases h; rfl
  | e :: l, o, o', h => by
    rw [List.foldlM_cons] at h
    cases he : readField io o e with
    | error x => rw [he] at h; cases h
    | ok o1 => rw [he] at h; exact (readFields_useCfl l h).trans (readField_useCfl he)

theorem timeSetup_some {o : RunOpts} {E : Env ℝ} {file : Option VtsFile} {ti : TimeOpts ℝ × String} (h : timeSetup o E file = .ok ti) :
    ti.1.useCfl = o.useCfl ∧ ti.2 = o.sel.integrator ∧ o.sel.integrator ∈ registeredIntegrators := by
  have key : ∀ (t : TimeOpts ℝ), t.useCfl = o.useCfl →
      (match (Registry.addAll (registeredIntegrators.map fun s => (s, s)) (fun _ => none)).lookup o.sel.integrator with
        | .error _ => (.error .thrown : Except Err (TimeOpts ℝ × String))
        | .ok s => .ok (t, s)) = .ok ti →
      ti.1.useCfl = o.useCfl ∧ ti.2 = o.sel.integrator ∧ o.sel.integrator ∈ registeredIntegrators := by
    intro t ht hl
    rw [C58_first_wins] at hl
    have hmem : ∀ (l : List String) x, given (l.map fun s => (s, s)) o.sel.integrator = some x → x = o.sel.integrator ∧ x ∈ l := by
      intro l
      induction l with
      | nil => intro x hx; rw [List.map_nil, given_nil] at hx; cases hx
      | cons a l ih =>
        intro x hx
        rw [List.map_cons, given_cons] at hx
        split at hx
        · rename_i he; cases hx; exact ⟨he, List.mem_cons_self⟩
        · obtain ⟨h1, h2⟩ := ih x hx
          exact ⟨h1, List.mem_cons_of_mem _ h2⟩
    cases hg : given (registeredIntegrators.map fun s => (s, s)) o.sel.integrator with
    | none => rw [hg] at hl; cases hl
    | some x =>
      rw [hg] at hl
      cases hl
      obtain ⟨h1, h2⟩ := hmem _ _ hg
      exact ⟨ht, h1, h1 ▸ h2⟩
  unfold timeSetup at h
  cases file with
  | none => exact key _ rfl h
  | some f =>
    simp only [bind, Except.bind] at h
    split at h
    · cases h
    · rename_i t ht
      exact key t (readFields_useCfl _ ht) h

theorem rhsFactory_some {s : SetupOpts} {gk : GeomKind} {rk : RhsKind} (h : rhsFactory s gk = .ok rk) :
    (rk = .ch2 ∧ s.equation = "cahn-hilliard" ∧ s.dimension = 2 ∧ gk = .cart2) ∨
    (rk = .ch3 ∧ s.equation = "cahn-hilliard" ∧ s.dimension = 3 ∧ gk ≠ .cart2) ∨
    (rk = .poisson3 ∧ s.equation = "poisson" ∧ gk ≠ .cart2) := by
  unfold rhsFactory at h
  split at h
  · rename_i he
    split at h
    · rename_i hd
      split at h
      · cases h; exact Or.inl ⟨rfl, he, hd, rfl⟩
      · cases h
    · split at h
      · rename_i hd
        split at h
        · cases h
        · cases h; exact Or.inr (Or.inl ⟨rfl, he, hd, by intro h; cases h⟩)
      · cases h
  · split at h
    · rename_i he
      split at h
      · cases h
      · cases h; exact Or.inr (Or.inr ⟨rfl, he, by intro h; cases h⟩)
    · cases h

theorem getMGCycle_some {nl ns : Int} {l : List Int} (h : getMGCycle nl ns = .ok l) : (1 ≤ nl ∧ nl ≤ 6) ∧ 0 ≤ ns := by
  unfold getMGCycle at h
  dsimp only at h
  split at h
  · cases h
  repeat' (split at h; · omega)
  cases h

/-! ### C92 -/

section
variable {A : Type} [DecidableEq A] (sz : A → Int) (E : Env ℝ) (o : RunOpts) (file : Option VtsFile) (w : ProgArr A) (fuel : Nat)

/-- C92. The PETSc integrators are the only configurations whose run is left open by the model. -/
theorem C92_unmodelled (m m' : Mem A ℝ) (h : CmdOut sz (program E o file w fuel) m (.ok (.unmodelled, m'))) :
    o.sel.integrator ∈ ["petsc_ode23", "petsc_jfnk_bdf", "petsc_jacobian_bdf"] := by
  by_contra hn
  have hi : ∀ {ti : TimeOpts ℝ × String}, timeSetup o E file = .ok ti →
      ti.2 = "rk3ssp" ∨ ti.2 = "ode23" ∨ ti.2 = "bdf1" ∨ ti.2 = "steady" := by
    intro ti ht
    obtain ⟨-, h1, h2⟩ := timeSetup_some ht
    rw [h1]
    simp only [registeredIntegrators, List.mem_cons, List.not_mem_nil, or_false] at h2 hn
    tauto
  refine absurd h ?_
  suffices Never sz .unmodelled (program E o file w fuel) from this m m'
  unfold program
  refine Never.bind fun dom => Never.ofSetup fun gk hgk => ?_
  match gk with
  | .cart3 bx bY bz =>
    refine Never.bind fun G => Never.bind fun _ => Never.ofSetup fun rk hrk => ?_
    rcases rhsFactory_some hrk with ⟨-, -, -, h⟩ | ⟨rfl, -⟩ | ⟨rfl, -⟩
    · cases h
    · rw [if_neg (by decide), if_neg (by decide)]
      refine Never.bind fun _ => Never.ofExcept fun ti ht => ?_
      dsimp only
      split
      · exact never_run _ _ _ _ _ _ _
      · split
        · exact never_run _ _ _ _ _ _ _
        · rw [if_pos (by have := hi ht; tauto)]
          exact Never.bind fun _ => Never.bind fun _ => never_run _ _ _ _ _ _ _
    · rw [if_pos rfl]
      refine Never.ofExcept fun ti ht => ?_
      dsimp only
      split
      · exact never_run _ _ _ _ _ _ _
      · split
        · exact never_run _ _ _ _ _ _ _
        · rw [if_pos (by have := hi ht; tauto)]
          exact Never.bind fun _ => Never.bind fun _ => never_run _ _ _ _ _ _ _
  | .cart2 =>
    refine Never.bind fun G => Never.bind fun _ => Never.ofSetup fun rk hrk => ?_
    rcases rhsFactory_some hrk with ⟨rfl, -⟩ | ⟨-, -, -, h⟩ | ⟨-, -, h⟩
    · rw [if_neg (by decide)]
      refine Never.ofExcept fun ti ht => ?_
      dsimp only
      split
      · exact never_run _ _ _ _ _ _ _
      · split
        · exact never_run _ _ _ _ _ _ _
        · rw [if_pos (by have := hi ht; tauto)]
          exact Never.bind fun _ => Never.fail _
    · exact absurd rfl h
    · exact absurd rfl h

/-- C92. A configuration without an implementation never runs: from any memory, with or without a restart file and under every
schedule the program ends with an error, before its first step (`fuel` may be zero). -/
theorem C92_rejected (hp : o.sel.integrator ∉ ["petsc_ode23", "petsc_jfnk_bdf", "petsc_jacobian_bdf"]) (hs : ¬ Supported o)
    (m : Mem A ℝ) (r : Except Err (RunResult ℝ × Mem A ℝ)) (h : CmdOut sz (program E o file w fuel) m r) : ∃ e, r = .error e := by
  suffices Fails sz (program E o file w fuel) from this m r h
  have hcy : ∀ (b : Box ℝ) (bx bY bz : BCType) (G : Geom3) (t : TimeOpts ℝ) (ic : Cmd A ℝ Unit)
      (mk : (Nat → Geom3) → (Nat → ℝ) → MG A ℝ),
      (((1 ≤ o.mg.levels ∧ o.mg.levels ≤ 6) ∧ 0 ≤ o.mg.nsmooth) → t.useCfl = true) →
      Fails sz (mgRun E o b w bx bY bz G t ic mk fuel) := by
    intro b bx bY bz G t ic mk hc
    unfold mgRun
    exact Fails.ofExcept fun cyc hcyc => Fails.bind fun l => fails_run (hc (getMGCycle_some hcyc)) _ _ _ _ _ _
  have hno : ∀ c : Bool, (c = false → False) → c = true := by intro c; cases c <;> simp
  unfold program
  refine Fails.bind fun dom => Fails.ofSetup fun gk hgk => ?_
  obtain ⟨hbc, hd⟩ := geomFactory_some hgk
  match gk with
  | .cart3 bx bY bz =>
    obtain ⟨hd, -⟩ : o.sel.dimension = 3 ∧ True := by
      rcases hd with ⟨-, h⟩ | ⟨h, -⟩
      · cases h
      · exact ⟨h, trivial⟩
    refine Fails.bind fun G => Fails.bind fun _ => Fails.ofSetup fun rk hrk => ?_
    rcases rhsFactory_some hrk with ⟨-, -, -, h⟩ | ⟨rfl, he, -⟩ | ⟨rfl, he, -⟩
    · cases h
    · rw [if_neg (by decide), if_neg (by decide)]
      refine Fails.ofExcept fun u hu => Fails.ofExcept fun ti ht => ?_
      obtain ⟨h1, h2, h3⟩ := timeSetup_some ht
      have hv : o.variant = 0 ∨ o.variant = 1 ∨ o.variant = 2 := by
        unfold ctorCH3 at hu
        split at hu
        · omega
        · cases hu
      have hS : ∀ P : Prop, (P → (o.sel.integrator = "rk3ssp" ∨ o.sel.integrator = "ode23") ∨
          ((o.sel.integrator = "bdf1" ∨ o.sel.integrator = "steady") ∧ (1 ≤ o.mg.levels ∧ o.mg.levels ≤ 6) ∧ 0 ≤ o.mg.nsmooth)) →
          P → ti.1.useCfl = true := by
        intro P hP hp'
        rw [h1]
        exact hno _ fun hc => hs ⟨hbc, hc, Or.inr ⟨hd, Or.inl ⟨he, hv⟩, hP hp'⟩⟩
      dsimp only
      rw [h2]
      split
      · rename_i hi; exact fails_run (hS True (fun _ => Or.inl (Or.inl hi)) trivial) _ _ _ _ _ _
      · split
        · rename_i hi; exact fails_run (hS True (fun _ => Or.inl (Or.inr hi)) trivial) _ _ _ _ _ _
        · rename_i n1 n2
          have hi : o.sel.integrator = "bdf1" ∨ o.sel.integrator = "steady" := by
            simp only [registeredIntegrators, List.mem_cons, List.not_mem_nil, or_false] at h3 hp
            tauto
          rw [if_pos hi]
          exact hcy _ _ _ _ _ _ _ _ (hS _ fun h => Or.inr ⟨hi, h⟩)
    · rw [if_pos rfl]
      refine Fails.ofExcept fun ti ht => ?_
      obtain ⟨h1, h2, h3⟩ := timeSetup_some ht
      have hS : ∀ P : Prop, (P → (o.sel.integrator = "rk3ssp" ∨ o.sel.integrator = "ode23") ∨
          ((o.sel.integrator = "bdf1" ∨ o.sel.integrator = "steady") ∧ (1 ≤ o.mg.levels ∧ o.mg.levels ≤ 6) ∧ 0 ≤ o.mg.nsmooth)) →
          P → ti.1.useCfl = true := by
        intro P hP hp'
        rw [h1]
        exact hno _ fun hc => hs ⟨hbc, hc, Or.inr ⟨hd, Or.inr he, hP hp'⟩⟩
      dsimp only
      rw [h2]
      split
      · rename_i hi; exact fails_run (hS True (fun _ => Or.inl (Or.inl hi)) trivial) _ _ _ _ _ _
      · split
        · rename_i hi; exact fails_run (hS True (fun _ => Or.inl (Or.inr hi)) trivial) _ _ _ _ _ _
        · rename_i n1 n2
          have hi : o.sel.integrator = "bdf1" ∨ o.sel.integrator = "steady" := by
            simp only [registeredIntegrators, List.mem_cons, List.not_mem_nil, or_false] at h3 hp
            tauto
          rw [if_pos hi]
          exact hcy _ _ _ _ _ _ _ _ (hS _ fun h => Or.inr ⟨hi, h⟩)
  | .cart2 =>
    obtain ⟨hd, -⟩ : o.sel.dimension = 2 ∧ True := by
      rcases hd with ⟨h, -⟩ | ⟨-, _, _, _, h⟩
      · exact ⟨h, trivial⟩
      · cases h
    refine Fails.bind fun G => Fails.bind fun _ => Fails.ofSetup fun rk hrk => ?_
    rcases rhsFactory_some hrk with ⟨rfl, he, -⟩ | ⟨-, -, -, h⟩ | ⟨-, -, h⟩
    · rw [if_neg (by decide)]
      refine Fails.ofExcept fun ti ht => ?_
      obtain ⟨h1, h2, h3⟩ := timeSetup_some ht
      have hS : (o.sel.integrator = "rk3ssp" ∨ o.sel.integrator = "ode23") → ti.1.useCfl = true := by
        intro hi
        rw [h1]
        exact hno _ fun hc => hs ⟨hbc, hc, Or.inl ⟨hd, he, hi⟩⟩
      dsimp only
      rw [h2]
      split
      · rename_i hi; exact fails_run (hS (Or.inl hi)) _ _ _ _ _ _
      · split
        · rename_i hi; exact fails_run (hS (Or.inr hi)) _ _ _ _ _ _
        · rename_i n1 n2
          have hi : o.sel.integrator = "bdf1" ∨ o.sel.integrator = "steady" := by
            simp only [registeredIntegrators, List.mem_cons, List.not_mem_nil, or_false] at h3 hp
            tauto
          rw [if_pos hi]
          exact Fails.bind fun _ => Fails.fail _
    · exact absurd rfl h
    · exact absurd rfl h

/-- C92. With the 2D equation the multigrid integrator always aborts at construction, although all options are valid: the 2D
equation has no time step scale for the smoother. -/
theorem C92_multigrid_2d (heq : o.sel.equation = "cahn-hilliard") (hdim : o.sel.dimension = 2)
    (hbc : ∀ b ∈ [o.sel.bcx, o.sel.bcy, o.sel.bcz], b ∈ ["periodic", "neumann", "dirichlet"])
    (hint : o.sel.integrator = "bdf1" ∨ o.sel.integrator = "steady") (hl : 1 ≤ o.mg.levels ∧ o.mg.levels ≤ 6) (hns : 0 ≤ o.mg.nsmooth)
    (hn : 2 ≤ o.nx) (hw : Arrays2 sz w o.nx) (m : Mem A ℝ) (r : Except Err (RunResult ℝ × Mem A ℝ)) :
    CmdOut sz (program E o none w fuel) m r ↔ r = .error .abort := by
  have hdom := domain_none E o (by omega)
  obtain ⟨G, mc, hgk, hr, hG, hco, -⟩ := setup2 (sz := sz) (E := E) (w := w) (dom := ⟨o.nx, o.ny, o.nz, o.box.xbeg, o.box.xend,
    o.box.ybeg, o.box.zbeg⟩) heq (hbc _ (by simp)) (hbc _ (by simp)) (hbc _ (by simp)) hdim hn hw m
  have hts := timeSetup_ok (o := o) (file := none) (E := E) rfl
    (by rcases hint with h | h <;> rw [h] <;> decide)
  obtain ⟨cyc, hcyc⟩ : ∃ cyc, getMGCycle o.mg.levels o.mg.nsmooth = .ok cyc := by
    unfold getMGCycle
    dsimp only
    rw [if_neg (by omega)]
    split; · exact ⟨_, rfl⟩
    split; · exact ⟨_, rfl⟩
    split; · exact ⟨_, rfl⟩
    split; · exact ⟨_, rfl⟩
    split; · exact ⟨_, rfl⟩
    split; · exact ⟨_, rfl⟩
    omega
  revert r
  show Ends sz _ m _
  unfold program
  refine (CDet.ofExcept hdom m).ends ?_
  rw [hgk]
  refine (CDet.ret _ _).ends ?_
  refine (CDet.ofExcept hG m).ends ((CDet.ofHost hco).ends ?_)
  rw [hr]
  refine (CDet.ret _ _).ends ?_
  rw [if_neg (by simp)]
  refine (CDet.ofExcept hts mc).ends ?_
  dsimp only
  rw [if_neg (by rcases hint with h | h <;> rw [h] <;> decide), if_neg (by rcases hint with h | h <;> rw [h] <;> decide),
    if_pos hint]
  unfold mgCtor2
  exact (CDet.ofExcept hcyc mc).ends (Ends.fail _ _)

/-- C92. Every supported configuration with enough cells, matching arrays and usable numbers runs to its end: for some number of
steps every execution ends by itself, without error, all with the same files, log and memory, and has written at least one file. -/
theorem C92_completes (hs : Supported o) (m : Mem A ℝ) (hf : Fits sz w m o) :
    ∃ N, ∀ fuel, N ≤ fuel → ∃ files rows m', files ≠ [] ∧ CDet sz (program E o none w fuel) m (.done files rows) m' := by
  have fin : ∀ {ti : TimeOpts ℝ} {lf se : Nat} {t d p r : Nat → ℝ} {Q : Nat → ℝ × ℝ × ℝ → Prop} {name fname : Int → Text}
      {fc : Nat → Status ℝ → VtsFile}, RunsAs sz (program E o none w) m ti lf se t d p r Q name fname fc →
      ∃ N, ∀ fuel, N ≤ fuel → ∃ files rows m', files ≠ [] ∧ CDet sz (program E o none w fuel) m (.done files rows) m' := by
    rintro ti lf se t d p r Q name fname fc ⟨N, -, h, -⟩
    refine ⟨N, fun fuel hfu => ?_⟩
    obtain ⟨v, m', -, h'⟩ := h fuel hfu
    exact ⟨_, _, m', by simp, h'⟩
  have bc : ∀ b ∈ [o.sel.bcx, o.sel.bcy, o.sel.bcz], ∃ x : BCType,
      (b, x) ∈ [("periodic", BCType.periodic), ("neumann", .neumann), ("dirichlet", .dirichlet)] := by
    intro b hb
    have := hs.bc b hb
    simp only [List.mem_cons, List.not_mem_nil, or_false] at this
    rcases this with rfl | rfl | rfl
    · exact ⟨.periodic, by simp⟩
    · exact ⟨.neumann, by simp⟩
    · exact ⟨.dirichlet, by simp⟩
  obtain ⟨bx, hbx⟩ := bc o.sel.bcx (by simp)
  obtain ⟨bY, hby⟩ := bc o.sel.bcy (by simp)
  obtain ⟨bz, hbz⟩ := bc o.sel.bcz (by simp)
  obtain ⟨hms, hmax⟩ := hf.steps
  have hmax' : o.maxSteps < 2147483648 := by omega
  obtain ⟨t, d, p, ⟨hm, hp⟩, -⟩ := C85_sequences o.tfinal o.t0 o.dt0
  rcases hs.combination with ⟨hd, he, hi⟩ | ⟨hd, he, hi⟩
  · obtain ⟨hn, hw⟩ := hf.two hd
    rcases hi with hi | hi
    · exact fin (C85_rk3ssp2 sz E o w he hs.cfl hf.log hms (hs.bc _ (by simp)) (hs.bc _ (by simp)) (hs.bc _ (by simp)) hd hn hw hmax
        hi t d p hm hp _ rfl _ rfl _ rfl _ rfl m)
    · obtain ⟨t, d, p, e, hm, hes, hp⟩ := C86_sequences (chField2 o.par ((o.box.xend - o.box.xbeg) / o.nx) o.nx) (In2 o.nx)
        (finite_in2 _) (initial2 E.draw o.par.m o.nx) o.tfinal o.t0 o.dt0 o.errTol o.minStep o.maxStep
      exact fin (C86_ode23_2 sz E o w he hs.cfl hf.log hms (hs.bc _ (by simp)) (hs.bc _ (by simp)) (hs.bc _ (by simp)) hd hn hw hmax
        hi t d p e hm _ rfl _ rfl _ rfl hes hp _ rfl m (hf.ode23 hi))
  · have hn := hf.three hd
    rcases hi with hi | ⟨hi, hl, hns⟩
    · rcases he with ⟨he, hv⟩ | he
      · have hw := hf.ch hd hi he
        rcases hi with hi | hi
        · exact fin (C85_rk3ssp3 sz E o w he hs.cfl hf.log hms hbx hby hbz hd hv hn hw hmax' hi t d p hm hp _ rfl _ rfl _ rfl _ rfl m)
        · obtain ⟨t, d, p, e, hm, hes, hp⟩ := C86_sequences
            (chField3 o.par ((o.box.xend - o.box.xbeg) / o.nx) bx bY bz o.nx o.ny o.nz) (In3 o.nx o.ny o.nz)
            (finite_in3 _ _ _) (initial3 E.draw o.par.m o.nx o.ny o.nz) o.tfinal o.t0 o.dt0 o.errTol o.minStep o.maxStep
          exact fin (C86_ode23_3 sz E o w he hs.cfl hf.log hms hbx hby hbz hd hv hn hw hmax' hi t d p e hm _ rfl _ rfl _ rfl hes hp _ rfl
            m (hf.ode23 hi))
      · have hw := hf.pois hd hi he
        rcases hi with hi | hi
        · exact fin (C91_run_rk3ssp sz E o w he hs.cfl hf.log hms hmax' hbx hby hbz hd hn hw _ rfl _ (fun _ _ _ => rfl) _ rfl _ rfl m
            hi t d p hm hp _ rfl)
        · obtain ⟨e, he'⟩ : ∃ e : Int → Int → Int → ℝ, ∀ i j k : Int, e i j k =
              E.sn (o.box.xbeg + (o.box.xend - o.box.xbeg) / o.nx * (i + 1 / 2)) *
              E.cs (o.box.ybeg + (o.box.xend - o.box.xbeg) / o.nx * (j + 1 / 2)) *
              E.cs (o.box.zbeg + (o.box.xend - o.box.xbeg) / o.nx * (k + 1 / 2)) := ⟨_, fun _ _ _ => rfl⟩
          obtain ⟨t, d, p, ee, hm, hes, hp⟩ := C86_sequences
            (poisField ((o.box.xend - o.box.xbeg) / o.nx) o.nx o.ny o.nz e) (In3 o.nx o.ny o.nz)
            (finite_in3 _ _ _) (fun _ => 0) o.tfinal o.t0 o.dt0 o.errTol o.minStep o.maxStep
          exact fin (C91_run_ode23 sz E o w he hs.cfl hf.log hms hmax' hbx hby hbz hd hn hw _ rfl _ he' _ rfl _ rfl m
            hi t d p ee hm _ rfl hes hp (hf.ode23 hi))
    · obtain ⟨hmode, hns1, hw, hdiv⟩ := hf.mg hi
      have hnl : o.mg.levels = (o.mg.levels.toNat : Int) := by omega
      have hns' : o.mg.nsmooth = (o.mg.nsmooth.toNat : Int) := by omega
      have d1 := hdiv o.nx (by simp)
      have d2 := hdiv o.ny (by simp)
      have d3 := hdiv o.nz (by simp)
      obtain ⟨un, hun, hz⟩ : ∃ un : Bool, ((un = true ∧ o.sel.integrator = "bdf1") ∨ (un = false ∧ o.sel.integrator = "steady")) ∧
          (un = true → 0 < o.dt0 ∧ o.tfinal ≠ o.t0 + o.dt0) := by
        rcases hi with hi | hi
        · exact ⟨true, Or.inl ⟨rfl, hi⟩, fun _ => hf.bdf1 hi⟩
        · exact ⟨false, Or.inr ⟨rfl, hi⟩, fun h => by cases h⟩
      rcases he with ⟨he, hv⟩ | he
      · obtain ⟨u, s, c, hr, -⟩ := C88_sequences
          (chFas (levelGrid ⟨o.nx, o.ny, o.nz, 2⟩) bx bY bz (fun ℓ => (o.box.xend - o.box.xbeg) / ((o.nx / 2 ^ ℓ : Int) : ℝ)) o.par
            o.mg.interp o.mg.cfl o.mg.relax o.mg.coarseRelax) o.mg.nsmooth.toNat (o.mg.levels.toNat - 1) o.mg.relTol
          o.mg.maxCycles.toNat (rms3 E.rt o.nx o.ny o.nz) un (fun _ => 1 / 1000000) d (initial3 E.draw o.par.m o.nx o.ny o.nz)
        exact fin (C89_run sz E o w hs.cfl hf.log hms hmax' bx bY bz hbx hby hbz hd _ hnl (by omega) _ hns' (by omega) hmode
          ⟨d1.1, d2.1, d3.1⟩ ⟨d1.2, d2.2, d3.2⟩ hw un hun hz t d p hm hp _ (fun _ => rfl) u s c _ rfl m he hv _ rfl hr)
      · obtain ⟨u, s, c, hr, -⟩ := C88_sequences
          (poisFas (levelGrid ⟨o.nx, o.ny, o.nz, 2⟩)
            (fun ℓ i j k => E.sn (o.box.xbeg + (o.box.xend - o.box.xbeg) / ((o.nx / 2 ^ ℓ : Int) : ℝ) * (i + 1 / 2)) *
              E.cs (o.box.ybeg + (o.box.xend - o.box.xbeg) / ((o.nx / 2 ^ ℓ : Int) : ℝ) * (j + 1 / 2)) *
              E.cs (o.box.zbeg + (o.box.xend - o.box.xbeg) / ((o.nx / 2 ^ ℓ : Int) : ℝ) * (k + 1 / 2)))
            (fun ℓ => (o.box.xend - o.box.xbeg) / ((o.nx / 2 ^ ℓ : Int) : ℝ))
            o.mg.interp o.mg.cfl o.mg.relax o.mg.coarseRelax) o.mg.nsmooth.toNat (o.mg.levels.toNat - 1) o.mg.relTol
          o.mg.maxCycles.toNat (rms3 E.rt o.nx o.ny o.nz) un (fun _ => 1 / 1000000) d (fun _ => 0)
        exact fin (C88_run sz E o w hs.cfl hf.log hms hmax' bx bY bz hbx hby hbz hd _ hnl (by omega) _ hns' (by omega) hmode
          ⟨d1.1, d2.1, d3.1⟩ ⟨d1.2, d2.2, d3.2⟩ hw un hun hz t d p hm hp _ (fun _ => rfl) u s c _ rfl m he _ rfl hr)

end

/-! ### Concrete configurations -/

/-- The Cahn–Hilliard equation on two levels with backward Euler. -/
example (E : Env ℝ) (m : Mem MGName ℝ) : ∃ N, ∀ fuel, N ≤ fuel → ∃ files rows m', files ≠ [] ∧
    CDet mgDemoSize (program E (mgDemoOpts "cahn-hilliard" "bdf1") none mgDemoArr fuel) m (.done files rows) m' :=
  C92_completes _ E _ _
    ⟨by simp [mgDemoOpts], rfl, Or.inr ⟨rfl, Or.inl ⟨rfl, by simp [mgDemoOpts, demoOpts]⟩, Or.inr ⟨Or.inl rfl, by simp [mgDemoOpts],
      by simp [mgDemoOpts]⟩⟩⟩ m
    ⟨by simp [mgDemoOpts, demoOpts], by simp [mgDemoOpts, demoOpts], by simp [mgDemoOpts], by simp [mgDemoOpts],
      by simp [mgDemoOpts], by simp [mgDemoOpts], by simp [mgDemoOpts], fun _ => ⟨Or.inl rfl, by simp [mgDemoOpts],
        mgDemo_arrays _, by simp only [mgDemoOpts]; decide +kernel⟩, fun _ => by norm_num [mgDemoOpts, demoOpts]⟩

/-- The Poisson equation with rk3ssp. -/
example (E : Env ℝ) (m : Mem Nat ℝ) : ∃ N, ∀ fuel, N ≤ fuel → ∃ files rows m', files ≠ [] ∧
    CDet (demoSize 1521 1152) (program E (poisDemoOpts "rk3ssp") none demoArr fuel) m (.done files rows) m' :=
  C92_completes _ E _ _
    ⟨by simp [poisDemoOpts], rfl, Or.inr ⟨rfl, Or.inr rfl, Or.inl (Or.inl rfl)⟩⟩ m
    ⟨by simp [poisDemoOpts, demoOpts], by simp [poisDemoOpts, demoOpts], by simp [poisDemoOpts], by simp [poisDemoOpts],
      by simp [poisDemoOpts], fun _ _ _ => poisDemo_arrays, by simp [poisDemoOpts], by simp [poisDemoOpts], by simp [poisDemoOpts]⟩

/-- The 2D equation with bdf1 and valid multigrid options. -/
example (E : Env ℝ) (m : Mem Nat ℝ) (r) : CmdOut (demoSize 64 49)
    (program E { demoOpts2 "bdf1" with mg := ⟨2, 2, 5000, 1 / 1000000, 9 / 10, 1, 1 / 5, "nearest"⟩ } none demoArr 10) m r ↔
    r = .error .abort :=
  C92_multigrid_2d _ E _ _ _ rfl rfl (by simp [demoOpts2]) (Or.inl rfl) (by simp) (by simp) (by simp [demoOpts2])
    ⟨by simp [demoArr], by simp [demoArr, demoSize, demoOpts2], by simp [demoArr, demoSize, demoOpts2]⟩ m r

/-- The Poisson equation in 2D, on restart from any file. -/
example (E : Env ℝ) (f : VtsFile) (m : Mem Nat ℝ) (r)
    (h : CmdOut (demoSize 64 49) (program E { demoOpts2 "rk3ssp" with sel := ⟨2, "periodic", "periodic", "periodic", "poisson", "rk3ssp",
      true⟩ } (some f) demoArr 10) m r) : ∃ e, r = .error e :=
  C92_rejected _ E _ _ _ _ (by simp) (fun hs => by
    rcases hs.combination with ⟨-, h, -⟩ | ⟨h, -⟩
    · exact absurd h (by decide)
    · exact absurd h (by decide)) m r h

/-- Time steps from a CFL number, which no equation supports. -/
example (E : Env ℝ) (m : Mem Nat ℝ) (r)
    (h : CmdOut (demoSize 100 80) (program E { demoOpts "rk3ssp" with useCfl := true } none demoArr 10) m r) : ∃ e, r = .error e :=
  C92_rejected _ E _ _ _ _ (by simp [demoOpts]) (fun hs => by cases hs.cfl) m r h

end Madg
