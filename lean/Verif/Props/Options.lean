/-
Registry (C58), options (C59), derived box ends (C63) and choice of components (C67).
-/
import Verif.Proofs.Options
import Mathlib.Algebra.CharZero.Defs
import Mathlib.Algebra.Field.Rat
import Mathlib.Data.Int.Cast.Lemmas
import Mathlib.Tactic.FieldSimp
import Mathlib.Tactic.Ring
import Mathlib.Tactic.NormNum
import Mathlib.Data.List.Perm.Basic

set_option linter.unusedSectionVars false
set_option linter.unusedVariables false

namespace Madg
open Spec

/-! ### C58 -/

/-- After any registrations: a name gives the creator it was first registered with; a name that was never registered
throws. -/
theorem C58_first_wins {F : Type} (l : List (String × F)) (name : String) :
    (Registry.addAll l (fun _ => none)).lookup name =
      match given l name with
      | some f => .ok f
      | none => .error ("Unable to find " ++ name) := by
  have key : ∀ (l : List (String × F)) (r : Registry F), Registry.addAll l r name = (r name).or (given l name) := by
    intro l
    induction l with
    | nil => intro r; unfold Registry.addAll; simp [given_nil]
    | cons e l ih =>
      intro r
      have := ih (r.add e.1 e.2).1
      unfold Registry.addAll at this ⊢
      rw [List.foldl_cons, this, given_cons]
      unfold Registry.add mapInsert
      dsimp only
      by_cases h : e.1 = name
      · subst h; cases r e.1 <;> simp
      · rw [if_neg h, if_neg (Ne.symm h)]
  unfold Registry.lookup
  rw [key]
  simp only [Option.none_or]
  cases given l name <;> rfl

/-- If no name is registered twice, the order of registration (such as that of static initialisers) does not matter. -/
theorem C58_order_irrelevant {F : Type} (l l' : List (String × F)) (hp : l.Perm l') (hn : (l.map Prod.fst).Nodup) (name : String) :
    (Registry.addAll l (fun _ => none)).lookup name = (Registry.addAll l' (fun _ => none)).lookup name := by
  rw [C58_first_wins, C58_first_wins]
  have hn' : (l'.map Prod.fst).Nodup := (hp.map Prod.fst).nodup_iff.1 hn
  have mem : ∀ (m : List (String × F)), (m.map Prod.fst).Nodup → ∀ f, given m name = some f ↔ (name, f) ∈ m := by
    intro m
    induction m with
    | nil => intro _ f; simp [given_nil]
    | cons e m ih =>
      intro hm f
      rw [List.map_cons, List.nodup_cons] at hm
      rw [given_cons, List.mem_cons]
      by_cases h : e.1 = name
      · rw [if_pos h]
        constructor
        · intro q; cases q; left; subst h; rfl
        · rintro (q | q)
          · rw [← q]
          · exact absurd (List.mem_map.2 ⟨_, q, h.symm⟩) hm.1
      · rw [if_neg h, ih hm.2 f]
        constructor
        · exact Or.inr
        · rintro (q | q)
          · exact absurd (by rw [← q]) h
          · exact q
  have : given l name = given l' name := by
    cases h : given l' name with
    | none =>
      cases h1 : given l name with
      | none => rfl
      | some f =>
        have := (mem l' hn' f).2 (hp.mem_iff.1 ((mem l hn f).1 h1))
        rw [h] at this; cases this
    | some f => exact (mem l hn f).2 (hp.mem_iff.2 ((mem l' hn' f).1 h))
  rw [this]

example : (Registry.addAll [("a", 1), ("b", 2), ("a", 3)] (fun _ => none)).lookup "a" = .ok 1 ∧
    (Registry.addAll [("a", 1), ("b", 2), ("a", 3)] (fun _ => none)).lookup "c" = .error "Unable to find c" := ⟨rfl, rfl⟩

/-! ### C59 -/

section
variable {N T V F : Type} [DecidableEq N] (d : OptDecl N T V F) (files : F → Option (List (N × T))) (prev : N → Option V)
  (cmd : List (N × T)) (hdef : ∀ n v, d.default n = some v → d.known n = true) (hh : d.default d.help = none)
include hdef hh

/-- Whenever parsing succeeds, every option has the command line's value if given there, else the config file's, else its
default; an option without default keeps its previous value. -/
theorem C59_precedence (s : OptState N V) (h : parseInputOptions d files prev cmd = .ok s) (n : N) :
    s.vars n = effective d cmd (configOf d files prev cmd) prev n :=
  (parse_ok_iff d files prev cmd hdef hh s h).2 n

/-- Parsing succeeds exactly for accepted sources. In particular, for options given on the command line, values in the
config file that are repeated or malformed go unnoticed. -/
theorem C59_accepts : (∃ s, parseInputOptions d files prev cmd = .ok s) ↔ Accepted d files prev cmd :=
  ⟨fun ⟨s, h⟩ => (parse_ok_iff d files prev cmd hdef hh s h).1, parse_accepts d files prev cmd hdef hh⟩

end

/-- Four options: 0 is the config file (values ≥ 100 name files), 1 is help, 2 and 3 have defaults 20 and 30, 4 has none.
Texts below 0 do not convert. -/
def sampleDecl : OptDecl Nat Int Int Int :=
  ⟨fun n => decide (n < 5), fun n => if n = 2 then some 20 else if n = 3 then some 30 else none,
   fun _ t => if t < 0 then none else some t, 0, 1, fun v => some v⟩

def sampleFiles : Int → Option (List (Nat × Int)) := fun f => if f = 100 then some [(2, -7), (2, 5), (3, 33)] else none

example : (∀ n v, sampleDecl.default n = some v → sampleDecl.known n = true) ∧ sampleDecl.default sampleDecl.help = none := by
  refine ⟨fun n v h => ?_, rfl⟩
  simp only [sampleDecl, decide_eq_true_eq] at h ⊢
  split at h
  · omega
  · split at h
    · omega
    · cases h

/-- Option 2 is given on the command line, 3 in the config file; 4 keeps the previous value. -/
example : ∃ s, parseInputOptions sampleDecl sampleFiles (fun n => if n = 4 then some 44 else none) [(0, 100), (2, 8)] = .ok s ∧
    s.vars 2 = some 8 ∧ s.vars 3 = some 33 ∧ s.vars 4 = some 44 := ⟨_, rfl, rfl, rfl, rfl⟩

/-- The previous value survives: parsing twice in one process can differ from parsing once, for options without default
(config_file, solution_output_file, petsc_options). -/
theorem C59_previous_value_survives :
    ∃ s s', parseInputOptions sampleDecl sampleFiles (fun _ => none) [(4, 9)] = .ok s ∧
      parseInputOptions sampleDecl sampleFiles s.vars [] = .ok s' ∧ s'.vars 4 = some 9 := ⟨_, _, rfl, rfl, rfl⟩

/-! ### C63 -/

section
variable {K : Type} [Field K] [CharZero K]

/-- For positive cell counts and a non-empty x box: the derived end is the start plus the count times the spacing (cubic
cells) exactly when the x count divides the other count. -/
theorem C63_cubic_iff (n0 n : Int) (h0 : 0 < n0) (h1 : 0 < n) (xb xe b : K) (hx : xb ≠ xe) :
    domainEnd n0 n xb xe b = some (b + (n : K) * ((xe - xb) / (n0 : K))) ↔ n0 ∣ n := by
  have h0' : (n0 : K) ≠ 0 := by exact_mod_cast (by omega : n0 ≠ 0)
  have hd : xe - xb ≠ 0 := sub_ne_zero.2 (Ne.symm hx)
  unfold domainEnd
  rw [if_neg (by omega)]
  have ht : n.tdiv n0 = n / n0 := Int.tdiv_eq_ediv_of_nonneg (by omega)
  rw [ht, Option.some_inj]
  constructor
  · intro h
    have h2 : ((n / n0 * n0 : Int) : K) = (n : K) := by
      have h3 : ((n / n0 : Int) : K) * (xe - xb) = (n : K) * ((xe - xb) / (n0 : K)) := by
        have := h
        rw [add_comm] at this
        exact add_left_cancel this
      have h4 : ((n / n0 : Int) : K) * (n0 : K) * (xe - xb) = (n : K) * (xe - xb) := by
        calc ((n / n0 : Int) : K) * (n0 : K) * (xe - xb) = (n0 : K) * (((n / n0 : Int) : K) * (xe - xb)) := by ring
          _ = (n0 : K) * ((n : K) * ((xe - xb) / (n0 : K))) := by rw [h3]
          _ = (n : K) * (xe - xb) := by field_simp
      have h5 := mul_right_cancel₀ hd h4
      push_cast; exact h5
    exact ⟨n / n0, by rw [mul_comm]; exact_mod_cast h2.symm⟩
  · rintro ⟨q, rfl⟩
    rw [Int.mul_ediv_cancel_left _ (by omega)]
    push_cast
    field_simp
    ring

/-- In general the derived end is the start plus the whole number of x box lengths that fits. -/
theorem C63_value (n0 n : Int) (h0 : 0 < n0) (h1 : 0 < n) (xb xe b : K) :
    domainEnd n0 n xb xe b = some (b + ((n / n0 : Int) : K) * (xe - xb)) := by
  unfold domainEnd
  rw [if_neg (by omega), Int.tdiv_eq_ediv_of_nonneg (by omega), add_comm]

/-- With fewer y cells than x cells the box is empty. -/
theorem C63_empty (n0 n : Int) (h1 : 0 < n) (h : n < n0) (xb xe b : K) : domainEnd n0 n xb xe b = some b := by
  rw [C63_value n0 n (by omega) h1, Int.ediv_eq_zero_of_lt (by omega) h]
  simp

/-- 128 by 192 cells on a unit box: the end is 1, not 3/2. -/
example : domainEnd (K := ℚ) 128 192 0 1 0 = some 1 := by
  rw [C63_value 128 192 (by decide) (by decide)]; norm_num

example : domainEnd (K := ℚ) 128 256 0 1 0 = some ((0 : ℚ) + ((256 : Int) : ℚ) * (((1 : ℚ) - 0) / ((128 : Int) : ℚ))) :=
  (C63_cubic_iff (K := ℚ) 128 256 (by decide) (by decide) 0 1 0 (by norm_num)).2 ⟨2, rfl⟩

end

/-! ### C67 -/

/-- Names of boundary conditions. -/
def KnownBC (s : String) : Prop := s = "periodic" ∨ s = "neumann" ∨ s = "dirichlet"

theorem parseBC_ok (s : String) : (∃ b, parseBC s = .ok b) ↔ KnownBC s := by
  unfold parseBC KnownBC
  by_cases h1 : s = "periodic"
  · simp [h1]
  · by_cases h2 : s = "neumann"
    · simp [h2]
    · by_cases h3 : s = "dirichlet"
      · simp [h3]
      · simp [h1, h2, h3]

/-- The program starts exactly if the boundary names are known, the dimension is 2 or 3, the equation is one of the two
known ones, the Poisson equation is used in 3D only, and the time integrator is one of the seven; no matter in which order
the integrators were registered. -/
theorem C67_starts_iff (regs : List String) (hp : registeredIntegrators.Perm regs) (o : SetupOpts) :
    (∃ c, setup regs o = .ok c) ↔
      KnownBC o.bcx ∧ KnownBC o.bcy ∧ KnownBC o.bcz ∧ (o.dimension = 2 ∨ o.dimension = 3) ∧
      (o.equation = "cahn-hilliard" ∨ (o.equation = "poisson" ∧ o.dimension = 3)) ∧
      o.integrator ∈ ["rk3ssp", "ode23", "bdf1", "steady", "petsc_ode23", "petsc_jfnk_bdf", "petsc_jacobian_bdf"] := by
  have hreg : (∃ t, (Registry.addAll (regs.map fun s => (s, s)) (fun _ => none)).lookup o.integrator = .ok t) ↔
      o.integrator ∈ registeredIntegrators := by
    rw [C58_first_wins]
    have : (given (regs.map fun s => (s, s)) o.integrator).isSome = true ↔ o.integrator ∈ registeredIntegrators := by
      rw [given_isSome, List.map_map, hp.mem_iff]
      simp
    cases h : given (regs.map fun s => (s, s)) o.integrator with
    | none => rw [h] at this; simp only [Option.isSome_none, Bool.false_eq_true, false_iff] at this; simp [this]
    | some t => rw [h] at this; simp only [Option.isSome_some, true_iff] at this; simp [this]
  rw [← parseBC_ok, ← parseBC_ok, ← parseBC_ok]
  change _ ↔ _ ∧ _ ∧ _ ∧ _ ∧ _ ∧ o.integrator ∈ registeredIntegrators
  rw [← hreg]
  unfold setup geomFactory
  rcases hx : parseBC o.bcx with e | x
  · simp [Except.bind]
  rcases hy : parseBC o.bcy with e | y
  · simp [Except.bind]
  rcases hz : parseBC o.bcz with e | z
  · simp [Except.bind]
  simp only [Except.bind]
  by_cases d2 : o.dimension = 2
  · by_cases e1 : o.equation = "cahn-hilliard"
    · cases hr : (Registry.addAll (regs.map fun s => (s, s)) (fun _ => none)).lookup o.integrator <;>
        cases ho : o.restart <;> simp [rhsFactory, initialConditionsFactory, d2, e1, ho]
    · by_cases e2 : o.equation = "poisson"
      · simp [rhsFactory, d2, e2]
      · simp [rhsFactory, d2, e1, e2]
  · by_cases d3 : o.dimension = 3
    · by_cases e1 : o.equation = "cahn-hilliard"
      · cases hr : (Registry.addAll (regs.map fun s => (s, s)) (fun _ => none)).lookup o.integrator <;>
          cases ho : o.restart <;> simp [rhsFactory, initialConditionsFactory, d3, e1, ho]
      · by_cases e2 : o.equation = "poisson"
        · cases hr : (Registry.addAll (regs.map fun s => (s, s)) (fun _ => none)).lookup o.integrator <;>
            cases ho : o.restart <;> simp [rhsFactory, initialConditionsFactory, d3, e2, ho]
        · simp [rhsFactory, d3, e1, e2]
    · simp [d2, d3]

theorem components_chosen (regs : List String) (hp : registeredIntegrators.Perm regs) (o : SetupOpts)
    (g : GeomKind) (r : RhsKind) (i : InitKind) (t : String) (h : setup regs o = .ok (g, r, i, t)) :
    t = o.integrator ∧
    (g = .cart2 ↔ o.dimension = 2) ∧
    (∀ x y z, g = .cart3 x y z → o.dimension = 3 ∧ parseBC o.bcx = .ok x ∧ parseBC o.bcy = .ok y ∧ parseBC o.bcz = .ok z) ∧
    (r = .ch2 ↔ o.equation = "cahn-hilliard" ∧ o.dimension = 2) ∧ (r = .ch3 ↔ o.equation = "cahn-hilliard" ∧ o.dimension = 3) ∧
    (r = .poisson3 ↔ o.equation = "poisson") ∧
    (i = .fromFile ↔ o.restart = true) := by
  unfold setup geomFactory at h
  rcases hx : parseBC o.bcx with e | x
  · rw [hx] at h; cases h
  rcases hy : parseBC o.bcy with e | y
  · rw [hx, hy] at h; cases h
  rcases hz : parseBC o.bcz with e | z
  · rw [hx, hy, hz] at h; cases h
  rw [hx, hy, hz] at h
  simp only [Except.bind] at h
  have hreg : ∀ u, (Registry.addAll (regs.map fun s => (s, s)) (fun _ => none)).lookup o.integrator = .ok u → u = o.integrator := by
    intro u hu
    rw [C58_first_wins] at hu
    cases hg : given (regs.map fun s => (s, s)) o.integrator with
    | none => rw [hg] at hu; cases hu
    | some v =>
      rw [hg] at hu
      injection hu with hu
      subst hu
      obtain ⟨s, -, hs⟩ := List.mem_map.1 (given_mem hg)
      cases hs; rfl
  rcases hl : (Registry.addAll (regs.map fun s => (s, s)) (fun _ => none)).lookup o.integrator with e | u
  · rw [hl] at h
    by_cases d2 : o.dimension = 2 <;> by_cases d3 : o.dimension = 3 <;> by_cases e1 : o.equation = "cahn-hilliard" <;>
      by_cases e2 : o.equation = "poisson" <;> cases ho : o.restart <;>
      simp_all [rhsFactory, initialConditionsFactory]
  · have hu := hreg u hl
    rw [hl] at h
    by_cases d2 : o.dimension = 2
    · by_cases e1 : o.equation = "cahn-hilliard"
      · cases ho : o.restart <;>
        · simp [rhsFactory, initialConditionsFactory, d2, e1, ho] at h
          obtain ⟨rfl, rfl, rfl, rfl⟩ := h
          simp [hu, d2, e1]
      · by_cases e2 : o.equation = "poisson"
        · simp [rhsFactory, d2, e2] at h
        · simp [rhsFactory, d2, e1, e2] at h
    · by_cases d3 : o.dimension = 3
      · by_cases e1 : o.equation = "cahn-hilliard"
        · cases ho : o.restart <;>
          · simp [rhsFactory, initialConditionsFactory, d3, e1, ho] at h
            obtain ⟨rfl, rfl, rfl, rfl⟩ := h
            simp [hu, d3, e1]
        · by_cases e2 : o.equation = "poisson"
          · cases ho : o.restart <;>
            · simp [rhsFactory, initialConditionsFactory, d3, e2, ho] at h
              obtain ⟨rfl, rfl, rfl, rfl⟩ := h
              simp [hu, d3, e2]
          · simp [rhsFactory, d3, e1, e2] at h
      · simp [d2, d3] at h

/-- Option text of a boundary condition. -/
def Spec.bcText : BCName → String
  | .periodic => "periodic"
  | .neumann => "neumann"
  | .dirichlet => "dirichlet"

theorem parseBC_text {s : String} {b : BCName} (h : parseBC s = .ok b) : s = bcText b := by
  unfold parseBC at h
  split at h
  · cases h; assumption
  · split at h
    · cases h; assumption
    · split at h
      · cases h; assumption
      · cases h

/-- What it starts with: the grid and the equation match the options, the initial condition is the restart file's if there
is one, and the integrator is the one named. -/
theorem C67_components (regs : List String) (hp : registeredIntegrators.Perm regs) (o : SetupOpts)
    (g : GeomKind) (r : RhsKind) (i : InitKind) (t : String) (h : setup regs o = .ok (g, r, i, t)) :
    t = o.integrator ∧
    (g = .cart2 ↔ o.dimension = 2) ∧
    (∀ x y z, g = .cart3 x y z → o.dimension = 3 ∧ o.bcx = bcText x ∧ o.bcy = bcText y ∧ o.bcz = bcText z) ∧
    (r = .ch2 ↔ o.equation = "cahn-hilliard" ∧ o.dimension = 2) ∧ (r = .ch3 ↔ o.equation = "cahn-hilliard" ∧ o.dimension = 3) ∧
    (r = .poisson3 ↔ o.equation = "poisson") ∧
    (i = .fromFile ↔ o.restart = true) := by
  obtain ⟨h1, h2, h3, h4⟩ := components_chosen regs hp o g r i t h
  refine ⟨h1, h2, fun x y z e => ?_, h4⟩
  obtain ⟨a, b, c, d⟩ := h3 x y z e
  exact ⟨a, parseBC_text b, parseBC_text c, parseBC_text d⟩

/-- The defaults start a 2D Cahn-Hilliard run; the Poisson problem needs `dimension` to be set to 3. -/
example : setup registeredIntegrators ⟨2, "periodic", "periodic", "periodic", "cahn-hilliard", "rk3ssp", false⟩ =
      .ok (.cart2, .ch2, .cahnHilliard, "rk3ssp") ∧
    setup registeredIntegrators ⟨2, "periodic", "periodic", "periodic", "poisson", "rk3ssp", false⟩ = .error .badCast :=
  ⟨rfl, rfl⟩

end Madg
