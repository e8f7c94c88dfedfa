/-
Linear functionals kept by the full approximation scheme, and runs of the steady Poisson problem.
-/
import Verif.Proofs.MGRun
import Verif.Proofs.ProgramMain
import Verif.Proofs.TransferSum
import Verif.Props.FAS
import Verif.Props.MGPoisson

set_option linter.unusedSectionVars false

namespace Madg
open Spec

/-! ### Totals -/

section
variable {C : Type}

theorem smoothN_lin (Φ : (C → ℝ) → C → ℝ) (L : (C → ℝ) →ₗ[ℝ] ℝ) (M a : ℝ) (h : ∀ w, L (Φ w) = -a * (L w - M)) :
    ∀ (n : Nat) (δ δ' : ℝ) (us : (C → ℝ) × (C → ℝ)), L us.1 = M → L (smoothN Φ δ δ' n us).1 = M
  | 0, _, _, _, h0 => h0
  | n + 1, δ, δ', us, h0 => smoothN_lin Φ L M a h n δ' δ' _
      ((step_lin (bs23 : Tableau ℝ) (fun _ => Φ) L M a (fun _ => h) 0 δ us.1 (Or.inr h0)).trans h0)

variable {S : Fas C ℝ} {L : Nat → (C → ℝ) →ₗ[ℝ] ℝ} {top : Nat} {M : Nat → ℝ} {σ : ℝ}
  (hF : ∀ ℓ, ℓ ≤ top → ∀ w, L ℓ (S.F ℓ w) = -σ * (L ℓ w - M ℓ))
  (hR : ∀ ℓ, ℓ < top → ∀ w, L (ℓ + 1) (S.R ℓ w) = L ℓ w / 8)
  (hT : ∀ ℓ, ℓ < top → ∀ w, L ℓ (S.T ℓ w) = 8 * L (ℓ + 1) w)
include hF hR hT

/-- A cycle keeps the functional if the operator drives it to the value it has. -/
theorem cycle_lin (n : Nat) (e : Nat → ℝ) : ∀ (d ℓ : Nat), ℓ + d = top → ∀ (Φ : (C → ℝ) → C → ℝ) (a m : ℝ),
    (∀ w, L ℓ (Φ w) = -a * (L ℓ w - m)) → ∀ us : (C → ℝ) × (C → ℝ), L ℓ us.1 = m → L ℓ (S.cycle n e d ℓ Φ us).1 = m
  | 0, ℓ, _, Φ, a, m, h, us, h0 => smoothN_lin Φ (L ℓ) m a h _ _ _ us h0
  | d + 1, ℓ, hd, Φ, a, m, h, us, h0 => by
    have h1 := smoothN_lin Φ (L ℓ) m a h n (e ℓ) (S.dt ℓ) us h0
    obtain ⟨u1, hu1⟩ : ∃ u1, u1 = (smoothN Φ (e ℓ) (S.dt ℓ) n us).1 := ⟨_, rfl⟩
    rw [← hu1] at h1
    obtain ⟨v0, hv0⟩ : ∃ v0, v0 = S.R ℓ u1 := ⟨_, rfl⟩
    have l0 : L (ℓ + 1) v0 = m / 8 := by rw [hv0, hR ℓ (by omega), h1]
    have l1 := cycle_lin n e d (ℓ + 1) (by omega) (fun v c => S.F (ℓ + 1) v c - S.F (ℓ + 1) v0 c + S.R ℓ (Φ u1) c) σ (m / 8)
      (fun w => by
        have : (fun c => S.F (ℓ + 1) w c - S.F (ℓ + 1) v0 c + S.R ℓ (Φ u1) c) =
          S.F (ℓ + 1) w - S.F (ℓ + 1) v0 + S.R ℓ (Φ u1) := rfl
        rw [this, map_add, map_sub, hF _ (by omega), hF _ (by omega), hR ℓ (by omega), h u1, h1, l0]
        ring) (v0, 0) l0
    show L ℓ (smoothN Φ (S.dt ℓ) (S.dt ℓ) n _).1 = m
    rw [← hu1]
    refine smoothN_lin Φ (L ℓ) m a h n _ _ _ ?_
    dsimp only
    rw [← hv0]
    obtain ⟨v, hv⟩ : ∃ v, v = (S.cycle n e d (ℓ + 1)
      (fun v c => S.F (ℓ + 1) v c - S.F (ℓ + 1) v0 c + S.R ℓ (Φ u1) c) (v0, 0)).1 := ⟨_, rfl⟩
    rw [← hv] at l1 ⊢
    have : (fun c => u1 c + S.relax ℓ * S.T ℓ (fun c => v c - v0 c) c) = u1 + S.relax ℓ • S.T ℓ (v - v0) := rfl
    rw [this, map_add, map_smul, hT ℓ (by omega), map_sub, l1, l0, h1]
    simp

theorem iterate_lin (n : Nat) (e : Nat → ℝ) (Φ : (C → ℝ) → C → ℝ) (a m : ℝ) (h : ∀ w, L 0 (Φ w) = -a * (L 0 w - m))
    (us : (C → ℝ) × (C → ℝ)) (h0 : L 0 us.1 = m) : ∀ i, L 0 (S.iterate n top e Φ us i).1 = m
  | 0 => h0
  | i + 1 => cycle_lin hF hR hT n _ top 0 (by omega) Φ a m h _ (iterate_lin n e Φ a m h us h0 i)

/-- A run keeps the functional. -/
theorem fasRun_lin {n : Nat} {tol : ℝ} {maxC : Nat} {nrm : (C → ℝ) → ℝ} {un : Bool} {e0 dt : Nat → ℝ} {u0 : C → ℝ}
    {u s : Nat → C → ℝ} {c : Nat → Nat} (hr : FasRun S n top tol maxC nrm un e0 dt u0 u s c) (h0 : L 0 u0 = M 0) :
    ∀ k, L 0 (u k) = M 0
  | 0 => by rw [hr.start]; exact h0
  | k + 1 => by
    have ih := fasRun_lin hr h0 k
    rw [hr.next]
    refine iterate_lin hF hR hT n _ _ (σ + if un then 1 / dt k else 0) (M 0) (fun w => ?_) _ ih _
    cases un
    · have : (fun x => S.F 0 w x - if false = true then (w x - u k x) / dt k else 0) = S.F 0 w := by
        funext x; simp
      rw [this, hF 0 (by omega)]; simp
    · have : (fun x => S.F 0 w x - if true = true then (w x - u k x) / dt k else 0) = S.F 0 w - (1 / dt k) • (w - u k) := by
        funext x
        simp only [if_true, Pi.sub_apply, Pi.smul_apply, smul_eq_mul]
        ring
      rw [this, map_sub, map_smul, map_sub, hF 0 (by omega), ih]
      simp only [if_true, smul_eq_mul]
      ring

end

/-! ### Cahn–Hilliard on periodic grids -/

theorem ext3_periodic (ni nj nk : Int) (u : Int → Int → Int → ℝ) :
    (∀ a b c, ext3 .periodic .periodic .periodic ni nj nk u (a + ni) b c = ext3 .periodic .periodic .periodic ni nj nk u a b c) ∧
    (∀ a b c, ext3 .periodic .periodic .periodic ni nj nk u a (b + nj) c = ext3 .periodic .periodic .periodic ni nj nk u a b c) ∧
    (∀ a b c, ext3 .periodic .periodic .periodic ni nj nk u a b (c + nk) = ext3 .periodic .periodic .periodic ni nj nk u a b c) := by
  refine ⟨?_, ?_, ?_⟩ <;> intro a b c <;> unfold ext3 extIdx wrapIdx <;> simp only [Int.add_emod_right]

theorem chFas_lin {g : Nat → Grid3} {dx : Nat → ℝ} {p : CHParams ℝ} {mode : String} {cfl rf rc : ℝ} {top : Nat}
    (hext : ∀ ℓ, ℓ ≤ top → 1 ≤ (g ℓ).ni ∧ 1 ≤ (g ℓ).nj ∧ 1 ≤ (g ℓ).nk)
    (hfine : ∀ ℓ, ℓ < top → (g ℓ).ni = 2 * (g (ℓ + 1)).ni ∧ (g ℓ).nj = 2 * (g (ℓ + 1)).nj ∧ (g ℓ).nk = 2 * (g (ℓ + 1)).nk)
    (S : Fas (Int × Int × Int) ℝ) (hS : S = chFas g .periodic .periodic .periodic dx p mode cfl rf rc) :
    (∀ ℓ, ℓ ≤ top → ∀ w, total3 (g ℓ).ni (g ℓ).nj (g ℓ).nk (S.F ℓ w) =
      -p.sigma * (total3 (g ℓ).ni (g ℓ).nj (g ℓ).nk w - (((g ℓ).ni * (g ℓ).nj * (g ℓ).nk : Int) : ℝ) * p.m)) ∧
    (∀ ℓ, ℓ < top → ∀ w, total3 (g (ℓ + 1)).ni (g (ℓ + 1)).nj (g (ℓ + 1)).nk (S.R ℓ w) =
      total3 (g ℓ).ni (g ℓ).nj (g ℓ).nk w / 8) ∧
    (∀ ℓ, ℓ < top → ∀ w, total3 (g ℓ).ni (g ℓ).nj (g ℓ).nk (S.T ℓ w) =
      8 * total3 (g (ℓ + 1)).ni (g (ℓ + 1)).nj (g (ℓ + 1)).nk w) := by
  subst hS
  refine ⟨fun ℓ hℓ w => ?_, fun ℓ hℓ w => ?_, fun ℓ hℓ w => ?_⟩
  · obtain ⟨h1, h2, h3⟩ := hext ℓ hℓ
    have := total3_rhs p (dx ℓ) h1 h2 h3 0 w
    exact this
  · obtain ⟨h1, h2, h3⟩ := hext (ℓ + 1) (by omega)
    obtain ⟨e1, e2, e3⟩ := hfine ℓ hℓ
    rw [e1, e2, e3]
    exact sum3_pairs (K := ℝ) (ni := (g (ℓ + 1)).ni) (nj := (g (ℓ + 1)).nj) (nk := (g (ℓ + 1)).nk) (by omega) (by omega) (by omega)
      (fun x y z => w (x, y, z))
  · obtain ⟨h1, h2, h3⟩ := hext (ℓ + 1) (by omega)
    obtain ⟨e1, e2, e3⟩ := hfine ℓ hℓ
    rw [e1, e2, e3]
    by_cases hm : mode = "nearest"
    · have e : (chFas g .periodic .periodic .periodic dx p mode cfl rf rc).T ℓ w = fun c => w (c.1 / 2, c.2.1 / 2, c.2.2 / 2) := by
        funext c; unfold chFas; dsimp only; rw [if_pos hm]
      rw [e]
      have := sum3_pairs (ni := (g (ℓ + 1)).ni) (nj := (g (ℓ + 1)).nj) (nk := (g (ℓ + 1)).nk) (by omega) (by omega) (by omega)
        (fun x y z => w (x / 2, y / 2, z / 2))
      have e2 : avg8 (fun x y z => w (x / 2, y / 2, z / 2)) = fun i j k => w (i, j, k) := by
        funext i j k
        have q0 : ∀ i : Int, 2 * i / 2 = i := by intro i; omega
        have q1 : ∀ i : Int, (2 * i + 1) / 2 = i := by intro i; omega
        unfold avg8
        simp only [q0, q1]
        ring
      rw [e2, eq_div_iff (by norm_num)] at this
      show sum3 _ _ _ (fun i j k => w (i / 2, j / 2, k / 2)) = 8 * sum3 _ _ _ fun i j k => w (i, j, k)
      rw [← this]; ring
    · have e : (chFas g .periodic .periodic .periodic dx p mode cfl rf rc).T ℓ w = fun c => trilinSwapped
          (ext3 .periodic .periodic .periodic (g (ℓ + 1)).ni (g (ℓ + 1)).nj (g (ℓ + 1)).nk fun i j k => w (i, j, k)) c.1 c.2.1 c.2.2 := by
        funext c; unfold chFas; dsimp only; rw [if_neg hm]
      rw [e]
      obtain ⟨px, py, pz⟩ := ext3_periodic _ _ _ (fun i j k => w (i, j, k))
      refine (swapped_sum (by omega) (by omega) (by omega) _ px py pz).trans ?_
      congr 1
      exact sum3_congr fun i j k a b c => ext3_of_int _ a b c

/-! ### The initial field of the Poisson problem -/

theorem icPois_none {A : Type} [DecidableEq A] {sz : A → Int} (E : Env ℝ) {G : Geom3} (hG : G.Ok) {sol : A} (hs : sz sol = G.g.size)
    (st : StateArr A) (m : Mem A ℝ) : ∃ m1, CDet sz (icPois E none G.interior st sol) m () m1 ∧
      (∀ c, In3 G.g.ni G.g.nj G.g.nk c → m1 sol (G.g.at3 c.1 c.2.1 c.2.2) = 0) ∧ ∀ b, b ≠ sol → m1 b = m b := by
  obtain ⟨m', d, w⟩ := interior_det (K := ℝ) hG (sz := sz) (r := sol) (fun n => Prog.wr sol n 0) (fun _ _ _ => 0) m
    (fun i j k h => ⟨hG.int_inB hs (hG.mem_int.2 ⟨i, j, k, h, rfl⟩), ⟨rfl, rfl⟩, trivial⟩)
    (fun i j k h => Mem.set_same _ _ _ _)
  exact ⟨m', CDet.ofHost d, fun c hc => w.view _ _ _ hc, w.frame⟩

/-! ### Runs that fail -/

section
variable {A K : Type} [DecidableEq A] {sz : A → Int} {α β : Type}

def Fails (sz : A → Int) (c : Cmd A K α) : Prop := ∀ m o, CmdOut sz c m o → ∃ e, o = .error e

theorem Fails.bind {c : Cmd A K α} {f : α → Cmd A K β} (h : ∀ x, Fails sz (f x)) : Fails sz (c.bind f) := by
  intro m o hb
  rw [cmdOut_bind] at hb
  obtain ⟨x, m1, -, h2⟩ | ⟨e, -, h2⟩ := hb
  · exact h x m1 o h2
  · exact ⟨e, h2⟩

theorem Fails.first {c : Cmd A K α} {f : α → Cmd A K β} (h : Fails sz c) : Fails sz (c.bind f) := by
  intro m o hb
  rw [cmdOut_bind] at hb
  obtain ⟨x, m1, h1, -⟩ | ⟨e, -, h2⟩ := hb
  · obtain ⟨e, he⟩ := h m _ h1; cases he
  · exact ⟨e, h2⟩

theorem Fails.ofExcept {e : Except Err α} {f : α → Cmd A K β} (h : ∀ x, e = .ok x → Fails sz (f x)) :
    Fails sz ((Cmd.ofExcept e).bind f) := by
  cases e with
  | error e => exact Fails.first fun m o h => by cases h; exact ⟨_, rfl⟩
  | ok x => exact h x rfl

theorem Fails.ofSetup {e : Except SetupErr α} {f : α → Cmd A K β} (h : ∀ x, e = .ok x → Fails sz (f x)) :
    Fails sz ((ofSetup e).bind f) := by
  cases e with
  | error e => exact Fails.first fun m o h => by cases h; exact ⟨_, rfl⟩
  | ok x => exact h x rfl

/-- A run whose second step has size zero fails if steps of size zero do. -/
theorem fails_zero {S : Sim A ℝ (MGReport ℝ)} (hdo : ∀ h t, Fails sz (S.doStep h t 0)) (hnx : S.nextDT = keepDT) {o : TimeOpts ℝ}
    (h : o.dt0 = 0 ∨ (0 < o.dt0 ∧ o.tfinal = o.t0 + o.dt0 ∧ o.initialStep + 1 < o.maxSteps ∧ o.relTol = 0 ∧ o.absTol = 0))
    (lf se : Int) (base : Text) (ic : Cmd A ℝ Unit) (h0 : MGReport ℝ) {fuel : Nat} (hf : 2 ≤ fuel) :
    Fails sz (S.run o lf se base ic h0 fuel) := by
  obtain ⟨n, rfl⟩ : ∃ n, fuel = n + 2 := ⟨fuel - 2, by omega⟩
  unfold Sim.run
  refine Fails.bind fun _ => ?_
  split
  · intro m o h; cases h; exact ⟨_, rfl⟩
  · rename_i hc
    refine Fails.first ?_
    rw [Sim.loop]
    dsimp only
    obtain h | ⟨h1, h2, h3, h4, h5⟩ := h
    · rw [h]; exact Fails.first (hdo _ _)
    · refine Fails.bind fun _ => Fails.bind fun _ => Fails.bind fun D => ?_
      rw [if_neg (by simp)]
      unfold Sim.nextStep
      rw [hnx]
      simp only [keepDT, Cmd.bind, relStop, h4, h5, ne_eq, not_true, if_false]
      rw [if_neg hc]
      simp only [Cmd.bind]
      rw [if_neg (by simp; omega), if_pos (by simp; linarith), h2, sub_self]
      exact Fails.first (hdo _ _)

end

/-- A backward Euler run with a step of size zero fails. -/
theorem fails_program {A : Type} [DecidableEq A] {sz : A → Int} {E : Env ℝ} {o : RunOpts} {w : ProgArr A} {fuel : Nat} (hf : 2 ≤ fuel)
    (hdim : o.sel.dimension = 3) (heq : o.sel.equation = "cahn-hilliard" ∨ o.sel.equation = "poisson")
    (hint : o.sel.integrator = "bdf1") {ti : TimeOpts ℝ} (hti : o.timeOpts = ti)
    (h : ti.dt0 = 0 ∨ (0 < ti.dt0 ∧ ti.tfinal = ti.t0 + ti.dt0 ∧ ti.initialStep + 1 < ti.maxSteps ∧ ti.relTol = 0 ∧ ti.absTol = 0)) :
    Fails sz (program E o none w fuel) := by
  have hts := timeSetup_ok (E := E) (file := none) (o := o) (ti := ti) (by rw [← hti]) (by rw [hint]; decide)
  have fl : ∀ (mk : (Nat → Geom3) → (Nat → ℝ) → MG A ℝ), (∀ Gs dx, (mk Gs dx).unsteady = true) → ∀ b bx bY bz G ic,
      Fails sz (mgRun E o b w bx bY bz G ti ic mk fuel) := by
    intro mk hmk b bx bY bz G ic
    unfold mgRun
    refine Fails.bind fun cyc => Fails.bind fun l => fails_zero (fun h t => ?_) rfl h _ _ _ _ _ hf
    intro m out hout
    change CmdOut sz (MG.doTimeStep _ _ _ _ _ _ _ _) m out at hout
    unfold MG.doTimeStep at hout
    rw [if_pos ⟨hmk _ _, rfl⟩] at hout
    cases hout
    exact ⟨_, rfl⟩
  unfold program
  refine Fails.bind fun dom => Fails.ofSetup fun gk hgk => ?_
  obtain ⟨x, y, z, rfl⟩ : ∃ x y z, gk = .cart3 x y z := by
    unfold geomFactory at hgk
    cases hx : parseBC o.sel.bcx with
    | error e => rw [hx] at hgk; cases hgk
    | ok x =>
      cases hy : parseBC o.sel.bcy with
      | error e => rw [hx, hy] at hgk; cases hgk
      | ok y =>
        cases hz : parseBC o.sel.bcz with
        | error e => rw [hx, hy, hz] at hgk; cases hgk
        | ok z => rw [hx, hy, hz, hdim] at hgk; cases hgk; exact ⟨x, y, z, rfl⟩
  refine Fails.bind fun G => Fails.bind fun _ => Fails.ofSetup fun rk hrk => ?_
  unfold rhsFactory at hrk
  rcases heq with heq | heq
  · rw [heq, if_pos rfl, hdim] at hrk
    cases hrk
    rw [if_neg (by simp), if_neg (by simp)]
    refine Fails.bind fun _ => Fails.ofExcept fun t ht => ?_
    rw [hts] at ht
    cases ht
    dsimp only
    rw [hint, if_neg (by decide), if_neg (by decide), if_pos (Or.inl rfl)]
    exact fl _ (fun _ _ => by simp [chMG]) _ _ _ _ _ _
  · rw [heq, if_neg (by decide), if_pos rfl] at hrk
    cases hrk
    rw [if_pos rfl]
    refine Fails.ofExcept fun t ht => ?_
    rw [hts] at ht
    cases ht
    dsimp only
    rw [hint, if_neg (by decide), if_neg (by decide), if_pos (Or.inl rfl)]
    exact fl _ (fun _ _ => by simp [poissonMG]) _ _ _ _ _ _

end Madg
