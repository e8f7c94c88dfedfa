/-
Initial conditions and sequences of whole runs.
-/
import Verif.Proofs.ProgramRun
import Verif.Props.VTK
import Mathlib.Algebra.Order.Floor.Semiring
import Mathlib.Data.Set.Finite.Lattice

set_option linter.unusedSectionVars false

namespace Madg
open Spec

/-! ### Random initial condition -/

theorem idx3_lt {a b c i j k : Int} {n : Nat} (hl : (n : Int) = a * b * c) (h1 : 0 ≤ i ∧ i < a) (h2 : 0 ≤ j ∧ j < b)
    (h3 : 0 ≤ k ∧ k < c) : ((i * b + j) * c + k).toNat < n := by
  have e0 : 0 ≤ i * b + j := add_nonneg (mul_nonneg h1.1 (by omega)) h2.1
  have e0' : 0 ≤ (i * b + j) * c := mul_nonneg e0 (by omega)
  have e1 : i * b + j ≤ a * b - 1 := by nlinarith
  have e2 : (i * b + j) * c + k < a * b * c := by nlinarith
  omega

theorem idx2_lt {a i j : Int} {n : Nat} (hl : (n : Int) = a * a) (h1 : 0 ≤ i ∧ i < a) (h2 : 0 ≤ j ∧ j < a) :
    (i * a + j).toNat < n := by
  have e0 : 0 ≤ i * a := mul_nonneg h1.1 (by omega)
  have e1 : i * a + j ≤ a * a - 1 := by nlinarith
  omega

section
variable {A : Type} [DecidableEq A] {sz : A → Int} {E : Env ℝ} {o : RunOpts}

theorem ic3_none {G : Geom3} (hG : G.Ok) {sol : A} (hs : sz sol = G.g.size) (st : StateArr A) (m : Mem A ℝ) :
    ∃ m1, CDet sz (icOf E o none G.interior st sol) m () m1 ∧
      (∀ c, In3 G.g.ni G.g.nj G.g.nk c → m1 sol (G.g.at3 c.1 c.2.1 c.2.2) = initial3 E.draw o.par.m G.g.ni G.g.nj G.g.nk c) ∧
      ∀ b, b ≠ sol → m1 b = m b := by
  obtain ⟨m1, d, v, -, f⟩ := icRandom_det G.interior hG.nodup_int hG.int_ne sol (fun n hn => hG.int_inB hs hn) o.par.m E.draw m
  refine ⟨m1, CDet.ofHost d, fun c hc => ?_, f⟩
  have hl := hG.length_int
  have hlt : ((c.1 * G.g.nj + c.2.1) * G.g.nk + c.2.2).toNat < G.interior.length := idx3_lt hl hc.1 hc.2.1 hc.2.2
  have := v _ hlt
  rw [interior3_getD hG hc] at this
  rw [this]
  unfold initial3
  rw [← hl, Int.toNat_natCast, Int.cast_natCast]

theorem ic2_none {G : Geom2} (hG : G.Ok) {sol : A} (hs : sz sol = G.g.size) (st : StateArr A) (m : Mem A ℝ) :
    ∃ m1, CDet sz (icOf E o none G.interior st sol) m () m1 ∧
      (∀ c, In2 G.g.ni c → m1 sol (G.g.at2 c.1 c.2) = initial2 E.draw o.par.m G.g.ni c) ∧
      ∀ b, b ≠ sol → m1 b = m b := by
  obtain ⟨m1, d, v, -, f⟩ := icRandom_det G.interior hG.nodup_int hG.int_ne sol (fun n hn => hG.int_inB hs hn) o.par.m E.draw m
  refine ⟨m1, CDet.ofHost d, fun c hc => ?_, f⟩
  have hl := hG.length_int
  have hlt : (c.1 * G.g.ni + c.2).toNat < G.interior.length := idx2_lt hl hc.1 hc.2
  have := v _ hlt
  rw [interior2_getD hG hc.1 hc.2] at this
  rw [this]
  unfold initial2
  rw [← hl, Int.toNat_natCast, Int.cast_natCast]

end

theorem sum_idxOf {l : List Int} (hl : l.Nodup) (draw : Nat → ℝ) :
    (l.map fun n => draw (l.idxOf n)).sum = ((List.range l.length).map draw).sum := by
  congr 1
  refine List.ext_getElem (by simp) fun i h1 h2 => ?_
  rw [List.getElem_map, List.getElem_map, List.getElem_range, hl.idxOf_getElem]

/-- The initial field has the prescribed mean. -/
theorem initial3_total (draw : Nat → ℝ) (mean : ℝ) {nx ny nz : Int} (h : 1 ≤ nx ∧ 1 ≤ ny ∧ 1 ≤ nz) :
    sum3 nx ny nz (fun i j k => initial3 draw mean nx ny nz (i, j, k)) = ((nx * ny * nz : Int) : ℝ) * mean := by
  have hgo : (⟨nx, ny, nz, 2⟩ : Grid3).Ok := ⟨by dsimp only; omega, by dsimp only; omega, by dsimp only; omega, by dsimp only; omega⟩
  obtain ⟨hG, hg, -⟩ := Geom3.ok_of_mk hgo (mkGeom3_ok hgo .periodic .periodic .periodic)
  generalize (Geom3.mk _ _ _ _ _ _ _) = G at hG hg
  have hl := hG.length_int
  have e := hG.int_sum fun n => draw (G.interior.idxOf n)
  rw [sum_idxOf hG.nodup_int] at e
  have e2 : sum3 G.g.ni G.g.nj G.g.nk (fun i j k => draw (G.interior.idxOf (G.g.at3 i j k))) =
      sum3 G.g.ni G.g.nj G.g.nk fun i j k => draw ((i * G.g.nj + j) * G.g.nk + k).toNat := by
    refine sum3_congr fun i j k hi hj hk => ?_
    have hlt := idx3_lt hl hi hj hk
    rw [← interior3_getD hG ⟨hi, hj, hk⟩, getD_lt hlt, hG.nodup_int.idxOf_getElem]
  rw [e2, hg] at e
  rw [hg] at hl
  simp only at e hl
  unfold initial3
  have hpos : 0 < nx * ny * nz := Int.mul_pos (Int.mul_pos (by omega) (by omega)) (by omega)
  have hne : ((nx * ny * nz : Int) : ℝ) ≠ 0 := by exact_mod_cast hpos.ne'
  have hN : (nx * ny * nz).toNat = G.interior.length := by omega
  rw [sum3_add, sum3_sub, sum3_const _ _ _ (by omega) (by omega) (by omega), sum3_const _ _ _ (by omega) (by omega) (by omega),
    ← e, hN, mul_div_cancel₀ _ hne]
  ring

/-- The same on a 2D grid. -/
theorem initial2_total (draw : Nat → ℝ) (mean : ℝ) {n : Int} (h : 1 ≤ n) :
    sum2 n n (fun i j => initial2 draw mean n (i, j)) = ((n * n : Int) : ℝ) * mean := by
  obtain ⟨G, -, hG, hg⟩ := mkGeom2_ok (n := n) (nhalo := 2) h (by omega)
  have hl := hG.length_int
  have e := hG.int_sum fun x => draw (G.interior.idxOf x)
  rw [sum_idxOf hG.nodup_int] at e
  have e2 : sum2 G.g.ni G.g.ni (fun i j => draw (G.interior.idxOf (G.g.at2 i j))) =
      sum2 G.g.ni G.g.ni fun i j => draw (i * G.g.ni + j).toNat := by
    refine sum2_congr fun i j hi hj => ?_
    have hlt := idx2_lt hl hi hj
    rw [← interior2_getD hG hi hj, getD_lt hlt, hG.nodup_int.idxOf_getElem]
  rw [e2, hg] at e
  rw [hg] at hl
  simp only at e hl
  unfold initial2
  have hpos : 0 < n * n := Int.mul_pos (by omega) (by omega)
  have hne : ((n * n : Int) : ℝ) ≠ 0 := by exact_mod_cast hpos.ne'
  have hN : (n * n).toNat = G.interior.length := by omega
  rw [sum2_add, sum2_sub, sum2_const' (by omega), sum2_const' (by omega), ← e, hN, mul_div_cancel₀ _ hne]
  ring

/-! ### Conservation along the states of a run -/

theorem states_total {C : Type} (T : Tableau ℝ) (F : ℝ → (C → ℝ) → C → ℝ) (L : (C → ℝ) →ₗ[ℝ] ℝ) (M σ : ℝ)
    (hL : ∀ t u, L (F t u) = -σ * (L u - M)) (t d : Nat → ℝ) {u0 : C → ℝ} (h0 : L u0 = M) :
    ∀ k, L (states T F t d u0 k) = M
  | 0 => h0
  | k + 1 => by
    have ih := states_total T F L M σ hL t d h0 k
    exact (step_lin T F L M σ hL (t k) (d k) _ (Or.inr ih)).trans ih

/-! ### Sequences -/

/-- Times and sizes of the run with constant proposals. -/
noncomputable def fixedSeq (T t0 dt0 : ℝ) : Nat → ℝ × ℝ
  | 0 => (t0, dt0)
  | k + 1 =>
    let q := fixedSeq T t0 dt0 k
    (q.1 + q.2, if T ≤ q.1 + q.2 + q.2 then T - (q.1 + q.2) else q.2)

theorem fixedSeq_marching (T t0 dt0 : ℝ) : Marching T t0 dt0 (fun k => (fixedSeq T t0 dt0 k).1)
    (fun k => (fixedSeq T t0 dt0 k).2) (fun k => (fixedSeq T t0 dt0 (k - 1)).2) :=
  ⟨rfl, rfl, fun _ => rfl, fun _ => rfl⟩

/-- Existence of the history of a recursion that looks back at all earlier terms. -/
theorem exists_history {X : Type} (x0 : X) (next : (Nat → X) → Nat → X)
    (hn : ∀ f g k, (∀ i, i ≤ k → f i = g i) → next f k = next g k) :
    ∃ x : Nat → X, x 0 = x0 ∧ ∀ k, x (k + 1) = next x k := by
  let H : Nat → Nat → X := fun n => Nat.rec (fun _ => x0) (fun k h => Function.update h (k + 1) (next h k)) n
  have hs : ∀ k, H (k + 1) = Function.update (H k) (k + 1) (next (H k) k) := fun _ => rfl
  have key : ∀ n i, i ≤ n → H n i = H i i := by
    intro n
    induction n with
    | zero => intro i hi; obtain rfl : i = 0 := by omega
              rfl
    | succ n ih =>
      intro i hi
      by_cases h : i = n + 1
      · subst h; rfl
      · rw [hs, Function.update_of_ne h]; exact ih i (by omega)
  refine ⟨fun k => H k k, rfl, fun k => ?_⟩
  show H (k + 1) (k + 1) = _
  rw [hs, Function.update_self]
  exact hn _ _ _ fun i hi => key k i hi

theorem exists_isMaxAbs {C : Type} {P : C → Prop} (hP : {c | P c}.Finite) (v : C → ℝ) : ∃ e, IsMaxAbs P v e := by
  by_cases hne : {c | P c}.Nonempty
  · obtain ⟨c, hc, hmax⟩ := Set.exists_max_image _ (fun c => |v c|) hP hne
    exact ⟨|v c|, abs_nonneg _, fun b hb => hmax b hb, Or.inr ⟨c, hc, rfl⟩⟩
  · exact ⟨0, le_rfl, fun c hc => absurd ⟨c, hc⟩ hne, Or.inl rfl⟩

theorem proposal_congr {tol mn mx : ℝ} {d d' e e' : Nat → ℝ} {k : Nat} (hd : ∀ i, i ≤ k → d i = d' i)
    (he : ∀ i, i ≤ k → e i = e' i) : proposal tol mn mx d e k = proposal tol mn mx d' e' k := by
  unfold proposal
  simp only [hd k le_rfl, hd (k - 1) (by omega), he k le_rfl, he (k - 1) (by omega), he (k - 2) (by omega)]

/-- Sequences of an adaptive run exist. -/
theorem adaptive_exists {C : Type} (F : ℝ → (C → ℝ) → C → ℝ) {P : C → Prop} (hP : {c | P c}.Finite) (u0 : C → ℝ)
    (T t0 dt0 tol mn mx : ℝ) : ∃ t d p e : Nat → ℝ, Marching T t0 dt0 t d p ∧
      Estimates bs23 F P t d (states bs23 F t d u0) e ∧ ∀ k, p (k + 1) = proposal tol mn mx d e k := by
  choose est hest using fun v : C → ℝ => exists_isMaxAbs hP v
  let err : ℝ → ℝ → (C → ℝ) → ℝ := fun t d u =>
    max 0 (d * est ((bs23 : Tableau ℝ).slope F t d u - (bs23 : Tableau ℝ).slopeHat F t d u))
  let next : (Nat → ℝ × ℝ × (C → ℝ)) → Nat → ℝ × ℝ × (C → ℝ) := fun x k =>
    let t' := (x k).1 + (x k).2.1
    let p := proposal tol mn mx (fun i => (x i).2.1) (fun i => err (x i).1 (x i).2.1 (x i).2.2) k
    (t', if T ≤ t' + p then T - t' else p, (bs23 : Tableau ℝ).step F (x k).1 (x k).2.1 (x k).2.2)
  obtain ⟨x, h0, hs⟩ := exists_history (t0, dt0, u0) next (by
    intro f g k h
    have hp : proposal tol mn mx (fun i => (f i).2.1) (fun i => err (f i).1 (f i).2.1 (f i).2.2) k =
        proposal tol mn mx (fun i => (g i).2.1) (fun i => err (g i).1 (g i).2.1 (g i).2.2) k :=
      proposal_congr (fun i hi => by rw [h i hi]) (fun i hi => by rw [h i hi])
    simp only [next, hp, h k le_rfl])
  have hu : ∀ k, states bs23 F (fun k => (x k).1) (fun k => (x k).2.1) u0 k = (x k).2.2 := by
    intro k
    induction k with
    | zero => rw [h0]; rfl
    | succ k ih => rw [hs, states, ih]
  refine ⟨fun k => (x k).1, fun k => (x k).2.1,
    fun k => proposal tol mn mx (fun i => (x i).2.1) (fun i => err (x i).1 (x i).2.1 (x i).2.2) (k - 1),
    fun k => err (x k).1 (x k).2.1 (x k).2.2, ⟨by simp only [h0], by simp only [h0], fun k => by simp only [hs, next],
      fun k => by simp only [hs, next]; rfl⟩, fun k => ⟨_, hest _, by rw [hu]⟩, fun k => rfl⟩

theorem finite_in3 (ni nj nk : Int) : {c | In3 ni nj nk c}.Finite := by
  refine ((Set.finite_Ico 0 ni).prod ((Set.finite_Ico 0 nj).prod (Set.finite_Ico 0 nk))).subset ?_
  rintro ⟨i, j, k⟩ ⟨h1, h2, h3⟩
  exact ⟨h1, h2, h3⟩

theorem finite_in2 (n : Int) : {c | In2 n c}.Finite := by
  refine ((Set.finite_Ico 0 n).prod (Set.finite_Ico 0 n)).subset ?_
  rintro ⟨i, j⟩ ⟨h1, h2⟩
  exact ⟨h1, h2⟩

/-! ### Number of steps of a run with fixed step size -/

section
variable {T t0 dt : ℝ} {t d p : Nat → ℝ}

theorem fixed_prefix (hm : Marching T t0 dt t d p) (hp : ∀ k, p (k + 1) = d k) :
    ∀ k : Nat, (∀ j : Nat, 1 ≤ j → j ≤ k → t0 + ((j : ℝ) + 1) * dt < T) → t k = t0 + (k : ℝ) * dt ∧ d k = dt
  | 0, _ => by rw [hm.t_zero, hm.d_zero]; simp
  | k + 1, h => by
    obtain ⟨h1, h2⟩ := fixed_prefix hm hp k fun j a b => h j a (by omega)
    have ht : t (k + 1) = t0 + ((k + 1 : Nat) : ℝ) * dt := by rw [hm.t_succ, h1, h2]; push_cast; ring
    refine ⟨ht, ?_⟩
    have hlt := h (k + 1) (by omega) le_rfl
    rw [hm.d_succ, hp, h2, ht, if_neg]
    rw [not_le]
    calc t0 + ((k + 1 : Nat) : ℝ) * dt + dt = t0 + (((k + 1 : Nat) : ℝ) + 1) * dt := by ring
      _ < T := hlt

theorem fixed_notLast (hdt : 0 < dt) {j : Nat} (h : j + 1 < max 2 ⌈(T - t0) / dt⌉₊) (hj : 1 ≤ j) :
    t0 + ((j : ℝ) + 1) * dt < T := by
  have h1 : j + 1 < ⌈(T - t0) / dt⌉₊ := by
    rcases lt_max_iff.1 h with h | h
    · omega
    · exact h
  have h2 := Nat.lt_ceil.1 h1
  rw [lt_div_iff₀ hdt] at h2
  push_cast at h2
  linarith

theorem fixed_ends {o : TimeOpts ℝ} (f : Nat) (r : Nat → ℝ) (hm : Marching o.tfinal o.t0 o.dt0 t d p)
    (hp : ∀ k, p (k + 1) = d k) (hdt : 0 < o.dt0) (hi : o.initialStep = 0) (hM : 0 < o.maxSteps) (h1 : o.relTol = 0)
    (h2 : o.absTol = 0) {N : Nat} (hN : EndsAfter o f t p r N) :
    N = min o.maxSteps.toNat (max 2 ⌈(o.tfinal - o.t0) / o.dt0⌉₊) ∧
      (max 2 ⌈(o.tfinal - o.t0) / o.dt0⌉₊ ≤ o.maxSteps.toNat → t N = o.tfinal) ∧
      ∀ k, k + 1 < max 2 ⌈(o.tfinal - o.t0) / o.dt0⌉₊ → t k = o.t0 + (k : ℝ) * o.dt0 ∧ d k = o.dt0 := by
  have pre : ∀ k, k + 1 < max 2 ⌈(o.tfinal - o.t0) / o.dt0⌉₊ → t k = o.t0 + (k : ℝ) * o.dt0 ∧ d k = o.dt0 := fun k hk =>
    fixed_prefix hm hp k fun j a b => fixed_notLast hdt (by omega) a
  have stop : ∀ k, StopAt o f r k ↔ o.maxSteps ≤ k := by
    intro k
    unfold StopAt
    rw [h1, h2, hi]
    constructor
    · rintro (⟨-, h⟩ | ⟨h, -⟩ | ⟨h, -⟩)
      · omega
      · exact absurd rfl h
      · exact absurd rfl h
    · intro h; exact Or.inl ⟨by omega, by omega⟩
  have hlast : ∀ L, L = max 2 ⌈(o.tfinal - o.t0) / o.dt0⌉₊ → LastStep o.tfinal t p (L - 1) := by
    intro L hL
    have hL2 : 2 ≤ L := by rw [hL]; exact le_max_left _ _
    refine ⟨by omega, ?_⟩
    obtain ⟨e1, e2⟩ := pre (L - 2) (by omega)
    have e3 : L - 1 = (L - 2) + 1 := by omega
    rw [e3, hm.t_succ, hp, e1, e2]
    have h3 : (o.tfinal - o.t0) / o.dt0 ≤ (L : ℝ) :=
      (Nat.le_ceil _).trans (by rw [hL]; exact_mod_cast le_max_right 2 _)
    rw [div_le_iff₀ hdt] at h3
    have h4 : ((L - 2 : Nat) : ℝ) = (L : ℝ) - 2 := by rw [Nat.cast_sub hL2]; norm_num
    rw [h4]
    nlinarith
  have hnot : ∀ k, 1 ≤ k → k + 1 < max 2 ⌈(o.tfinal - o.t0) / o.dt0⌉₊ → ¬ LastStep o.tfinal t p k := by
    rintro k hk1 hk2 ⟨-, h⟩
    obtain ⟨e1, -⟩ := pre k hk2
    obtain ⟨-, e2⟩ := pre (k - 1) (by omega)
    have e3 : p k = o.dt0 := by
      have := hp (k - 1)
      rw [show k - 1 + 1 = k by omega] at this
      rw [this, e2]
    rw [e1, e3] at h
    have := fixed_notLast hdt hk2 hk1
    linarith
  generalize hL : max 2 ⌈(o.tfinal - o.t0) / o.dt0⌉₊ = L at *
  have hL2 : 2 ≤ L := by rw [← hL]; exact le_max_left _ _
  have hl := hlast L rfl
  have hNe : N = min o.maxSteps.toNat L := by
    refine hN.unique ⟨by omega, ?_, fun k k1 k2 => ?_⟩
    · by_cases h : L ≤ o.maxSteps.toNat
      · rw [min_eq_right h]; exact Or.inl hl
      · rw [min_eq_left (by omega)]; exact Or.inr ((stop _).2 (by omega))
    · rintro (h | h)
      · by_cases hk : k = 1
        · exact absurd h.1 (by omega)
        · exact hnot (k - 1) (by omega) (by omega) h
      · have := (stop _).1 h; omega
  refine ⟨hNe, fun h => ?_, pre⟩
  rw [hNe, min_eq_right h]
  obtain ⟨h3, h4⟩ := hl
  have e3 : L = (L - 2) + 1 + 1 := by omega
  rw [show L - 1 = (L - 2) + 1 by omega] at h4
  rw [e3, hm.t_succ, hm.d_succ, if_pos h4]
  ring

end

/-! ### Programs that never end normally -/

section
variable {A K : Type} [DecidableEq A] {sz : A → Int}

def NoDone (sz : A → Int) (c : Cmd A K (RunResult K)) : Prop :=
  ∀ m R m', CmdOut sz c m (.ok (R, m')) → ∀ files rows, R ≠ .done files rows

theorem NoDone.bind {α : Type} {c : Cmd A K α} {f : α → Cmd A K (RunResult K)} (h : ∀ x, NoDone sz (f x)) :
    NoDone sz (c.bind f) := by
  intro m R m' hb
  rw [cmdOut_bind] at hb
  obtain ⟨x, m1, -, h2⟩ | ⟨e, -, h2⟩ := hb
  · exact h x m1 R m' h2
  · cases h2

theorem NoDone.fail (e : Err) : NoDone sz (.fail e : Cmd A K (RunResult K)) := by
  intro m R m' h
  cases h

theorem NoDone.ret {R : RunResult K} (h : ∀ files rows, R ≠ .done files rows) : NoDone sz (.ret R : Cmd A K (RunResult K)) := by
  intro m R' m' h'
  cases h'
  exact h

theorem noDone_run [Field K] [LinearOrder K] {H : Type} {S : Sim A K H} (hS : ∀ b i, ∃ e, S.name b i = .error e)
    (o : TimeOpts K) (lf se : Int) (base : Text) (ic : Cmd A K Unit) (h0 : H) (fuel : Nat) :
    NoDone sz (S.run o lf se base ic h0 fuel) := by
  unfold Sim.run
  refine NoDone.bind fun _ => ?_
  split
  · exact NoDone.fail _
  · refine NoDone.bind fun r => ?_
    match r with
    | none => exact NoDone.ret (by intro _ _ h; cases h)
    | some (d, st) =>
      obtain ⟨e, he⟩ := hS (finalBase base) st.iter
      simp only [Sim.save, he]
      intro m R m' h
      cases h

end

theorem noDone_program {A : Type} [DecidableEq A] {sz : A → Int} {E : Env ℝ} {o : RunOpts} {w : ProgArr A}
    {file : Option VtsFile} {fuel : Nat}
    (hn : ∀ (b : Text) (i : Int), ∃ e, stepName3 b (o.maxSteps : Int) i = .error e ∧ stepName2 b (o.maxSteps : Int) i = .error e) :
    NoDone sz (program E o file w fuel) := by
  have un : NoDone sz (.ret .unmodelled : Cmd A ℝ (RunResult ℝ)) := NoDone.ret (by intro _ _ h; cases h)
  have n3 : ∀ b i, ∃ e, stepName3 b (o.maxSteps : Int) i = .error e := fun b i => (hn b i).imp fun _ h => h.1
  have n2 : ∀ b i, ∃ e, stepName2 b (o.maxSteps : Int) i = .error e := fun b i => (hn b i).imp fun _ h => h.2
  unfold program
  refine NoDone.bind fun dom => NoDone.bind fun gk => ?_
  match gk with
  | .cart3 bx bY bz =>
    refine NoDone.bind fun G => NoDone.bind fun _ => NoDone.bind fun rk => ?_
    split
    · refine NoDone.bind fun ti => ?_
      dsimp only
      split
      · exact noDone_run n3 _ _ _ _ _ _ _
      · split
        · exact noDone_run n3 _ _ _ _ _ _ _
        · split
          · exact NoDone.bind fun _ => NoDone.bind fun _ => noDone_run n3 _ _ _ _ _ _ _
          · exact un
    split
    · exact un
    · refine NoDone.bind fun _ => NoDone.bind fun ti => ?_
      dsimp only
      split
      · exact noDone_run n3 _ _ _ _ _ _ _
      · split
        · exact noDone_run n3 _ _ _ _ _ _ _
        · split
          · exact NoDone.bind fun _ => NoDone.bind fun _ => noDone_run n3 _ _ _ _ _ _ _
          · exact un
  | .cart2 =>
    refine NoDone.bind fun G => NoDone.bind fun _ => NoDone.bind fun rk => ?_
    split
    · exact un
    · refine NoDone.bind fun ti => ?_
      dsimp only
      split
      · exact noDone_run n2 _ _ _ _ _ _ _
      · split
        · exact noDone_run n2 _ _ _ _ _ _ _
        · split
          · exact NoDone.bind fun _ => NoDone.fail _
          · exact un

end Madg
