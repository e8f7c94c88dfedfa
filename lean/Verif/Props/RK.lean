/-
Explicit time integration (C33–C39, stepping part of C21).

`RhsContract sz N scratch P loc F rhs` (Verif/Spec/RK.lean) says that `rhs` evaluates the semi-discrete right-hand
side `F` on the interior cells; `ch3_contract`/`ch2_contract` prove it for the Cahn–Hilliard right-hand sides, and
the statements for those are given explicitly below.
-/
import Verif.Proofs.RKCH

set_option linter.unusedSectionVars false

namespace Madg
open Spec
variable {A : Type} [DecidableEq A]

section
variable {K C : Type} [Field K]
variable {sz : A → Int} {N : Int} {scratch : A → Prop} {P : C → Prop} {loc : C → Int}
  {F : K → (C → K) → C → K} {rhs : A → A → K → Host A K} (hR : RhsContract sz N scratch P loc F rhs)
  (w : RKArr A) (hnd : [w.sol, w.res, w.k1, w.k2, w.k3, w.k4, w.stage].Nodup)
  (hsz : ∀ a ∈ [w.sol, w.res, w.k1, w.k2, w.k3, w.k4, w.stage], sz a = N)
  (hfr : ∀ a ∈ [w.sol, w.res, w.k1, w.k2, w.k3, w.k4, w.stage], ¬ scratch a)
include hR hnd hsz hfr

/-! ### C33 -/

/-- One rk3ssp step, under every schedule, performs the textbook step on the interior; the stored residual is the
increment, i.e. `(new - old)/dt`; other arrays are untouched. -/
theorem C33_rk3ssp_step (time dt : K) (m : Mem A K) :
    ∃ m', Det sz (rk3Step N rhs w time dt) m m' ∧
      (∀ c, P c → m' w.sol (loc c) = (ssprk3 : Tableau K).step F time dt (fun c => m w.sol (loc c)) c) ∧
      (∀ c, P c → m' w.sol (loc c) = m w.sol (loc c) + dt * m' w.res (loc c)) ∧
      (dt ≠ 0 → ∀ c, P c → m' w.res (loc c) = (m' w.sol (loc c) - m w.sol (loc c)) / dt) ∧
      (∀ b, b ∉ [w.sol, w.res, w.k1, w.k2, w.k3, w.stage] → ¬ scratch b → m' b = m b) := by
  obtain ⟨m', d, v, r, f⟩ := rk3_det hR ⟨hnd, hsz, hfr⟩ time dt m
  have e : ∀ c, P c → m' w.sol (loc c) = m w.sol (loc c) + dt * m' w.res (loc c) := by
    intro c hc; rw [v c hc, r c hc]; rfl
  refine ⟨m', d, v, e, fun hdt c hc => ?_, f⟩
  rw [e c hc, add_sub_cancel_left, mul_div_cancel_left₀ _ hdt]

/-- The same step as a convex combination of forward Euler steps. -/
theorem C33_rk3ssp_shu_osher [CharZero K] (time dt : K) (m : Mem A K) :
    ∃ m', Det sz (rk3Step N rhs w time dt) m m' ∧
      (∀ c, P c → m' w.sol (loc c) = shuOsher3 F time dt (fun c => m w.sol (loc c)) c) := by
  obtain ⟨m', d, v, -, -⟩ := rk3_det hR ⟨hnd, hsz, hfr⟩ time dt m
  refine ⟨m', d, fun c hc => ?_⟩
  rw [v c hc, shuOsher3_eq]; rfl

/-- Any number of rk3ssp steps of any sizes. -/
theorem C33_rk3ssp_run (time : K) (dts : List K) (m : Mem A K) :
    ∃ m', Det sz (rk3Run N rhs w time dts) m m' ∧
      (∀ c, P c → m' w.sol (loc c) = (ssprk3 : Tableau K).run F time dts (fun c => m w.sol (loc c)) c) :=
  rk3Run_det hR ⟨hnd, hsz, hfr⟩ dts time m

/-! ### C36: what the order conditions mean for the code -/

/-- On `y' = λ y` an rk3ssp step multiplies the interior by `1 + z + z²/2 + z³/6`, `z = λ dt`. -/
theorem C36_rk3ssp_linear [CharZero K] (lam : K) (hF : ∀ t u c, P c → F t u c = lam * u c) (time dt : K)
    (m : Mem A K) :
    ∃ m', Det sz (rk3Step N rhs w time dt) m m' ∧ ∀ c, P c → m' w.sol (loc c) =
      (1 + lam * dt + (lam * dt) ^ 2 / 2 + (lam * dt) ^ 3 / 6) * m w.sol (loc c) := by
  obtain ⟨m', d, v, -, -⟩ := rk3_det hR ⟨hnd, hsz, hfr⟩ time dt m
  refine ⟨m', d, fun c hc => ?_⟩
  rw [v c hc, Tableau.step, ssprk3_slope, ssprk3_stage0, ssprk3_stage1, ssprk3_stage2]
  simp only [Pi.add_apply, Pi.smul_apply, smul_eq_mul, hF _ _ _ hc, inner]
  field_simp
  ring

/-- A right-hand side that is a quadratic polynomial in time is integrated exactly by rk3ssp. -/
theorem C36_rk3ssp_time_polynomial [CharZero K] (p0 p1 p2 : C → K)
    (hF : ∀ t u c, P c → F t u c = p0 c + p1 c * t + p2 c * t ^ 2) (time dt : K) (m : Mem A K) :
    ∃ m', Det sz (rk3Step N rhs w time dt) m m' ∧ ∀ c, P c → m' w.sol (loc c) = m w.sol (loc c) +
      ((p0 c * (time + dt) + p1 c * (time + dt) ^ 2 / 2 + p2 c * (time + dt) ^ 3 / 3) -
        (p0 c * time + p1 c * time ^ 2 / 2 + p2 c * time ^ 3 / 3)) := by
  obtain ⟨m', d, v, -, -⟩ := rk3_det hR ⟨hnd, hsz, hfr⟩ time dt m
  refine ⟨m', d, fun c hc => ?_⟩
  rw [v c hc, Tableau.step, ssprk3_slope, ssprk3_stage0, ssprk3_stage1, ssprk3_stage2]
  simp only [Pi.add_apply, Pi.smul_apply, smul_eq_mul, hF _ _ _ hc, inner]
  field_simp
  ring

end

section
variable {K C : Type} [Field K] [LinearOrder K] [IsStrictOrderedRing K]
variable {sz : A → Int} {N : Int} {scratch : A → Prop} {P : C → Prop} {loc : C → Int}
  {F : K → (C → K) → C → K} {rhs : A → A → K → Host A K} (hR : RhsContract sz N scratch P loc F rhs)
  (w : RKArr A) (hnd : [w.sol, w.res, w.k1, w.k2, w.k3, w.k4, w.stage].Nodup)
  (hsz : ∀ a ∈ [w.sol, w.res, w.k1, w.k2, w.k3, w.k4, w.stage], sz a = N)
  (hfr : ∀ a ∈ [w.sol, w.res, w.k1, w.k2, w.k3, w.k4, w.stage], ¬ scratch a)
include hR hnd hsz hfr

/-! ### C37 -/

/-- Convex sets kept by forward Euler for each of the step sizes are kept by a whole rk3ssp run. -/
theorem C37_ssp_convex_invariance (S : Set (C → K)) (hS : Convex K S) (dts : List K)
    (hE : ∀ dt ∈ dts, ∀ t, ∀ y ∈ S, euler F t dt y ∈ S) (time : K) (m : Mem A K)
    (hm : (fun c => m w.sol (loc c)) ∈ S) :
    ∃ m', Det sz (rk3Run N rhs w time dts) m m' ∧ ∃ u ∈ S, ∀ c, P c → m' w.sol (loc c) = u c := by
  obtain ⟨m', d, v⟩ := rk3Run_det hR ⟨hnd, hsz, hfr⟩ dts time m
  refine ⟨m', d, _, ?_, v⟩
  have key : ∀ (dts : List K) (t : K) (y : C → K), (∀ dt ∈ dts, ∀ t, ∀ y ∈ S, euler F t dt y ∈ S) → y ∈ S →
      (ssprk3 : Tableau K).run F t dts y ∈ S := by
    intro dts
    induction dts with
    | nil => intro t y _ h; exact h
    | cons dt dts ih =>
      intro t y hE h
      refine ih _ _ (fun dt' h' => hE dt' (List.mem_cons_of_mem _ h')) ?_
      rw [shuOsher3_eq]
      exact shuOsher_convex F S hS dt (hE dt List.mem_cons_self) t y h
  exact key dts time _ hE hm

/-- In particular interior bounds `lo ≤ c ≤ hi` that forward Euler keeps hold along a whole rk3ssp run. -/
theorem C37_ssp_bounds (lo hi : C → K) (dts : List K)
    (hE : ∀ dt ∈ dts, ∀ t (y : C → K), (∀ c, P c → lo c ≤ y c ∧ y c ≤ hi c) →
      ∀ c, P c → lo c ≤ y c + dt * F t y c ∧ y c + dt * F t y c ≤ hi c) (time : K) (m : Mem A K)
    (hm : ∀ c, P c → lo c ≤ m w.sol (loc c) ∧ m w.sol (loc c) ≤ hi c) :
    ∃ m', Det sz (rk3Run N rhs w time dts) m m' ∧
      ∀ c, P c → lo c ≤ m' w.sol (loc c) ∧ m' w.sol (loc c) ≤ hi c := by
  obtain ⟨m', d, u, hu, v⟩ := C37_ssp_convex_invariance hR w hnd hsz hfr
    {y | ∀ c, P c → lo c ≤ y c ∧ y c ≤ hi c} (by
      intro x hx y hy a b ha hb hab c hc
      obtain ⟨x1, x2⟩ := hx c hc
      obtain ⟨y1, y2⟩ := hy c hc
      simp only [Pi.add_apply, Pi.smul_apply, smul_eq_mul]
      have h1 := mul_le_mul_of_nonneg_left x1 ha
      have h2 := mul_le_mul_of_nonneg_left x2 ha
      have h3 := mul_le_mul_of_nonneg_left y1 hb
      have h4 := mul_le_mul_of_nonneg_left y2 hb
      have e1 : a * lo c + b * lo c = lo c := by rw [← add_mul, hab, one_mul]
      have e2 : a * hi c + b * hi c = hi c := by rw [← add_mul, hab, one_mul]
      constructor <;> linarith) dts hE time m hm
  exact ⟨m', d, fun c hc => by rw [v c hc]; exact hu c hc⟩

/-! ### C34, C39 -/

/-- Whole solves with ode23: with the stage arrays zero outside the interior (as allocated), for every sequence of
step sizes and every schedule and reduction order, the interior is that of the textbook pair which recomputes all
stages, and the reported error estimates are those of the pair. -/
theorem C34_ode23_run (time : K) (dts : List K) (m : Mem A K)
    (hz : ∀ n, 0 ≤ n → n < N → (∀ c, P c → loc c ≠ n) →
      m w.k1 n = 0 ∧ m w.k2 n = 0 ∧ m w.k3 n = 0 ∧ m w.k4 n = 0) :
    ∃ st es m', CDet sz (ode23Run N rhs w ode23Init time dts) m (st, es) m' ∧
      (∀ c, P c → m' w.sol (loc c) = (bs23 : Tableau K).run F time dts (fun c => m w.sol (loc c)) c) ∧
      RunErrs bs23 F P time dts (fun c => m w.sol (loc c)) es :=
  ode23Run_det hR ⟨hnd, hsz, hfr⟩ dts ode23Init time m (fun h => by simp [ode23Init] at h) hz

/-- The error estimate after one step (first step, or later step whose stored slope is current): `dt` times the
interior maximum of the difference of the two combinations, independent of the reduction order; it is never
negative, and the first slope of the next step is prepared. -/
theorem C39_error_estimate (st : Ode23 K) (time dt : K) (hdt : 0 ≤ dt) (m : Mem A K)
    (hk4 : st.first = false → ∀ c, P c → m w.k4 (loc c) = F time (fun c => m w.sol (loc c)) c)
    (hz : ∀ n, 0 ≤ n → n < N → (∀ c, P c → loc c ≠ n) →
      m w.k1 n = 0 ∧ m w.k2 n = 0 ∧ m w.k3 n = 0 ∧ m w.k4 n = 0) :
    ∃ E m', CDet sz (ode23Step N rhs w st time dt) m ⟨false, dt * E⟩ m' ∧ 0 ≤ E ∧
      IsMaxAbs P ((bs23 : Tableau K).slope F time dt (fun c => m w.sol (loc c)) -
        (bs23 : Tableau K).slopeHat F time dt (fun c => m w.sol (loc c))) E ∧
      (∀ c, P c → m' w.k4 (loc c) = F (time + dt) (fun c => m' w.sol (loc c)) c) := by
  obtain ⟨E, m', d, hE, -, k, -⟩ := ode23Step_det hR ⟨hnd, hsz, hfr⟩ st time dt m hk4 hz
  refine ⟨E, m', ?_, hE.1, hE, k⟩
  rwa [max_eq_right (mul_nonneg hdt hE.1)] at d

/-! ### C35 -/

/-- On an integrator that has already been used, the first slope of the step is the stored one, whatever the
current state is. -/
theorem C35_used_integrator_step (err time dt : K) (m : Mem A K) :
    ∃ (e : K) (κ2 κ3 : C → K) (m' : Mem A K), CDet sz (ode23Step N rhs w ⟨false, err⟩ time dt) m ⟨false, e⟩ m' ∧
      κ2 = F (time + 1 / 2 * dt) (fun c => m w.sol (loc c) + dt * (1 / 2) * m w.k4 (loc c)) ∧
      (∀ c, P c → κ3 c = F (time + 3 / 4 * dt) (fun c => m w.sol (loc c) + dt * (3 / 4 * κ2 c)) c) ∧
      (∀ c, P c → m' w.sol (loc c) = m w.sol (loc c) +
        dt * (2 / 9 * m w.k4 (loc c) + 1 / 3 * κ2 c + 4 / 9 * κ3 c)) :=
  ode23Step_stale hR ⟨hnd, hsz, hfr⟩ err time dt m

/-- On `y' = λ y` an ode23 step multiplies the interior by `1 + z + z²/2 + z³/6`, `z = λ dt`. -/
theorem C36_ode23_linear (lam : K) (hF : ∀ t u c, P c → F t u c = lam * u c) (time dt : K) (m : Mem A K)
    (hz : ∀ n, 0 ≤ n → n < N → (∀ c, P c → loc c ≠ n) →
      m w.k1 n = 0 ∧ m w.k2 n = 0 ∧ m w.k3 n = 0 ∧ m w.k4 n = 0) :
    ∃ st m', CDet sz (ode23Step N rhs w ode23Init time dt) m st m' ∧ ∀ c, P c → m' w.sol (loc c) =
      (1 + lam * dt + (lam * dt) ^ 2 / 2 + (lam * dt) ^ 3 / 6) * m w.sol (loc c) := by
  obtain ⟨E, m', d, -, v, -, -⟩ := ode23Step_det hR ⟨hnd, hsz, hfr⟩ ode23Init time dt m
    (fun h => by simp [ode23Init] at h) hz
  refine ⟨_, m', d, fun c hc => ?_⟩
  rw [v c hc, Tableau.step, bs23_slope, bs23_stage0, bs23_stage1, bs23_stage2]
  simp only [Pi.add_apply, Pi.smul_apply, smul_eq_mul, hF _ _ _ hc, inner]
  field_simp
  ring

/-- A right-hand side that is a quadratic polynomial in time is integrated exactly by ode23. -/
theorem C36_ode23_time_polynomial (p0 p1 p2 : C → K)
    (hF : ∀ t u c, P c → F t u c = p0 c + p1 c * t + p2 c * t ^ 2) (time dt : K) (m : Mem A K)
    (hz : ∀ n, 0 ≤ n → n < N → (∀ c, P c → loc c ≠ n) →
      m w.k1 n = 0 ∧ m w.k2 n = 0 ∧ m w.k3 n = 0 ∧ m w.k4 n = 0) :
    ∃ st m', CDet sz (ode23Step N rhs w ode23Init time dt) m st m' ∧ ∀ c, P c → m' w.sol (loc c) =
      m w.sol (loc c) +
      ((p0 c * (time + dt) + p1 c * (time + dt) ^ 2 / 2 + p2 c * (time + dt) ^ 3 / 3) -
        (p0 c * time + p1 c * time ^ 2 / 2 + p2 c * time ^ 3 / 3)) := by
  obtain ⟨E, m', d, -, v, -, -⟩ := ode23Step_det hR ⟨hnd, hsz, hfr⟩ ode23Init time dt m
    (fun h => by simp [ode23Init] at h) hz
  refine ⟨_, m', d, fun c hc => ?_⟩
  rw [v c hc, Tableau.step, bs23_slope, bs23_stage0, bs23_stage1, bs23_stage2]
  simp only [Pi.add_apply, Pi.smul_apply, smul_eq_mul, hF _ _ _ hc, inner]
  field_simp
  ring

end

/-! ### C36: order conditions -/

/-- The rk3ssp tableau has order 3. -/
theorem C36_ssprk3_order {K : Type} [Field K] [CharZero K] : (ssprk3 : Tableau K).Order3 ssprk3.b := by
  refine ⟨⟨?_, ?_, ?_⟩, ?_, ?_⟩
  · intro i; change Fin 3 at i
    fin_cases i <;> simp [ssprk3, Fin.sum_univ_succ]; norm_num
  all_goals
    refine (Fin.sum_univ_three _).trans ?_
    simp [ssprk3, Fin.sum_univ_succ]
    try norm_num

/-- The ode23 tableau has order 3; its embedded weights have order 2 but not order 3. -/
theorem C36_bs23_order {K : Type} [Field K] [CharZero K] :
    (bs23 : Tableau K).Order3 bs23.b ∧ (bs23 : Tableau K).Order2 bs23.bh ∧ ¬ (bs23 : Tableau K).Order3 bs23.bh := by
  have hrow : ∀ i : Fin (bs23 : Tableau K).s, ∑ j : Fin i, (bs23 : Tableau K).a i j = (bs23 : Tableau K).c i := by
    intro i; change Fin 4 at i
    fin_cases i <;> simp [bs23, Fin.sum_univ_succ]; norm_num
  refine ⟨⟨⟨hrow, ?_, ?_⟩, ?_, ?_⟩, ⟨hrow, ?_, ?_⟩, ?_⟩
  all_goals try
    refine (Fin.sum_univ_four _).trans ?_
    simp [bs23, Fin.sum_univ_succ]
    try norm_num
  rintro ⟨-, h, -⟩
  have h' := (Fin.sum_univ_four _).symm.trans h
  simp [bs23] at h'
  norm_num at h'

/-! ### C35 witness -/

/-- Right-hand side `F(t, y) = y` on arrays of one element: copy the state (a test problem; not code from the
repository). -/
def copyRhs (s r : Fin 7) (_ : ℚ) : Host (Fin 7) ℚ :=
  [forAll 0 1 fun i => do
    let x ← Prog.rd s i
    Prog.wr r i x]

theorem copyRhs_contract : RhsContract (fun _ : Fin 7 => 1) 1 (fun _ => False) (fun _ : Unit => True)
    (fun _ => 0) (fun _ u => u) copyRhs := by
  refine ⟨fun _ _ => by decide, fun t u v h => h, fun s r t m hne _ _ _ _ => ?_⟩
  obtain ⟨m', d, w⟩ := forAll_det (sz := fun _ : Fin 7 => 1) (r := r) 1
    (fun i => .load s i fun x => .store r i x (.pure ())) (fun n => m s n) m
    (fun i h0 h1 => ⟨⟨h0, h1⟩, Or.inl hne, fun _ => ⟨⟨h0, h1⟩, ⟨rfl, rfl⟩, trivial⟩⟩)
    (fun i h0 h1 => Mem.set_same _ _ _ _)
  exact ⟨m', d, fun c _ => w.view 0 (by decide) (by decide), fun c _ => by rw [w.frame s hne],
    fun n hn => Or.inl (w.out n fun h => hn () trivial (by omega)), fun b _ hb _ => w.frame b hb⟩

/-- The arrays of the witness. -/
def w7 : RKArr (Fin 7) := ⟨0, 1, 2, 3, 4, 5, 6⟩

/-- The claim that a second solve on the same ode23 object behaves like a fresh one is false: for `y' = y` from
`y = 1` with one step of size 1 at time 0, the first solve returns 8/3; a second solve of the same problem
(state array reset to 1, everything else as left by the first) returns 97/27. -/
theorem C35_second_solve_differs :
    ∃ (m m1 m2 : Mem (Fin 7) ℚ) (st st' : Ode23 ℚ) (es es' : List ℚ),
      CDet (fun _ => 1) (ode23Run 1 copyRhs w7 ode23Init 0 [1]) m (st, es) m1 ∧
      CDet (fun _ => 1) (ode23Run 1 copyRhs w7 st 0 [1]) (fun a => if a = w7.sol then m w7.sol else m1 a)
        (st', es') m2 ∧
      m w7.sol 0 = 1 ∧ m1 w7.sol 0 = 8 / 3 ∧ m2 w7.sol 0 = 97 / 27 := by
  have hw : w7.Ok (fun _ => 1) 1 (fun _ => False) := ⟨by decide, fun _ _ => rfl, fun _ _ => id⟩
  obtain ⟨E, m1, d1, hE, v1, k1, z1⟩ := ode23Step_det copyRhs_contract hw ode23Init 0 1
    (fun a _ => if a = w7.sol then 1 else 0) (fun h => by simp [ode23Init] at h)
    (fun n h0 h1 hn => absurd (show (0 : Int) = n by omega) (hn () trivial))
  have e1 : m1 w7.sol 0 = 8 / 3 := by
    rw [v1 () trivial, Tableau.step, bs23_slope, bs23_stage0, bs23_stage1, bs23_stage2]
    simp only [Pi.add_apply, Pi.smul_apply, smul_eq_mul, inner]
    norm_num
  have e4 : m1 w7.k4 0 = 8 / 3 := by
    rw [k1 () trivial]; exact e1
  obtain ⟨e, κ2, κ3, m2, d2, h2, h3, vs⟩ := ode23Step_stale copyRhs_contract hw (max 0 (1 * E)) 0 1
    (fun a => if a = w7.sol then fun _ => 1 else m1 a)
  refine ⟨(fun a _ => if a = w7.sol then 1 else 0), m1, m2, ⟨false, max 0 (1 * E)⟩, ⟨false, e⟩, [max 0 (1 * E)], [e],
    CDet.bind d1 (CDet.bind (CDet.ret _ _) (CDet.ret _ _)), ?_, ?_, e1, ?_⟩
  · have : (fun a => if a = w7.sol then (fun a (_ : Int) => if a = w7.sol then (1 : ℚ) else 0) w7.sol else m1 a) =
        (fun a => if a = w7.sol then fun _ => 1 else m1 a) := by
      funext a; split <;> simp
    rw [this]
    exact CDet.bind d2 (CDet.bind (CDet.ret _ _) (CDet.ret _ _))
  · simp
  · have hk : (if w7.k4 = w7.sol then fun _ => (1 : ℚ) else m1 w7.k4) 0 = 8 / 3 := by
      rw [if_neg (by decide)]; exact e4
    have hs : (if w7.sol = w7.sol then fun _ => (1 : ℚ) else m1 w7.sol) 0 = 1 := by simp
    rw [vs () trivial, h3 () trivial, h2, hk]
    norm_num


/-! ### The Cahn–Hilliard solver: C21 (stepping), C33, C34, C38 -/

section
variable {K : Type} [Field K] [LinearOrder K] [IsStrictOrderedRing K]
variable (g : Grid3) (hn : 2 ≤ g.ni ∧ 2 ≤ g.nj ∧ 2 ≤ g.nk) (hh : g.nhalo = 2) (xbc ybc zbc : BCType)
  (G : Geom3) (hG : mkGeom3 g xbc ybc zbc = .ok G) (v : Int) (hv : v = 0 ∨ v = 1 ∨ v = 2)
  (sz : A → Int) (w : RKArr A) (l1 l2 l3 l4 : A)
  (hnd : [w.sol, w.res, w.k1, w.k2, w.k3, w.k4, w.stage, l1, l2, l3, l4].Nodup)
  (hsz : ∀ a ∈ [w.sol, w.res, w.k1, w.k2, w.k3, w.k4, w.stage, l1, l2, l3, l4], sz a = g.size)
  (p : CHParams K) (dx : K)
include hn hh hG hv hnd hsz

theorem ch3_setup : RhsContract sz g.size (· ∈ [l1, l2, l3, l4]) (In3 g.ni g.nj g.nk)
      (fun c : Int × Int × Int => g.at3 c.1 c.2.1 c.2.2)
      (chField3 p dx xbc ybc zbc g.ni g.nj g.nk)
      (fun s r _ => G.evalRHS v p dx ⟨s, r, l1, l2, l3, l4⟩) ∧
    w.Ok sz g.size (· ∈ [l1, l2, l3, l4]) := by
  have hnd' : ([w.sol, w.res, w.k1, w.k2, w.k3, w.k4, w.stage] ++ [l1, l2, l3, l4]).Nodup := hnd
  rw [List.nodup_append] at hnd'
  obtain ⟨h1, h2, h3⟩ := hnd'
  refine ⟨ch3_contract hn hh hG hv h2 (fun a ha => hsz a ?_) p dx, h1, fun a ha => hsz a ?_, fun a ha hb => ?_⟩
  · exact List.mem_append_right [w.sol, w.res, w.k1, w.k2, w.k3, w.k4, w.stage] ha
  · exact List.mem_append_left [l1, l2, l3, l4] ha
  · exact h3 a ha a hb rfl

/-- rk3ssp on the 3D Cahn–Hilliard equation: any number of steps of any sizes from any state, every schedule. -/
theorem C33_cahn_hilliard3 (time : K) (dts : List K) (m : Mem A K) :
    ∃ m', Det sz (rk3Run g.size (fun s r _ => G.evalRHS v p dx ⟨s, r, l1, l2, l3, l4⟩) w time dts) m m' ∧
      ∀ i j k, (0 ≤ i ∧ i < g.ni) → (0 ≤ j ∧ j < g.nj) → (0 ≤ k ∧ k < g.nk) →
        m' w.sol (g.at3 i j k) = (ssprk3 : Tableau K).run (chField3 p dx xbc ybc zbc g.ni g.nj g.nk) time dts
          (fun c => m w.sol (g.at3 c.1 c.2.1 c.2.2)) (i, j, k) := by
  obtain ⟨hR, hw⟩ := ch3_setup g hn hh xbc ybc zbc G hG v hv sz w l1 l2 l3 l4 hnd hsz p dx
  obtain ⟨m', d, e⟩ := rk3Run_det hR hw dts time m
  exact ⟨m', d, fun i j k hi hj hk => e (i, j, k) ⟨hi, hj, hk⟩⟩

/-- ode23 on the 3D Cahn–Hilliard equation, with the stage arrays zero outside the interior. -/
theorem C34_cahn_hilliard3 (time : K) (dts : List K) (m : Mem A K)
    (hz : ∀ n, 0 ≤ n → n < g.size → (∀ i j k, (0 ≤ i ∧ i < g.ni) ∧ (0 ≤ j ∧ j < g.nj) ∧ (0 ≤ k ∧ k < g.nk) →
      g.at3 i j k ≠ n) → m w.k1 n = 0 ∧ m w.k2 n = 0 ∧ m w.k3 n = 0 ∧ m w.k4 n = 0) :
    ∃ st es m', CDet sz (ode23Run g.size (fun s r _ => G.evalRHS v p dx ⟨s, r, l1, l2, l3, l4⟩) w ode23Init
        time dts) m (st, es) m' ∧
      (∀ i j k, (0 ≤ i ∧ i < g.ni) → (0 ≤ j ∧ j < g.nj) → (0 ≤ k ∧ k < g.nk) →
        m' w.sol (g.at3 i j k) = (bs23 : Tableau K).run (chField3 p dx xbc ybc zbc g.ni g.nj g.nk) time dts
          (fun c => m w.sol (g.at3 c.1 c.2.1 c.2.2)) (i, j, k)) ∧
      RunErrs bs23 (chField3 p dx xbc ybc zbc g.ni g.nj g.nk) (In3 g.ni g.nj g.nk) time dts
        (fun c => m w.sol (g.at3 c.1 c.2.1 c.2.2)) es := by
  obtain ⟨hR, hw⟩ := ch3_setup g hn hh xbc ybc zbc G hG v hv sz w l1 l2 l3 l4 hnd hsz p dx
  obtain ⟨st, es, m', d, e, r⟩ := ode23Run_det hR hw dts ode23Init time m (fun h => by simp [ode23Init] at h)
    (fun n h0 h1 hn => hz n h0 h1 fun i j k h => hn (i, j, k) h)
  exact ⟨st, es, m', d, fun i j k hi hj hk => e (i, j, k) ⟨hi, hj, hk⟩, r⟩

/-- The uniform state `m` is kept by every rk3ssp run, for every boundary mix. -/
theorem C21_equilibrium_kept_rk3 (time : K) (dts : List K) (m : Mem A K)
    (hm : ∀ i j k, (0 ≤ i ∧ i < g.ni) → (0 ≤ j ∧ j < g.nj) → (0 ≤ k ∧ k < g.nk) → m w.sol (g.at3 i j k) = p.m) :
    ∃ m', Det sz (rk3Run g.size (fun s r _ => G.evalRHS v p dx ⟨s, r, l1, l2, l3, l4⟩) w time dts) m m' ∧
      ∀ i j k, (0 ≤ i ∧ i < g.ni) → (0 ≤ j ∧ j < g.nj) → (0 ≤ k ∧ k < g.nk) → m' w.sol (g.at3 i j k) = p.m := by
  obtain ⟨m', d, e⟩ := C33_cahn_hilliard3 g hn hh xbc ybc zbc G hG v hv sz w l1 l2 l3 l4 hnd hsz p dx time dts m
  refine ⟨m', d, fun i j k hi hj hk => ?_⟩
  rw [e i j k hi hj hk]
  exact run_equilibrium ssprk3 (In3 g.ni g.nj g.nk) _ (fun _ => p.m)
    (chField3_equilibrium p dx xbc ybc zbc (by omega) (by omega) (by omega)) dts time _
    (fun c hc => hm _ _ _ hc.1 hc.2.1 hc.2.2) (i, j, k) ⟨hi, hj, hk⟩

/-- The same for ode23. -/
theorem C21_equilibrium_kept_ode23 (time : K) (dts : List K) (m : Mem A K)
    (hz : ∀ n, 0 ≤ n → n < g.size → (∀ i j k, (0 ≤ i ∧ i < g.ni) ∧ (0 ≤ j ∧ j < g.nj) ∧ (0 ≤ k ∧ k < g.nk) →
      g.at3 i j k ≠ n) → m w.k1 n = 0 ∧ m w.k2 n = 0 ∧ m w.k3 n = 0 ∧ m w.k4 n = 0)
    (hm : ∀ i j k, (0 ≤ i ∧ i < g.ni) → (0 ≤ j ∧ j < g.nj) → (0 ≤ k ∧ k < g.nk) → m w.sol (g.at3 i j k) = p.m) :
    ∃ st es m', CDet sz (ode23Run g.size (fun s r _ => G.evalRHS v p dx ⟨s, r, l1, l2, l3, l4⟩) w ode23Init
        time dts) m (st, es) m' ∧
      ∀ i j k, (0 ≤ i ∧ i < g.ni) → (0 ≤ j ∧ j < g.nj) → (0 ≤ k ∧ k < g.nk) → m' w.sol (g.at3 i j k) = p.m := by
  obtain ⟨st, es, m', d, e, -⟩ := C34_cahn_hilliard3 g hn hh xbc ybc zbc G hG v hv sz w l1 l2 l3 l4 hnd hsz p dx
    time dts m hz
  refine ⟨st, es, m', d, fun i j k hi hj hk => ?_⟩
  rw [e i j k hi hj hk]
  exact run_equilibrium bs23 (In3 g.ni g.nj g.nk) _ (fun _ => p.m)
    (chField3_equilibrium p dx xbc ybc zbc (by omega) (by omega) (by omega)) dts time _
    (fun c hc => hm _ _ _ hc.1 hc.2.1 hc.2.2) (i, j, k) ⟨hi, hj, hk⟩

end

section
variable {K : Type} [Field K] [LinearOrder K] [IsStrictOrderedRing K]
variable (g : Grid3) (hn : 2 ≤ g.ni ∧ 2 ≤ g.nj ∧ 2 ≤ g.nk) (hh : g.nhalo = 2)
  (G : Geom3) (hG : mkGeom3 g .periodic .periodic .periodic = .ok G) (v : Int) (hv : v = 0 ∨ v = 1 ∨ v = 2)
  (sz : A → Int) (w : RKArr A) (l1 l2 l3 l4 : A)
  (hnd : [w.sol, w.res, w.k1, w.k2, w.k3, w.k4, w.stage, l1, l2, l3, l4].Nodup)
  (hsz : ∀ a ∈ [w.sol, w.res, w.k1, w.k2, w.k3, w.k4, w.stage, l1, l2, l3, l4], sz a = g.size)
  (p : CHParams K) (dx : K)
include hn hh hG hv hnd hsz

/-- Whole rk3ssp simulations on a periodic 3D grid: if the interior mean is `m`, or `σ = 0`, the interior sum never
changes. -/
theorem C38_mean_preserved_rk3 (time : K) (dts : List K) (m : Mem A K)
    (hm : p.sigma = 0 ∨ sum3 g.ni g.nj g.nk (fun i j k => m w.sol (g.at3 i j k)) =
      ((g.ni * g.nj * g.nk : Int) : K) * p.m) :
    ∃ m', Det sz (rk3Run g.size (fun s r _ => G.evalRHS v p dx ⟨s, r, l1, l2, l3, l4⟩) w time dts) m m' ∧
      sum3 g.ni g.nj g.nk (fun i j k => m' w.sol (g.at3 i j k)) =
        sum3 g.ni g.nj g.nk (fun i j k => m w.sol (g.at3 i j k)) := by
  obtain ⟨m', d, e⟩ := C33_cahn_hilliard3 g hn hh .periodic .periodic .periodic G hG v hv sz w l1 l2 l3 l4 hnd hsz p
    dx time dts m
  refine ⟨m', d, ?_⟩
  rw [sum3_congr fun i j k hi hj hk => e i j k hi hj hk]
  exact run_lin ssprk3 _ (total3 g.ni g.nj g.nk) _ p.sigma
    (total3_rhs p dx (by omega) (by omega) (by omega)) dts time
    (fun c => m w.sol (g.at3 c.1 c.2.1 c.2.2)) hm

/-- The same for ode23. -/
theorem C38_mean_preserved_ode23 (time : K) (dts : List K) (m : Mem A K)
    (hz : ∀ n, 0 ≤ n → n < g.size → (∀ i j k, (0 ≤ i ∧ i < g.ni) ∧ (0 ≤ j ∧ j < g.nj) ∧ (0 ≤ k ∧ k < g.nk) →
      g.at3 i j k ≠ n) → m w.k1 n = 0 ∧ m w.k2 n = 0 ∧ m w.k3 n = 0 ∧ m w.k4 n = 0)
    (hm : p.sigma = 0 ∨ sum3 g.ni g.nj g.nk (fun i j k => m w.sol (g.at3 i j k)) =
      ((g.ni * g.nj * g.nk : Int) : K) * p.m) :
    ∃ st es m', CDet sz (ode23Run g.size (fun s r _ => G.evalRHS v p dx ⟨s, r, l1, l2, l3, l4⟩) w ode23Init
        time dts) m (st, es) m' ∧
      sum3 g.ni g.nj g.nk (fun i j k => m' w.sol (g.at3 i j k)) =
        sum3 g.ni g.nj g.nk (fun i j k => m w.sol (g.at3 i j k)) := by
  obtain ⟨st, es, m', d, e, -⟩ := C34_cahn_hilliard3 g hn hh .periodic .periodic .periodic G hG v hv sz w l1 l2 l3 l4
    hnd hsz p dx time dts m hz
  refine ⟨st, es, m', d, ?_⟩
  rw [sum3_congr fun i j k hi hj hk => e i j k hi hj hk]
  exact run_lin bs23 _ (total3 g.ni g.nj g.nk) _ p.sigma
    (total3_rhs p dx (by omega) (by omega) (by omega)) dts time
    (fun c => m w.sol (g.at3 c.1 c.2.1 c.2.2)) hm

/-- From any mean, the deviation of the interior sum from its target is multiplied by `1 - z + z²/2 - z³/6`,
`z = σ dt`, in every rk3ssp step: over a run, by the product of these factors. -/
theorem C38_mean_relaxation_rk3 (time : K) (dts : List K) (m : Mem A K) :
    ∃ m', Det sz (rk3Run g.size (fun s r _ => G.evalRHS v p dx ⟨s, r, l1, l2, l3, l4⟩) w time dts) m m' ∧
      sum3 g.ni g.nj g.nk (fun i j k => m' w.sol (g.at3 i j k)) - ((g.ni * g.nj * g.nk : Int) : K) * p.m =
        (dts.map fun dt => 1 - p.sigma * dt + (p.sigma * dt) ^ 2 / 2 - (p.sigma * dt) ^ 3 / 6).prod *
        (sum3 g.ni g.nj g.nk (fun i j k => m w.sol (g.at3 i j k)) - ((g.ni * g.nj * g.nk : Int) : K) * p.m) := by
  obtain ⟨m', d, e⟩ := C33_cahn_hilliard3 g hn hh .periodic .periodic .periodic G hG v hv sz w l1 l2 l3 l4 hnd hsz p
    dx time dts m
  refine ⟨m', d, ?_⟩
  rw [sum3_congr fun i j k hi hj hk => e i j k hi hj hk]
  exact run_damp ssprk3 _ (total3 g.ni g.nj g.nk) _ p.sigma
    (ssprk3_damp _ _ _ _ (total3_rhs p dx (by omega) (by omega) (by omega))) dts time
    (fun c => m w.sol (g.at3 c.1 c.2.1 c.2.2))

end

section
variable {K : Type} [Field K] [LinearOrder K] [IsStrictOrderedRing K]
variable (n : Int) (hn : 2 ≤ n) (G : Geom2) (hG : mkGeom2 n 2 = .ok G)
  (sz : A → Int) (w : RKArr A) (l1 l2 l3 l4 : A)
  (hnd : [w.sol, w.res, w.k1, w.k2, w.k3, w.k4, w.stage, l1, l2, l3, l4].Nodup)
  (hsz : ∀ a ∈ [w.sol, w.res, w.k1, w.k2, w.k3, w.k4, w.stage, l1, l2, l3, l4], sz a = (n + 2 * 2) * (n + 2 * 2))
  (p : CHParams K) (dx : K)
include hn hG hnd hsz

theorem ch2_setup : RhsContract sz ((n + 2 * 2) * (n + 2 * 2)) (· ∈ [l1, l2, l3, l4]) (In2 n)
      (fun c : Int × Int => G.g.at2 c.1 c.2) (chField2 p dx n)
      (fun s r _ => G.evalRHS p dx ⟨s, r, l1, l2, l3, l4⟩) ∧
    w.Ok sz ((n + 2 * 2) * (n + 2 * 2)) (· ∈ [l1, l2, l3, l4]) := by
  have hnd' : ([w.sol, w.res, w.k1, w.k2, w.k3, w.k4, w.stage] ++ [l1, l2, l3, l4]).Nodup := hnd
  rw [List.nodup_append] at hnd'
  obtain ⟨h1, h2, h3⟩ := hnd'
  refine ⟨ch2_contract hn hG h2 (fun a ha => hsz a ?_) p dx, h1, fun a ha => hsz a ?_, fun a ha hb => ?_⟩
  · exact List.mem_append_right [w.sol, w.res, w.k1, w.k2, w.k3, w.k4, w.stage] ha
  · exact List.mem_append_left [l1, l2, l3, l4] ha
  · exact h3 a ha a hb rfl

/-- rk3ssp on the 2D Cahn–Hilliard equation. -/
theorem C33_cahn_hilliard2 (time : K) (dts : List K) (m : Mem A K) :
    ∃ m', Det sz (rk3Run ((n + 2 * 2) * (n + 2 * 2)) (fun s r _ => G.evalRHS p dx ⟨s, r, l1, l2, l3, l4⟩) w time
        dts) m m' ∧
      ∀ i j, (0 ≤ i ∧ i < n) → (0 ≤ j ∧ j < n) →
        m' w.sol (G.g.at2 i j) = (ssprk3 : Tableau K).run (chField2 p dx n) time dts
          (fun c => m w.sol (G.g.at2 c.1 c.2)) (i, j) := by
  obtain ⟨hR, hw⟩ := ch2_setup n hn G hG sz w l1 l2 l3 l4 hnd hsz p dx
  obtain ⟨m', d, e⟩ := rk3Run_det hR hw dts time m
  exact ⟨m', d, fun i j hi hj => e (i, j) ⟨hi, hj⟩⟩

/-- ode23 on the 2D Cahn–Hilliard equation. -/
theorem C34_cahn_hilliard2 (time : K) (dts : List K) (m : Mem A K)
    (hz : ∀ x, 0 ≤ x → x < (n + 2 * 2) * (n + 2 * 2) → (∀ i j, (0 ≤ i ∧ i < n) ∧ (0 ≤ j ∧ j < n) →
      G.g.at2 i j ≠ x) → m w.k1 x = 0 ∧ m w.k2 x = 0 ∧ m w.k3 x = 0 ∧ m w.k4 x = 0) :
    ∃ st es m', CDet sz (ode23Run ((n + 2 * 2) * (n + 2 * 2)) (fun s r _ => G.evalRHS p dx ⟨s, r, l1, l2, l3, l4⟩) w
        ode23Init time dts) m (st, es) m' ∧
      (∀ i j, (0 ≤ i ∧ i < n) → (0 ≤ j ∧ j < n) →
        m' w.sol (G.g.at2 i j) = (bs23 : Tableau K).run (chField2 p dx n) time dts
          (fun c => m w.sol (G.g.at2 c.1 c.2)) (i, j)) ∧
      RunErrs bs23 (chField2 p dx n) (In2 n) time dts (fun c => m w.sol (G.g.at2 c.1 c.2)) es := by
  obtain ⟨hR, hw⟩ := ch2_setup n hn G hG sz w l1 l2 l3 l4 hnd hsz p dx
  obtain ⟨st, es, m', d, e, r⟩ := ode23Run_det hR hw dts ode23Init time m (fun h => by simp [ode23Init] at h)
    (fun x h0 h1 hx => hz x h0 h1 fun i j h => hx (i, j) h)
  exact ⟨st, es, m', d, fun i j hi hj => e (i, j) ⟨hi, hj⟩, r⟩

/-- The uniform state `m` is kept by every rk3ssp and ode23 run in 2D. -/
theorem C21_equilibrium_kept_2d (time : K) (dts : List K) (m : Mem A K)
    (hz : ∀ x, 0 ≤ x → x < (n + 2 * 2) * (n + 2 * 2) → (∀ i j, (0 ≤ i ∧ i < n) ∧ (0 ≤ j ∧ j < n) →
      G.g.at2 i j ≠ x) → m w.k1 x = 0 ∧ m w.k2 x = 0 ∧ m w.k3 x = 0 ∧ m w.k4 x = 0)
    (hm : ∀ i j, (0 ≤ i ∧ i < n) → (0 ≤ j ∧ j < n) → m w.sol (G.g.at2 i j) = p.m) :
    (∃ m', Det sz (rk3Run ((n + 2 * 2) * (n + 2 * 2)) (fun s r _ => G.evalRHS p dx ⟨s, r, l1, l2, l3, l4⟩) w time
        dts) m m' ∧ ∀ i j, (0 ≤ i ∧ i < n) → (0 ≤ j ∧ j < n) → m' w.sol (G.g.at2 i j) = p.m) ∧
    (∃ st es m', CDet sz (ode23Run ((n + 2 * 2) * (n + 2 * 2)) (fun s r _ => G.evalRHS p dx ⟨s, r, l1, l2, l3, l4⟩) w
        ode23Init time dts) m (st, es) m' ∧
        ∀ i j, (0 ≤ i ∧ i < n) → (0 ≤ j ∧ j < n) → m' w.sol (G.g.at2 i j) = p.m) := by
  constructor
  · obtain ⟨m', d, e⟩ := C33_cahn_hilliard2 n hn G hG sz w l1 l2 l3 l4 hnd hsz p dx time dts m
    refine ⟨m', d, fun i j hi hj => ?_⟩
    rw [e i j hi hj]
    exact run_equilibrium ssprk3 (In2 n) _ (fun _ => p.m) (chField2_equilibrium p dx (by omega)) dts time _
      (fun c hc => hm _ _ hc.1 hc.2) (i, j) ⟨hi, hj⟩
  · obtain ⟨st, es, m', d, e, -⟩ := C34_cahn_hilliard2 n hn G hG sz w l1 l2 l3 l4 hnd hsz p dx time dts m hz
    refine ⟨st, es, m', d, fun i j hi hj => ?_⟩
    rw [e i j hi hj]
    exact run_equilibrium bs23 (In2 n) _ (fun _ => p.m) (chField2_equilibrium p dx (by omega)) dts time _
      (fun c hc => hm _ _ hc.1 hc.2) (i, j) ⟨hi, hj⟩

/-- Mean preservation and relaxation over rk3ssp runs in 2D. -/
theorem C38_mean_rk3_2d (time : K) (dts : List K) (m : Mem A K) :
    ∃ m', Det sz (rk3Run ((n + 2 * 2) * (n + 2 * 2)) (fun s r _ => G.evalRHS p dx ⟨s, r, l1, l2, l3, l4⟩) w time
        dts) m m' ∧
      ((p.sigma = 0 ∨ sum2 n n (fun i j => m w.sol (G.g.at2 i j)) = ((n * n : Int) : K) * p.m) →
        sum2 n n (fun i j => m' w.sol (G.g.at2 i j)) = sum2 n n (fun i j => m w.sol (G.g.at2 i j))) ∧
      sum2 n n (fun i j => m' w.sol (G.g.at2 i j)) - ((n * n : Int) : K) * p.m =
        (dts.map fun dt => 1 - p.sigma * dt + (p.sigma * dt) ^ 2 / 2 - (p.sigma * dt) ^ 3 / 6).prod *
        (sum2 n n (fun i j => m w.sol (G.g.at2 i j)) - ((n * n : Int) : K) * p.m) := by
  obtain ⟨m', d, e⟩ := C33_cahn_hilliard2 n hn G hG sz w l1 l2 l3 l4 hnd hsz p dx time dts m
  refine ⟨m', d, fun h => ?_, ?_⟩
  · rw [sum2_congr fun i j hi hj => e i j hi hj]
    exact run_lin ssprk3 _ (total2 n) _ p.sigma (total2_rhs p dx (by omega)) dts time
      (fun c => m w.sol (G.g.at2 c.1 c.2)) h
  · rw [sum2_congr fun i j hi hj => e i j hi hj]
    exact run_damp ssprk3 _ (total2 n) _ p.sigma (ssprk3_damp _ _ _ _ (total2_rhs p dx (by omega))) dts
      time (fun c => m w.sol (G.g.at2 c.1 c.2))

/-- Mean preservation over ode23 runs in 2D. -/
theorem C38_mean_ode23_2d (time : K) (dts : List K) (m : Mem A K)
    (hz : ∀ x, 0 ≤ x → x < (n + 2 * 2) * (n + 2 * 2) → (∀ i j, (0 ≤ i ∧ i < n) ∧ (0 ≤ j ∧ j < n) →
      G.g.at2 i j ≠ x) → m w.k1 x = 0 ∧ m w.k2 x = 0 ∧ m w.k3 x = 0 ∧ m w.k4 x = 0)
    (hm : p.sigma = 0 ∨ sum2 n n (fun i j => m w.sol (G.g.at2 i j)) = ((n * n : Int) : K) * p.m) :
    ∃ st es m', CDet sz (ode23Run ((n + 2 * 2) * (n + 2 * 2)) (fun s r _ => G.evalRHS p dx ⟨s, r, l1, l2, l3, l4⟩) w
        ode23Init time dts) m (st, es) m' ∧
      sum2 n n (fun i j => m' w.sol (G.g.at2 i j)) = sum2 n n (fun i j => m w.sol (G.g.at2 i j)) := by
  obtain ⟨st, es, m', d, e, -⟩ := C34_cahn_hilliard2 n hn G hG sz w l1 l2 l3 l4 hnd hsz p dx time dts m hz
  refine ⟨st, es, m', d, ?_⟩
  rw [sum2_congr fun i j hi hj => e i j hi hj]
  exact run_lin bs23 _ (total2 n) _ p.sigma (total2_rhs p dx (by omega)) dts time
    (fun c => m w.sol (G.g.at2 c.1 c.2)) hm

end

/-- Non-vacuity: a 3×4×5 grid with two Neumann axes, eleven distinct arrays, zero stage arrays and a varying state;
the hypotheses of the 3D theorems hold. -/
example : ∃ (G : Geom3) (w : RKArr (Fin 11)) (m : Mem (Fin 11) ℚ),
    mkGeom3 ⟨3, 4, 5, 2⟩ .neumann .periodic .neumann = .ok G ∧
    [w.sol, w.res, w.k1, w.k2, w.k3, w.k4, w.stage, 7, 8, 9, 10].Nodup ∧ m w.sol 0 ≠ m w.sol 1 ∧
    (∀ n, m w.k1 n = 0 ∧ m w.k2 n = 0 ∧ m w.k3 n = 0 ∧ m w.k4 n = 0) :=
  ⟨_, ⟨0, 1, 2, 3, 4, 5, 6⟩, fun a n => if a = 0 then n else 0,
    mkGeom3_ok ⟨by decide, by decide, by decide, by decide⟩ _ _ _, by decide, by simp, fun n => by simp⟩

/-- Non-vacuity of the contract: `copyRhs_contract` above, and of the convexity hypothesis of C37: bounds
`0 ≤ y ≤ 1` for `F(t, y) = -y` with `dt = 1/2`. -/
example : ∀ y : Unit → ℚ, (∀ c, (0 : ℚ) ≤ y c ∧ y c ≤ 1) → ∀ c, 0 ≤ y c + 1 / 2 * -y c ∧ y c + 1 / 2 * -y c ≤ 1 := by
  intro y h c
  have := h c
  constructor <;> linarith

end Madg
