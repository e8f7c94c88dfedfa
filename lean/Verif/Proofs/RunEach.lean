/-
Single executions of the driver in any arithmetic.
-/
import Verif.Spec.RunEach
import Verif.Proofs.RunAny
import Verif.Proofs.ProgramRestart

set_option linter.unusedSectionVars false

namespace Madg
open Spec

/-- What is left open in a step of an execution: the proposed size, the residual norm, the error estimate, the monitored values. -/
structure Choice (K : Type) where
  prop : K
  res : K
  err : K
  mon : K × K × K

section
variable {A K C H : Type} [DecidableEq A] [Arith K] [LT K] [DecidableLT K] [LE K] [DecidableLE K] [DecidableEq K] [Min K]
attribute [local instance] byLess

/-- Time and size of step `k`. -/
def clock (T t0 dt0 : K) (c : Nat → Choice K) : Nat → K × K
  | 0 => (t0, dt0)
  | k + 1 =>
    let s := clock T t0 dt0 c k
    (s.1 + s.2, if T ≤ s.1 + s.2 + (c k).prop then T - (s.1 + s.2) else (c k).prop)

/-- The sizes proposed. -/
def proposed (dt0 : K) (c : Nat → Choice K) : Nat → K
  | 0 => dt0
  | k + 1 => (c k).prop

def ctm (T t0 dt0 : K) (c : Nat → Choice K) (k : Nat) : K := (clock T t0 dt0 c k).1
def cdt (T t0 dt0 : K) (c : Nat → Choice K) (k : Nat) : K := (clock T t0 dt0 c k).2

theorem clock_marching (T t0 dt0 : K) (c : Nat → Choice K) :
    Marching T t0 dt0 (ctm T t0 dt0 c) (cdt T t0 dt0 c) (proposed dt0 c) :=
  ⟨rfl, rfl, fun _ => rfl, fun _ => rfl⟩

/-- The two sequences agree before step `k`. -/
def Before (k : Nat) (c c' : Nat → Choice K) : Prop := ∀ j, j < k → c j = c' j

variable {T t0 dt0 : K} {c c' : Nat → Choice K} {k : Nat}

theorem Before.mono {j : Nat} (h : Before k c c') (hj : j ≤ k) : Before j c c' := fun i hi => h i (by omega)

theorem before_update (c : Nat → Choice K) (k : Nat) (x : Choice K) : Before k c (Function.update c k x) := fun j hj => by
  rw [Function.update_of_ne (by omega)]

theorem clock_congr (h : Before k c c') : clock T t0 dt0 c k = clock T t0 dt0 c' k := by
  induction k with
  | zero => rfl
  | succ k ih =>
    unfold clock
    rw [ih (h.mono (by omega)), h k (by omega)]

theorem ctm_congr (h : Before k c c') {j : Nat} (hj : j ≤ k) : ctm T t0 dt0 c j = ctm T t0 dt0 c' j := by
  unfold ctm; rw [clock_congr (h.mono hj)]

theorem cdt_congr (h : Before k c c') {j : Nat} (hj : j ≤ k) : cdt T t0 dt0 c j = cdt T t0 dt0 c' j := by
  unfold cdt; rw [clock_congr (h.mono hj)]

theorem proposed_congr (h : Before k c c') {j : Nat} (hj : j ≤ k) : proposed dt0 c j = proposed dt0 c' j := by
  cases j with
  | zero => rfl
  | succ j => exact congrArg Choice.prop (h j (by omega))

theorem iterates_before (Φ : K → K → (C → K) → C → K) (u0 : C → K) (h : Before k c c') {j : Nat} (hj : j ≤ k + 1) :
    iterates Φ (ctm T t0 dt0 c) (cdt T t0 dt0 c) u0 j = iterates Φ (ctm T t0 dt0 c') (cdt T t0 dt0 c') u0 j := by
  induction j with
  | zero => rfl
  | succ j ih => rw [iterates, iterates, ih (by omega), ctm_congr h (by omega), cdt_congr h (by omega)]

theorem seenMax_before {f : Nat} {r r' : Nat → K} (h : ∀ j, j < k → r j = r' j) : seenMax f r k = seenMax f r' k := by
  unfold seenMax
  congr 1
  refine List.map_congr_left fun j hj => h j ?_
  exact List.mem_range.1 (List.mem_of_mem_filter hj)

theorem lastLogged_lt (f : Nat) {k : Nat} (hk : 1 ≤ k) : lastLogged f k < k := by
  unfold lastLogged
  have := Nat.div_mul_le_self (k - 1) f
  omega

theorem seenMax_step (f : Nat) (r : Nat → K) (k : Nat) :
    seenMax f r (k + 1) = if f ∣ k then stdMax (seenMax f r k) (r k) else seenMax f r k := by
  unfold seenMax maxOf
  rw [List.range_succ, List.filter_append, List.map_append, List.foldl_append]
  by_cases h : f ∣ k
  · simp only [h, decide_true, List.filter_cons, List.filter_nil, if_true, List.map_cons, List.map_nil, List.foldl_cons, List.foldl_nil]
    rfl
  · simp [h]

theorem stopAt_before {o : TimeOpts K} {f : Nat} {r r' : Nat → K} (hk : 1 ≤ k) (h : ∀ j, j < k → r j = r' j) :
    StopAt o f r k ↔ StopAt o f r' k := by
  unfold StopAt seenRel
  rw [seenMax_before h, h _ (lastLogged_lt f hk)]

theorem mustEnd_before {o : TimeOpts K} {f : Nat} (h : Before k c c') {j : Nat} (h1 : 1 ≤ j) (hj : j ≤ k) :
    MustEnd o f (ctm T t0 dt0 c) (proposed dt0 c) (fun i => (c i).res) j ↔
      MustEnd o f (ctm T t0 dt0 c') (proposed dt0 c') (fun i => (c' i).res) j := by
  unfold MustEnd LastStep
  rw [ctm_congr h (by omega), proposed_congr h (by omega), stopAt_before h1 fun i hi => by rw [h i (by omega)]]

/-- What is assumed of the components; `P` are sizes and error estimates of the earlier steps. -/
structure SimEach (S : Sim A K H) (sz : A → Int) (M : Method K C) (R : (C → K) → K → Prop) (Q : (C → K) → K × K × K → Prop)
    (file : (C → K) → Status K → VtsFile) (pl : List (K × K) → K → K → K)
    (Pre : List (K × K) → (C → K) → H → Mem A K → Prop) (Post : List (K × K) → K → K → (C → K) → K → H → Mem A K → Prop) : Prop where
  prop : ∀ d e k, pl ((List.range k).map fun i => (e i, d i)) (e k) (d k) = M.prop d e k
  step : ∀ l u h m t d, Pre l u h m → AllEnd sz (S.doStep h t d) m fun h' m' => ∃ e, M.err t d u e ∧ Post l t d u e h' m'
  resid : ∀ l t d u e h m mx, Post l t d u e h m → AllEnd sz (S.resid mx) m fun r m' => m' = m ∧
    ∃ x, R (M.slope t d u) x ∧ r = residRecord mx x
  mon : ∀ l t d u e h m, Post l t d u e h m → AllEnd sz S.solMon m fun v m' => m' = m ∧ Q (M.step t d u) v
  write : ∀ l t d u e h m st, Post l t d u e h m → CDet sz (S.write st) m (file (M.step t d u) st) m
  next : ∀ l t d u e h m, Post l t d u e h m → AllEnd sz (S.nextDT h d) m fun q m' => m' = m ∧ q.2 = pl l e d ∧
    Pre (l ++ [(e, d)]) (M.step t d u) q.1 m

variable (T t0 dt0) in
/-- State before step `k`. -/
def cst (M : Method K C) (u0 : C → K) (c : Nat → Choice K) : Nat → C → K := iterates M.step (ctm T t0 dt0 c) (cdt T t0 dt0 c) u0

variable (T t0 dt0) in
/-- Error estimates and sizes before step `k`. -/
def chist (c : Nat → Choice K) (k : Nat) : List (K × K) := (List.range k).map fun i => ((c i).err, cdt T t0 dt0 c i)

theorem chist_congr (h : Before k c c') : chist T t0 dt0 c k = chist T t0 dt0 c' k := by
  unfold chist
  refine List.map_congr_left fun j hj => ?_
  have hj := List.mem_range.1 hj
  rw [h j hj, cdt_congr h (by omega)]

/-- The driver's state after `k` steps. -/
structure DrvEach (T t0 dt0 : K) (i0 lf se : Int) (M : Method K C) (u0 : C → K) (R : (C → K) → K → Prop) (Q : (C → K) → K × K × K → Prop)
    (name : Int → Text) (file : (C → K) → Status K → VtsFile) (k : Nat) (c : Nat → Choice K) (D : Drv H K) : Prop where
  max : D.maxRes = seenMax lf.natAbs (fun j => (c j).res) k
  rel : 1 ≤ k → findMon D.resMon "rel_res" = some (seenRel lf.natAbs (fun j => (c j).res) k)
  abs : 1 ≤ k → ∃ rest, D.resMon = ("res_c", (c (lastLogged lf.natAbs k)).res) :: rest
  nStep : D.nStep = k
  nSol : se ≠ 0 → D.nSol = k
  rows : D.rows = reportRows i0 lf.natAbs (ctm T t0 dt0 c) (cdt T t0 dt0 c) (fun j => (c j).res) (fun j => (c j).mon) k
  files : D.files = savedFiles i0 se.natAbs (ctm T t0 dt0 c) (cdt T t0 dt0 c) name (fun j => file (cst T t0 dt0 M u0 c (j + 1))) k
  good : ∀ j, j < k → lf.natAbs ∣ j → R (M.slope (ctm T t0 dt0 c j) (cdt T t0 dt0 c j) (cst T t0 dt0 M u0 c j)) (c j).res ∧
    Q (cst T t0 dt0 M u0 c (j + 1)) (c j).mon
  err : ∀ j, j < k → M.err (ctm T t0 dt0 c j) (cdt T t0 dt0 c j) (cst T t0 dt0 M u0 c j) (c j).err

variable {i0 lf se : Int} {M : Method K C} {u0 : C → K} {R : (C → K) → K → Prop} {Q : (C → K) → K × K × K → Prop}
  {name : Int → Text} {file : (C → K) → Status K → VtsFile}

theorem cst_congr (h : Before k c c') {j : Nat} (hj : j ≤ k + 1) : cst T t0 dt0 M u0 c j = cst T t0 dt0 M u0 c' j :=
  iterates_before _ _ h hj

theorem rows_congr (h : Before k c c') :
    reportRows i0 lf.natAbs (ctm T t0 dt0 c) (cdt T t0 dt0 c) (fun j => (c j).res) (fun j => (c j).mon) k =
      reportRows i0 lf.natAbs (ctm T t0 dt0 c') (cdt T t0 dt0 c') (fun j => (c' j).res) (fun j => (c' j).mon) k := by
  unfold reportRows
  refine List.map_congr_left fun j hj => ?_
  have hj := List.mem_range.1 (List.mem_of_mem_filter hj)
  unfold reportRow
  dsimp only
  rw [ctm_congr h (show j + 1 ≤ k by omega), cdt_congr h (show j ≤ k by omega), h j hj,
    seenMax_before (k := j + 1) (r' := fun j => (c' j).res) fun i hi => by rw [h i (by omega)]]

theorem files_congr (h : Before k c c') :
    savedFiles i0 se.natAbs (ctm T t0 dt0 c) (cdt T t0 dt0 c) name (fun j => file (cst T t0 dt0 M u0 c (j + 1))) k =
      savedFiles i0 se.natAbs (ctm T t0 dt0 c') (cdt T t0 dt0 c') name (fun j => file (cst T t0 dt0 M u0 c' (j + 1))) k := by
  unfold savedFiles
  refine List.map_congr_left fun j hj => ?_
  have hj := List.mem_range.1 (List.mem_of_mem_filter hj)
  dsimp only
  rw [ctm_congr h (show j + 1 ≤ k by omega), cdt_congr h (show j ≤ k by omega), cst_congr h (show j + 1 ≤ k + 1 by omega)]

theorem reportRows_succ (i0 : Int) (f : Nat) (t d r : Nat → K) (v : Nat → K × K × K) (k : Nat) :
    reportRows i0 f t d r v (k + 1) = reportRows i0 f t d r v k ++ if f ∣ k then [reportRow i0 f t d r v k] else [] := by
  unfold reportRows
  rw [List.range_succ, List.filter_append, List.map_append]
  by_cases h : f ∣ k <;> simp [h]

variable {S : Sim A K H} {sz : A → Int} {pl : List (K × K) → K → K → K} {Pre : List (K × K) → (C → K) → H → Mem A K → Prop}
  {Post : List (K × K) → K → K → (C → K) → K → H → Mem A K → Prop} {base : Text}

/-- Logging after step `k`. -/
theorem notifyStep_each (hS : SimEach S sz M R Q file pl Pre Post) (hf : lf ≠ 0) {D : Drv H K} {m : Mem A K} {l : List (K × K)} {e : K}
    (hD : DrvEach T t0 dt0 i0 lf se M u0 R Q name file k c D)
    (hP : Post l (ctm T t0 dt0 c k) (cdt T t0 dt0 c k) (cst T t0 dt0 M u0 c k) e D.h m) :
    AllEnd sz (S.notifyStep lf D ⟨i0 + k + 1, ctm T t0 dt0 c (k + 1), cdt T t0 dt0 c k⟩) m fun D1 m' => m' = m ∧ D1.h = D.h ∧
      D1.nStep = ((k + 1 : Nat) : Int) ∧ D1.nSol = D.nSol ∧ D1.files = D.files ∧ ∃ x v,
      (lf.natAbs ∣ k → R (M.slope (ctm T t0 dt0 c k) (cdt T t0 dt0 c k) (cst T t0 dt0 M u0 c k)) x ∧
        Q (M.step (ctm T t0 dt0 c k) (cdt T t0 dt0 c k) (cst T t0 dt0 M u0 c k)) v) ∧
      D1.maxRes = (if lf.natAbs ∣ k then stdMax D.maxRes x else D.maxRes) ∧
      (¬ lf.natAbs ∣ k → D1.resMon = D.resMon ∧ D1.rows = D.rows) ∧
      (lf.natAbs ∣ k → D1.resMon = (residRecord D.maxRes x).1 ∧ D1.rows = D.rows ++
        [[("iter", ((i0 + k + 1 : Int) : K)), ("time", ctm T t0 dt0 c (k + 1)), ("dt", cdt T t0 dt0 c k)] ++ (residRecord D.maxRes x).1 ++
          [("min_c", v.1), ("max_c", v.2.1), ("grad_c_mag", v.2.2)]]) := by
  unfold Sim.notifyStep
  rw [if_neg hf, hD.nStep]
  simp only [tmod_dvd]
  by_cases hk : lf.natAbs ∣ k
  · rw [if_pos hk]
    refine AllEnd.bind (P := fun D1 m' => m' = m ∧ ∃ x, R (M.slope (ctm T t0 dt0 c k) (cdt T t0 dt0 c k) (cst T t0 dt0 M u0 c k)) x ∧
      D1 = { D with resMon := (residRecord D.maxRes x).1, maxRes := (residRecord D.maxRes x).2 }) ?_ ?_
    · refine (hS.resid _ _ _ _ _ _ m D.maxRes hP).bind ?_
      rintro r m1 ⟨rfl, x, hx, rfl⟩
      exact AllEnd.ret ⟨rfl, x, hx, rfl⟩
    · rintro D1 m1 ⟨rfl, x, hx, rfl⟩
      refine AllEnd.bind (P := fun D2 m' => m' = m1 ∧ ∃ v : K × K × K, Q (M.step (ctm T t0 dt0 c k) (cdt T t0 dt0 c k) (cst T t0 dt0 M u0 c k)) v ∧
        D2 = { D with resMon := (residRecord D.maxRes x).1, maxRes := (residRecord D.maxRes x).2, solMon := [("min_c", v.1), ("max_c", v.2.1), ("grad_c_mag", v.2.2)] }) ?_ ?_
      · refine (hS.mon _ _ _ _ _ _ m1 hP).bind ?_
        rintro v m2 ⟨rfl, hq⟩
        exact AllEnd.ret ⟨rfl, v, hq, rfl⟩
      · rintro D2 m2 ⟨rfl, v, hq, rfl⟩
        refine AllEnd.ret ⟨rfl, rfl, by simp, rfl, rfl, x, v, fun _ => ⟨hx, hq⟩, ?_, fun h => absurd hk h, fun _ => ⟨rfl, ?_⟩⟩
        · rw [if_pos hk]
          show (residRecord D.maxRes x).2 = _
          unfold residRecord
          dsimp only
          split <;> rfl
        · simp [Drv.onLog, Drv.onTime]
  · rw [if_neg hk]
    exact AllEnd.ret ⟨rfl, rfl, by simp, rfl, rfl, 0, (0, 0, 0), fun h => absurd h hk, by rw [if_neg hk], fun _ => ⟨rfl, rfl⟩, fun h => absurd h hk⟩

theorem save_each (hS : SimEach S sz M R Q file pl Pre Post) {D : Drv H K} {h : H} {m : Mem A K} {l : List (K × K)} {t d e : K} {u : C → K}
    (hP : Post l t d u e h m) (b : Text) (st : Status K) {n : Text} (hn : S.name b st.iter = .ok n) :
    CDet sz (S.save b D st) m { D with files := D.files ++ [(n, file (M.step t d u) st)] } m :=
  (CDet.ofExcept hn m).bind ((hS.write _ _ _ _ _ _ m st hP).bind (CDet.ret _ _))

/-- The driver's state after the notifications of step `k`, whatever the next size will be. -/
theorem drvEach_succ {D D1 : Drv H K} {x e : K} {v : K × K × K}
    (hD : DrvEach T t0 dt0 i0 lf se M u0 R Q name file k c D)
    (he : M.err (ctm T t0 dt0 c k) (cdt T t0 dt0 c k) (cst T t0 dt0 M u0 c k) e)
    (hg : lf.natAbs ∣ k → R (M.slope (ctm T t0 dt0 c k) (cdt T t0 dt0 c k) (cst T t0 dt0 M u0 c k)) x ∧
      Q (M.step (ctm T t0 dt0 c k) (cdt T t0 dt0 c k) (cst T t0 dt0 M u0 c k)) v)
    (hmx : D1.maxRes = if lf.natAbs ∣ k then stdMax D.maxRes x else D.maxRes)
    (hno : ¬ lf.natAbs ∣ k → D1.resMon = D.resMon ∧ D1.rows = D.rows)
    (hyes : lf.natAbs ∣ k → D1.resMon = (residRecord D.maxRes x).1 ∧ D1.rows = D.rows ++
        [[("iter", ((i0 + k + 1 : Int) : K)), ("time", ctm T t0 dt0 c (k + 1)), ("dt", cdt T t0 dt0 c k)] ++ (residRecord D.maxRes x).1 ++
          [("min_c", v.1), ("max_c", v.2.1), ("grad_c_mag", v.2.2)]])
    (hst : D1.nStep = ((k + 1 : Nat) : Int)) (hsl : se ≠ 0 → D1.nSol = ((k + 1 : Nat) : Int))
    (hfi : D1.files = D.files ++ if se.natAbs ≠ 0 ∧ se.natAbs ∣ k then
      [(name (i0 + k + 1), file (M.step (ctm T t0 dt0 c k) (cdt T t0 dt0 c k) (cst T t0 dt0 M u0 c k))
        ⟨i0 + k + 1, ctm T t0 dt0 c (k + 1), cdt T t0 dt0 c k⟩)] else []) (q : K) :
    DrvEach T t0 dt0 i0 lf se M u0 R Q name file (k + 1) (Function.update c k ⟨q, x, e, v⟩) D1 := by
  have hb := before_update c k ⟨q, x, e, v⟩
  obtain ⟨c', hc'⟩ : ∃ c', c' = Function.update c k ⟨q, x, e, v⟩ := ⟨_, rfl⟩
  rw [← hc'] at hb ⊢
  have hk : c' k = ⟨q, x, e, v⟩ := by rw [hc', Function.update_self]
  have ht1 : ctm T t0 dt0 c' (k + 1) = ctm T t0 dt0 c (k + 1) := by
    rw [(clock_marching T t0 dt0 c').t_succ, (clock_marching T t0 dt0 c).t_succ, ctm_congr hb le_rfl, cdt_congr hb le_rfl]
  have hms : seenMax lf.natAbs (fun j => (c' j).res) (k + 1) = D1.maxRes := by
    rw [seenMax_step, hmx, ← seenMax_before (k := k) (r := fun j => (c j).res) fun i hi => by rw [hb i hi], ← hD.max, hk]
  have hrr : (fun j => (c' j).res) k = x := by show (c' k).res = x; rw [hk]
  have hsucc : ∀ j, j < k + 1 → j < k ∨ j = k := fun j hj => by omega
  refine ⟨hms.symm, fun _ => ?_, fun _ => ?_, hst, hsl, ?_, ?_, fun j hj hd => ?_, fun j hj => ?_⟩
  · unfold seenRel
    rw [hms, lastLogged_succ]
    by_cases hd : lf.natAbs ∣ k
    · rw [(hyes hd).1, if_pos hd, hrr, hmx, if_pos hd]
      unfold residRecord
      dsimp only
      split <;> simp [findMon, List.find?]
    · have hk1 : 1 ≤ k := by
        rcases Nat.eq_zero_or_pos k with rfl | h
        · exact absurd (dvd_zero _) hd
        · exact h
      rw [(hno hd).1, if_neg hd, hD.rel hk1, hmx, if_neg hd, hD.max]
      unfold seenRel
      dsimp only
      rw [hb _ (lastLogged_lt _ hk1)]
  · rw [lastLogged_succ]
    by_cases hd : lf.natAbs ∣ k
    · rw [(hyes hd).1, if_pos hd, hk]
      unfold residRecord
      dsimp only
      split <;> exact ⟨_, rfl⟩
    · have hk1 : 1 ≤ k := by
        rcases Nat.eq_zero_or_pos k with rfl | h
        · exact absurd (dvd_zero _) hd
        · exact h
      rw [(hno hd).1, if_neg hd, ← hb _ (lastLogged_lt _ hk1)]
      exact hD.abs hk1
  · rw [reportRows_succ, ← rows_congr hb, ← hD.rows]
    by_cases hd : lf.natAbs ∣ k
    · rw [(hyes hd).2, if_pos hd]
      unfold reportRow
      dsimp only
      rw [hms, hmx, if_pos hd, ht1, ← cdt_congr hb le_rfl, hk]
      unfold residRecord
      dsimp only
      by_cases h0 : stdMax D.maxRes x = 0 <;> simp [h0]
    · rw [(hno hd).2, if_neg hd, List.append_nil]
  · rw [savedFiles_succ, hfi, ← files_congr hb, ← hD.files, ht1, ← cdt_congr hb le_rfl, ← cst_congr hb le_rfl]
    rfl
  · rcases hsucc j hj with h | rfl
    · rw [← ctm_congr hb h.le, ← cdt_congr hb h.le, ← cst_congr hb (by omega), ← cst_congr hb (by omega), ← hb j h]
      exact hD.good j h hd
    · rw [← ctm_congr hb le_rfl, ← cdt_congr hb le_rfl, ← cst_congr hb (by omega), ← cst_congr hb le_rfl, hk]
      exact hg hd
  · rcases hsucc j hj with h | rfl
    · rw [← ctm_congr hb h.le, ← cdt_congr hb h.le, ← cst_congr hb (by omega), ← hb j h]
      exact hD.err j h
    · rw [← ctm_congr hb le_rfl, ← cdt_congr hb le_rfl, ← cst_congr hb (by omega), hk]
      exact he

/-- One round of notifications. -/
theorem notify_each (hS : SimEach S sz M R Q file pl Pre Post) (hf : lf ≠ 0)
    (hn : ∀ k : Nat, S.name base (i0 + k + 1) = .ok (name (i0 + k + 1))) {D : Drv H K} {m : Mem A K} {l : List (K × K)} {e : K}
    (hD : DrvEach T t0 dt0 i0 lf se M u0 R Q name file k c D)
    (he : M.err (ctm T t0 dt0 c k) (cdt T t0 dt0 c k) (cst T t0 dt0 M u0 c k) e)
    (hP : Post l (ctm T t0 dt0 c k) (cdt T t0 dt0 c k) (cst T t0 dt0 M u0 c k) e D.h m) :
    AllEnd sz ((S.notifyStep lf D ⟨i0 + k + 1, ctm T t0 dt0 c (k + 1), cdt T t0 dt0 c k⟩).bind fun D1 =>
      S.notifySolution se base D1 ⟨i0 + k + 1, ctm T t0 dt0 c (k + 1), cdt T t0 dt0 c k⟩) m fun D2 m' => m' = m ∧ D2.h = D.h ∧
        ∃ x v, ∀ q, DrvEach T t0 dt0 i0 lf se M u0 R Q name file (k + 1) (Function.update c k ⟨q, x, e, v⟩) D2 := by
  refine (notifyStep_each hS hf hD hP).bind ?_
  rintro D1 m1 ⟨rfl, e1, e2, e3, e4, x, v, e5, e6, e7, e8⟩
  unfold Sim.notifySolution
  by_cases hs : se = 0
  · rw [if_pos hs]
    refine AllEnd.ret ⟨rfl, e1, x, v, drvEach_succ hD he e5 e6 e7 e8 e2 (fun h => absurd hs h) ?_⟩
    rw [if_neg (by simp [hs]), List.append_nil, e4]
  · rw [if_neg hs, e3, hD.nSol hs]
    simp only [tmod_dvd]
    by_cases hk : se.natAbs ∣ k
    · rw [if_pos hk]
      refine (save_each hS hP base _ (hn k)).allEnd (AllEnd.ret ⟨rfl, e1, x, v,
        drvEach_succ hD he e5 e6 e7 e8 e2 (fun _ => by simp) ?_⟩)
      rw [if_pos ⟨by simpa using hs, hk⟩, e4]
    · rw [if_neg hk]
      refine AllEnd.ret ⟨rfl, e1, x, v, drvEach_succ hD he e5 e6 e7 e8 e2 (fun _ => by simp) ?_⟩
      rw [if_neg fun h => hk h.2, List.append_nil, e4]

variable {o : TimeOpts K}

theorem lastStep_before (h : Before k c c') {j : Nat} (hj : j ≤ k) :
    LastStep T (ctm T t0 dt0 c) (proposed dt0 c) j ↔ LastStep T (ctm T t0 dt0 c') (proposed dt0 c') j := by
  unfold LastStep
  rw [ctm_congr h hj, proposed_congr h hj]

open Classical in
/-- The decision after a step. -/
theorem nextStep_each (hS : SimEach S sz M R Q file pl Pre Post) (hc : o.useCfl = false) (hi : o.initialStep = i0)
    {D : Drv H K} {m : Mem A K} {l : List (K × K)} {e x : K} {v : K × K × K}
    (hD : ∀ q, DrvEach o.tfinal t0 dt0 i0 lf se M u0 R Q name file (k + 1) (Function.update c k ⟨q, x, e, v⟩) D)
    (hP : Post l (ctm o.tfinal t0 dt0 c k) (cdt o.tfinal t0 dt0 c k) (cst o.tfinal t0 dt0 M u0 c k) e D.h m) :
    AllEnd sz (S.nextStep o D ⟨i0 + k + 1, ctm o.tfinal t0 dt0 c (k + 1), cdt o.tfinal t0 dt0 c k⟩) m fun r m' => m' = m ∧
      ∃ h' c', c' = Function.update c k ⟨pl l e (cdt o.tfinal t0 dt0 c k), x, e, v⟩ ∧
        r = ({ D with h := h' }, cdt o.tfinal t0 dt0 c' (k + 1), decide (LastStep o.tfinal (ctm o.tfinal t0 dt0 c') (proposed dt0 c') (k + 1)),
          decide (StopAt o lf.natAbs (fun j => (c' j).res) (k + 1))) ∧
        Pre (l ++ [(e, cdt o.tfinal t0 dt0 c k)]) (M.step (ctm o.tfinal t0 dt0 c k) (cdt o.tfinal t0 dt0 c k) (cst o.tfinal t0 dt0 M u0 c k)) h' m := by
  refine (hS.next _ _ _ _ _ _ m hP).bind ?_
  rintro ⟨h', q⟩ m1 ⟨rfl, rfl, hpre⟩
  obtain ⟨c', hc'⟩ : ∃ c', c' = Function.update c k ⟨pl l e (cdt o.tfinal t0 dt0 c k), x, e, v⟩ := ⟨_, rfl⟩
  have hD := hD (pl l e (cdt o.tfinal t0 dt0 c k))
  have hb := before_update c k ⟨pl l e (cdt o.tfinal t0 dt0 c k), x, e, v⟩
  rw [← hc'] at hD hb
  have ht1 : ctm o.tfinal t0 dt0 c (k + 1) = ctm o.tfinal t0 dt0 c' (k + 1) := by
    rw [(clock_marching o.tfinal t0 dt0 c').t_succ, (clock_marching o.tfinal t0 dt0 c).t_succ, ctm_congr hb le_rfl, cdt_congr hb le_rfl]
  have hp1 : pl l e (cdt o.tfinal t0 dt0 c k) = proposed dt0 c' (k + 1) := by
    show _ = (c' k).prop
    rw [hc', Function.update_self]
  obtain ⟨rest, hrest⟩ := hD.abs (by omega)
  have hrel : relStop o.relTol D.resMon = decide (o.relTol ≠ 0 ∧ seenRel lf.natAbs (fun j => (c' j).res) (k + 1) < o.relTol) := by
    unfold relStop
    rw [hD.rel (by omega)]
    by_cases h : o.relTol = 0 <;> simp [h]
  have hl : (decide (o.tfinal ≤ ctm o.tfinal t0 dt0 c' (k + 1) + proposed dt0 c' (k + 1))) =
      decide (LastStep o.tfinal (ctm o.tfinal t0 dt0 c') (proposed dt0 c') (k + 1)) := by
    unfold LastStep; simp
  have hst : (decide (o.maxSteps ≠ 0) && decide (o.maxSteps ≤ i0 + k + 1)) =
      decide (o.maxSteps ≠ 0 ∧ o.maxSteps ≤ o.initialStep + ((k + 1 : Nat) : Int)) := by
    rw [hi, Bool.decide_and]; push_cast; rw [add_assoc]
  have hdt : (if decide (o.tfinal ≤ ctm o.tfinal t0 dt0 c' (k + 1) + proposed dt0 c' (k + 1)) = true then o.tfinal - ctm o.tfinal t0 dt0 c' (k + 1)
      else proposed dt0 c' (k + 1)) = cdt o.tfinal t0 dt0 c' (k + 1) := by
    rw [(clock_marching o.tfinal t0 dt0 c').d_succ]; simp
  dsimp only
  rw [hc]
  simp only [Bool.false_eq_true, if_false]
  rw [hrel, hst, hrest, ht1, hp1, hdt, hl]
  have fin : ∀ b : Bool, b = decide (StopAt o lf.natAbs (fun j => (c' j).res) (k + 1)) →
      m1 = m1 ∧ ∃ h'' c'', c'' = Function.update c k ⟨proposed dt0 c' (k + 1), x, e, v⟩ ∧
        (({ D with h := h' }, cdt o.tfinal t0 dt0 c' (k + 1), decide (LastStep o.tfinal (ctm o.tfinal t0 dt0 c') (proposed dt0 c') (k + 1)), b) :
          Drv H K × K × Bool × Bool) =
          ({ D with h := h'' }, cdt o.tfinal t0 dt0 c'' (k + 1), decide (LastStep o.tfinal (ctm o.tfinal t0 dt0 c'') (proposed dt0 c'') (k + 1)),
          decide (StopAt o lf.natAbs (fun j => (c'' j).res) (k + 1))) ∧
        Pre (l ++ [(e, cdt o.tfinal t0 dt0 c k)]) (M.step (ctm o.tfinal t0 dt0 c k) (cdt o.tfinal t0 dt0 c k) (cst o.tfinal t0 dt0 M u0 c k)) h'' m1 := by
    rintro b rfl
    exact ⟨rfl, h', c', by rw [← hp1]; exact hc', rfl, hpre⟩
  rw [hrest] at fin
  by_cases ha : o.absTol = 0
  · rw [if_neg (by simp [ha])]
    refine AllEnd.ret (fin _ ?_)
    unfold StopAt
    simp only [ha, ne_eq, not_true_eq_false, false_and, or_false, Bool.decide_or]
  · rw [if_pos ha]
    refine AllEnd.ret (fin _ ?_)
    unfold StopAt
    simp only [ha, ne_eq, not_false_eq_true, true_and, Bool.decide_or, Bool.or_assoc]

/-- What is known after the loop. -/
structure EndedAs (o : TimeOpts K) (lf se : Int) (M : Method K C) (u0 : C → K) (R : (C → K) → K → Prop) (Q : (C → K) → K × K × K → Prop)
    (name : Int → Text) (file : (C → K) → Status K → VtsFile) (Post : List (K × K) → K → K → (C → K) → K → H → Mem A K → Prop)
    (N : Nat) (c : Nat → Choice K) (D : Drv H K) (m : Mem A K) : Prop where
  ends : EndsAfter o lf.natAbs (ctm o.tfinal o.t0 o.dt0 c) (proposed o.dt0 c) (fun j => (c j).res) N
  drv : DrvEach o.tfinal o.t0 o.dt0 o.initialStep lf se M u0 R Q name file N c D
  prop : ∀ k, k < N → ¬ LastStep o.tfinal (ctm o.tfinal o.t0 o.dt0 c) (proposed o.dt0 c) k →
    (c k).prop = M.prop (cdt o.tfinal o.t0 o.dt0 c) (fun j => (c j).err) k
  post : ∃ l e h, Post l (ctm o.tfinal o.t0 o.dt0 c (N - 1)) (cdt o.tfinal o.t0 o.dt0 c (N - 1)) (cst o.tfinal o.t0 o.dt0 M u0 c (N - 1)) e h m

open Classical in
/-- The time loop from step `k` on, with fuel for all steps. -/
theorem loop_each (hS : SimEach S sz M R Q file pl Pre Post) (hc : o.useCfl = false) (hmax : 0 < o.maxSteps) (hf : lf ≠ 0)
    (hn : ∀ k : Nat, S.name base (o.initialStep + k + 1) = .ok (name (o.initialStep + k + 1))) :
    ∀ (n k : Nat) (c : Nat → Choice K) (D : Drv H K) (m : Mem A K),
      (k = 0 → 1 ≤ n) → o.maxSteps ≤ o.initialStep + k + n →
      (∀ j, 1 ≤ j → j ≤ k → ¬ MustEnd o lf.natAbs (ctm o.tfinal o.t0 o.dt0 c) (proposed o.dt0 c) (fun j => (c j).res) j) →
      (∀ j, j < k → (c j).prop = pl (chist o.tfinal o.t0 o.dt0 c j) (c j).err (cdt o.tfinal o.t0 o.dt0 c j)) →
      Pre (chist o.tfinal o.t0 o.dt0 c k) (cst o.tfinal o.t0 o.dt0 M u0 c k) D.h m →
      DrvEach o.tfinal o.t0 o.dt0 o.initialStep lf se M u0 R Q name file k c D →
      AllEnd sz (S.loop o lf se base n (decide (LastStep o.tfinal (ctm o.tfinal o.t0 o.dt0 c) (proposed o.dt0 c) k)) D
        ⟨o.initialStep + k, ctm o.tfinal o.t0 o.dt0 c k, cdt o.tfinal o.t0 o.dt0 c k⟩) m fun r m' => ∃ N c' D',
          r = some (D', finalStatus o.initialStep o.tfinal (ctm o.tfinal o.t0 o.dt0 c') (cdt o.tfinal o.t0 o.dt0 c') (proposed o.dt0 c') N) ∧
          EndedAs o lf se M u0 R Q name file Post N c' D' m'
  | 0, k, c, D, m, h1, h2, h3, _, _, _ => by
    have hk : 1 ≤ k := by
      rcases Nat.eq_zero_or_pos k with h | h
      · exact absurd (h1 h) (by omega)
      · exact h
    exact absurd (Or.inr (Or.inl ⟨by omega, by omega⟩)) (h3 k hk le_rfl)
  | n + 1, k, c, D, m, h1, h2, h3, hpr, hpre, hD => by
    have hcast : o.initialStep + ((k + 1 : Nat) : Int) = o.initialStep + k + 1 := by push_cast; ring
    have ht : ctm o.tfinal o.t0 o.dt0 c k + cdt o.tfinal o.t0 o.dt0 c k = ctm o.tfinal o.t0 o.dt0 c (k + 1) :=
      ((clock_marching o.tfinal o.t0 o.dt0 c).t_succ k).symm
    rw [Sim.loop]
    dsimp only
    rw [ht]
    refine (hS.step _ _ D.h m (ctm o.tfinal o.t0 o.dt0 c k) (cdt o.tfinal o.t0 o.dt0 c k) hpre).bind ?_
    rintro h' m1 ⟨e, he, hP⟩
    have hD' : DrvEach o.tfinal o.t0 o.dt0 o.initialStep lf se M u0 R Q name file k c { D with h := h' } :=
      ⟨hD.max, hD.rel, hD.abs, hD.nStep, hD.nSol, hD.rows, hD.files, hD.good, hD.err⟩
    refine bind_assoc_any _ _ _ ((notify_each (base := base) hS hf hn hD' he hP).bind ?_)
    rintro D2 m2 ⟨rfl, e2, x, v, hD2⟩
    -- facts about the extended sequence, for any next size
    have key : ∀ q, ∃ c', c' = Function.update c k ⟨q, x, e, v⟩ ∧ Before k c c' ∧ c' k = ⟨q, x, e, v⟩ ∧
        ctm o.tfinal o.t0 o.dt0 c' (k + 1) = ctm o.tfinal o.t0 o.dt0 c (k + 1) ∧
        chist o.tfinal o.t0 o.dt0 c' (k + 1) = chist o.tfinal o.t0 o.dt0 c k ++ [(e, cdt o.tfinal o.t0 o.dt0 c k)] ∧
        cst o.tfinal o.t0 o.dt0 M u0 c' (k + 1) = M.step (ctm o.tfinal o.t0 o.dt0 c k) (cdt o.tfinal o.t0 o.dt0 c k) (cst o.tfinal o.t0 o.dt0 M u0 c k) := by
      intro q
      have hb := before_update c k ⟨q, x, e, v⟩
      have hk : Function.update c k ⟨q, x, e, v⟩ k = ⟨q, x, e, v⟩ := Function.update_self ..
      refine ⟨_, rfl, hb, hk, ?_, ?_, ?_⟩
      · rw [← ht, ctm_congr hb le_rfl, cdt_congr hb le_rfl]; rfl
      · unfold chist
        rw [List.range_succ, List.map_append, List.map_cons, List.map_nil, hk, ← cdt_congr hb le_rfl]
        congr 1
        exact (chist_congr (T := o.tfinal) (t0 := o.t0) (dt0 := o.dt0) hb).symm
      · rw [← cst_congr hb le_rfl]; rfl
    have good : ∀ q c', c' = Function.update c k ⟨q, x, e, v⟩ → (q = pl (chist o.tfinal o.t0 o.dt0 c k) e (cdt o.tfinal o.t0 o.dt0 c k) ∨
        LastStep o.tfinal (ctm o.tfinal o.t0 o.dt0 c) (proposed o.dt0 c) k) →
        MustEnd o lf.natAbs (ctm o.tfinal o.t0 o.dt0 c') (proposed o.dt0 c') (fun j => (c' j).res) (k + 1) →
        ∀ D', DrvEach o.tfinal o.t0 o.dt0 o.initialStep lf se M u0 R Q name file (k + 1) c' D' →
          EndedAs o lf se M u0 R Q name file Post (k + 1) c' D' m2 := by
      rintro q c' hc' hq hend D' hD'
      have hb := before_update c k ⟨q, x, e, v⟩
      have hk : Function.update c k ⟨q, x, e, v⟩ k = ⟨q, x, e, v⟩ := Function.update_self ..
      rw [← hc'] at hb hk
      refine ⟨⟨by omega, hend, fun j hj hj' hM => h3 j hj (by omega) ((mustEnd_before hb hj (by omega)).2 hM)⟩, hD', fun j hj hl => ?_, ?_⟩
      · rw [← hS.prop]
        show _ = pl (chist o.tfinal o.t0 o.dt0 c' j) (c' j).err (cdt o.tfinal o.t0 o.dt0 c' j)
        rcases Nat.lt_succ_iff_lt_or_eq.1 hj with h | rfl
        · rw [← chist_congr (hb.mono h.le), ← cdt_congr hb h.le, ← hb j h]
          exact hpr j h
        · rw [← chist_congr hb, ← cdt_congr hb le_rfl, hk]
          rcases hq with hq | hq
          · exact hq
          · exact absurd ((lastStep_before hb le_rfl).1 hq) hl
      · refine ⟨chist o.tfinal o.t0 o.dt0 c k, e, D2.h, ?_⟩
        rw [Nat.add_sub_cancel, ← ctm_congr hb le_rfl, ← cdt_congr hb le_rfl, ← cst_congr hb (by omega), e2]
        exact hP
    by_cases hl : LastStep o.tfinal (ctm o.tfinal o.t0 o.dt0 c) (proposed o.dt0 c) k
    · simp only [hl, decide_true, if_true]
      obtain ⟨c', hc', hb, hk, ht', -, -⟩ := key 0
      have hl' := (lastStep_before hb le_rfl).1 hl
      refine AllEnd.ret ⟨k + 1, c', D2, ?_, good 0 c' hc' (Or.inr hl) (Or.inl (by simpa using hl')) D2 (hc' ▸ hD2 0)⟩
      unfold finalStatus
      rw [hcast, Nat.add_sub_cancel, if_pos hl', ht', ← cdt_congr hb le_rfl]
    · simp only [hl, decide_false, Bool.false_eq_true, if_false]
      refine (nextStep_each (lf := lf) hS hc rfl hD2 (by rw [e2]; exact hP)).bind ?_
      rintro r m3 ⟨rfl, h5, c', hc', rfl, hpre'⟩
      dsimp only
      obtain ⟨c1, hc1, hb, hk, ht', hh, hu⟩ := key (pl (chist o.tfinal o.t0 o.dt0 c k) e (cdt o.tfinal o.t0 o.dt0 c k))
      rw [← hc'] at hc1
      subst hc1
      have hl' : ¬ LastStep o.tfinal (ctm o.tfinal o.t0 o.dt0 c1) (proposed o.dt0 c1) k := fun h => hl ((lastStep_before hb le_rfl).2 h)
      have hD3 : DrvEach o.tfinal o.t0 o.dt0 o.initialStep lf se M u0 R Q name file (k + 1) c1 { D2 with h := h5 } := by
        have hD2 := hD2 (pl (chist o.tfinal o.t0 o.dt0 c k) e (cdt o.tfinal o.t0 o.dt0 c k))
        rw [← hc'] at hD2
        exact ⟨hD2.max, hD2.rel, hD2.abs, hD2.nStep, hD2.nSol, hD2.rows, hD2.files, hD2.good, hD2.err⟩
      by_cases hs : StopAt o lf.natAbs (fun j => (c1 j).res) (k + 1)
      · simp only [hs, decide_true, if_true]
        refine AllEnd.ret ⟨k + 1, c1, _, ?_, good _ c1 hc' (Or.inl rfl) (Or.inr hs) _ hD3⟩
        unfold finalStatus
        rw [hcast, Nat.add_sub_cancel, if_neg hl', ht']
      · simp only [hs, decide_false, Bool.false_eq_true, if_false]
        have hne : ¬ MustEnd o lf.natAbs (ctm o.tfinal o.t0 o.dt0 c1) (proposed o.dt0 c1) (fun j => (c1 j).res) (k + 1) := by
          rintro (h | h)
          · exact hl' (by simpa using h)
          · exact hs h
        have ih := loop_each hS hc hmax hf hn n (k + 1) c1 { D2 with h := h5 } m3 (by omega) (by push_cast; omega)
          (fun j h1 h2 => by
            rcases Nat.lt_or_ge j (k + 1) with h | h
            · exact fun hM => h3 j h1 (by omega) ((mustEnd_before hb h1 (by omega)).2 hM)
            · rwa [show j = k + 1 by omega])
          (fun j hj => by
            rcases Nat.lt_succ_iff_lt_or_eq.1 hj with h | rfl
            · rw [← chist_congr (hb.mono h.le), ← cdt_congr hb h.le, ← hb j h]
              exact hpr j h
            · rw [← chist_congr hb, ← cdt_congr hb le_rfl, hk])
          (by rw [hh, hu]; exact hpre') hD3
        rw [hcast, ht'] at ih
        exact ih

/-- The whole run. -/
theorem run_each (hS : SimEach S sz M R Q file pl Pre Post) (hc : o.useCfl = false) (hmax : 0 < o.maxSteps) (hf : lf ≠ 0)
    (hn : ∀ k : Nat, S.name base (o.initialStep + k + 1) = .ok (name (o.initialStep + k + 1)))
    {fname : Int → Text} (hfn : ∀ k : Nat, S.name (finalBase base) (o.initialStep + k) = .ok (fname (o.initialStep + k)))
    {ic : Cmd A K Unit} {h0 : H} {m m1 : Mem A K} (hic : CDet sz ic m () m1) (hpre : Pre [] u0 h0 m1) :
    RunsEach sz (S.run o lf se base ic h0) m o lf.natAbs se.natAbs M u0 R Q name fname file := by
  classical
  intro fuel hfu hms
  obtain ⟨c0, -⟩ : ∃ c : Nat → Choice K, True := ⟨fun _ => ⟨0, 0, 0, (0, 0, 0)⟩, trivial⟩
  have key := loop_each (o := o) (se := se) (base := base) (name := name) (u0 := u0) hS hc hmax hf hn fuel 0 c0 (Drv.new h0) m1
    (fun _ => hfu) (by simpa using hms) (fun j h1 h2 => by omega) (fun j hj => by omega) hpre
    ⟨rfl, fun h => by omega, fun h => by omega, rfl, fun _ => rfl, rfl, rfl, fun j hj => by omega, fun j hj => by omega⟩
  have h00 : (decide (LastStep o.tfinal (ctm o.tfinal o.t0 o.dt0 c0) (proposed o.dt0 c0) 0)) = false := by simp [LastStep]
  have hst : (⟨o.initialStep + ((0 : Nat) : Int), ctm o.tfinal o.t0 o.dt0 c0 0, cdt o.tfinal o.t0 o.dt0 c0 0⟩ : Status K) =
      ⟨o.initialStep, o.t0, o.dt0⟩ := by
    simp [ctm, cdt, clock]
  rw [h00, hst] at key
  refine hic.allEnd ?_
  rw [if_neg (by simp [hc])]
  refine key.bind ?_
  rintro r m2 ⟨N, c, D, rfl, hE⟩
  obtain ⟨l, e, h, hP⟩ := hE.post
  have hN : N - 1 + 1 = N := Nat.sub_add_cancel hE.ends.1
  have hu : cst o.tfinal o.t0 o.dt0 M u0 c N = M.step (ctm o.tfinal o.t0 o.dt0 c (N - 1)) (cdt o.tfinal o.t0 o.dt0 c (N - 1))
      (cst o.tfinal o.t0 o.dt0 M u0 c (N - 1)) := by
    conv_lhs => rw [← hN]
    rfl
  refine CDet.allEnd (f := fun d1 : Drv H K => (.ret (.done d1.files d1.rows) : Cmd A K (RunResult K)))
    (save_each (D := D) hS hP (finalBase base) _ (hfn N)) (AllEnd.ret ?_)
  refine ⟨N, _, _, _, fun j => (c j).res, fun j => (c j).err, fun j => (c j).mon, _, clock_marching o.tfinal o.t0 o.dt0 c, hE.ends, rfl,
    fun k hk => ⟨hE.drv.err k hk, hE.prop k hk⟩, hE.drv.good, ?_⟩
  rw [hE.drv.rows, hE.drv.files, ← hu]
  rfl

end

end Madg
