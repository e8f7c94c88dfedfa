/-
Overflow, NaN in reductions, and the error estimate of a lost solution.
-/
import Verif.Proofs.NaN
import Verif.Proofs.FloatGrid
import Verif.Proofs.RunAny3
import Verif.Props.Resume

set_option linter.unusedSectionVars false

namespace Madg
open Spec FloatFmt

/-! ### Reductions -/

theorem comb_mem {K : Type} {op : K → K → K} (h : ∀ a b, op a b = a ∨ op a b = b) {xs : List K} {r : K} (hc : Comb op xs r) : r ∈ xs := by
  induction hc with
  | leaf x => exact List.mem_singleton.2 rfl
  | node xs ys zs a b hx hy hp ihx ihy =>
    refine hp.mem_iff.1 (List.mem_append.2 ?_)
    rcases h a b with e | e <;> rw [e]
    · exact Or.inl ihx
    · exact Or.inr ihy

theorem comb_closed {K : Type} {op : K → K → K} {P : K → Prop} (h : ∀ a b, P a → P b → P (op a b)) {xs : List K} {r : K}
    (hc : Comb op xs r) (hP : ∀ x ∈ xs, P x) : P r := by
  induction hc with
  | leaf x => exact hP x (List.mem_singleton.2 rfl)
  | node xs ys zs a b hx hy hp ihx ihy =>
    exact h a b (ihx fun x hx => hP x (hp.mem_iff.1 (List.mem_append_left _ hx)))
      (ihy fun x hx => hP x (hp.mem_iff.1 (List.mem_append_right _ hx)))

theorem comb_absorb {K : Type} {op : K → K → K} {z : K} (h1 : ∀ a, op z a = z) (h2 : ∀ a, op a z = z) {xs : List K} {r : K}
    (hc : Comb op xs r) (hz : z ∈ xs) : r = z := by
  induction hc with
  | leaf x => exact (List.mem_singleton.1 hz).symm
  | node xs ys zs a b hx hy hp ihx ihy =>
    rcases List.mem_append.1 (hp.mem_iff.2 hz) with h | h
    · rw [ihx h, h1]
    · rw [ihy h, h2]

section
variable {A K : Type} [DecidableEq A] {sz : A → Int}

theorem allEnd_reduce_map {ι : Type} (op : K → K → K) (init : K) (l : List ι) (body : ι → Prog A K K) (f : ι → K) (m : Mem A K)
    (h : ∀ n ∈ l, (body n).run sz m = .ok (f n, m)) :
    AllEnd sz (Cmd.reduceOf op init (l.map body)) m fun r m' => m' = m ∧ Comb op (init :: l.map f) r := by
  have hx : List.Forall₂ (fun p x => Prog.run sz p m = .ok (x, m)) (l.map body) (l.map f) := by
    induction l with
    | nil => exact .nil
    | cons n l ih => exact .cons (h n (by simp)) (ih fun n hn => h n (List.mem_cons_of_mem _ hn))
  refine ⟨⟨_, .reduce _ _ _ _ _ _ _ _ hx (comb_foldl op init _) (.ret _ _)⟩, fun r hr => ?_⟩
  cases hr with
  | reduce _ _ _ _ _ xs r _ hx' hr hk =>
    cases hk
    have : xs = l.map f := by
      clear hr
      induction l generalizing xs with
      | nil => cases hx'; rfl
      | cons n l ih =>
        cases hx' with
        | cons a b =>
          rw [h n (by simp)] at a
          rw [List.map_cons, ih (fun n hn => h n (List.mem_cons_of_mem _ hn)) (by cases hx; assumption) _ b]
          cases a; rfl
    exact ⟨_, _, rfl, rfl, this ▸ hr⟩
  | reduceFault _ _ _ _ _ p hp e hf =>
    obtain ⟨n, hn, rfl⟩ := List.mem_map.1 hp
    rw [h n hn] at hf; cases hf

end

section
variable {A K : Type} [DecidableEq A] [Arith K] [LT K] [DecidableLT K] [LE K] [DecidableLE K] [DecidableEq K] [Max K] [Min K] {sz : A → Int}

theorem solMon3_raw (hS : Selects K) {G : Geom3} (hG : G.Ok) (h1 : 1 ≤ G.g.nhalo) {f : A} (hs : sz f = G.g.size) (rt : K → K)
    (big tiny dx : K) (m : Mem A K) (u : Int × Int × Int → K)
    (h : ∀ c, In3 G.g.ni G.g.nj G.g.nk c → m f (G.g.at3 c.1 c.2.1 c.2.2) = u c) :
    AllEnd sz (G.solMonitor rt big tiny dx f) m fun v m' => m' = m ∧
      Seen3 big tiny G.g.ni G.g.nj G.g.nk u v.1 v.2.1 := by
  have hr : ∀ n ∈ G.interior, (Prog.rd f (G.g.at3 (G.g.getI n) (G.g.getJ n) (G.g.getK n)) : Prog A K K).run sz m = .ok (m f n, m) := by
    intro n hn
    obtain ⟨i, j, k, hi, rfl⟩ := hG.mem_int.1 hn
    have hp := hi.pad hG.ok
    rw [Grid3.getI_at3 hp, Grid3.getJ_at3 hp, Grid3.getK_at3 hp]
    exact run_rd (hG.int_inB hs hn) m
  have hmem : ∀ {s x : K}, x ∈ s :: G.interior.map (m f) → x = s ∨ ∃ c, In3 G.g.ni G.g.nj G.g.nk c ∧ u c = x := by
    intro s x hx
    rcases List.mem_cons.1 hx with e | hx
    · exact Or.inl e
    · obtain ⟨n, hn, rfl⟩ := List.mem_map.1 hx
      obtain ⟨i, j, k, hi, rfl⟩ := hG.mem_int.1 hn
      exact Or.inr ⟨(i, j, k), hi, (h (i, j, k) hi).symm⟩
  unfold Geom3.solMonitor
  rw [redIdx_eq_map]
  refine (allEnd_reduce_map _ _ _ _ (m f) m hr).bind ?_
  rintro lo m1 ⟨rfl, hlo⟩
  refine (allEnd_reduce_map _ _ _ _ (m1 f) m1 hr).bind ?_
  rintro hi m2 ⟨rfl, hhi⟩
  refine (allEnd_reduce _ _ _ (redIdx_run fun n hn m => ?_) m2).bind ?_
  · obtain ⟨i, j, k, h, rfl⟩ := hG.mem_int.1 hn
    exact gradCell3_runs hG.ok h1 hs rt dx h m
  · rintro x m1 rfl
    exact AllEnd.ret ⟨rfl, hmem (comb_mem hS.min hlo), hmem (comb_mem hS.max hhi)⟩

theorem resid_nan {nan : K} (hN : IsNaN nan) {rt : K → K} (hrt : rt nan = nan) {l : List Int} {a : A} (h : ∀ n ∈ l, InB sz a n)
    (m : Mem A K) {n : Int} (hn : n ∈ l) (hm : m a n = nan) (mx : K) :
    AllEnd sz (residualCalculator rt mx l a) m fun r m' => m' = m ∧ r = residRecord mx nan := by
  refine AllEnd.bind (P := fun x m' => m' = m ∧ x = nan) ?_ ?_
  · unfold residNorm
    rw [redIdx_eq_map]
    refine (allEnd_reduce_map _ _ _ _ (fun n => m a n ^ 2) m fun n hn => by
      rw [run_bind_ok (run_rd (h n hn) m)]; rfl).bind ?_
    rintro x m1 ⟨rfl, hx⟩
    have := comb_absorb hN.add_left hN.add_right hx
      (List.mem_cons_of_mem _ (List.mem_map.2 ⟨n, hn, by rw [hm]; exact hN.pow 1⟩))
    exact AllEnd.ret ⟨rfl, by rw [this, hN.div_left, hrt]⟩
  · rintro x m1 ⟨rfl, rfl⟩
    exact AllEnd.ret ⟨rfl, rfl⟩

end

/-! ### Overflow -/

namespace Ieee
variable {F : IeeeFmt}

/-- An infinity of the given sign, or NaN. -/
def Big (s : Bool) (x : Ieee F) : Prop := x = inf s ∨ x = nan

theorem Big.add_left {s : Bool} {x : Ieee F} (h : Big s x) (y : Ieee F) : Big s (x + y) := by
  show Big s (add x y)
  rcases h with rfl | rfl
  · cases y <;> simp [add, Big]
    tauto
  · rw [nan_add]; exact Or.inr rfl

theorem Big.add_right {s : Bool} {x : Ieee F} (h : Big s x) (y : Ieee F) : Big s (y + x) := by
  show Big s (add y x)
  rcases h with rfl | rfl
  · cases y <;> simp only [add, Big, true_or, or_true]
    rename_i t
    by_cases e : t = s
    · rw [if_pos e, e]; exact Or.inl rfl
    · rw [if_neg e]; exact Or.inr rfl
  · rw [add_nan]; exact Or.inr rfl

theorem Big.sub {s : Bool} {x y : Ieee F} (h : Big s x) (h' : Big s y) : x - y = nan := by
  show add x (neg y) = nan
  rcases h with rfl | rfl
  · rcases h' with rfl | rfl
    · simp [add, neg]
    · rfl
  · exact nan_add _

/-- Subtracting a number of the same sign whose cube is too large. -/
theorem Big.cube {s : Bool} {x : Ieee F} (h : x ^ 3 = inf s) : Big s (x ^ 3 - x) := by
  show Big s (add (x ^ 3) (neg x))
  rw [h]
  exact Big.add_left (Or.inl rfl) (neg x)

theorem six (hp : 3 ≤ F.prec) (he : F.emin ≤ 0) (hm : 3 ≤ F.emax) : (6 : Ieee F) = num 6 := by
  show ofRat false ((6 : Nat) : ℚ) = num 6
  have hf : IsFloat F.toFloatFmt 6 := ⟨6, 0, by
    have : (2 : Int) ^ 3 ≤ 2 ^ F.prec := pow_le_pow_right₀ (by norm_num) hp
    rw [abs_of_pos (by norm_num)]; linarith, he, by norm_num⟩
  have h8 : (2 : ℚ) ^ (3 : Int) ≤ 2 ^ F.emax := zpow_le_zpow_right₀ (by norm_num) hm
  norm_num at h8
  unfold ofRat
  rw [show (((6 : Nat) : ℚ)) = 6 by norm_num, round_float _ hf, if_neg (by norm_num), if_neg (by norm_num), if_neg (by
    rw [abs_of_pos (by norm_num)]; linarith)]

theorem Big.six {s : Bool} {x : Ieee F} (h6 : (6 : Ieee F) = num 6) (h : Big s x) : Big s (6 * x) := by
  rw [h6]
  show Big s (mul (num 6) x)
  rcases h with rfl | rfl
  · left
    show inf (xor (decide ((6 : ℚ) < 0)) s) = inf s
    rw [decide_eq_false (by norm_num), Bool.false_xor]
  · exact Or.inr (mul_nan _)

theorem cube_inf (hp : 1 ≤ F.prec) (he : F.emin ≤ F.emax) {q : ℚ} (hq : (2 : ℚ) ^ F.emax ≤ |q| ^ 3) :
    (num q : Ieee F) ^ 3 = inf (decide (q < 0)) := by
  show npow (num q) 3 = _
  have hpos : (0 : ℚ) < 2 ^ F.emax := zpow_pos (by norm_num) _
  have hf : IsFloat F.toFloatFmt ((2 : ℚ) ^ F.emax) := ⟨1, F.emax, by
    rw [abs_of_pos (by norm_num)]
    exact one_lt_pow₀ (by norm_num) (by omega), he, by norm_num⟩
  have hfn : IsFloat F.toFloatFmt (-(2 : ℚ) ^ F.emax) := ⟨-1, F.emax, by
    rw [abs_neg, abs_of_pos (by norm_num)]
    exact one_lt_pow₀ (by norm_num) (by omega), he, by push_cast; ring⟩
  show ofRat false (q ^ 3) = _
  have hm := round_mono (F := F.toFloatFmt) hp
  unfold ofRat
  rcases lt_or_ge q 0 with h | h
  · have h3 : q ^ 3 ≤ -(2 : ℚ) ^ F.emax := by
      rw [abs_of_neg h] at hq
      nlinarith
    have hr : F.round (q ^ 3) ≤ -(2 : ℚ) ^ F.emax := by
      have := hm h3
      rwa [round_float _ hfn] at this
    rw [if_neg (by linarith), if_neg (by linarith), if_pos (by rw [abs_of_neg (by linarith)]; linarith)]
    rw [show decide (q ^ 3 < 0) = decide (q < 0) from by rw [decide_eq_true h, decide_eq_true (by linarith)]]
  · have h3 : (2 : ℚ) ^ F.emax ≤ q ^ 3 := by rwa [abs_of_nonneg h] at hq
    have hr : (2 : ℚ) ^ F.emax ≤ F.round (q ^ 3) := by
      have := hm h3
      rwa [round_float _ hf] at this
    rw [if_neg (by linarith), if_neg (by linarith), if_pos (by rw [abs_of_pos (by linarith)]; linarith)]
    rw [show decide (q ^ 3 < 0) = decide (q < 0) from by rw [decide_eq_false (by linarith), decide_eq_false (by linarith)]]

theorem sum_six (h6 : (6 : Ieee F) = num 6) {s : Bool} {x1 x2 x3 x4 x5 x6 y : Ieee F}
    (h : Big s x1 ∨ Big s x2 ∨ Big s x3 ∨ Big s x4 ∨ Big s x5 ∨ Big s x6) (hy : Big s y) :
    x1 + x2 + x3 + x4 + x5 + x6 - 6 * y = nan := by
  refine Big.sub (s := s) ?_ (hy.six h6)
  rcases h with h | h | h | h | h | h
  · exact ((((h.add_left _).add_left _).add_left _).add_left _).add_left _
  · exact ((((h.add_right _).add_left _).add_left _).add_left _).add_left _
  · exact (((h.add_right _).add_left _).add_left _).add_left _
  · exact ((h.add_right _).add_left _).add_left _
  · exact (h.add_right _).add_left _
  · exact h.add_right _

theorem rhs_overflow (h6 : (6 : Ieee F) = num 6) (v : Int) (par : CHParams (Ieee F)) (dx : Ieee F) {bx bY bz : BCType} {nx ny nz : Int}
    (t : Ieee F) (u : Int × Int × Int → Ieee F) {c c' : Int × Int × Int} (hc : In3 nx ny nz c) (hc' : In3 nx ny nz c')
    (hm : moves c c' = 1) {s : Bool} (h : u c ^ 3 = inf s) (h' : u c' ^ 3 = inf s) :
    rhsOps3 v par dx bx bY bz nx ny nz t u c = nan := by
  obtain ⟨i, j, k⟩ := c
  obtain ⟨i', j', k'⟩ := c'
  obtain ⟨a, rfl⟩ : ∃ a, i' = i + a := ⟨i' - i, by ring⟩
  obtain ⟨b, rfl⟩ : ∃ b, j' = j + b := ⟨j' - j, by ring⟩
  obtain ⟨d, rfl⟩ : ∃ d, k' = k + d := ⟨k' - k, by ring⟩
  unfold moves at hm
  dsimp only at hm
  obtain ⟨⟨x1, x2⟩, ⟨y1, y2⟩, z1, z2⟩ := hc'
  obtain ⟨⟨x3, x4⟩, ⟨y3, y4⟩, z3, z4⟩ := hc
  have key : ∀ (f : Int → Int → Int → Ieee F), f 0 0 0 ^ 3 = inf s → f a b d ^ 3 = inf s →
      ((f (-1) 0 0 ^ 3 - f (-1) 0 0) + (f 1 0 0 ^ 3 - f 1 0 0) + (f 0 (-1) 0 ^ 3 - f 0 (-1) 0) + (f 0 1 0 ^ 3 - f 0 1 0) +
      (f 0 0 (-1) ^ 3 - f 0 0 (-1)) + (f 0 0 1 ^ 3 - f 0 0 1) - 6 * (f 0 0 0 ^ 3 - f 0 0 0)) = nan := by
    intro f hf hf'
    refine sum_six h6 ?_ (Big.cube hf)
    have hB := Big.cube hf'
    have h1 : (a = 1 ∧ b = 0 ∧ d = 0) ∨ (a = -1 ∧ b = 0 ∧ d = 0) ∨ (a = 0 ∧ b = 1 ∧ d = 0) ∨ (a = 0 ∧ b = -1 ∧ d = 0) ∨
      (a = 0 ∧ b = 0 ∧ d = 1) ∨ (a = 0 ∧ b = 0 ∧ d = -1) := by
      obtain ⟨a1, a2⟩ : -1 ≤ a ∧ a ≤ 1 := by omega
      obtain ⟨b1, b2⟩ : -1 ≤ b ∧ b ≤ 1 := by omega
      obtain ⟨d1, d2⟩ : -1 ≤ d ∧ d ≤ 1 := by omega
      have hs : a.natAbs + b.natAbs + d.natAbs = 1 := by omega
      clear hB hf' hf hm x1 x2 x3 x4 y1 y2 y3 y4 z1 z2 z3 z4
      interval_cases a <;> interval_cases b <;> interval_cases d <;> revert hs <;> decide
    rcases h1 with ⟨rfl, rfl, rfl⟩ | ⟨rfl, rfl, rfl⟩ | ⟨rfl, rfl, rfl⟩ | ⟨rfl, rfl, rfl⟩ | ⟨rfl, rfl, rfl⟩ | ⟨rfl, rfl, rfl⟩
    · exact Or.inr (Or.inl hB)
    · exact Or.inl hB
    · exact Or.inr (Or.inr (Or.inr (Or.inl hB)))
    · exact Or.inr (Or.inr (Or.inl hB))
    · exact Or.inr (Or.inr (Or.inr (Or.inr (Or.inr hB))))
    · exact Or.inr (Or.inr (Or.inr (Or.inr (Or.inl hB))))
  have := key (fun x y z => ext3 bx bY bz nx ny nz (fun i j k => u (i, j, k)) (i + x) (j + y) (k + z))
    (by
      unfold ext3
      rw [add_zero, add_zero, add_zero, extIdx_of_int x3 x4, extIdx_of_int y3 y4, extIdx_of_int z3 z4]; exact h)
    (by unfold ext3; rw [extIdx_of_int x1 x2, extIdx_of_int y1 y2, extIdx_of_int z1 z2]; exact h')
  have hN := isNaN (F := F)
  unfold rhsOps3
  dsimp only
  rw [this, hN.div_left, hN.add_right, hN.sub_left]

/-! ### Zeros and NaN -/

/-- A zero or NaN. -/
def Nil (x : Ieee F) : Prop := x = nan ∨ ∃ s, x = zero s

theorem Nil.nan : Nil (Ieee.nan : Ieee F) := Or.inl rfl
theorem Nil.zero : Nil (0 : Ieee F) := Or.inr ⟨false, rfl⟩

theorem Nil.neg {x : Ieee F} (h : Nil x) : Nil (-x) := by
  rcases h with rfl | ⟨s, rfl⟩
  · exact Or.inl rfl
  · exact Or.inr ⟨!s, rfl⟩

theorem Nil.add {x y : Ieee F} (h : Nil x) (h' : Nil y) : Nil (x + y) := by
  show Nil (Ieee.add x y)
  rcases h with rfl | ⟨s, rfl⟩
  · rw [nan_add]; exact Or.inl rfl
  · rcases h' with rfl | ⟨s', rfl⟩
    · exact Or.inl rfl
    · exact Or.inr ⟨s && s', rfl⟩

theorem Nil.sub {x y : Ieee F} (h : Nil x) (h' : Nil y) : Nil (x - y) := h.add h'.neg

theorem Nil.mul {y : Ieee F} (x : Ieee F) (h : Nil y) : Nil (x * y) := by
  show Nil (Ieee.mul x y)
  rcases h with rfl | ⟨s, rfl⟩
  · rw [mul_nan]; exact Or.inl rfl
  · cases x <;> simp [Ieee.mul, Nil]

theorem Nil.fabs {x : Ieee F} (h : Nil x) : Nil (fabs x) := by
  unfold Madg.fabs stdMax
  split
  · exact h.neg
  · exact h

theorem Nil.max {x y : Ieee F} (h : Nil x) (h' : Nil y) : Nil (max x y) := by
  rcases selects.max x y with e | e <;> rw [e]
  · exact h
  · exact h'

theorem Nil.stdMax {x : Ieee F} (h : Nil x) : stdMax 0 x = 0 := by
  unfold Madg.stdMax
  rw [if_neg]
  rcases h with rfl | ⟨s, rfl⟩
  · exact isNaN.lt_right _
  · show ¬ ltb _ _ = true
    simp [ltb]

end Ieee

/-! ### The error estimate -/

section
variable {A C : Type} [DecidableEq A] {F : IeeeFmt}
variable {sz : A → Int} {N : Int} {scratch : A → Prop} {P : C → Prop} {loc : C → Int}
  {G : Ieee F → (C → Ieee F) → C → Ieee F} {rhs : A → A → Ieee F → Host A (Ieee F)} (hR : RhsOn (fun _ => True) sz N scratch P loc G rhs)
  {w : RKArr A} (hw : w.Ok sz N scratch)

/-- Every entry of the solution is NaN, and so is the last slope if one has been computed; outside the grid the slopes are zero. -/
structure AllLost (P : C → Prop) (loc : C → Int) (N : Int) (w : RKArr A) (first : Bool) (m : Mem A (Ieee F)) : Prop where
  sol : ∀ c, P c → m w.sol (loc c) = .nan
  k4 : first = false → ∀ c, P c → m w.k4 (loc c) = .nan
  outside : ∀ n, 0 ≤ n → n < N → (∀ c, P c → loc c ≠ n) → m w.k1 n = 0 ∧ m w.k2 n = 0 ∧ m w.k3 n = 0 ∧ m w.k4 n = 0

include hR hw

theorem ode23_lost (hG : ∀ t u c, P c → u c = .nan → G t u c = .nan) (st : Ode23 (Ieee F)) (t dt : Ieee F) (m : Mem A (Ieee F))
    (h : AllLost P loc N w st.first m) :
    AllEnd sz (ode23Step N rhs w st t dt) m fun st' m' => st' = ⟨false, 0⟩ ∧ AllLost P loc N w false m' := by
  obtain ⟨m', d, q, -, hres, hz, -⟩ := ode23_fullA hR hw st.first t dt m trivial fun e c hc => by
    rw [h.k4 e c hc, hG]
    · exact hc
    · exact h.sol c hc
  have hN := Ieee.isNaN (F := F)
  have e1 : ∀ c, P c → m' w.k1 (loc c) = .nan := fun c hc => by
    rw [q.k1 c hc]; exact hG _ _ _ hc (h.sol c hc)
  have es : ∀ c, P c → m' w.sol (loc c) = .nan := fun c hc => by rw [q.sol c hc, h.sol c hc, hN.add_left]
  have e2 : ∀ c, P c → m' w.k2 (loc c) = .nan := fun c hc => by
    rw [q.k2 c hc]; exact hG _ _ _ hc (by rw [h.sol c hc, hN.add_left])
  have e3 : ∀ c, P c → m' w.k3 (loc c) = .nan := fun c hc => by
    rw [q.k3 c hc]; exact hG _ _ _ hc (by rw [h.sol c hc, hN.add_left])
  have e4 : ∀ c, P c → m' w.k4 (loc c) = .nan := fun c hc => by
    rw [q.k4 c hc]; exact hG _ _ _ hc (es c hc)
  have ho := hz h.outside
  have hk : ∀ n, 0 ≤ n → n < N → (m' w.k1 n).Nil ∧ (m' w.k2 n).Nil ∧ (m' w.k3 n).Nil ∧ (m' w.k4 n).Nil := by
    intro n h0 h1
    by_cases hc : ∃ c, P c ∧ loc c = n
    · obtain ⟨c, hc, rfl⟩ := hc
      exact ⟨Or.inl (e1 c hc), Or.inl (e2 c hc), Or.inl (e3 c hc), Or.inl (e4 c hc)⟩
    · obtain ⟨a, b, c, d⟩ := ho n h0 h1 fun c hP e => hc ⟨c, hP, e⟩
      rw [a, b, c, d]
      exact ⟨.zero, .zero, .zero, .zero⟩
  refine (CDet.ofHost d).allEnd ?_
  have rd : ∀ a ∈ [w.sol, w.res, w.k1, w.k2, w.k3, w.k4, w.stage], ∀ i ∈ irange 0 N, (Prog.rd a i : Prog A (Ieee F) (Ieee F)).run sz m' = .ok (m' a i, m') := by
    intro a ha i hi
    rw [mem_irange] at hi
    exact run_rd ⟨hi.1, by rw [hw.size a ha]; exact hi.2⟩ m'
  refine (allEnd_reduce_map (sz := sz) max 0 (irange 0 N) _ (fun i => fabs (m' w.res i - (7 / 24 * m' w.k1 i + 1 / 4 * m' w.k2 i +
    1 / 3 * m' w.k3 i + 1 / 8 * m' w.k4 i))) m' fun i hi => by
      refine (run_bind_ok (rd w.k1 (by simp) i hi)).trans ((run_bind_ok (rd w.k2 (by simp) i hi)).trans
        ((run_bind_ok (rd w.k3 (by simp) i hi)).trans ((run_bind_ok (rd w.k4 (by simp) i hi)).trans
        ((run_bind_ok (rd w.res (by simp) i hi)).trans rfl)))) ).bind ?_
  rintro r m1 ⟨rfl, hr⟩
  refine AllEnd.ret ⟨?_, es, fun _ => e4, ho⟩
  have hrn : r.Nil := by
    refine comb_closed (P := Ieee.Nil) (fun a b ha hb => ha.max hb) hr fun x hx => ?_
    rcases List.mem_cons.1 hx with rfl | hx
    · exact .zero
    · obtain ⟨i, hi, rfl⟩ := List.mem_map.1 hx
      rw [mem_irange] at hi
      obtain ⟨a, b, c, d⟩ := hk i hi.1 hi.2
      rw [hres i hi.1 hi.2]
      exact (((((a.mul _).add (b.mul _)).add (c.mul _))).sub ((((a.mul _).add (b.mul _)).add (c.mul _)).add (d.mul _))).fabs
  rw [Ieee.Nil.stdMax (hrn.mul dt)]

theorem ode23Run_lost (hG : ∀ t u c, P c → u c = .nan → G t u c = .nan) (dts : List (Ieee F)) : ∀ (st : Ode23 (Ieee F)) (t : Ieee F)
    (m : Mem A (Ieee F)), AllLost P loc N w st.first m →
    AllEnd sz (ode23Run N rhs w st t dts) m fun r m' => r.2 = dts.map (fun _ => 0) ∧ ∀ c, P c → m' w.sol (loc c) = .nan := by
  induction dts with
  | nil => intro st t m h; exact AllEnd.ret ⟨rfl, h.sol⟩
  | cons dt dts ih =>
    intro st t m h
    refine (ode23_lost hR hw hG st t dt m h).bind ?_
    rintro st' m' ⟨rfl, h'⟩
    refine (ih ⟨false, 0⟩ (t + dt) m' h').bind ?_
    rintro ⟨st'', es⟩ m'' ⟨rfl, h2⟩
    exact AllEnd.ret ⟨rfl, h2⟩

end

end Madg
