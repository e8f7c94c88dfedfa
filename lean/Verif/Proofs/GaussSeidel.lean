/-
Gauss-Seidel sweeps of the split matrix are textbook sweeps.
-/
import Verif.Spec.GaussSeidel
import Verif.Proofs.Jacobi
import Verif.Proofs.Single
import Mathlib.Algebra.BigOperators.Field

set_option linter.unusedSectionVars false
set_option linter.unusedVariables false

namespace Madg
open Spec Finset
variable {A K : Type} [DecidableEq A] [Field K]

theorem mulVec_ext {n : Int} {a a' : Int → Int → K} {x x' : Int → K} {i : Int}
    (h : ∀ j, 0 ≤ j → j < n → a i j * x j = a' i j * x' j) : mulVec n a x i = mulVec n a' x' i :=
  Finset.sum_congr rfl fun j hj => h j (Finset.mem_Ico.1 hj).1 (Finset.mem_Ico.1 hj).2

/-! ### Library product -/

theorem matVecBLAS_det [DecidableEq K] {sz : A → Int} {M : CSR A} (hM : CSRWf sz M) (x b : A) (beta : K) (hx : M.cols ≤ sz x)
    (hb : M.rows ≤ sz b) (hxb : x ≠ b) (hvb : M.vals ≠ b) (m : Mem A K) :
    ∃ m', Det sz (M.matVecBLAS x b beta) m m' ∧
      WritesAll M.rows b m m' (fun i => mulVec M.cols (dense M (m M.vals)) (m x) i + beta * m b i) := by
  refine forAll_det M.rows _ _ m (fun i h0 h1 => ?_) (fun i h0 h1 => ?_)
  · refine ((hM.row_foot h0 h1 x hx 0).mono ?_ (fun _ _ h => h)).bind fun s => ?_
    · rintro c n (rfl | rfl)
      · exact Or.inl hvb
      · exact Or.inl hxb
    · by_cases hz : beta = 0
      · rw [if_pos hz]
        exact ⟨⟨h0, by omega⟩, ⟨rfl, rfl⟩, trivial⟩
      · rw [if_neg hz]
        exact ⟨⟨h0, by omega⟩, Or.inr rfl, fun _ => ⟨⟨h0, by omega⟩, ⟨rfl, rfl⟩, trivial⟩⟩
  · simp only [Prog.monad_bind]
    rw [hM.row_exec h0 h1, zero_add, hM.sum_dense h0 h1]
    by_cases hz : beta = 0
    · rw [if_pos hz, hz]
      exact (Mem.set_same _ _ _ _).trans (by ring)
    · rw [if_neg hz]
      exact Mem.set_same _ _ _ _

/-! ### Triangular solve -/

/-- Strict triangle of a dense matrix. -/
def triPart (t : Tri) (a : Int → Int → K) (i j : Int) : K := if t.has i j then a i j else 0

theorem tri_sum {sz : A → Int} {M : CSR A} (hM : CSRWf sz M) (t : Tri) {i : Int} (h0 : 0 ≤ i) (h1 : i < M.rows) (v x : Int → K) :
    ∑ p ∈ Ico (rowPtr M i) (rowPtr M (i + 1)), (if t.has i (colOf M p) then v p * x (colOf M p) else 0) =
      mulVec M.cols (triPart t (dense M v)) x i := by
  have := hM.sum_dense h0 h1 v (fun j => if t.has i j then x j else 0)
  unfold mulVec at this ⊢
  rw [← Finset.sum_congr rfl fun p _ => mul_ite_zero _ _ _, this]
  refine Finset.sum_congr rfl fun j _ => ?_
  unfold triPart
  beta_reduce
  by_cases h : t.has i j = true
  · rw [if_pos h, if_pos h]
  · rw [if_neg h, if_neg h, mul_zero, zero_mul]

theorem triRow_run {sz : A → Int} {M : CSR A} (hM : CSRWf sz M) (t : Tri) (x : A) (hx : M.cols ≤ sz x) {i : Int}
    (h0 : 0 ≤ i) (h1 : i < M.rows) (m : Mem A K) :
    (M.rowLoop i (M.triTerm t x i) 0).run sz m =
      .ok (mulVec M.cols (triPart t (dense M (m M.vals))) (m x) i, m) := by
  rw [hM.rowLoop_eq h0 h1,
    run_fold (fun s p => s + (if t.has i (colOf M p) then m M.vals p * m x (colOf M p) else 0)) m]
  · rw [foldl_add_irange, zero_add, tri_sum hM t h0 h1]
  · intro s p hp
    obtain ⟨p0, p1, p2⟩ := hM.in_row h0 h1 hp
    obtain ⟨c0, c1⟩ := hM.col_range p0 p1
    unfold CSR.triTerm
    simp only [Prog.monad_bind]
    rw [hM.col_idx p0 p1]
    simp only [Prog.pure_bind']
    by_cases hc : t.has i (colOf M p) = true
    · rw [if_pos hc, if_pos hc]
      simp only [Prog.rd_bind, Prog.run]
      rw [if_pos p2, if_pos ⟨c0, by omega⟩]
      rfl
    · rw [if_neg hc, if_neg hc, add_zero]
      rfl

theorem triOrder_mem (t : Tri) (n i : Int) : i ∈ t.order n ↔ 0 ≤ i ∧ i < n := by
  cases t <;> simp [Tri.order]

theorem triOrder_nodup (t : Tri) (n : Int) : (t.order n).Nodup := by
  cases t
  · exact nodup_irange _ _
  · exact List.nodup_reverse.2 (nodup_irange _ _)

/-- In the order of substitution the unknowns needed for a row come before it. -/
theorem triOrder_before (t : Tri) (n : Int) (l1 l2 : List Int) (i : Int) (h : t.order n = l1 ++ i :: l2) {c : Int} (h0 : 0 ≤ c)
    (h1 : c < n) (hc : t.has i c = true) : c ∈ l1 := by
  have hsort : ∀ n : Nat, (irange 0 n).Pairwise (· < ·) := by
    intro n
    induction n with
    | zero => simp [irange]
    | succ n ih =>
      push_cast
      rw [irange_succ, List.pairwise_append]
      refine ⟨ih, List.pairwise_singleton _ _, fun a ha b hb => ?_⟩
      rw [mem_irange] at ha
      rw [List.mem_singleton] at hb
      omega
  have hs : (irange 0 n).Pairwise (· < ·) := by
    rcases le_or_gt 0 n with hn | hn
    · obtain ⟨k, rfl⟩ := Int.eq_ofNat_of_zero_le hn
      exact hsort k
    · have : irange 0 n = [] := by
        unfold irange
        rw [show (n - 0).toNat = 0 by omega]
        rfl
      rw [this]
      exact List.Pairwise.nil
  have hmem : c ∈ t.order n := (triOrder_mem t n c).2 ⟨h0, h1⟩
  rw [h, List.mem_append, List.mem_cons] at hmem
  rcases hmem with hm | rfl | hm
  · exact hm
  · cases t <;> simp [Tri.has] at hc
  · exfalso
    cases t
    · simp only [Tri.order] at h
      rw [h, List.pairwise_append] at hs
      have := (List.pairwise_cons.1 hs.2.1).1 c hm
      simp only [Tri.has, decide_eq_true_eq] at hc
      omega
    · simp only [Tri.order] at h
      have hr : (irange 0 n).reverse.Pairwise (fun a b => b < a) := List.pairwise_reverse.2 hs
      rw [h, List.pairwise_append] at hr
      have := (List.pairwise_cons.1 hr.2.1).1 c hm
      simp only [Tri.has, decide_eq_true_eq] at hc
      omega

theorem triSolve_run {sz : A → Int} {M : CSR A} (hM : CSRWf sz M) (hsq : M.rows = M.cols) (t : Tri) (x rhs : A)
    (hx : M.cols ≤ sz x) (hr : M.rows ≤ sz rhs) (hxr : rhs ≠ x) (hvx : M.vals ≠ x) (m : Mem A K) (l : List Int) :
    l.Nodup → (∀ i ∈ l, 0 ≤ i ∧ i < M.rows) →
    (∀ l1 i l2, l = l1 ++ i :: l2 → ∀ c, 0 ≤ c → c < M.rows → t.has i c = true → c ∈ l1) →
    ∃ m', (Prog.forEach l fun irow => do
        let s ← M.rowLoop irow (M.triTerm t x irow) 0
        let r ← Prog.rd rhs irow
        (Prog.wr x irow (r - s) : Prog A K Unit)).run sz m = .ok ((), m') ∧
      (∀ i ∈ l, m' x i + mulVec M.cols (triPart t (dense M (m M.vals))) (m' x) i = m rhs i) ∧
      (∀ i, i ∉ l → m' x i = m x i) ∧ ∀ c, c ≠ x → m' c = m c := by
  induction l using List.reverseRecOn with
  | nil => intro _ _ _; exact ⟨m, rfl, by simp, fun _ _ => rfl, fun _ _ => rfl⟩
  | append_singleton l i ih =>
    intro hnd hmem hord
    have hnd' := List.nodup_append.1 hnd
    have hil : i ∉ l := fun h => hnd'.2.2 i h i (by simp) rfl
    obtain ⟨m1, r1, v1, o1, f1⟩ := ih hnd'.1 (fun j hj => hmem j (by simp [hj])) (by
      intro l1 j l2 e c c0 c1 hc
      exact hord l1 j (l2 ++ [i]) (by rw [e]; simp) c c0 c1 hc)
    obtain ⟨i0, i1⟩ := hmem i (by simp)
    have hbody : ((M.rowLoop i (M.triTerm t x i) 0).bind fun s => (Prog.rd rhs i).bind fun r =>
        (Prog.wr x i (r - s) : Prog A K Unit)).run sz m1 =
        .ok ((), m1.set x i (m1 rhs i - mulVec M.cols (triPart t (dense M (m1 M.vals))) (m1 x) i)) := by
      rw [run_bind, triRow_run hM t x hx i0 i1]
      show ((Prog.rd rhs i).bind fun r => _).run sz m1 = _
      simp only [Prog.rd_bind, Prog.run]
      rw [if_pos ⟨i0, by omega⟩]
      show (Prog.wr x i _).run sz m1 = _
      unfold Prog.wr
      simp only [Prog.run]
      rw [if_pos ⟨i0, by omega⟩]
    refine ⟨m1.set x i (m1 rhs i - mulVec M.cols (triPart t (dense M (m1 M.vals))) (m1 x) i), ?_, ?_, ?_, ?_⟩
    · rw [forEach_append, run_bind, r1]
      show (Prog.forEach [i] _).run sz m1 = _
      simp only [Prog.forEach, Prog.monad_bind]
      rw [run_bind, hbody]
      rfl
    · have hsum : ∀ j ∈ l ++ [i], mulVec M.cols (triPart t (dense M (m M.vals)))
          ((m1.set x i (m1 rhs i - mulVec M.cols (triPart t (dense M (m1 M.vals))) (m1 x) i)) x) j =
          mulVec M.cols (triPart t (dense M (m M.vals))) (m1 x) j := by
        intro j hj
        refine mulVec_ext fun c c0 c1 => ?_
        unfold triPart
        by_cases hc : t.has j c = true
        · have hcl : c ∈ l := by
            obtain ⟨l1, l2, e⟩ := List.append_of_mem hj
            have hc1 := hord l1 j l2 e c c0 (by omega) hc
            have : c ∈ l ++ [i] := by rw [e]; simp [hc1]
            rcases List.mem_append.1 this with h | h
            · exact h
            · exfalso
              rw [List.mem_singleton] at h
              subst h
              rcases List.eq_nil_or_concat l2 with rfl | ⟨l3, z, rfl⟩
              · have e2 := List.append_inj' e rfl
                rw [← e2.1] at hc1
                exact hil hc1
              · have e' : l ++ [c] = (l1 ++ j :: l3) ++ [z] := by rw [e]; simp
                have e2 := List.append_inj' e' rfl
                rw [e2.1] at hil
                exact hil (by simp [hc1])
          rw [if_pos hc, Mem.set_of_ne _ _ (by
            rintro ⟨-, rfl⟩
            exact hil hcl)]
        · rw [if_neg hc]
          ring
      intro j hj
      rw [hsum j hj]
      rcases List.mem_append.1 hj with h | h
      · rw [Mem.set_of_ne _ _ (by
          rintro ⟨-, rfl⟩
          exact hil h)]
        exact v1 j h
      · rw [List.mem_singleton] at h
        subst h
        rw [Mem.set_same, f1 _ hvx, f1 _ hxr]
        ring
    · intro j hj
      rw [List.mem_append, List.mem_singleton, not_or] at hj
      rw [Mem.set_of_ne _ _ (by
        rintro ⟨-, rfl⟩
        exact hj.2 rfl)]
      exact o1 j hj.1
    · intro c hc
      rw [← f1 c hc]
      funext n
      exact Mem.set_of_ne _ _ (fun h => hc h.1)

/-- The library solve: `(I + T) x = rhs`. -/
theorem triSolve_det {sz : A → Int} {M : CSR A} (hM : CSRWf sz M) (hsq : M.rows = M.cols) (t : Tri) (x rhs : A)
    (hx : M.cols ≤ sz x) (hr : M.rows ≤ sz rhs) (hxr : rhs ≠ x) (hvx : M.vals ≠ x) (m : Mem A K) :
    ∃ m', Det sz (M.triSolve t x rhs) m m' ∧
      (∀ i, 0 ≤ i → i < M.rows → m' x i + mulVec M.cols (triPart t (dense M (m M.vals))) (m' x) i = m rhs i) ∧
      (∀ i, ¬ (0 ≤ i ∧ i < M.rows) → m' x i = m x i) ∧ ∀ c, c ≠ x → m' c = m c := by
  obtain ⟨m', r, v, o, f⟩ := triSolve_run hM hsq t x rhs hx hr hxr hvx m (t.order M.rows) (triOrder_nodup t _)
    (fun i hi => (triOrder_mem t _ i).1 hi)
    (fun l1 i l2 e c c0 c1 hc => triOrder_before t _ l1 l2 i e c0 c1 hc)
  exact ⟨m', det_single r, fun i h0 h1 => v i ((triOrder_mem t _ i).2 ⟨h0, h1⟩),
    fun i hi => o i (fun h => hi ((triOrder_mem t _ i).1 h)), f⟩

/-! ### The loops of a sweep -/

section
variable [LinearOrder K]

theorem gsRhs_det {sz : A → Int} {L : LDU A} (x b t1 t2 : A) (hx : L.cols ≤ sz x) (hb : L.cols ≤ sz b) (h1 : L.cols ≤ sz t1)
    (h2 : L.cols ≤ sz t2) (hi : L.cols ≤ sz L.diagInv) (hnd : [x, b, t1, t2].Nodup) (hd1 : L.diagInv ≠ t1)
    (hd2 : L.diagInv ≠ t2) (m : Mem A K) :
    ∃ m', Det sz (L.gsRhs x b t1 t2) m m' ∧
      (∀ i, 0 ≤ i → i < L.cols → m' t1 i = m L.diagInv i * m b i - m t1 i ∧ m' t2 i = m x i) ∧
      ∀ c, c ≠ t1 → c ≠ t2 → m' c = m c := by
  simp only [List.nodup_cons, List.mem_cons, List.not_mem_nil, or_false, not_or, List.nodup_nil, and_true,
    not_false_eq_true] at hnd
  obtain ⟨⟨hxb, hx1, hx2⟩, ⟨hb1, hb2⟩, h12⟩ := hnd
  refine ⟨fun c n => if (0 ≤ n ∧ n < L.cols) then (if c = t1 then m L.diagInv n * m b n - m t1 n
    else if c = t2 then m x n else m c n) else m c n, ?_, ?_, ?_⟩
  · unfold LDU.gsRhs forAll
    refine det_pool (fun i c n => (c ≠ t1 ∧ c ≠ t2) ∨ n = i) (fun i c n => (c = t1 ∨ c = t2) ∧ n = i)
      (nodup_irange _ _) ?_ ?_ ?_ ?_
    · intro i hi
      rw [mem_irange] at hi
      exact ⟨⟨hi.1, by omega⟩, Or.inl ⟨hd1, hd2⟩, fun _ => ⟨⟨hi.1, by omega⟩, Or.inl ⟨hb1, hb2⟩, fun _ =>
        ⟨⟨hi.1, by omega⟩, Or.inr rfl, fun _ => ⟨⟨hi.1, by omega⟩, ⟨Or.inl rfl, rfl⟩,
          ⟨⟨hi.1, by omega⟩, Or.inl ⟨hx1, hx2⟩, fun _ => ⟨⟨hi.1, by omega⟩, ⟨Or.inr rfl, rfl⟩, trivial⟩⟩⟩⟩⟩⟩
    · rintro i hi i' hi' hne c n ⟨hc, rfl⟩
      refine ⟨?_, fun h => hne h.2⟩
      rintro (h | h)
      · rcases hc with hc | hc
        · exact h.1 hc
        · exact h.2 hc
      · exact hne h
    · rintro i hi c n ⟨hc, rfl⟩
      rw [mem_irange] at hi
      rw [if_pos hi]
      have hexec : ((Prog.rd L.diagInv n).bind fun di => (Prog.rd b n).bind fun bv => (Prog.rd t1 n).bind fun p =>
          (Prog.wr t1 n (di * bv - p)).bind fun _ => (Prog.rd x n).bind fun xv => Prog.wr t2 n xv : Prog A K Unit).exec m =
          (m.set t1 n (m L.diagInv n * m b n - m t1 n)).set t2 n (m x n) := by
        show Prog.exec (Prog.wr t2 n ((m.set t1 n (m L.diagInv n * m b n - m t1 n)) x n)) _ = _
        rw [Mem.set_of_ne _ _ (fun h => hx1 h.1)]
        rfl
      refine Eq.trans ?_ (congrFun (congrFun hexec c) n).symm
      rcases hc with rfl | rfl
      · rw [if_pos rfl, Mem.set_of_ne _ _ (fun h => h12 h.1), Mem.set_same]
      · rw [if_neg (Ne.symm h12), if_pos rfl, Mem.set_same]
    · intro c n h
      by_cases hn : 0 ≤ n ∧ n < L.cols
      · have := h n (mem_irange.2 hn)
        rw [if_pos hn, if_neg (fun e => this ⟨Or.inl e, rfl⟩), if_neg (fun e => this ⟨Or.inr e, rfl⟩)]
      · rw [if_neg hn]
  · intro i h0 hi
    beta_reduce
    rw [if_pos ⟨h0, hi⟩, if_pos rfl, if_pos ⟨h0, hi⟩, if_neg (Ne.symm h12), if_pos rfl]
    exact ⟨rfl, rfl⟩
  · intro c c1 c2
    funext n
    beta_reduce
    rw [if_neg c1, if_neg c2, ite_self]

theorem gsRelax_det {sz : A → Int} (nx : Int) (x t2 : A) (w : K) (hx : nx ≤ sz x) (ht : nx ≤ sz t2) (hne : t2 ≠ x) (m : Mem A K) :
    ∃ m', Det sz (gsRelax nx x t2 w) m m' ∧ WritesAll nx x m m' (fun i => (1 - w) * m t2 i + w * m x i) :=
  forAll_det _ _ _ m (fun i h0 h1 => ⟨⟨h0, by omega⟩, Or.inl hne, fun _ => ⟨⟨h0, by omega⟩, Or.inr rfl,
    fun _ => ⟨⟨h0, by omega⟩, ⟨rfl, rfl⟩, trivial⟩⟩⟩) (fun i _ _ => Mem.set_same _ _ _ _)

/-- The part of a sweep before the relaxation. -/
theorem gsPre_det {sz : A → Int} {L : LDU A} {F S : CSR A} (hF : CSRWf sz F) (hS : CSRWf sz S) (hFr : F.rows = L.rows)
    (hFc : F.cols = L.cols) (hSr : S.rows = L.rows) (hSc : S.cols = L.cols) (hsq : L.rows = L.cols) (t : Tri)
    (x b t1 t2 : A) (hx : L.rows ≤ sz x) (hb : L.rows ≤ sz b) (h1 : L.rows ≤ sz t1)
    (h2 : L.rows ≤ sz t2) (hi : L.rows ≤ sz L.diagInv) (hnd : [x, b, t1, t2].Nodup) (hd : L.diagInv ∉ [x, t1, t2])
    (hFv : F.vals ∉ [x, t1, t2]) (hSv : S.vals ∉ [x, t1, t2]) (m : Mem A K) :
    ∃ m', Det sz (F.matVecBLAS x t1 0 ++ L.gsRhs x b t1 t2 ++ S.triSolve t x t1) m m' ∧
      (∀ i, 0 ≤ i → i < L.rows → m' x i + mulVec L.cols (triPart t (dense S (m S.vals))) (m' x) i =
        m L.diagInv i * m b i - mulVec L.cols (dense F (m F.vals)) (m x) i) ∧
      (∀ i, 0 ≤ i → i < L.rows → m' t2 i = m x i) ∧ ∀ c, c ≠ x → c ≠ t1 → c ≠ t2 → m' c = m c := by
  have hnd0 := hnd
  simp only [List.nodup_cons, List.mem_cons, List.not_mem_nil, or_false, not_or, List.nodup_nil, and_true,
    not_false_eq_true] at hnd hd hFv hSv
  obtain ⟨⟨hxb, hx1, hx2⟩, ⟨hb1, hb2⟩, h12⟩ := hnd
  obtain ⟨m1, d1, w1⟩ := matVecBLAS_det hF x t1 (0 : K) (by omega) (by omega) hx1 hFv.2.1 m
  obtain ⟨m2, d2, v2, f2⟩ := gsRhs_det x b t1 t2 (sz := sz) (L := L) (by omega) (by omega) (by omega) (by omega) (by omega) hnd0
    hd.2.1 hd.2.2 m1
  obtain ⟨m3, d3, v3, o3, f3⟩ := triSolve_det hS (by omega) t x t1 (by omega) (by omega) (Ne.symm hx1) hSv.1 m2
  have hS2 : m2 S.vals = m S.vals := by rw [f2 _ hSv.2.1 hSv.2.2, w1.frame _ hSv.2.1]
  refine ⟨m3, det_append (det_append d1 d2) d3, ?_, ?_, ?_⟩
  · intro i i0 i1
    have := v3 i i0 (by omega)
    rw [hS2, hSc] at this
    rw [this, (v2 i i0 (by omega)).1, w1.view i i0 (by omega), w1.frame _ hd.2.1, w1.frame _ hb1, hFc]
    ring
  · intro i i0 i1
    rw [f3 _ (Ne.symm hx2), (v2 i i0 (by omega)).2, w1.frame _ hx1]
  · intro c c0 c1 c2
    rw [f3 c c0, f2 c c1 c2, w1.frame c c1]

/-- One sweep of a scaled split matrix. -/
theorem gsBody_det {sz : A → Int} {L : LDU A} {F S : CSR A} (hF : CSRWf sz F) (hS : CSRWf sz S) (hFr : F.rows = L.rows)
    (hFc : F.cols = L.cols) (hSr : S.rows = L.rows) (hSc : S.cols = L.cols) (hsq : L.rows = L.cols) (t : Tri)
    (x b t1 t2 : A) (w : K) (hx : sz x = L.rows) (hb : L.rows ≤ sz b) (h1 : L.rows ≤ sz t1)
    (h2 : L.rows ≤ sz t2) (hi : L.rows ≤ sz L.diagInv) (hnd : [x, b, t1, t2].Nodup) (hd : L.diagInv ∉ [x, t1, t2])
    (hFv : F.vals ∉ [x, t1, t2]) (hSv : S.vals ∉ [x, t1, t2]) (m : Mem A K) :
    ∃ m' y, Det sz (L.gsBody F S t (sz x) x b t1 t2 w) m m' ∧
      (∀ i, 0 ≤ i → i < L.rows → y i + mulVec L.cols (triPart t (dense S (m S.vals))) y i =
        m L.diagInv i * m b i - mulVec L.cols (dense F (m F.vals)) (m x) i) ∧
      Relaxed L.rows w (m x) y (m' x) ∧ ∀ c, c ∉ [x, t1, t2] → m' c = m c := by
  have hx2 : x ≠ t2 := by
    simp only [List.nodup_cons, List.mem_cons, List.not_mem_nil, or_false, not_or] at hnd
    exact hnd.1.2.2
  obtain ⟨m3, d3, eq3, old, fr⟩ := gsPre_det hF hS hFr hFc hSr hSc hsq t x b t1 t2 hx.ge hb h1 h2 hi hnd hd hFv hSv m
  unfold LDU.gsBody
  by_cases hw : w = 1
  · rw [if_pos hw, List.append_nil]
    refine ⟨m3, m3 x, d3, eq3, ?_, ?_⟩
    · intro i i0 i1
      rw [hw]
      ring
    · intro c hc
      simp only [List.mem_cons, List.not_mem_nil, or_false, not_or] at hc
      exact fr c hc.1 hc.2.1 hc.2.2
  · rw [if_neg hw]
    obtain ⟨m4, d4, w4⟩ := gsRelax_det (sz := sz) (sz x) x t2 w le_rfl (by omega) (Ne.symm hx2) m3
    refine ⟨m4, m3 x, det_append d3 d4, eq3, ?_, ?_⟩
    · intro i i0 i1
      rw [w4.view i i0 (by omega), old i i0 i1]
    · intro c hc
      simp only [List.mem_cons, List.not_mem_nil, or_false, not_or] at hc
      rw [w4.frame c hc.1, fr c hc.1 hc.2.1 hc.2.2]

/-- Relaxation of a vector longer than the work vector reads out of range. -/
theorem gsBody_long {sz : A → Int} {L : LDU A} {F S : CSR A} (hF : CSRWf sz F) (hS : CSRWf sz S) (hFr : F.rows = L.rows)
    (hFc : F.cols = L.cols) (hSr : S.rows = L.rows) (hSc : S.cols = L.cols) (hsq : L.rows = L.cols) (t : Tri)
    (x b t1 t2 : A) (w : K) (hw : w ≠ 1) (hx : sz t2 < sz x) (hb : L.rows ≤ sz b) (h1 : L.rows ≤ sz t1)
    (h2 : L.rows = sz t2) (hi : L.rows ≤ sz L.diagInv) (hnd : [x, b, t1, t2].Nodup) (hd : L.diagInv ∉ [x, t1, t2])
    (hFv : F.vals ∉ [x, t1, t2]) (hSv : S.vals ∉ [x, t1, t2]) (m : Mem A K) :
    HostOut sz (L.gsBody F S t (sz x) x b t1 t2 w) m (.fault .outOfBounds) := by
  have hr := hF.rows
  obtain ⟨m3, d3, -⟩ := gsPre_det hF hS hFr hFc hSr hSc hsq t x b t1 t2 (by omega) hb h1 h2.le hi hnd hd hFv hSv m
  unfold LDU.gsBody
  rw [if_neg hw, hostOut_append]
  refine Or.inl ⟨m3, (d3 _).2 rfl, ?_⟩
  unfold gsRelax
  refine Or.inr ⟨_, .fault _ m3 .refl ((Prog.rd t2 (sz t2)).bind fun o => (Prog.rd x (sz t2)).bind fun xv =>
    Prog.wr x (sz t2) ((1 - w) * o + w * xv)) ?_ .outOfBounds ⟨fun h => absurd h.2 (lt_irrefl _), rfl⟩, rfl⟩
  exact List.mem_map.2 ⟨sz t2, mem_irange.2 ⟨by omega, hx⟩, rfl⟩

theorem ScaledRep.frame {sz : A → Int} {eps : K} {L : LDU A} {m m' : Mem A K} {a : Int → Int → K} (h : ScaledRep sz eps L m a)
    (h1 : m' L.lower.vals = m L.lower.vals) (h2 : m' L.upper.vals = m L.upper.vals) (h3 : m' L.diag = m L.diag)
    (h4 : m' L.diagInv = m L.diagInv) : ScaledRep sz eps L m' a :=
  ⟨h.wfl, h.wfu, h.rl, h.ru, h.cl, h.cu, h.sq, h.szd, h.szi, by rw [h1]; exact h.low, by rw [h2]; exact h.up,
    by rw [h3]; exact h.dg, by rw [h4]; exact h.di, h.ml, h.mu⟩

end

section
variable [LinearOrder K] [IsStrictOrderedRing K]

theorem gsInit_det {sz : A → Int} {eps : K} {L : LDU A} {m : Mem A K} {a : Int → Int → K} (hL : LDURep sz eps L m a)
    (hnd : [L.lower.vals, L.upper.vals, L.diag, L.diagInv].Nodup) :
    ∃ m', Det sz L.gsInit m m' ∧ ScaledRep sz eps L m' a ∧
      ∀ c, c ∉ [L.lower.vals, L.upper.vals, L.diag] → m' c = m c := by
  simp only [List.nodup_cons, List.mem_cons, List.not_mem_nil, or_false, not_or, List.nodup_nil, and_true,
    not_false_eq_true] at hnd
  obtain ⟨⟨hlu, hld, hli⟩, ⟨hud, hui⟩, hdi⟩ := hnd
  have hszi := hL.szi
  have hszd := hL.szd
  obtain ⟨m1, d1, v1, f1⟩ := scaleRows_det hL.wfl hL.ml L.diagInv (by rw [hL.rl]; exact hszi) (Ne.symm hli) m
  obtain ⟨m2, d2, v2, f2⟩ := scaleRows_det hL.wfu hL.mu L.diagInv (by rw [hL.ru]; exact hszi) (Ne.symm hui) m1
  obtain ⟨m3, d3, w3⟩ := forAll_det (sz := sz) (r := L.diag) L.rows (fun i => (Prog.wr L.diag i 1 : Prog A K Unit)) (fun _ => 1) m2
    (fun i h0 h1 => ⟨⟨h0, by omega⟩, ⟨rfl, rfl⟩, trivial⟩) (fun i _ _ => Mem.set_same _ _ _ _)
  have e4 : m3 L.diagInv = m L.diagInv := by rw [w3.frame _ (Ne.symm hdi), f2 _ (Ne.symm hui), f1 _ (Ne.symm hli)]
  refine ⟨m3, det_append (det_append d1 d2) d3, ?_, ?_⟩
  · refine ⟨hL.wfl, hL.wfu, hL.rl, hL.ru, hL.cl, hL.cu, hL.sq, hL.szd, hL.szi, ?_, ?_, w3.view, by rw [e4]; exact hL.di,
      hL.ml, hL.mu⟩
    · intro i j h0 h1
      rw [w3.frame _ hld, f2 _ hlu, v1 i j h0 (by rw [hL.rl]; exact h1), hL.low i j h0 h1, hL.di i h0 h1]
      split
      · rw [one_div_mul_eq_div]
      · rw [mul_zero]
    · intro i j h0 h1
      rw [w3.frame _ hud, v2 i j h0 (by rw [hL.ru]; exact h1), f1 _ (Ne.symm hlu), f1 _ (Ne.symm hli), hL.up i j h0 h1, hL.di i h0 h1]
      split
      · rw [one_div_mul_eq_div]
      · rw [mul_zero]
  · intro c hc
    simp only [List.mem_cons, List.not_mem_nil, or_false, not_or] at hc
    rw [w3.frame c hc.2.2, f2 c hc.2.1, f1 c hc.1]

theorem low_sum (n : Int) (f : Int → K) (x : Int → K) {i : Int} (h0 : 0 ≤ i) (h1 : i < n) :
    ∑ j ∈ Ico 0 n, (if j < i then f j else 0) * x j = ∑ j ∈ Ico 0 i, f j * x j := by
  have : Ico 0 i = (Ico 0 n).filter (· < i) := by
    ext j; simp only [Finset.mem_filter, Finset.mem_Ico]; omega
  rw [this, Finset.sum_filter]
  exact Finset.sum_congr rfl fun j _ => by split <;> simp

theorem up_sum (n : Int) (f : Int → K) (x : Int → K) {i : Int} (h0 : 0 ≤ i) (h1 : i < n) :
    ∑ j ∈ Ico 0 n, (if i < j then f j else 0) * x j = ∑ j ∈ Ico (i + 1) n, f j * x j := by
  have : Ico (i + 1) n = (Ico 0 n).filter (i < ·) := by
    ext j; simp only [Finset.mem_filter, Finset.mem_Ico]; omega
  rw [this, Finset.sum_filter]
  exact Finset.sum_congr rfl fun j _ => by split <;> simp

theorem Ico_snoc (f : Int → K) {i : Int} (h0 : 0 ≤ i) : ∑ j ∈ Ico 0 (i + 1), f j = ∑ j ∈ Ico 0 i, f j + f i := by
  have : Ico 0 (i + 1) = insert i (Ico 0 i) := by
    ext j; simp only [Finset.mem_insert, Finset.mem_Ico]; omega
  rw [this, Finset.sum_insert (by simp), add_comm]

theorem Ico_cons (f : Int → K) {i n : Int} (h1 : i < n) : ∑ j ∈ Ico i n, f j = f i + ∑ j ∈ Ico (i + 1) n, f j := by
  have : Ico i n = insert i (Ico (i + 1) n) := by
    ext j; simp only [Finset.mem_insert, Finset.mem_Ico]; omega
  rw [this, Finset.sum_insert (by simp)]

section
variable {sz : A → Int} {eps : K} (he : 0 ≤ eps) {L : LDU A} {m : Mem A K} {a : Int → Int → K} (hL : ScaledRep sz eps L m a)
  (hg : ∀ i, 0 ≤ i → i < L.rows → eps < |a i i|)
include he hL hg

theorem scaled_forward (b x y : Int → K)
    (h : ∀ i, 0 ≤ i → i < L.rows → y i + mulVec L.cols (triPart .lower (dense L.lower (m L.lower.vals))) y i =
        m L.diagInv i * b i - mulVec L.cols (dense L.upper (m L.upper.vals)) x i) :
    GSForward L.rows a b x y := by
  intro i h0 h1
  have hsq := hL.sq
  have hd : a i i ≠ 0 := by
    intro e
    have := hg i h0 h1
    rw [e, abs_zero] at this
    exact absurd this (not_lt.2 he)
  have e := h i h0 h1
  have e1 : mulVec L.cols (triPart .lower (dense L.lower (m L.lower.vals))) y i =
      (∑ j ∈ Ico 0 i, a i j * y j) / a i i := by
    unfold mulVec
    rw [Finset.sum_div, ← hsq]
    refine Eq.trans (Finset.sum_congr rfl fun j hj => ?_) ((low_sum L.rows (fun j => a i j / a i i) y h0 h1).trans
      (Finset.sum_congr rfl fun j _ => by ring))
    unfold triPart
    rw [hL.low i j h0 h1, guard_eq (hg i h0 h1)]
    by_cases hj : j < i <;> simp [Tri.has, hj]
  have e2 : mulVec L.cols (dense L.upper (m L.upper.vals)) x i = (∑ j ∈ Ico (i + 1) L.rows, a i j * x j) / a i i := by
    unfold mulVec
    rw [Finset.sum_div, ← hsq]
    refine Eq.trans (Finset.sum_congr rfl fun j hj => ?_) ((up_sum L.rows (fun j => a i j / a i i) x h0 h1).trans
      (Finset.sum_congr rfl fun j _ => by ring))
    rw [hL.up i j h0 h1, guard_eq (hg i h0 h1)]
  rw [e1, e2, hL.di i h0 h1, guard_eq (hg i h0 h1)] at e
  rw [Ico_snoc _ h0]
  field_simp at e
  linear_combination e

theorem scaled_backward (b x y : Int → K)
    (h : ∀ i, 0 ≤ i → i < L.rows → y i + mulVec L.cols (triPart .upper (dense L.upper (m L.upper.vals))) y i =
        m L.diagInv i * b i - mulVec L.cols (dense L.lower (m L.lower.vals)) x i) :
    GSBackward L.rows a b x y := by
  intro i h0 h1
  have hsq := hL.sq
  have hd : a i i ≠ 0 := by
    intro e
    have := hg i h0 h1
    rw [e, abs_zero] at this
    exact absurd this (not_lt.2 he)
  have e := h i h0 h1
  have e1 : mulVec L.cols (triPart .upper (dense L.upper (m L.upper.vals))) y i =
      (∑ j ∈ Ico (i + 1) L.rows, a i j * y j) / a i i := by
    unfold mulVec
    rw [Finset.sum_div, ← hsq]
    refine Eq.trans (Finset.sum_congr rfl fun j hj => ?_) ((up_sum L.rows (fun j => a i j / a i i) y h0 h1).trans
      (Finset.sum_congr rfl fun j _ => by ring))
    unfold triPart
    rw [hL.up i j h0 h1, guard_eq (hg i h0 h1)]
    by_cases hj : i < j <;> simp [Tri.has, hj]
  have e2 : mulVec L.cols (dense L.lower (m L.lower.vals)) x i = (∑ j ∈ Ico 0 i, a i j * x j) / a i i := by
    unfold mulVec
    rw [Finset.sum_div, ← hsq]
    refine Eq.trans (Finset.sum_congr rfl fun j hj => ?_) ((low_sum L.rows (fun j => a i j / a i i) x h0 h1).trans
      (Finset.sum_congr rfl fun j _ => by ring))
    rw [hL.low i j h0 h1, guard_eq (hg i h0 h1)]
  rw [e1, e2, hL.di i h0 h1, guard_eq (hg i h0 h1)] at e
  rw [Ico_cons _ h1]
  field_simp at e
  linear_combination e

end

/-! ### Calls -/

/-- Names used by a call: the split matrix, the vectors and the work arrays are different arrays of the right size. -/
structure GSArgs (sz : A → Int) (L : LDU A) (x b t1 t2 : A) : Prop where
  hx : sz x = L.rows
  hb : L.rows ≤ sz b
  h1 : L.rows ≤ sz t1
  h2 : L.rows ≤ sz t2
  nd : [x, b, t1, t2].Nodup
  ndL : [L.lower.vals, L.upper.vals, L.diag, L.diagInv].Nodup
  sep : ∀ c ∈ [L.lower.vals, L.upper.vals, L.diag, L.diagInv], c ∉ [x, b, t1, t2]

section
variable {sz : A → Int} {eps : K} (he : 0 ≤ eps) {L : LDU A} {a : Int → Int → K}
  (hg : ∀ i, 0 ≤ i → i < L.rows → eps < |a i i|) {x b t1 t2 : A} (hA : GSArgs sz L x b t1 t2)
include he hg hA

theorem GSArgs.notin {c : A} (hc : c ∈ [L.lower.vals, L.upper.vals, L.diag, L.diagInv]) : c ∉ [x, t1, t2] := by
  have := hA.sep c hc
  simp only [List.mem_cons, List.not_mem_nil, or_false, not_or] at this ⊢
  exact ⟨this.1, this.2.2⟩

theorem forwardBody_det (w : K) (m : Mem A K) (hL : ScaledRep sz eps L m a) :
    ∃ m', Det sz (L.gsBody L.upper L.lower .lower (sz x) x b t1 t2 w) m m' ∧ ScaledRep sz eps L m' a ∧
      GSStep L.rows a (m b) .forward w (m x) (m' x) ∧ ∀ c, c ∉ [x, t1, t2] → m' c = m c := by
  obtain ⟨m', y, d, e, r, f⟩ := gsBody_det hL.wfu hL.wfl hL.ru hL.cu hL.rl hL.cl hL.sq .lower x b t1 t2 w hA.hx hA.hb hA.h1
    hA.h2 hL.szi hA.nd (GSArgs.notin he hg hA (by simp)) (GSArgs.notin he hg hA (by simp)) (GSArgs.notin he hg hA (by simp)) m
  refine ⟨m', d, ?_, ⟨y, scaled_forward he hL hg _ _ _ e, r⟩, f⟩
  exact ScaledRep.frame hL (f _ (GSArgs.notin he hg hA (by simp))) (f _ (GSArgs.notin he hg hA (by simp)))
    (f _ (GSArgs.notin he hg hA (by simp))) (f _ (GSArgs.notin he hg hA (by simp)))

theorem backwardBody_det (w : K) (m : Mem A K) (hL : ScaledRep sz eps L m a) :
    ∃ m', Det sz (L.gsBody L.lower L.upper .upper (sz x) x b t1 t2 w) m m' ∧ ScaledRep sz eps L m' a ∧
      GSStep L.rows a (m b) .backward w (m x) (m' x) ∧ ∀ c, c ∉ [x, t1, t2] → m' c = m c := by
  obtain ⟨m', y, d, e, r, f⟩ := gsBody_det hL.wfl hL.wfu hL.rl hL.cl hL.ru hL.cu hL.sq .upper x b t1 t2 w hA.hx hA.hb hA.h1
    hA.h2 hL.szi hA.nd (GSArgs.notin he hg hA (by simp)) (GSArgs.notin he hg hA (by simp)) (GSArgs.notin he hg hA (by simp)) m
  refine ⟨m', d, ?_, ⟨y, scaled_backward he hL hg _ _ _ e, r⟩, f⟩
  exact ScaledRep.frame hL (f _ (GSArgs.notin he hg hA (by simp))) (f _ (GSArgs.notin he hg hA (by simp)))
    (f _ (GSArgs.notin he hg hA (by simp))) (f _ (GSArgs.notin he hg hA (by simp)))

/-- A call on a scaled split matrix. -/
theorem gsReady_det (k : GSKind) (w : K) (m : Mem A K) (hL : ScaledRep sz eps L m a) :
    ∃ m', Det sz (L.gsCall true (sz x) x b t1 t2 k w) m m' ∧ ScaledRep sz eps L m' a ∧
      GSStep L.rows a (m b) k w (m x) (m' x) ∧ ∀ c, c ∉ [x, t1, t2] → m' c = m c := by
  cases k with
  | forward => exact forwardBody_det he hg hA w m hL
  | backward => exact backwardBody_det he hg hA w m hL
  | symmetric =>
    obtain ⟨m1, d1, l1, ⟨y, s1, r1⟩, f1⟩ := forwardBody_det he hg hA w m hL
    obtain ⟨m2, d2, l2, ⟨z, s2, r2⟩, f2⟩ := backwardBody_det he hg hA w m1 l1
    have hb : m1 b = m b := f1 b (by
      have := hA.nd
      simp only [List.nodup_cons, List.mem_cons, List.not_mem_nil, or_false, not_or, List.nodup_nil, and_true,
        not_false_eq_true] at this
      simp only [List.mem_cons, List.not_mem_nil, or_false, not_or]
      exact ⟨fun e => this.1.1 e.symm, this.2.1.1, this.2.1.2⟩)
    rw [hb] at s2
    exact ⟨m2, det_append d1 d2, l2, ⟨y, m1 x, z, s1, r1, s2, r2⟩, fun c hc => (f2 c hc).trans (f1 c hc)⟩

/-- A call on a split matrix that is not scaled yet: scale, then the same. -/
theorem gsFresh_det (k : GSKind) (w : K) (m : Mem A K) (hL : LDURep sz eps L m a) :
    ∃ m', Det sz (L.gsCall false (sz x) x b t1 t2 k w) m m' ∧ ScaledRep sz eps L m' a ∧
      GSStep L.rows a (m b) k w (m x) (m' x) ∧
      ∀ c, c ∉ [x, t1, t2] → c ∉ [L.lower.vals, L.upper.vals, L.diag] → m' c = m c := by
  obtain ⟨m1, d1, l1, f1⟩ := gsInit_det hL hA.ndL
  obtain ⟨m2, d2, l2, s2, f2⟩ := gsReady_det he hg hA k w m1 l1
  have hout : ∀ c ∈ [x, b, t1, t2], c ∉ [L.lower.vals, L.upper.vals, L.diag] := by
    intro c hc h
    refine hA.sep c ?_ hc
    simp only [List.mem_cons, List.not_mem_nil, or_false] at h ⊢
    rcases h with h | h | h <;> simp [h]
  rw [f1 b (hout b (by simp)), f1 x (hout x (by simp))] at s2
  refine ⟨m2, ?_, l2, s2, fun c c1 c2 => (f2 c c1).trans (f1 c c2)⟩
  have : L.gsCall false (sz x) x b t1 t2 k w = L.gsInit ++ L.gsCall true (sz x) x b t1 t2 k w := by
    cases k
    · rfl
    · rfl
    · simp [LDU.gsCall, LDU.gsSymmetric, LDU.gsForward]
  rw [this]
  exact det_append d1 d2

theorem gsCalls_ready (cs : List (GSKind × K)) : ∀ m : Mem A K, ScaledRep sz eps L m a →
    ∃ m', Det sz (L.gsCalls (sz x) x b t1 t2 true cs) m m' ∧ ScaledRep sz eps L m' a ∧
      GSSteps L.rows a (m b) cs (m x) (m' x) ∧ ∀ c, c ∉ [x, t1, t2] → m' c = m c := by
  induction cs with
  | nil => intro m hL; exact ⟨m, det_nil _ _, hL, fun i _ _ => rfl, fun _ _ => rfl⟩
  | cons c cs ih =>
    intro m hL
    obtain ⟨m1, d1, l1, s1, f1⟩ := gsReady_det he hg hA c.1 c.2 m hL
    obtain ⟨m2, d2, l2, s2, f2⟩ := ih m1 l1
    have hb : m1 b = m b := f1 b (by
      have := hA.nd
      simp only [List.nodup_cons, List.mem_cons, List.not_mem_nil, or_false, not_or, List.nodup_nil, and_true,
        not_false_eq_true] at this
      simp only [List.mem_cons, List.not_mem_nil, or_false, not_or]
      exact ⟨fun e => this.1.1 e.symm, this.2.1.1, this.2.1.2⟩)
    rw [hb] at s2
    exact ⟨m2, det_append d1 d2, l2, ⟨m1 x, s1, s2⟩, fun c hc => (f2 c hc).trans (f1 c hc)⟩

theorem gsCalls_fresh (c : GSKind × K) (cs : List (GSKind × K)) (m : Mem A K) (hL : LDURep sz eps L m a) :
    ∃ m', Det sz (L.gsCalls (sz x) x b t1 t2 false (c :: cs)) m m' ∧ ScaledRep sz eps L m' a ∧
      GSSteps L.rows a (m b) (c :: cs) (m x) (m' x) ∧
      ∀ d, d ∉ [x, t1, t2] → d ∉ [L.lower.vals, L.upper.vals, L.diag] → m' d = m d := by
  obtain ⟨m1, d1, l1, s1, f1⟩ := gsFresh_det he hg hA c.1 c.2 m hL
  obtain ⟨m2, d2, l2, s2, f2⟩ := gsCalls_ready he hg hA cs m1 l1
  have hb : m1 b = m b := by
    have := hA.nd
    simp only [List.nodup_cons, List.mem_cons, List.not_mem_nil, or_false, not_or, List.nodup_nil, and_true,
      not_false_eq_true] at this
    refine f1 b ?_ ?_
    · simp only [List.mem_cons, List.not_mem_nil, or_false, not_or]
      exact ⟨fun e => this.1.1 e.symm, this.2.1.1, this.2.1.2⟩
    · intro h
      refine hA.sep b ?_ (by simp)
      simp only [List.mem_cons, List.not_mem_nil, or_false] at h ⊢
      rcases h with h | h | h <;> simp [h]
  rw [hb] at s2
  exact ⟨m2, det_append d1 d2, l2, ⟨m1 x, s1, s2⟩, fun d h1 h2 => (f2 d h1).trans (f1 d h1 h2)⟩

end

end

end Madg
