/-
Sparse matrix kernels compute what the dense matrix says.
-/
import Verif.Spec.Matrix
import Verif.Proofs.Kern3
import Verif.Proofs.Cmd
import Mathlib.Algebra.BigOperators.Ring.Finset
import Mathlib.Tactic.Ring
import Mathlib.Tactic.FieldSimp

set_option linter.unusedSectionVars false
set_option linter.unusedVariables false

namespace Madg
open Spec Finset
variable {A K : Type} [DecidableEq A]

/-! ### Generic facts -/

theorem fold_congr {ι σ : Type} {f g : σ → ι → Prog A K σ} {xs : List ι} (h : ∀ s, ∀ x ∈ xs, f s x = g s x) (s : σ) :
    Prog.fold f xs s = Prog.fold g xs s := by
  induction xs generalizing s with
  | nil => rfl
  | cons x xs ih =>
    simp only [Prog.fold]
    rw [h s x List.mem_cons_self]
    congr 1
    funext s'
    exact ih (fun s x hx => h s x (List.mem_cons_of_mem _ hx)) s'

theorem foot_fold {ι σ : Type} {sz : A → Int} {R W : A → Int → Prop} {f : σ → ι → Prog A K σ} {xs : List ι}
    (h : ∀ s, ∀ x ∈ xs, (f s x).Foot sz R W) (s : σ) : (Prog.fold f xs s).Foot sz R W := by
  induction xs generalizing s with
  | nil => trivial
  | cons x xs ih =>
    exact (h s x List.mem_cons_self).bind fun s' => ih (fun s x hx => h s x (List.mem_cons_of_mem _ hx)) s'

/-- All possible results satisfy `Q`, whatever values are loaded. -/
def Prog.Post {α : Type} (Q : α → Prop) : Prog A K α → Prop
  | .pure x => Q x
  | .load _ _ k => ∀ v, (k v).Post Q
  | .store _ _ _ k => k.Post Q
  | .fail _ => True

theorem Prog.Foot.bind_post {α β : Type} {sz : A → Int} {R W : A → Int → Prop} {p : Prog A K α}
    {f : α → Prog A K β} (Q : α → Prop) (hp : p.Foot sz R W) (hq : p.Post Q)
    (hf : ∀ x, Q x → (f x).Foot sz R W) : (p.bind f).Foot sz R W := by
  induction p with
  | pure x => exact hf x hq
  | load a i k ih => exact ⟨hp.1, hp.2.1, fun v => ih v (hp.2.2 v) (hq v)⟩
  | store a i v k ih => exact ⟨hp.1, hp.2.1, ih hp.2.2 hq⟩
  | fail e => exact hp

theorem Prog.Post.bind {α β : Type} {p : Prog A K α} {f : α → Prog A K β} {Q : α → Prop} {Q' : β → Prop}
    (hq : p.Post Q) (hf : ∀ x, Q x → (f x).Post Q') : (p.bind f).Post Q' := by
  induction p with
  | pure x => exact hf x hq
  | load a i k ih => exact fun v => ih v (hq v)
  | store a i v k ih => exact ih hq
  | fail e => trivial

theorem post_fold {ι σ : Type} {f : σ → ι → Prog A K σ} (I : List ι → σ → Prop) {xs : List ι}
    (h : ∀ s x rest, x ∈ xs → I (x :: rest) s → (f s x).Post (I rest)) (s : σ) (hs : I xs s) :
    (Prog.fold f xs s).Post (I []) := by
  induction xs generalizing s with
  | nil => exact hs
  | cons x xs ih =>
    exact (h s x xs List.mem_cons_self hs).bind fun s' hs' =>
      ih (fun s x rest hx => h s x rest (List.mem_cons_of_mem _ hx)) s' hs'

/-- A loop whose steps only compute. -/
theorem exec_fold {ι σ β : Type} {f : σ → ι → Prog A K σ} {xs : List ι} (g : σ → ι → σ) (m : Mem A K)
    (h : ∀ s, ∀ x ∈ xs, ∀ k : σ → Prog A K β, ((f s x).bind k).exec m = (k (g s x)).exec m) (s : σ)
    (k : σ → Prog A K β) : ((Prog.fold f xs s).bind k).exec m = (k (xs.foldl g s)).exec m := by
  induction xs generalizing s with
  | nil => rfl
  | cons x xs ih =>
    simp only [Prog.fold, Prog.bind_assoc, List.foldl_cons]
    rw [h s x List.mem_cons_self]
    exact ih (fun s x hx => h s x (List.mem_cons_of_mem _ hx)) _

theorem run_bind {α β : Type} (sz : A → Int) (p : Prog A K α) (f : α → Prog A K β) (m : Mem A K) :
    (p.bind f).run sz m = (p.run sz m).bind fun r => (f r.1).run sz r.2 := by
  induction p generalizing m with
  | pure x => rfl
  | load a i k ih =>
    simp only [Prog.bind, Prog.run]
    split
    · exact ih _ m
    · rfl
  | store a i v k ih =>
    simp only [Prog.bind, Prog.run]
    split
    · exact ih _
    · rfl
  | fail e => rfl

/-- The same for sequential execution with bounds checks. -/
theorem run_fold {ι σ : Type} {sz : A → Int} {f : σ → ι → Prog A K σ} {xs : List ι} (g : σ → ι → σ) (m : Mem A K)
    (h : ∀ s, ∀ x ∈ xs, (f s x).run sz m = .ok (g s x, m)) (s : σ) :
    (Prog.fold f xs s).run sz m = .ok (xs.foldl g s, m) := by
  induction xs generalizing s with
  | nil => rfl
  | cons x xs ih =>
    rw [Prog.fold, run_bind, h s x List.mem_cons_self]
    exact ih (fun s x hx => h s x (List.mem_cons_of_mem _ hx)) _

variable [Field K]

theorem foldl_add_irange (lo hi : Int) (f : Int → K) (s : K) :
    (irange lo hi).foldl (fun a p => a + f p) s = s + ∑ p ∈ Ico lo hi, f p := by
  have h1 : ∀ (l : List Int) (s : K), l.foldl (fun a p => a + f p) s = s + (l.map f).sum := by
    intro l
    induction l with
    | nil => intro s; simp
    | cons x l ih => intro s; rw [List.foldl_cons, ih, List.map_cons, List.sum_cons, add_assoc]
  have h2 : Ico lo hi = (irange lo hi).toFinset := by
    ext x; simp
  rw [h1, h2, List.sum_toFinset _ (nodup_irange lo hi)]

section
variable {sz : A → Int} {M : CSR A} (hM : CSRWf sz M)
include hM

theorem Spec.CSRWf.rowPtr_idx {i : Int} (h0 : 0 ≤ i) (h1 : i ≤ M.rows) :
    (Prog.idxAt M.rowIdx i : Prog A K Int) = .pure (rowPtr M i) := by
  have hl := hM.len
  unfold Prog.idxAt rowPtr
  rw [if_pos h0]
  refine Prog.idx_of_some ?_
  have : i.toNat < M.rowIdx.length := by omega
  rw [List.getD_eq_getElem?_getD, List.getElem?_eq_getElem this]; rfl

theorem Spec.CSRWf.col_idx {p : Int} (h0 : 0 ≤ p) (h1 : p < M.colIdx.length) :
    (Prog.idxAt M.colIdx p : Prog A K Int) = .pure (colOf M p) := by
  unfold Prog.idxAt colOf
  rw [if_pos h0]
  refine Prog.idx_of_some ?_
  have : p.toNat < M.colIdx.length := by omega
  rw [List.getD_eq_getElem?_getD, List.getElem?_eq_getElem this]; rfl

theorem Spec.CSRWf.col_range {p : Int} (h0 : 0 ≤ p) (h1 : p < M.colIdx.length) :
    0 ≤ colOf M p ∧ colOf M p < M.cols := by
  have : p.toNat < M.colIdx.length := by omega
  unfold colOf
  rw [List.getD_eq_getElem?_getD, List.getElem?_eq_getElem this]
  exact hM.col _ (List.getElem_mem this)

theorem Spec.CSRWf.in_row {i p : Int} (h0 : 0 ≤ i) (h1 : i < M.rows) (hp : p ∈ irange (rowPtr M i) (rowPtr M (i + 1))) :
    0 ≤ p ∧ p < M.colIdx.length ∧ InB sz M.vals p := by
  rw [mem_irange] at hp
  have := hM.lo i h0 h1.le
  have := hM.hi (i + 1) (by omega) (by omega)
  have := hM.vals
  exact ⟨by omega, by omega, by constructor <;> omega⟩

theorem Spec.CSRWf.rowLoop_eq {σ : Type} {i : Int} (h0 : 0 ≤ i) (h1 : i < M.rows) (f : σ → Int → Prog A K σ) (s : σ) :
    M.rowLoop i f s = Prog.fold f (irange (rowPtr M i) (rowPtr M (i + 1))) s := by
  unfold CSR.rowLoop
  rw [hM.rowPtr_idx h0 h1.le, hM.rowPtr_idx (by omega) (by omega)]
  rfl

theorem Spec.CSRWf.addTerm_eq {p : Int} (h0 : 0 ≤ p) (h1 : p < M.colIdx.length) (x : A) (s : K) :
    M.addTerm x s p = (Prog.rd M.vals p).bind fun v => (Prog.rd x (colOf M p)).bind fun xv => .pure (s + v * xv) := by
  unfold CSR.addTerm
  rw [hM.col_idx h0 h1]
  rfl

theorem Spec.CSRWf.row_foot {i : Int} (h0 : 0 ≤ i) (h1 : i < M.rows) (x : A) (hx : M.cols ≤ sz x) (s : K)
    {W : A → Int → Prop} :
    (M.rowLoop i (M.addTerm x) s).Foot sz (fun a n => a = M.vals ∨ a = x) W := by
  rw [hM.rowLoop_eq h0 h1]
  refine foot_fold (fun s p hp => ?_) s
  obtain ⟨p0, p1, p2⟩ := hM.in_row h0 h1 hp
  rw [hM.addTerm_eq p0 p1]
  obtain ⟨c0, c1⟩ := hM.col_range p0 p1
  exact ⟨p2, Or.inl rfl, fun v => ⟨⟨c0, by omega⟩, Or.inr rfl, fun _ => trivial⟩⟩

theorem Spec.CSRWf.row_exec {β : Type} {i : Int} (h0 : 0 ≤ i) (h1 : i < M.rows) (x : A) (s : K) (m : Mem A K)
    (k : K → Prog A K β) :
    ((M.rowLoop i (M.addTerm x) s).bind k).exec m =
      (k (s + ∑ p ∈ Ico (rowPtr M i) (rowPtr M (i + 1)), m M.vals p * m x (colOf M p))).exec m := by
  rw [hM.rowLoop_eq h0 h1, exec_fold (fun s p => s + m M.vals p * m x (colOf M p)) m]
  · rw [foldl_add_irange]
  · intro s p hp k
    obtain ⟨p0, p1, -⟩ := hM.in_row h0 h1 hp
    rw [hM.addTerm_eq p0 p1]
    rfl

/-- Summing entries of a row against a vector is the dense product. -/
theorem Spec.CSRWf.sum_dense {i : Int} (h0 : 0 ≤ i) (h1 : i < M.rows) (v x : Int → K) :
    ∑ p ∈ Ico (rowPtr M i) (rowPtr M (i + 1)), v p * x (colOf M p) = mulVec M.cols (dense M v) x i := by
  unfold mulVec dense
  simp only [Finset.sum_mul]
  rw [Finset.sum_comm]
  refine Finset.sum_congr rfl fun p hp => ?_
  have hp' : p ∈ irange (rowPtr M i) (rowPtr M (i + 1)) := by
    rw [mem_irange]; exact Finset.mem_Ico.1 hp
  obtain ⟨p0, p1, -⟩ := hM.in_row h0 h1 hp'
  have hc := hM.col_range p0 p1
  rw [Finset.sum_eq_single (colOf M p)]
  · rw [if_pos rfl]
  · intro j _ hj; rw [if_neg (Ne.symm hj)]; ring
  · intro h; exact absurd (Finset.mem_Ico.2 hc) h

/-- `matVecMultiply` writes the dense product. -/
theorem matVec_det (x b : A) (hx : M.cols ≤ sz x) (hb : M.rows ≤ sz b) (hxb : x ≠ b) (hvb : M.vals ≠ b) (m : Mem A K) :
    ∃ m', Det sz (M.matVec x b) m m' ∧ WritesAll M.rows b m m' (mulVec M.cols (dense M (m M.vals)) (m x)) := by
  refine forAll_det M.rows _ _ m (fun i h0 h1 => ?_) (fun i h0 h1 => ?_)
  · refine ((hM.row_foot h0 h1 x hx 0).mono ?_ (fun _ _ h => h)).bind fun s => ⟨⟨h0, by omega⟩, ⟨rfl, rfl⟩, trivial⟩
    rintro a n (rfl | rfl)
    · exact Or.inl hvb
    · exact Or.inl hxb
  · have := hM.row_exec h0 h1 x (0 : K) m (fun s => Prog.wr b i s)
    simp only [Prog.monad_bind]
    rw [this, zero_add, hM.sum_dense h0 h1]
    exact Mem.set_same _ _ _ _


/-! ### Diagonal entries -/

/-- The single diagonal entry is the diagonal of the dense matrix. -/
theorem dense_diag {i p : Int} (v : Int → K) (hp0 : rowPtr M i ≤ p) (hp1 : p < rowPtr M (i + 1)) (hc : colOf M p = i)
    (hu : ∀ q, rowPtr M i ≤ q → q < rowPtr M (i + 1) → colOf M q = i → q = p) : dense M v i i = v p := by
  unfold dense
  rw [Finset.sum_eq_single p]
  · rw [if_pos hc]
  · intro q hq hne
    rw [Finset.mem_Ico] at hq
    rw [if_neg fun h => hne (hu q hq.1 hq.2 h)]
  · intro h; exact absurd (Finset.mem_Ico.2 ⟨hp0, hp1⟩) h

theorem sum_offdiag {i p : Int} (h0 : 0 ≤ i) (h1 : i < M.rows) (v x : Int → K) (hp0 : rowPtr M i ≤ p)
    (hp1 : p < rowPtr M (i + 1)) (hc : colOf M p = i)
    (hu : ∀ q, rowPtr M i ≤ q → q < rowPtr M (i + 1) → colOf M q = i → q = p) :
    ∑ q ∈ Ico (rowPtr M i) (rowPtr M (i + 1)), (if colOf M q = i then 0 else v q * x (colOf M q)) =
      mulVec M.cols (dense M v) x i - dense M v i i * x i := by
  rw [← hM.sum_dense h0 h1, dense_diag hM v hp0 hp1 hc hu]
  have hmem : p ∈ Ico (rowPtr M i) (rowPtr M (i + 1)) := Finset.mem_Ico.2 ⟨hp0, hp1⟩
  rw [← Finset.add_sum_erase _ _ hmem, ← Finset.add_sum_erase _ (fun q => v q * x (colOf M q)) hmem]
  rw [if_pos hc, hc]
  have : ∑ q ∈ (Ico (rowPtr M i) (rowPtr M (i + 1))).erase p, (if colOf M q = i then 0 else v q * x (colOf M q)) =
      ∑ q ∈ (Ico (rowPtr M i) (rowPtr M (i + 1))).erase p, v q * x (colOf M q) := by
    refine Finset.sum_congr rfl fun q hq => ?_
    rw [Finset.mem_erase, Finset.mem_Ico] at hq
    rw [if_neg fun h => hq.1 (hu q hq.2.1 hq.2.2 h)]
  rw [this]
  ring

end

theorem foldl_last {P : Int → Prop} [DecidablePred P] {β : Type} (f : Int → β) (p0 : Int) (ps : List Int)
    (hP : P p0) (hu : ∀ q ∈ ps, P q → q = p0) (d : Option β) (h : p0 ∈ ps ∨ d = some (f p0)) :
    ps.foldl (fun d p => if P p then some (f p) else d) d = some (f p0) := by
  induction ps generalizing d with
  | nil => rcases h with h | h
           · simp at h
           · exact h
  | cons q ps ih =>
    rw [List.foldl_cons]
    refine ih (fun q' hq' => hu q' (List.mem_cons_of_mem _ hq')) _ ?_
    by_cases hq : P q
    · rw [if_pos hq, hu q List.mem_cons_self hq]; exact Or.inr rfl
    · rw [if_neg hq]
      rcases h with h | h
      · rcases List.mem_cons.1 h with rfl | h
        · exact absurd hP hq
        · exact Or.inl h
      · exact Or.inr h

variable [LinearOrder K] [IsStrictOrderedRing K]

theorem foldl_jacobi (cl : Int → Int) (v x : Int → K) (i : Int) (gd : K → K) (ps : List Int) (s : K × Option K) :
    ps.foldl (fun st p => if cl p ≠ i then (st.1 + v p * x (cl p), st.2) else (st.1, some (gd (v p)))) s =
      (ps.foldl (fun a p => a + if cl p = i then 0 else v p * x (cl p)) s.1,
       ps.foldl (fun d p => if cl p = i then some (gd (v p)) else d) s.2) := by
  induction ps generalizing s with
  | nil => rfl
  | cons p ps ih =>
    simp only [List.foldl_cons]
    rw [ih]
    by_cases h : cl p = i <;> simp [h]

section
variable {sz : A → Int} {M : CSR A} (hM : CSRWf sz M) (hD : OneDiag M)
include hM hD

/-- `jacobiSmooth` before the swap, for any values: the guarded diagonal replaces the diagonal. -/
theorem jacobi_det_guard (eps : K) (x b tmp : A) (w : K) (hx : M.cols ≤ sz x) (hsq : M.rows ≤ M.cols)
    (hb : M.rows ≤ sz b) (ht : M.rows ≤ sz tmp) (hxt : x ≠ tmp) (hbt : b ≠ tmp) (hvt : M.vals ≠ tmp) (m : Mem A K) :
    ∃ m', Det sz (M.jacobi eps x b tmp w) m m' ∧ WritesAll M.rows tmp m m' (fun i =>
      w / guardDiag eps (dense M (m M.vals) i i) * (m b i - (mulVec M.cols (dense M (m M.vals)) (m x) i -
        dense M (m M.vals) i i * m x i)) + (1 - w) * m x i) := by
  refine forAll_det M.rows _ _ m (fun i h0 h1 => ?_) (fun i h0 h1 => ?_)
  · simp only [Prog.monad_bind]
    rw [hM.rowLoop_eq h0 h1]
    obtain ⟨p, hp0, hp1, hpc, hu⟩ := hD i h0 h1
    refine Prog.Foot.bind_post (fun st => st.2 ≠ none) ?_ ?_ ?_
    · refine foot_fold (fun s p hp => ?_) _
      obtain ⟨p0, p1, p2⟩ := hM.in_row h0 h1 hp
      rw [hM.col_idx p0 p1]
      obtain ⟨c0, c1⟩ := hM.col_range p0 p1
      simp only [Prog.pure_bind']
      split
      · exact ⟨p2, Or.inl hvt, fun v => ⟨⟨c0, by omega⟩, Or.inl hxt, fun _ => trivial⟩⟩
      · exact ⟨p2, Or.inl hvt, fun v => trivial⟩
    · have := post_fold (A := A) (K := K) (fun rest (st : K × Option K) => st.2 ≠ none ∨ p ∈ rest)
        (f := fun (st : K × Option K) j => (Prog.idxAt M.colIdx j).bind fun c =>
          if c ≠ i then (Prog.rd M.vals j).bind fun v => (Prog.rd x c).bind fun xv => pure (st.1 + v * xv, st.2)
          else (Prog.rd M.vals j).bind fun v => pure (st.1, some (guardDiag eps v)))
        (xs := irange (rowPtr M i) (rowPtr M (i + 1))) ?_ (0, none) (Or.inr (mem_irange.2 ⟨hp0, hp1⟩))
      · simpa using this
      · intro s q rest hq hI
        obtain ⟨p0, p1, p2⟩ := hM.in_row h0 h1 hq
        rw [hM.col_idx p0 p1]
        simp only [Prog.pure_bind']
        split
        · rename_i hne
          intro v v'
          rcases hI with hI | hI
          · exact Or.inl hI
          · rcases List.mem_cons.1 hI with rfl | hI
            · exact absurd hpc hne
            · exact Or.inr hI
        · intro v; exact Or.inl (by simp)
    · rintro ⟨s, d⟩ hd
      cases d with
      | none => exact absurd rfl hd
      | some d =>
        refine ⟨⟨h0, by omega⟩, Or.inl hbt, fun bv => ?_⟩
        change Prog.Foot _ _ _ (if w = 1 then _ else _)
        split
        · exact ⟨⟨h0, by omega⟩, ⟨rfl, rfl⟩, trivial⟩
        · exact ⟨⟨h0, by omega⟩, Or.inl hxt, fun _ => ⟨⟨h0, by omega⟩, ⟨rfl, rfl⟩, trivial⟩⟩
  · simp only [Prog.monad_bind]
    obtain ⟨p, hp0, hp1, hpc, hu⟩ := hD i h0 h1
    rw [hM.rowLoop_eq h0 h1, exec_fold (fun st p => if colOf M p ≠ i then (st.1 + m M.vals p * m x (colOf M p), st.2)
      else (st.1, some (guardDiag eps (m M.vals p)))) m]
    · rw [foldl_jacobi, foldl_last (P := fun p => colOf M p = i) (fun p => guardDiag eps (m M.vals p)) p _ hpc
        (fun q hq hc => by rw [mem_irange] at hq; exact hu q hq.1 hq.2 hc) _ (Or.inl (mem_irange.2 ⟨hp0, hp1⟩)),
        foldl_add_irange, zero_add, sum_offdiag hM h0 h1 (m M.vals) (m x) hp0 hp1 hpc hu,
        ← dense_diag hM (m M.vals) hp0 hp1 hpc hu]
      change Prog.exec (if w = 1 then _ else _) m tmp i = _
      split
      · rename_i hw
        subst hw
        refine (Mem.set_same _ _ _ _).trans ?_
        ring
      · exact Mem.set_same _ _ _ _
    · intro s q hq k
      obtain ⟨p0, p1, p2⟩ := hM.in_row h0 h1 hq
      rw [hM.col_idx p0 p1]
      simp only [Prog.pure_bind']
      split <;> rfl

/-- `updateDiags` leaves the reciprocals of the guarded diagonal. -/
theorem updateDiags_det (eps : K) (dinv : A) (hd : M.rows ≤ sz dinv) (hvd : M.vals ≠ dinv) (m : Mem A K) :
    ∃ m', Det sz (M.updateDiags eps dinv) m m' ∧
      WritesAll M.rows dinv m m' (fun i => 1 / guardDiag eps (dense M (m M.vals) i i)) := by
  obtain ⟨m1, d1, w1⟩ := forAll_det (sz := sz) (r := dinv) M.rows (fun i => (Prog.wr dinv i 0 : Prog A K Unit)) (fun _ => 0) m
    (fun i h0 h1 => ⟨⟨h0, by omega⟩, ⟨rfl, rfl⟩, trivial⟩) (fun i h0 h1 => Mem.set_same _ _ _ _)
  have hv1 : m1 M.vals = m M.vals := w1.frame _ hvd
  suffices H : ∃ m2, Det sz [forAll 0 M.rows fun irow =>
    M.rowLoop irow (fun (_ : Unit) j => do
      let c ← Prog.idxAt M.colIdx j
      if c = irow then
        let v ← Prog.rd M.vals j
        Prog.wr dinv irow (1 / guardDiag eps v)
      else pure ()) ()] m1 m2 ∧ WritesAll M.rows dinv m1 m2 (fun i => 1 / guardDiag eps (dense M (m M.vals) i i)) by
    obtain ⟨m2, d2, w2⟩ := H
    exact ⟨m2, det_append d1 d2, w2.view, fun n hn => (w2.out n hn).trans (w1.out n hn),
      fun b hb => (w2.frame b hb).trans (w1.frame b hb)⟩
  refine forAll_det M.rows _ _ m1 ?_ ?_
  · intro i h0 h1
    rw [hM.rowLoop_eq h0 h1]
    refine foot_fold (fun s p hp => ?_) _
    obtain ⟨p0, p1, p2⟩ := hM.in_row h0 h1 hp
    simp only [Prog.monad_bind]
    rw [hM.col_idx p0 p1]
    simp only [Prog.pure_bind']
    split
    · exact ⟨p2, Or.inl hvd, fun v => ⟨⟨h0, by omega⟩, ⟨rfl, rfl⟩, trivial⟩⟩
    · trivial
  · intro i h0 h1
    obtain ⟨p, hp0, hp1, hpc, hu⟩ := hD i h0 h1
    rw [hM.rowLoop_eq h0 h1, dense_diag hM (m M.vals) hp0 hp1 hpc hu]
    have hps : ∀ q ∈ irange (rowPtr M i) (rowPtr M (i + 1)), colOf M q = i → q = p := fun q hq hc => by
      rw [mem_irange] at hq; exact hu q hq.1 hq.2 hc
    have key : ∀ (ps : List Int) (m' : Mem A K), (∀ q ∈ ps, q ∈ irange (rowPtr M i) (rowPtr M (i + 1))) →
        (∀ b, b ≠ dinv → m' b = m1 b) → (p ∈ ps ∨ m' dinv i = 1 / guardDiag eps (m M.vals p)) →
        (Prog.fold (fun (_ : Unit) j => do
          let c ← Prog.idxAt M.colIdx j
          if c = i then
            let v ← Prog.rd M.vals j
            Prog.wr dinv i (1 / guardDiag eps v)
          else pure ()) ps ()).exec m' dinv i = 1 / guardDiag eps (m M.vals p) := by
      intro ps
      induction ps with
      | nil => intro m' _ _ h
               rcases h with h | h
               · simp at h
               · exact h
      | cons q ps ih =>
        intro m' hin hfr h
        obtain ⟨p0, p1, p2⟩ := hM.in_row h0 h1 (hin q List.mem_cons_self)
        simp only [Prog.fold, Prog.monad_bind]
        rw [hM.col_idx p0 p1]
        simp only [Prog.pure_bind']
        by_cases hq : colOf M q = i
        · obtain rfl := hps q (hin q List.mem_cons_self) hq
          rw [if_pos hq]
          change Prog.exec (Prog.fold _ ps ()) (Mem.set m' dinv i _) dinv i = _
          refine ih _ (fun q' h => hin q' (List.mem_cons_of_mem _ h)) (fun b hb => ?_) (Or.inr ?_)
          · funext n
            rw [Mem.set_of_ne _ _ (fun h => hb h.1), hfr b hb]
          · rw [Mem.set_same, hfr _ hvd, hv1]
        · rw [if_neg hq]
          change Prog.exec (Prog.fold _ ps ()) m' dinv i = _
          refine ih _ (fun q' h => hin q' (List.mem_cons_of_mem _ h)) hfr ?_
          rcases h with h | h
          · rcases List.mem_cons.1 h with rfl | h
            · exact absurd hpc hq
            · exact Or.inl h
          · exact Or.inr h
    exact key _ m1 (fun q h => h) (fun _ _ => rfl) (Or.inl (mem_irange.2 ⟨hp0, hp1⟩))

omit hD in
/-- The cached sweep with whatever the cache holds. -/
theorem jacobiCachedLoop_det (x b tmp dinv : A) (w : K) (hx : M.cols ≤ sz x) (hsq : M.rows ≤ M.cols)
    (hb : M.rows ≤ sz b) (ht : M.rows ≤ sz tmp) (hd : M.rows ≤ sz dinv) (hxt : x ≠ tmp) (hbt : b ≠ tmp)
    (hvt : M.vals ≠ tmp) (hdt : dinv ≠ tmp) (m : Mem A K) :
    ∃ m', Det sz (M.jacobiCachedLoop x b tmp dinv w) m m' ∧ WritesAll M.rows tmp m m' (fun i =>
      m x i + w * m dinv i * (m b i - mulVec M.cols (dense M (m M.vals)) (m x) i)) := by
  refine forAll_det M.rows _ _ m (fun i h0 h1 => ?_) (fun i h0 h1 => ?_)
  · refine ((hM.row_foot h0 h1 x hx 0).mono ?_ (fun _ _ h => h)).bind fun s => ?_
    · rintro a n (rfl | rfl)
      · exact Or.inl hvt
      · exact Or.inl hxt
    · exact ⟨⟨h0, by omega⟩, Or.inl hdt, fun _ => ⟨⟨h0, by omega⟩, Or.inl hbt, fun _ => ⟨⟨h0, by omega⟩, Or.inl hxt,
        fun _ => ⟨⟨h0, by omega⟩, ⟨rfl, rfl⟩, trivial⟩⟩⟩⟩
  · simp only [Prog.monad_bind]
    rw [hM.row_exec h0 h1, zero_add, hM.sum_dense h0 h1]
    refine (Mem.set_same _ _ _ _).trans ?_
    ring

end

end Madg
