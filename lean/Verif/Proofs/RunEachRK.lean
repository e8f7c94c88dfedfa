/-
The explicit integrators as drivers of single executions, in any arithmetic.
-/
import Verif.Proofs.RunEach
import Verif.Proofs.RunAny3
import Verif.Proofs.BlowUp

set_option linter.unusedSectionVars false

namespace Madg
open Spec

/-! ### Reductions in another order -/

theorem Comb.perm {K : Type} {op : K → K → K} {xs ys : List K} {r : K} (h : Comb op xs r) (hp : xs.Perm ys) : Comb op ys r := by
  cases h with
  | leaf x => rw [← List.singleton_perm.1 hp]; exact .leaf _
  | node as bs _ a b hx hy hq => exact .node as bs _ a b hx hy (hq.trans hp)

section
variable {A K C H : Type} [DecidableEq A] [Arith K] [LT K] [DecidableLT K] [LE K] [DecidableLE K] [DecidableEq K] [Max K] [Min K] {sz : A → Int}

/-- What the observers and the writer see of the memory. -/
structure ViewEach (S : Sim A K H) (sz : A → Int) (P : C → Prop) (loc : C → Int) (sol res : A) (keep : Mem A K → Prop)
    (R : (C → K) → K → Prop) (Q : (C → K) → K × K × K → Prop) (file : (C → K) → Status K → VtsFile) : Prop where
  resid : ∀ m mx x, (∀ c, P c → m res (loc c) = x c) → AllEnd sz (S.resid mx) m fun r m' => m' = m ∧ ∃ y, R x y ∧ r = residRecord mx y
  mon : ∀ m u, (∀ c, P c → m sol (loc c) = u c) → AllEnd sz S.solMon m fun v m' => m' = m ∧ Q u v
  write : ∀ m u st, (∀ c, P c → m sol (loc c) = u c) → keep m → CDet sz (S.write st) m (file u st) m

theorem resid_each (rt : K → K) {l : List Int} {a : A} (h : ∀ n ∈ l, InB sz a n) {cells : List C} {loc : C → Int}
    (hp : (cells.map loc).Perm l) (mx : K) (m : Mem A K) {x : C → K} (hx : ∀ c ∈ cells, m a (loc c) = x c) :
    AllEnd sz (residualCalculator rt mx l a) m fun r m' => m' = m ∧ ∃ y, Rms rt cells x y ∧ r = residRecord mx y := by
  refine AllEnd.bind (P := fun y m' => m' = m ∧ Rms rt cells x y) ?_ ?_
  · unfold residNorm
    rw [redIdx_eq_map]
    refine (allEnd_reduce_map _ _ _ _ (fun n => m a n ^ 2) m fun n hn => by
      rw [run_bind_ok (run_rd (h n hn) m)]; rfl).bind ?_
    rintro s m1 ⟨rfl, hs⟩
    refine AllEnd.ret ⟨rfl, s, hs.perm (List.Perm.cons _ ?_), ?_⟩
    · refine ((hp.map fun n => m1 a n ^ 2).symm).trans ?_
      rw [List.map_map]
      exact List.Perm.of_eq (List.map_congr_left fun c hc => by simp only [Function.comp_apply, hx c hc])
    · rw [← hp.length_eq, List.length_map]
  · rintro y m1 ⟨rfl, hy⟩
    exact AllEnd.ret ⟨rfl, y, hy, rfl⟩

end

/-! ### The controller in any arithmetic -/

section
variable {K : Type} [Arith K] [LT K] [DecidableLT K] [Pow K K]

/-- Controller state after the calls in `p`. -/
def PidInvA (tol mn mx : K) (c : PID K) (p : List (K × K)) : Prop :=
  c.errtol = tol ∧ c.minstep = mn ∧ c.maxstep = mx ∧
  c.steps = (p.map Prod.snd).drop (p.length - 3) ∧
  c.errs = (p.map fun x => stdMax x.1 dblEps).drop (p.length - 3)

/-- What a call returns after the calls in `p`. -/
def pidOutA (tol mn mx : K) (p : List (K × K)) (e s : K) : K :=
  if p.length < 3 then s
  else
    let a := p.getD (p.length - 2) (0, 0)
    let b := p.getD (p.length - 1) (0, 0)
    stdMax (stdMin (stdMax (stdMin (pidRaw tol b.2 s (stdMax a.1 dblEps) (stdMax b.1 dblEps) (stdMax e dblEps) s) (s * 1.1)) (s * 0.01)) mx) mn

theorem pidA_step {tol mn mx : K} {c : PID K} {p : List (K × K)} (h : PidInvA tol mn mx c p) (e s : K) :
    ∃ c', c.adapt e s = some (c', pidOutA tol mn mx p e s) ∧ PidInvA tol mn mx c' (p ++ [(e, s)]) := by
  obtain ⟨h1, h2, h3, h4, h5⟩ := h
  by_cases hp : p.length < 3
  · have hz : p.length - 3 = 0 := by omega
    rw [hz, List.drop_zero] at h4 h5
    refine ⟨{ c with steps := c.steps ++ [s], errs := c.errs ++ [stdMax e dblEps] }, ?_, ?_⟩
    · unfold PID.adapt pidOutA
      rw [if_pos (by rw [h5, List.length_map]; omega), if_pos hp]
    · have hz' : (p ++ [(e, s)]).length - 3 = 0 := by simp; omega
      refine ⟨h1, h2, h3, ?_, ?_⟩
      · rw [hz']; simp [h4]
      · rw [hz']; simp [h5]
  · obtain ⟨q, t, rfl, ht⟩ : ∃ q t, p = q ++ t ∧ t.length = 3 :=
      ⟨p.take (p.length - 3), p.drop (p.length - 3), (List.take_append_drop _ _).symm, by simp; omega⟩
    match t, ht with
    | [x, y, z], _ =>
      have hl : (q ++ [x, y, z]).length - 3 = q.length := by simp
      rw [hl, List.map_append, List.drop_append_of_le_length (by simp)] at h4 h5
      simp only [List.drop_eq_nil_of_le (by simp : (q.map Prod.snd).length ≤ q.length),
        List.drop_eq_nil_of_le (by simp : (q.map fun x : K × K => stdMax x.1 dblEps).length ≤ q.length),
        List.nil_append, List.map_cons, List.map_nil] at h4 h5
      refine ⟨{ c with steps := [y.2, z.2, s], errs := [stdMax y.1 dblEps, stdMax z.1 dblEps, stdMax e dblEps] }, ?_, ?_⟩
      · unfold PID.adapt pidOutA
        rw [if_neg (by simp [h5]), if_neg hp, h4, h5]
        simp [h1, h2, h3]
      · refine ⟨h1, h2, h3, ?_, ?_⟩
        · have : (q ++ [x, y, z] ++ [(e, s)]).length - 3 = (q ++ [x]).length := by simp
          rw [this, show q ++ [x, y, z] ++ [(e, s)] = (q ++ [x]) ++ [y, z, (e, s)] by simp, List.map_append,
            List.drop_append_of_le_length (by simp), List.drop_eq_nil_of_le (by simp)]
          simp
        · have : (q ++ [x, y, z] ++ [(e, s)]).length - 3 = (q ++ [x]).length := by simp
          rw [this, show q ++ [x, y, z] ++ [(e, s)] = (q ++ [x]) ++ [y, z, (e, s)] by simp, List.map_append,
            List.drop_append_of_le_length (by simp), List.drop_eq_nil_of_le (by simp)]
          simp

theorem pidOutA_proposal (tol mn mx : K) (d e : Nat → K) (k : Nat) :
    pidOutA tol mn mx ((List.range k).map fun i => (e i, d i)) (e k) (d k) = proposalAny tol mn mx d e k := by
  unfold pidOutA proposalAny
  rw [List.length_map, List.length_range]
  by_cases hk : k < 3
  · rw [if_pos hk, if_pos hk]
  · rw [if_neg hk, if_neg hk]
    have g : ∀ i, i < k → ((List.range k).map fun i => (e i, d i)).getD i (0, 0) = (e i, d i) := by
      intro i hi
      rw [List.getD_eq_getElem?_getD, List.getElem?_map, List.getElem?_range hi]
      rfl
    rw [g (k - 2) (by omega), g (k - 1) (by omega)]
    rfl

end

/-! ### Steps -/

section
variable {A K C H : Type} [DecidableEq A] [Arith K] [LT K] [DecidableLT K] [LE K] [DecidableLE K] [DecidableEq K] [Max K] [Min K] {sz : A → Int}
variable {N : Int} {scratch : A → Prop} {P : C → Prop} {loc : C → Int}
  {F : K → (C → K) → C → K} {rhs : A → A → K → Host A K} {I : Mem A K → Prop} (hR : RhsOn I sz N scratch P loc F rhs)
  {w : RKArr A} (hw : w.Ok sz N scratch)
  {vs : List A} (hvs : ∀ a ∈ vs, a ∉ [w.sol, w.res, w.k1, w.k2, w.k3, w.k4, w.stage] ∧ ¬ scratch a) {mc : Mem A K}
  {R : (C → K) → K → Prop} {Q : (C → K) → K × K × K → Prop} {file : (C → K) → Status K → VtsFile}
include hR

theorem ssprk3Slope_congr (t dt : K) {u v : C → K} (h : ∀ c, P c → u c = v c) (c : C) (hc : P c) :
    ssprk3Slope F t dt u c = ssprk3Slope F t dt v c := by
  have e1 : ∀ c, P c → F t u c = F t v c := hR.interior t u v h
  have e2 : ∀ c, P c → F (t + 1 * dt) (fun c => u c + dt * 1 * F t u c) c = F (t + 1 * dt) (fun c => v c + dt * 1 * F t v c) c :=
    hR.interior _ _ _ fun c hc => by rw [h c hc, e1 c hc]
  unfold ssprk3Slope
  rw [e1 c hc, e2 c hc]
  rw [hR.interior (t + 1 / 2 * dt) _ (fun c => v c + dt * (1 / 4 * F t v c + 1 / 4 * F (t + 1 * dt) (fun c => v c + dt * 1 * F t v c) c))
    (fun c hc => by rw [h c hc, e1 c hc, e2 c hc]) c hc]

include hw hvs

theorem rk3_each {S : Sim A K Unit} (hV : ViewEach S sz P loc w.sol w.res (fun m => ∀ a ∈ vs, m a = mc a) R Q file)
    (hdo : S.doStep = rk3Do N rhs w) (hnx : S.nextDT = keepDT) :
    SimEach S sz (ssprk3Method F) R Q file (fun _ _ d => d)
      (fun _ u _ m => (∀ c, P c → m w.sol (loc c) = u c) ∧ (∀ a ∈ vs, m a = mc a) ∧ I m)
      (fun _ t d u _ _ m => (∀ c, P c → m w.sol (loc c) = (ssprk3Method F).step t d u c) ∧ (∀ a ∈ vs, m a = mc a) ∧
        (∀ c, P c → m w.res (loc c) = (ssprk3Method F).slope t d u c) ∧ I m) where
  prop d e k := rfl
  step l u h m t d := by
    rintro ⟨h1, h2, hI⟩
    obtain ⟨m', e, q, hI', f⟩ := rk3_onA hR hw t d m hI
    have e2 : ∀ c, P c → m' w.k2 (loc c) = F (t + 1 * d) (fun c => inner loc m w.sol c + d * 1 * F t (inner loc m w.sol) c) c := by
      intro c hc
      rw [q.k2 c hc]
      exact hR.interior _ _ _ (fun c hc => by rw [q.k1 c hc]; rfl) c hc
    have e3 : ∀ c, P c → m' w.k3 (loc c) = F (t + 1 / 2 * d) (fun c => inner loc m w.sol c + d * (1 / 4 * F t (inner loc m w.sol) c +
        1 / 4 * F (t + 1 * d) (fun c => inner loc m w.sol c + d * 1 * F t (inner loc m w.sol) c) c)) c := by
      intro c hc
      rw [q.k3 c hc]
      exact hR.interior _ _ _ (fun c hc => by rw [q.k1 c hc, e2 c hc]; rfl) c hc
    have er : ∀ c, P c → 1 / 6 * m' w.k1 (loc c) + 1 / 6 * m' w.k2 (loc c) + 2 / 3 * m' w.k3 (loc c) = ssprk3Slope F t d u c := by
      intro c hc
      rw [← ssprk3Slope_congr hR t d h1 c hc, q.k1 c hc, e2 c hc, e3 c hc]
      rfl
    rw [hdo]
    refine AllEnd.of (CDet.ofHost e) ⟨0, trivial, fun c hc => ?_, fun a ha => ?_, fun c hc => ?_, hI'⟩
    · rw [q.sol c hc, h1 c hc, er c hc]; rfl
    · obtain ⟨a1, a2⟩ := hvs a ha
      simp only [List.mem_cons, List.not_mem_nil, or_false, not_or] at a1
      rw [f a (by simp only [List.mem_cons, List.not_mem_nil, or_false, not_or]; tauto) a2, h2 a ha]
    · rw [q.res c hc, er c hc]; rfl
  resid l t d u e h m mx hP := hV.resid m mx _ hP.2.2.1
  mon l t d u e h m hP := hV.mon m _ hP.1
  write l t d u e h m st hP := hV.write m _ st hP.1 hP.2.1
  next l t d u e h m hP := by
    rw [hnx]
    exact AllEnd.ret ⟨rfl, rfl, hP.1, hP.2.1, hP.2.2.2⟩

end

section
variable {A K C H : Type} [DecidableEq A] [Arith K] [LT K] [DecidableLT K] [LE K] [DecidableLE K] [DecidableEq K] [Max K] [Min K] {sz : A → Int}
variable {N : Int} {scratch : A → Prop} {P : C → Prop} {loc : C → Int}
  {F : (C → K) → C → K} {rhs : A → A → K → Host A K} {I : Mem A K → Prop} (hR : RhsOn I sz N scratch P loc (fun _ => F) rhs)
  {w : RKArr A} (hw : w.Ok sz N scratch)
  {vs : List A} (hvs : ∀ a ∈ vs, a ∉ [w.sol, w.res, w.k1, w.k2, w.k3, w.k4, w.stage] ∧ ¬ scratch a) {mc : Mem A K}
  {R : (C → K) → K → Prop} {Q : (C → K) → K × K × K → Prop} {file : (C → K) → Status K → VtsFile}
  {cells : List C} (hcells : ∀ c, c ∈ cells ↔ P c) (hnd : (cells.map loc).Nodup)
include hR hw hcells hnd

/-- An ode23 step. -/
theorem ode23_each_step (st : Ode23 K) (t dt : K) (m : Mem A K) (hI : I m) (hfirst : st.first = false → ∀ c, P c → m w.k4 (loc c) = F (inner loc m w.sol) c)
    (hz : ∀ n, 0 ≤ n → n < N → (∀ c, P c → loc c ≠ n) → m w.k1 n = 0 ∧ m w.k2 n = 0 ∧ m w.k3 n = 0 ∧ m w.k4 n = 0)
    {u : C → K} (hu : ∀ c, P c → m w.sol (loc c) = u c) :
    AllEnd sz (ode23Step N rhs w st t dt) m fun st' m' =>
      (∃ s, LargestGap cells (N.toNat - cells.length) (bs23Slope F dt u) (bs23SlopeHat F dt u) s ∧ st' = ⟨false, if 0 < dt * s then dt * s else 0⟩) ∧
      (∀ c, P c → m' w.sol (loc c) = u c + dt * bs23Slope F dt u c) ∧
      (∀ c, P c → m' w.res (loc c) = bs23Slope F dt u c) ∧
      (∀ c, P c → m' w.k4 (loc c) = F (inner loc m' w.sol) c) ∧
      (∀ n, 0 ≤ n → n < N → (∀ c, P c → loc c ≠ n) → m' w.k1 n = 0 ∧ m' w.k2 n = 0 ∧ m' w.k3 n = 0 ∧ m' w.k4 n = 0) ∧
      (∀ b, b ∉ [w.sol, w.res, w.k1, w.k2, w.k3, w.k4, w.stage] → ¬ scratch b → m' b = m b) ∧ I m' := by
  obtain ⟨m', d, q, hI', hres, hz', f⟩ := ode23_fullA hR hw st.first t dt m hI hfirst
  have hF : ∀ u v : C → K, (∀ c, P c → u c = v c) → ∀ c, P c → F u c = F v c := hR.interior 0
  have e1 : ∀ c, P c → m' w.k1 (loc c) = F u c := fun c hc => by rw [q.k1 c hc]; exact hF _ _ hu c hc
  have e2 : ∀ c, P c → m' w.k2 (loc c) = F (fun c => u c + dt * (1 / 2) * F u c) c := fun c hc => by
    rw [q.k2 c hc]; exact hF _ _ (fun c hc => by rw [hu c hc, e1 c hc]) c hc
  have e3 : ∀ c, P c → m' w.k3 (loc c) = F (fun c => u c + dt * (0 * F u c + 3 / 4 * F (fun c => u c + dt * (1 / 2) * F u c) c)) c :=
    fun c hc => by rw [q.k3 c hc]; exact hF _ _ (fun c hc => by rw [hu c hc, e1 c hc, e2 c hc]) c hc
  have es : ∀ c, P c → m' w.sol (loc c) = u c + dt * bs23Slope F dt u c := fun c hc => by
    rw [q.sol c hc, hu c hc, e1 c hc, e2 c hc, e3 c hc]; rfl
  have e4 : ∀ c, P c → m' w.k4 (loc c) = F (fun c => u c + dt * bs23Slope F dt u c) c := fun c hc => by
    rw [q.k4 c hc]; exact hF _ _ es c hc
  have er : ∀ c, P c → m' w.res (loc c) = bs23Slope F dt u c := fun c hc => by
    rw [hres _ (hR.range c hc).1 (hR.range c hc).2, e1 c hc, e2 c hc, e3 c hc]; rfl
  have ho := hz' hz
  refine (CDet.ofHost d).allEnd ?_
  have rd : ∀ a ∈ [w.sol, w.res, w.k1, w.k2, w.k3, w.k4, w.stage], ∀ i ∈ irange 0 N, (Prog.rd a i : Prog A K K).run sz m' = .ok (m' a i, m') := by
    intro a ha i hi
    rw [mem_irange] at hi
    exact run_rd ⟨hi.1, by rw [hw.size a ha]; exact hi.2⟩ m'
  refine (allEnd_reduce_map (sz := sz) max 0 (irange 0 N) _ (fun i => fabs (m' w.res i - (7 / 24 * m' w.k1 i + 1 / 4 * m' w.k2 i +
    1 / 3 * m' w.k3 i + 1 / 8 * m' w.k4 i))) m' fun i hi => by
      refine (run_bind_ok (rd w.k1 (by simp) i hi)).trans ((run_bind_ok (rd w.k2 (by simp) i hi)).trans
        ((run_bind_ok (rd w.k3 (by simp) i hi)).trans ((run_bind_ok (rd w.k4 (by simp) i hi)).trans
        ((run_bind_ok (rd w.res (by simp) i hi)).trans rfl)))) ).bind ?_
  rintro r m1 ⟨rfl, hr⟩
  refine AllEnd.ret ⟨⟨r, ?_, rfl⟩, es, er, fun c hc => q.k4 c hc, ho, f, hI'⟩
  obtain ⟨rest, hperm⟩ : ∃ rest, (cells.map loc ++ rest).Perm (irange 0 N) := by
    have hsub : (cells.map loc).Subperm (irange 0 N) := List.subperm_of_subset hnd fun n hn => by
      obtain ⟨c, hc, rfl⟩ := List.mem_map.1 hn
      exact mem_irange.2 (hR.range c ((hcells c).1 hc))
    obtain ⟨l, hl, hs⟩ := hsub
    obtain ⟨l', hl'⟩ := hs.exists_perm_append
    exact ⟨l', ((hl.symm.append_right l').trans hl'.symm)⟩
  have hlen : rest.length = N.toNat - cells.length := by
    have := hperm.length_eq
    rw [List.length_append, List.length_map, length_irange] at this
    have h0 : (N - 0).toNat = N.toNat := by rw [sub_zero]
    omega
  have hdis : ∀ n ∈ rest, 0 ≤ n ∧ n < N ∧ ∀ c, P c → loc c ≠ n := by
    intro n hn
    have h1 := mem_irange.1 (hperm.mem_iff.1 (List.mem_append_right _ hn))
    refine ⟨h1.1, h1.2, fun c hc e => ?_⟩
    have := (hperm.nodup_iff.2 (nodup_irange 0 N))
    exact (List.nodup_append.1 this).2.2 _ (List.mem_map.2 ⟨c, (hcells c).2 hc, rfl⟩) _ hn e
  refine hr.perm (List.Perm.cons _ ((hperm.map _).symm.trans ?_))
  rw [List.map_append, List.map_map, ← hlen]
  refine List.Perm.of_eq (congrArg₂ _ (List.map_congr_left fun c hc => ?_) (List.eq_replicate_iff.2 ⟨by simp, fun x hx => ?_⟩))
  · have hc := (hcells c).1 hc
    simp only [Function.comp_apply]
    rw [er c hc, e1 c hc, e2 c hc, e3 c hc, e4 c hc]
    rfl
  · obtain ⟨n, hn, rfl⟩ := List.mem_map.1 hx
    obtain ⟨a, b, c⟩ := hdis n hn
    obtain ⟨z1, z2, z3, z4⟩ := ho n a b c
    rw [hres n a b, z1, z2, z3, z4]
    rfl

include hvs

theorem ode23_each [Pow K K] {S : Sim A K (Ode23 K × PID K)} (hV : ViewEach S sz P loc w.sol w.res (fun m => ∀ a ∈ vs, m a = mc a) R Q file)
    (hdo : S.doStep = ode23Do N rhs w) (hnx : S.nextDT = ode23Next) (tol mn mx : K) :
    SimEach S sz (bs23Method F cells (N.toNat - cells.length) tol mn mx) R Q file (pidOutA tol mn mx)
      (fun l u h m => (∀ c, P c → m w.sol (loc c) = u c) ∧ (∀ a ∈ vs, m a = mc a) ∧
        (∀ n, 0 ≤ n → n < N → (∀ c, P c → loc c ≠ n) → m w.k1 n = 0 ∧ m w.k2 n = 0 ∧ m w.k3 n = 0 ∧ m w.k4 n = 0) ∧
        (h.1.first = false → ∀ c, P c → m w.k4 (loc c) = F (inner loc m w.sol) c) ∧ PidInvA tol mn mx h.2 l ∧ I m)
      (fun l t d u e h m => (∀ c, P c → m w.sol (loc c) = u c + d * bs23Slope F d u c) ∧ (∀ a ∈ vs, m a = mc a) ∧
        (∀ c, P c → m w.res (loc c) = bs23Slope F d u c) ∧
        (∀ n, 0 ≤ n → n < N → (∀ c, P c → loc c ≠ n) → m w.k1 n = 0 ∧ m w.k2 n = 0 ∧ m w.k3 n = 0 ∧ m w.k4 n = 0) ∧
        (∀ c, P c → m w.k4 (loc c) = F (inner loc m w.sol) c) ∧ PidInvA tol mn mx h.2 l ∧ h.1 = ⟨false, e⟩ ∧ I m) where
  prop d e k := pidOutA_proposal tol mn mx d e k
  step l u h m t d := by
    rintro ⟨h1, h2, h3, h4, h5, hI⟩
    rw [hdo]
    refine (ode23_each_step hR hw hcells hnd h.1 t d m hI h4 h3 h1).bind ?_
    rintro st m' ⟨⟨s, hs, rfl⟩, a1, a2, a3, a4, a5, hI'⟩
    exact AllEnd.ret ⟨_, ⟨s, hs, rfl⟩, a1, fun a ha => by rw [a5 a (hvs a ha).1 (hvs a ha).2, h2 a ha], a2, a4, a3, h5, rfl, hI'⟩
  resid l t d u e h m mx hP := hV.resid m mx _ hP.2.2.1
  mon l t d u e h m hP := hV.mon m _ hP.1
  write l t d u e h m st hP := hV.write m _ st hP.1 hP.2.1
  next l t d u e h m := by
    rintro ⟨h1, h2, -, h4, h5, h6, h7, hI⟩
    obtain ⟨c', e1, e2⟩ := pidA_step h6 e d
    rw [hnx]
    unfold ode23Next
    rw [h7]
    dsimp only
    rw [e1]
    exact AllEnd.ret ⟨rfl, rfl, h1, h2, h4, fun _ => h5, e2, hI⟩

end

end Madg
