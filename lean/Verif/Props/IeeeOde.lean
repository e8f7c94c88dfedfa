/-
C108: the adaptive integrator in floating-point arithmetic with overflow, infinities and NaN.
-/
import Verif.Proofs.IeeeErr
import Verif.Props.IeeeCH

set_option linter.unusedSectionVars false
set_option linter.unusedVariables false

namespace Madg
open Spec

section
variable {F : IeeeFmt} [Pow (Ieee F) (Ieee F)] {u τ : ℚ} (hr : Rounds F.toFloatFmt.round u τ) (hp : 4 ≤ F.prec) (he : F.emin ≤ 0)
  (hm : 64 ≤ F.emax) (hu : u ≤ 1 / 64) (hτ53 : τ ≤ 1 / 2 ^ 53) (hP : PowFn (F := F) (· ^ ·))
include hr hp he hm hu hτ53 hP

/-- C108. The step size control never proposes anything but an ordinary number between the smallest and the largest step: for every
sequence of error estimates that are ordinary numbers of size at most `Em`, however they vary, provided the tolerance is neither so small
nor so large that its quotients with the errors overflow or vanish. -/
theorem C108_sizes (tol mn mx : Ieee F) (Em : ℚ) (hE : 1 ≤ Em)
    (ot : Ordinary tol) (ht0 : 0 < value tol) (ht1 : τ * Em ≤ value tol) (ht2 : 2 * Em < 2 ^ F.emax * value tol)
    (ht3 : 2 ^ 55 * value tol < 2 ^ F.emax) (ht4 : 2 ^ 54 * τ * value tol ≤ 1)
    (on : Ordinary mn) (ox : Ordinary mx) (hn0 : 2 * τ ≤ value mn) (hn1 : 0 < value mn) (hnx : value mn ≤ value mx) (hx1 : value mx ≤ 1)
    (d e : Nat → Ieee F) (k : Nat) (h0 : Ordinary (d 0) ∧ value mn ≤ value (d 0) ∧ value (d 0) ≤ value mx)
    (hs : ∀ i, i < k → d (i + 1) = proposalAny tol mn mx d e i)
    (hee : ∀ i, i ≤ k → Ordinary (e i) ∧ 0 ≤ value (e i) ∧ value (e i) ≤ Em) :
    Ordinary (proposalAny tol mn mx d e k) ∧ value mn ≤ value (proposalAny tol mn mx d e k) ∧
      value (proposalAny tol mn mx d e k) ≤ value mx := by
  have := proposals_ok hp he hm hr hu hτ53 hP hE ot ht0 ht1 ht2 ht3 ht4 on ox hn0 hn1 hnx hx1 k ⟨h0.1, h0.2.1, h0.2.2⟩ hs
    (fun i hi => ⟨(hee i hi).1, (hee i hi).2.1, (hee i hi).2.2⟩)
  exact ⟨this.ord, this.lo, this.hi⟩

end

section
variable {F : IeeeFmt} {u τ : ℚ} (hr : Rounds F.toFloatFmt.round u τ) (hp : 4 ≤ F.prec) (he : F.emin ≤ 0) (hm : 8 ≤ F.emax)
include hr hp he hm

/-- The size of the solution of the discrete Poisson problem. -/
theorem ieee_solution_le (sn cs : Ieee F → Ieee F) (hsn : UnitFn sn) (hcs : UnitFn cs)
    (xb yb zb dx : Ieee F) (L n : ℚ) (hxb : Ordinary xb ∧ |value xb| ≤ L) (hyb : Ordinary yb ∧ |value yb| ≤ L)
    (hzb : Ordinary zb ∧ |value zb| ≤ L) (hdx : Ordinary dx) (h0 : 0 < value dx) (h1 : value dx ≤ 1) (hτ : 256 * τ ≤ value dx ^ 2)
    (nx ny nz : Int) (hn : 1 ≤ nx ∧ 1 ≤ ny ∧ 1 ≤ nz) (hnn : (nx : ℚ) + 1 ≤ n ∧ (ny : ℚ) + 1 ≤ n ∧ (nz : ℚ) + 1 ≤ n)
    (hX : 16 * (L + 4 * n) < (2 : ℚ) ^ F.emax) (us : Int × Int × Int → ℚ)
    (hus : PoisSolves (value dx) nx ny nz (prescribedValue sn cs xb yb zb dx) us)
    (H : ℚ) (hH : H = ((nz : ℚ) + 1) * value dx) (c : Int × Int × Int) (hc : In3 nx ny nz c) : |us c| ≤ 1 + 3 / 8 * H ^ 2 := by
  have hus' : PoisSolves (asFl dx).val nx ny nz (prescribed (liftFn sn) (liftFn cs) (asFl xb) (asFl yb) (asFl zb) (asFl dx)) us := by
    intro i j k hi hj hk
    have fx := fun i h => (same_fn_centre hr hp he hm hsn hcs hxb hyb hzb hdx h0 h1 hτ hn hnn hX hsn hxb (i := i) h hnn.1).val
    have fy := fun i h => (same_fn_centre hr hp he hm hsn hcs hxb hyb hzb hdx h0 h1 hτ hn hnn hX hcs hyb (i := i) h hnn.2.1).val
    have fz := fun i h => (same_fn_centre hr hp he hm hsn hcs hxb hyb hzb hdx h0 h1 hτ hn hnn hX hcs hzb (i := i) h hnn.2.2).val
    have e : ∀ i j k : Int, -1 ≤ i ∧ i ≤ nx → -1 ≤ j ∧ j ≤ ny → -1 ≤ k ∧ k ≤ nz →
        prescribed (liftFn sn) (liftFn cs) (asFl xb) (asFl yb) (asFl zb) (asFl dx) i j k = prescribedValue sn cs xb yb zb dx i j k := by
      intro i j k h1 h2 h3
      unfold prescribed prescribedValue
      rw [fx i h1, fy j h2, fz k h3]
    rw [← hus i j k hi hj hk]
    unfold poisRhs
    rw [e i j k (by omega) (by omega) (by omega)]
    congr 1
    have ee : ∀ a b c : Int, -1 ≤ a ∧ a ≤ nx → -1 ≤ b ∧ b ≤ ny → -1 ≤ c ∧ c ≤ nz →
        extDirichlet nx ny nz (prescribed (liftFn sn) (liftFn cs) (asFl xb) (asFl yb) (asFl zb) (asFl dx)) (fun i j k => us (i, j, k)) a b c =
        extDirichlet nx ny nz (prescribedValue sn cs xb yb zb dx) (fun i j k => us (i, j, k)) a b c := by
      intro a b c h1 h2 h3
      unfold extDirichlet
      rw [e a b c h1 h2 h3]
    unfold lap3 d2x d2y d2z
    rw [ee _ _ _ (by omega) (by omega) (by omega), ee _ _ _ (by omega) (by omega) (by omega), ee _ _ _ (by omega) (by omega) (by omega),
      ee _ _ _ (by omega) (by omega) (by omega), ee _ _ _ (by omega) (by omega) (by omega), ee _ _ _ (by omega) (by omega) (by omega),
      ee _ _ _ (by omega) (by omega) (by omega)]
    rfl
  have hsn' := liftFn_le hsn
  have hcs' := liftFn_le hcs
  have hB := C104_maximum (value dx) h0 nx ny nz hn _ (prescribed_le hsn' hcs') us hus'
  rw [← hH] at hB
  exact hB c hc

end

section
variable {A : Type} [DecidableEq A] {F : IeeeFmt} {u τ : ℚ} [Pow (Ieee F) (Ieee F)]
  (hr : Rounds F.toFloatFmt.round u τ) (hp : 4 ≤ F.prec) (he : F.emin ≤ 0) (hm : 64 ≤ F.emax)
  (hu : u ≤ 1 / 64) (hτ53 : τ ≤ 1 / 2 ^ 53) (hP : PowFn (F := F) (· ^ ·))
  (sz : A → Int) (E : Env (Ieee F)) (o : RunOpts (Ieee F)) (w : ProgArr A)
  (heq : o.sel.equation = "poisson") (hcfl : o.useCfl = false) (hlf : o.logFreq ≠ 0)
  (hms : 0 < o.maxSteps) (hM : o.maxSteps < 2147483648)
  (hbx : o.sel.bcx ∈ ["periodic", "neumann", "dirichlet"]) (hby : o.sel.bcy ∈ ["periodic", "neumann", "dirichlet"])
  (hbz : o.sel.bcz ∈ ["periodic", "neumann", "dirichlet"]) (hdim : o.sel.dimension = 3)
  (hn : 2 ≤ o.nx ∧ 2 ≤ o.ny ∧ 2 ≤ o.nz) (hw : ArraysPois sz w o.nx o.ny o.nz)
  (hsn : UnitFn E.sn) (hcs : UnitFn E.cs) (L n : ℚ) (hxb : Ordinary o.box.xbeg ∧ |value o.box.xbeg| ≤ L)
  (hyb : Ordinary o.box.ybeg ∧ |value o.box.ybeg| ≤ L) (hzb : Ordinary o.box.zbeg ∧ |value o.box.zbeg| ≤ L)
  (dx : Ieee F) (hdx : dx = (o.box.xend - o.box.xbeg) / (o.nx : Ieee F)) (odx : Ordinary dx) (h0 : 0 < value dx) (h1 : value dx ≤ 1)
  (hτ : 256 * τ ≤ value dx ^ 2) (hnn : (o.nx : ℚ) + 1 ≤ n ∧ (o.ny : ℚ) + 1 ≤ n ∧ (o.nz : ℚ) + 1 ≤ n)
  (hX : 16 * (L + 4 * n) < (2 : ℚ) ^ F.emax) (us : Int × Int × Int → ℚ)
  (hus : PoisSolves (value dx) o.nx o.ny o.nz (prescribedValue E.sn E.cs o.box.xbeg o.box.ybeg o.box.zbeg dx) us)
  (H : ℚ) (hH : H = ((o.nz : ℚ) + 1) * value dx) (hXH : 2 ^ 67 * ((1 + 3 / 8 * H ^ 2) / value dx ^ 2) < (2 : ℚ) ^ F.emax)
  (oT : Ordinary o.tfinal) (o0 : Ordinary o.t0) (od : Ordinary o.dt0)
  (hT : 0 ≤ value o.tfinal) (hTu : u * (value o.tfinal + 1) ≤ value dx ^ 2 / 64) (ht : o.t0 + o.dt0 ≤ o.tfinal)
  (hXT : 4 * (|value o.t0| + value o.tfinal + 1) < (2 : ℚ) ^ F.emax)
  (W : Nat) (hW : W = max (Nat.log 10 o.maxSteps + 1) 4) (m : Mem A (Ieee F)) (fuel : Nat) (hf1 : 1 ≤ fuel) (hf2 : o.maxSteps ≤ fuel)
include hr hp he hm hu hτ53 hP heq hcfl hlf hms hM hbx hby hbz hdim hn hw hsn hcs hxb hyb hzb hdx odx h0 h1 hτ hnn hX hus hH hXH oT o0 od
  hT hTu ht hXT hW hf1 hf2

set_option maxHeartbeats 1600000 in
/-- C108. The Poisson runs of `C104_ode23` in floating-point arithmetic with overflow, infinities and NaN: every execution ends, its step
sizes are ordinary numbers between the smallest and the largest step, all numbers in its files are ordinary and close to the solution of
the discrete problem. Errors up to `Em` have ordinary quotients with the tolerance. -/
theorem C108_poisson (hint : o.sel.integrator = "ode23") (hz : ∀ a ∈ [w.rk.k1, w.rk.k2, w.rk.k3, w.rk.k4], ∀ n, m a n = 0)
    (omn : Ordinary o.minStep) (omx : Ordinary o.maxStep) (hm0 : 0 < value o.minStep) (hm2 : 2 * τ ≤ value o.minStep)
    (hd : value o.minStep ≤ value o.dt0 ∧ value o.dt0 ≤ value o.maxStep) (hd1 : value o.maxStep ≤ value dx ^ 2 / 8)
    (hκ : 120 * ((1 + u) ^ 34 - 1) * H ^ 2 ≤ value o.minStep) (Em : ℚ) (hEm : Em = 2 ^ 67 * (1 + 3 / 8 * H ^ 2))
    (ot : Ordinary o.errTol) (ht0 : 0 < value o.errTol) (ht1 : τ * Em ≤ value o.errTol) (ht2 : 2 * Em < 2 ^ F.emax * value o.errTol)
    (ht3 : 2 ^ 55 * value o.errTol < 2 ^ F.emax) (ht4 : 2 ^ 54 * τ * value o.errTol ≤ 1) :
    AllEnd sz (program E o none w fuel) m fun res _ => ∃ (N : Nat) (t d : Nat → Ieee F) (s : Nat → Int × Int × Int → Ieee F)
      (st : Status (Ieee F)) (rows : List (List (String × Ieee F))), 1 ≤ N ∧
      res = .done (savedFiles 0 o.saveEvery.natAbs t d (stepName o.base W)
          (fun k => vts3 E.io o.box.xbeg o.box.ybeg o.box.zbeg dx o.nx o.ny o.nz (s (k + 1))) N ++
        [(stepName (finalBase o.base) W (0 + N), vts3 E.io o.box.xbeg o.box.ybeg o.box.zbeg dx o.nx o.ny o.nz (s N) st)]) rows ∧
      (∀ k, k + 1 < N → Ordinary (d k) ∧ value o.minStep ≤ value (d k) ∧ value (d k) ≤ value o.maxStep) ∧
      ∀ k, k < N → ∀ c, In3 o.nx o.ny o.nz c → Ordinary (s (k + 1) c) ∧ |value (s (k + 1) c) - us c| ≤ (1 + 3 / 8 * H ^ 2) *
        (2 * (1 - 8 * value o.minStep / (3 * H ^ 2)) ^ k + 120 * ((1 + u) ^ 34 - 1) * H ^ 2 / value o.minStep) := by
  have d2 : 0 < value dx ^ 2 := by positivity
  have d21 : value dx ^ 2 ≤ 1 := pow_le_one₀ h0.le h1
  have hm8 : 8 ≤ F.emax := by omega
  have H0 : 0 ≤ 3 / 8 * H ^ 2 := by positivity
  refine (C103_ode23 sz E o w heq hcfl hlf hms hM hbx hby hbz hdim hn hw hint dx hdx W hW m hz fuel hf1
    (by dsimp only; omega)).mono fun res _ h => ?_
  obtain ⟨N, t, d, p, r, e, v, s, hmar, hend, hs, hpr, -, hres⟩ := h
  refine ⟨N, t, d, s, _, _, hend.1, hres, ?_⟩
  have nl : ∀ k, k + 1 < N → ¬ LastStep o.tfinal t p k := fun k hk hl => hend.2.2 (k + 1) (by omega) hk (.inl hl)
  have hz3 : (1 : ℚ) ≤ o.nz := by exact_mod_cast (show (1 : Int) ≤ o.nz by omega)
  have hHd : value dx ^ 2 ≤ H ^ 2 := by
    rw [hH, mul_pow]
    exact le_mul_of_one_le_left d2.le (one_le_pow₀ (by linarith))
  have hXH' : 2 ^ 47 * ((1 + 3 / 8 * H ^ 2) / value dx ^ 2) < (2 : ℚ) ^ F.emax := by
    have : 0 ≤ (1 + 3 / 8 * H ^ 2) / value dx ^ 2 := by positivity
    linarith
  obtain ⟨M, hMd⟩ : ∃ M, M = 4 * (1 + 3 / 8 * H ^ 2) := ⟨_, rfl⟩
  have hQ : 2 ^ 67 * ((1 + 3 / 8 * H ^ 2) / value dx ^ 2) = 2 ^ 65 * (M / value dx ^ 2) := by rw [hMd]; ring
  have Q0 : 0 ≤ M / value dx ^ 2 := by rw [hMd]; positivity
  -- states before a step whose predecessors had allowed sizes
  have states : ∀ k, (∀ i, i < k → Ordinary (d i) ∧ value o.minStep ≤ value (d i) ∧ value (d i) ≤ value o.maxStep) →
      ∀ c, In3 o.nx o.ny o.nz c → Ordinary (s k c) ∧ |value (s k c)| ≤ M := by
    intro k hall c hc
    cases k with
    | zero =>
      rw [hs]
      exact ⟨trivial, by show |(0 : ℚ)| ≤ M; rw [abs_zero, hMd]; positivity⟩
    | succ k =>
      obtain ⟨a1, a2⟩ := C105_converges hr hp he hm8 E.sn E.cs hsn hcs _ _ _ dx L n hxb hyb hzb odx h0 h1 hτ o.nx o.ny o.nz
        ⟨by omega, by omega, by omega⟩ hnn hX us hus H hH hXH' (value o.minStep) hm0 (by linarith [hd.1, hd.2]) hκ t d s (.inr hs) k
        (fun i hi => ⟨(hall i (by omega)).1, (hall i (by omega)).2.1, (hall i (by omega)).2.2.trans (by linarith)⟩)
        ⟨(hall k (by omega)).1, hm0.le.trans (hall k (by omega)).2.1, (hall k (by omega)).2.2.trans (by linarith)⟩ c hc
      refine ⟨a1, ?_⟩
      have bd := ieee_solution_le hr hp he hm8 E.sn E.cs hsn hcs _ _ _ dx L n hxb hyb hzb odx h0 h1 hτ o.nx o.ny o.nz
        ⟨by omega, by omega, by omega⟩ hnn hX us hus H hH c hc
      have hHp : 0 < 3 * H ^ 2 := by linarith
      have q0 : 0 ≤ 8 * value o.minStep / (3 * H ^ 2) := by positivity
      have q1 : 8 * value o.minStep / (3 * H ^ 2) ≤ 1 := by rw [div_le_one hHp]; linarith [hd.1, hd.2]
      have q2 : (1 - 8 * value o.minStep / (3 * H ^ 2)) ^ k ≤ 1 := pow_le_one₀ (by linarith) (by linarith)
      have q3 : 120 * ((1 + u) ^ 34 - 1) * H ^ 2 / value o.minStep ≤ 1 := by rw [div_le_one hm0]; exact hκ
      have q4 := mul_le_mul_of_nonneg_left (show 2 * (1 - 8 * value o.minStep / (3 * H ^ 2)) ^ k +
        120 * ((1 + u) ^ 34 - 1) * H ^ 2 / value o.minStep ≤ 3 by linarith) (show 0 ≤ 1 + 3 / 8 * H ^ 2 by linarith)
      have := abs_sub_abs_le_abs_sub (value (s (k + 1) c)) (us c)
      linarith
  -- error estimates of such steps
  have errors : ∀ k, k < N → (∀ i, i ≤ k → Ordinary (d i) ∧ value o.minStep ≤ value (d i) ∧ value (d i) ≤ value o.maxStep) →
      Ordinary (e k) ∧ 0 ≤ value (e k) ∧ value (e k) ≤ Em := by
    intro k hk hall
    obtain ⟨a1, a2, a3⟩ := hall k le_rfl
    have st := states k (fun i hi => hall i (by omega))
    have hdt : Same (d k) (asFl (d k)) (value dx ^ 2) := Same.of a1 (by rw [abs_of_nonneg (by linarith)]; linarith)
    have sl := Same.bs23_slopes hp he hm8 (P := In3 o.nx o.ny o.nz) d2 d21
      (same_poisOps hr hp he hm8 hsn hcs hxb hyb hzb odx h0 h1 hτ ⟨by omega, by omega, by omega⟩ hnn hX)
      (M := M) (by linarith) (by linarith) hdt (a := s k) (x := fun c => asFl (s k c)) (fun c hc => Same.of (st c hc).1 (st c hc).2)
    have hDQ : value dx ^ 2 * (M / value dx ^ 2) = M := by field_simp
    have hMQ : M ≤ M / value dx ^ 2 := (le_div_iff₀ d2).2 (mul_le_of_le_one_right (by rw [hMd]; positivity) d21)
    have X1 : 4 * (2 ^ 62 * (M / value dx ^ 2)) < (2 : ℚ) ^ F.emax := by linarith only [hQ, hXH, Q0]
    have X2 : 8 * (value dx ^ 2 * (2 ^ 62 * (M / value dx ^ 2))) < (2 : ℚ) ^ F.emax := by linarith only [hQ, hXH, Q0, hDQ, hMQ]
    have er := err_ok hp he hm8 (D := value dx ^ 2) (S := 2 ^ 62 * (M / value dx ^ 2)) (by positivity)
      (fun c hc => sl.1 c (mem_triples.1 hc)) (fun c hc => sl.2 c (mem_triples.1 hc)) X1
      ⟨a1, by linarith only [a2, hm0], by linarith only [a3, hd1, d2]⟩ X2 (hpr k hk).1
    exact ⟨er.ord, er.lo, er.hi.trans (by rw [hEm]; linarith only [hDQ, hMd])⟩
  have hEm1 : 1 ≤ Em := by rw [hEm]; linarith
  have sizes := ieee_sizes hr (by omega) hmar hend.1 nl hm0.le (hi := value o.maxStep) (by linarith) oT o0 od hd hT ht hXT
    (fun k hk hall => by
      rw [(hpr k (by omega)).2 (nl k hk)]
      refine C108_sizes hr hp he hm hu hτ53 hP o.errTol o.minStep o.maxStep Em hEm1 ot ht0 ht1 ht2 ht3 ht4 omn omx hm2 hm0
        (hd.1.trans hd.2) (by linarith) d e k (hall 0 (by omega)) (fun i hi => ?_) (fun i hi => errors i (by omega) fun j hj => hall j (by omega))
      rw [hmar.d_succ i, if_neg (fun h => nl (i + 1) (by omega) ⟨by omega, h⟩)]
      exact (hpr i (by omega)).2 (nl i (by omega)))
  have hu0 := hr.unit.1
  have last := last_step_ok hr hT d2.le d21 hTu
  have last' : (1 + u) * (value o.maxStep + u * (value o.tfinal + value o.maxStep + τ)) + u * τ ≤ value dx ^ 2 / 6 := by
    refine le_trans ?_ last
    gcongr
  refine ⟨sizes.1, fun k hk c hc => ?_⟩
  refine C105_converges hr hp he hm8 E.sn E.cs hsn hcs _ _ _ dx L n hxb hyb hzb odx h0 h1 hτ o.nx o.ny o.nz ⟨by omega, by omega, by omega⟩
    hnn hX us hus H hH hXH' (value o.minStep) hm0 (by linarith [hd.1, hd.2]) hκ t d s (.inr hs) k (fun i hi => ?_) ?_ c hc
  · obtain ⟨q1, q2, q3⟩ := sizes.1 i (by omega)
    exact ⟨q1, q2, q3.trans (by linarith)⟩
  · by_cases hkN : k + 1 < N
    · obtain ⟨q1, q2, q3⟩ := sizes.1 k hkN
      exact ⟨q1, hm0.le.trans q2, q3.trans (by linarith)⟩
    · obtain rfl : k = N - 1 := by omega
      exact ⟨sizes.2.1, sizes.2.2.1, sizes.2.2.2.trans last'⟩

end

/-- Unit cells, adaptive steps between 1/64 and 1/8 up to time 2 (test data). -/
def adaptBox64 : RunOpts (Ieee ieee64) :=
  { poisBox64 with
    sel := ⟨3, "periodic", "neumann", "dirichlet", "poisson", "ode23", false⟩
    minStep := .num (1 / 64)
    maxStep := .num (1 / 8)
    errTol := .num (1 / 1024) }

/-- The hypotheses are met in double precision. -/
example [Pow (Ieee ieee64) (Ieee ieee64)] (hP : PowFn (F := ieee64) (· ^ ·)) (E : Env (Ieee ieee64)) (hsn : UnitFn E.sn) (hcs : UnitFn E.cs)
    (m : Mem _ (Ieee ieee64)) (hz : ∀ a ∈ [demoArr.rk.k1, demoArr.rk.k2, demoArr.rk.k3, demoArr.rk.k4], ∀ n, m a n = 0) :
    ∃ us : Int × Int × Int → ℚ, PoisSolves 1 2 2 3 (prescribedValue E.sn E.cs 0 0 0 (.num 1)) us ∧
    AllEnd (demoSize 392 252) (program E adaptBox64 none demoArr 100) m fun res _ =>
      ∃ (N : Nat) (s : Nat → Int × Int × Int → Ieee ieee64) (files : List (Text × VtsFile)) (name : Text)
        (st : Status (Ieee ieee64)) (rows : List (List (String × Ieee ieee64))),
        1 ≤ N ∧ res = .done (files ++ [(name, vts3 E.io 0 0 0 (.num 1) 2 2 3 (s N) st)]) rows ∧
        ∀ k, k < N → ∀ c, In3 2 2 3 c → Ordinary (s (k + 1) c) ∧ |value (s (k + 1) c) - us c| ≤ 14 * (383 / 384) ^ k + 1 / 10 ^ 8 := by
  obtain ⟨us, hus, -⟩ := C80_unique_solution (K := ℚ) 1 one_ne_zero 2 2 3 (by decide) (by decide) (by decide)
    (prescribedValue E.sn E.cs 0 0 0 (.num 1))
  refine ⟨us, hus, ?_⟩
  obtain ⟨u, τ, hr, hu, hτ⟩ : ∃ u τ : ℚ, Rounds binary64.round u τ ∧ u = 1 / 2 ^ 53 ∧ τ ≤ 1 / 2 ^ 100 :=
    ⟨_, _, binary64_rounds, rfl, one_div_pow_le_one_div_pow_of_le one_le_two (by decide)⟩
  have τ0 := hr.tiny.1
  have hκ : 120 * ((1 + u) ^ 34 - 1) * (4 : ℚ) ^ 2 ≤ 1 / 64 := by rw [hu]; norm_num
  have hfin : ∀ n : Nat, (1 + 3 / 8 * (4 : ℚ) ^ 2) * (2 * (1 - 8 * (1 / 64) / (3 * 4 ^ 2)) ^ n + 120 * ((1 + u) ^ 34 - 1) * 4 ^ 2 / (1 / 64)) ≤
      14 * (383 / 384) ^ n + 1 / 10 ^ 8 := by
    intro n
    have a : 120 * ((1 + u) ^ 34 - 1) * (4 : ℚ) ^ 2 / (1 / 64) ≤ 1 / 10 ^ 9 := by rw [hu]; norm_num
    have b : (1 : ℚ) - 8 * (1 / 64) / (3 * 4 ^ 2) = 383 / 384 := by norm_num
    rw [b]
    norm_num at a ⊢
    linarith
  have big : (2 : ℚ) ^ 90 < (2 : ℚ) ^ ieee64.emax := by
    rw [← zpow_natCast]
    exact zpow_lt_zpow_right₀ (by norm_num) (by decide)
  have o1 : Ordinary (.num 1 : Ieee ieee64) := ⟨one_ne_zero, ⟨1, 0, by decide, by decide, by norm_num⟩, by
    rw [abs_one]; exact lt_trans (by norm_num) big⟩
  have o2 : Ordinary (.num 2 : Ieee ieee64) := ⟨two_ne_zero, ⟨1, 1, by decide, by decide, by norm_num⟩, by
    rw [abs_two]; exact lt_trans (by norm_num) big⟩
  have o8 : Ordinary (.num (1 / 8) : Ieee ieee64) := ⟨by norm_num, ⟨1, -3, by decide, by decide, by norm_num⟩, by
    rw [abs_of_pos (by norm_num)]; exact lt_trans (by norm_num) big⟩
  have o64 : Ordinary (.num (1 / 64) : Ieee ieee64) := ⟨by norm_num, ⟨1, -6, by decide, by decide, by norm_num⟩, by
    rw [abs_of_pos (by norm_num)]; exact lt_trans (by norm_num) big⟩
  have ot : Ordinary (.num (1 / 1024) : Ieee ieee64) := ⟨by norm_num, ⟨1, -10, by decide, by decide, by norm_num⟩, by
    rw [abs_of_pos (by norm_num)]; exact lt_trans (by norm_num) big⟩
  have oz : Ordinary (0 : Ieee ieee64) ∧ |value (0 : Ieee ieee64)| ≤ 0 := ⟨trivial, by show |(0 : ℚ)| ≤ 0; rw [abs_zero]⟩
  refine (C108_poisson (F := ieee64) hr (by decide) (by decide) (by decide) (by rw [hu]; norm_num) (hτ.trans (by norm_num)) hP
      (demoSize 392 252) E adaptBox64 demoArr rfl rfl (by decide)
      (by decide) (by decide) (by simp [adaptBox64]) (by simp [adaptBox64]) (by simp [adaptBox64]) rfl (by decide)
      ⟨by simp [demoArr], by simp [demoArr, demoSize, adaptBox64, poisBox64, lostOpts, blowOpts],
        by simp [demoArr, demoSize, adaptBox64, poisBox64, lostOpts, blowOpts]⟩ hsn hcs 0 4 oz oz oz (.num 1)
      (by decide +kernel) o1 zero_lt_one le_rfl (by show 256 * τ ≤ (1 : ℚ) ^ 2; norm_num at hτ ⊢; linarith)
      (by norm_num [adaptBox64, poisBox64, lostOpts, blowOpts]) (lt_trans (by norm_num) big) us hus 4
      (by show (4 : ℚ) = ((3 : Int) + 1) * 1; norm_num) (lt_trans (by show 2 ^ 67 * ((1 + 3 / 8 * (4 : ℚ) ^ 2) / 1 ^ 2) < 2 ^ 90; norm_num) big)
      o2 oz.1 o8 (show (0 : ℚ) ≤ 2 by norm_num) (by show u * ((2 : ℚ) + 1) ≤ 1 ^ 2 / 64; rw [hu]; norm_num) (by decide +kernel)
      (lt_trans (by show 4 * (|(0 : ℚ)| + 2 + 1) < 2 ^ 90; norm_num) big)
      4 (by simp only [adaptBox64, poisBox64, lostOpts, blowOpts]; decide +kernel) m 100 (by decide) (by decide) rfl hz o64 o8
      (show (0 : ℚ) < 1 / 64 by norm_num) (by show 2 * τ ≤ 1 / 64; norm_num at hτ ⊢; linarith)
      ⟨by show (1 / 64 : ℚ) ≤ 1 / 8; norm_num, by show (1 / 8 : ℚ) ≤ 1 / 8; norm_num⟩ (by show (1 / 8 : ℚ) ≤ 1 ^ 2 / 8; norm_num) hκ
      (2 ^ 67 * 7) (by norm_num) ot (show (0 : ℚ) < 1 / 1024 by norm_num) (by show τ * (2 ^ 67 * 7) ≤ 1 / 1024; norm_num at hτ ⊢; linarith)
      ?_ (lt_trans (by show 2 ^ 55 * (1 / 1024 : ℚ) < 2 ^ 90; norm_num) big)
      (by show 2 ^ 54 * τ * (1 / 1024) ≤ 1; norm_num at hτ ⊢; linarith)).mono fun res _ h => ?_
  · show (2 : ℚ) * (2 ^ 67 * 7) < 2 ^ ieee64.emax * (1 / 1024)
    have : (2 : ℚ) ^ 90 * (1 / 1024) < 2 ^ ieee64.emax * (1 / 1024) := mul_lt_mul_of_pos_right big (by norm_num)
    exact lt_trans (by norm_num) this
  obtain ⟨N, t, d, s, st, rows, h1, h2, -, h3⟩ := h
  exact ⟨N, s, _, _, st, rows, h1, h2, fun k hk c hc => ⟨(h3 k hk c hc).1, (h3 k hk c hc).2.trans (hfin k)⟩⟩

/-- A power function as assumed exists. -/
example : PowFn (F := ieee64) (fun a _ => a) := fun _ _ h1 h2 _ _ _ => ⟨h1, h2⟩

end Madg
