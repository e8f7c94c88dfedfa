/-
Resuming a 3D run with rk3ssp from one of its files, in any arithmetic.
-/
import Verif.Proofs.RunAny3

set_option linter.unusedSectionVars false

namespace Madg
open Spec

section
variable {K : Type} [Arith K] [LinearOrder K]

theorem endsAfter_shift_any {T t0 dt0 t0' dt0' : K} {c c' : Bool} {M i0 : Int} {t p r r' : Nat → K}
    {f f' : Nat} {n N N' : Nat} (hnl : ¬ LastStep T t p n)
    (h1 : EndsAfter ⟨t0, T, dt0, c, M, i0, 0, 0⟩ f t p r N) (h2 : n < N)
    (h3 : EndsAfter ⟨t0', T, dt0', c', M, i0 + n, 0, 0⟩ f' (fun k => t (n + k)) (fun k => p (n + k)) r' N') : N = n + N' := by
  have key : ∀ k, 1 ≤ k → (MustEnd ⟨t0', T, dt0', c', M, i0 + n, 0, 0⟩ f' (fun k => t (n + k)) (fun k => p (n + k)) r' k ↔
      MustEnd ⟨t0, T, dt0, c, M, i0, 0, 0⟩ f t p r (n + k)) := by
    intro k hk
    unfold MustEnd
    rw [stopAt_zero rfl rfl, stopAt_zero rfl rfl]
    refine or_congr ?_ (by push_cast; rw [add_assoc])
    by_cases h1 : k = 1
    · subst h1
      refine iff_of_false (fun h => by have := h.1; omega) ?_
      simpa using hnl
    · unfold LastStep
      have e : n + (k - 1) = n + k - 1 := by omega
      simp only [e]
      refine and_congr (by omega) Iff.rfl
  refine h1.unique ⟨by have := h3.1; omega, (key N' h3.1).1 h3.2.1, fun k k1 k2 => ?_⟩
  by_cases hk : k ≤ n
  · exact h1.2.2 k k1 (by omega)
  · intro hM
    have := (key (k - n) (by omega)).2 (by rw [show n + (k - n) = k by omega]; exact hM)
    exact h3.2.2 (k - n) (by omega) (by omega) this

theorem finalStatus_shift_any {T : K} {t d p : Nat → K} {i0 : Int} {n N' : Nat} (h1 : 1 ≤ N')
    (hnl : ¬ LastStep T t p n) :
    finalStatus (i0 + n) T (fun k => t (n + k)) (fun k => d (n + k)) (fun k => p (n + k)) N' =
      finalStatus i0 T t d p (n + N') := by
  have hl : LastStep T (fun k => t (n + k)) (fun k => p (n + k)) (N' - 1) ↔ LastStep T t p (n + N' - 1) := by
    by_cases h : N' = 1
    · subst h
      exact iff_of_false (fun h => by have := h.1; omega) (by simpa using hnl)
    · unfold LastStep
      dsimp only
      rw [show n + (N' - 1) = n + N' - 1 by omega]
      exact and_congr (by omega) Iff.rfl
  unfold finalStatus
  dsimp only
  rw [show n + (N' - 1) = n + N' - 1 by omega]
  congr 1
  · push_cast; ring
  · by_cases h : LastStep T t p (n + N' - 1)
    · rw [if_pos h, if_pos (hl.2 h)]
    · rw [if_neg h, if_neg (fun x => h (hl.1 x))]

theorem iterates_shift {C : Type} (Φ : K → K → (C → K) → C → K) (t d : Nat → K) (u0 : C → K) (n : Nat) :
    ∀ k, iterates Φ (fun k => t (n + k)) (fun k => d (n + k)) (iterates Φ t d u0 n) k = iterates Φ t d u0 (n + k)
  | 0 => rfl
  | k + 1 => by rw [iterates, iterates_shift Φ t d u0 n k]; rfl

omit [Arith K] [LinearOrder K] in
theorem savedFiles_every {F : Type} {i0 : Int} {t d : Nat → K} {name : Int → Text} {file : Nat → Status K → F} {N : Nat} :
    savedFiles i0 1 t d name file N = (List.range N).map fun k : Nat => (name (i0 + k + 1), file k ⟨i0 + k + 1, t (k + 1), d k⟩) := by
  unfold savedFiles
  congr 1
  rw [List.filter_eq_self]
  intro k _
  simp

end

/-- The sequences of times, step sizes and proposals of a method that keeps its step. -/
theorem exists_marching {K : Type} [Arith K] [LE K] [DecidableLE K] (T t0 dt0 : K) :
    ∃ t d p : Nat → K, Marching T t0 dt0 t d p ∧ ∀ k, p (k + 1) = d k := by
  classical
  let f : Nat → K × K := fun n => Nat.rec (t0, dt0)
    (fun _ x => (x.1 + x.2, if T ≤ x.1 + x.2 + x.2 then T - (x.1 + x.2) else x.2)) n
  refine ⟨fun n => (f n).1, fun n => (f n).2, fun n => (f (n - 1)).2, ⟨rfl, rfl, fun k => rfl, fun k => ?_⟩, fun k => rfl⟩
  rfl

section
variable {A K : Type} [DecidableEq A] [Arith K] [LinearOrder K] [Pow K K] {sz : A → Int} {E : Env K} {o : RunOpts K}
  {file : Option VtsFile} {w : ProgArr A} {nx ny nz : Int} {xb xe xe' yb zb : K}
  (hdom : o.domain E file = .ok ⟨nx, ny, nz, xb, xe, yb, zb⟩) {t0 dt0 : K} {i0 : Int}
  (ht : (match file with | some f => setInitialTimeStep E.io f o.timeOpts | none => .ok o.timeOpts) =
    .ok ⟨t0, o.tfinal, dt0, false, o.maxSteps, i0, 0, 0⟩)
  (heq : o.sel.equation = "cahn-hilliard") (hcfl : o.useCfl = false) (hlf : o.logFreq ≠ 0) (hms : 0 < o.maxSteps)
  (hM : o.maxSteps < 2147483648) (hi0 : 0 ≤ i0 ∧ i0 < 2147483647) (hrt : o.relTol = 0) (hat : o.absTol = 0)
  {bx bY bz : BCType}
  (hbx : (o.sel.bcx, bx) ∈ [("periodic", BCType.periodic), ("neumann", .neumann), ("dirichlet", .dirichlet)])
  (hby : (o.sel.bcy, bY) ∈ [("periodic", BCType.periodic), ("neumann", .neumann), ("dirichlet", .dirichlet)])
  (hbz : (o.sel.bcz, bz) ∈ [("periodic", BCType.periodic), ("neumann", .neumann), ("dirichlet", .dirichlet)])
  (hdim : o.sel.dimension = 3) (hv : o.variant = 0 ∨ o.variant = 1 ∨ o.variant = 2)
  (hn : 2 ≤ nx ∧ 2 ≤ ny ∧ 2 ≤ nz) (hw : Arrays3 sz w nx ny nz) (hint : o.sel.integrator = "rk3ssp")
  {u0 : Int × Int × Int → K}
  (hic : ∀ (G : Geom3), G.Ok → G.g = ⟨nx, ny, nz, 2⟩ → ∀ m : Mem A K, ∃ m1,
    CDet sz (icOf E o file G.interior (.d3 ⟨nx, ny, nz, 2⟩ w.rk.sol) w.rk.sol) m () m1 ∧
      (∀ c, In3 nx ny nz c → m1 w.rk.sol (G.g.at3 c.1 c.2.1 c.2.2) = u0 c) ∧ ∀ b, b ≠ w.rk.sol → m1 b = m b)
  {dx : K} (hdx : dx = (xe - xb) / (nx : K)) (hdx' : (xe' - xb) / (nx : K) = dx)
  (hre : ∀ v s, getCartesianDomain E.io (vts3 E.io xb yb zb dx nx ny nz v s) = .ok ⟨nx, ny, nz, xb, xe', yb, zb⟩)
  (hex : ∀ (t dt : K) (v : Int × Int × Int → K) (c : Int × Int × Int), Exact E.io
    (ssprk3Step (chFieldA o.variant o.par dx bx bY bz nx ny nz) t dt v c))
  {W : Nat} (hW : W = max (Nat.log 10 o.maxSteps + 1) 4)
include hdom ht heq hcfl hlf hms hM hi0 hrt hat hbx hby hbz hdim hv hn hw hint hic hdx hdx' hre hex hW

theorem resume_any {t d p : Nat → K} (hm : Marching o.tfinal t0 dt0 t d p) (hp : ∀ k, p (k + 1) = d k) {N : Nat}
    (hN : EndsAfter ⟨t0, o.tfinal, dt0, false, o.maxSteps, i0, 0, 0⟩ o.logFreq.natAbs t p (fun _ => 0) N)
    {u : Nat → Int × Int × Int → K}
    (hu : u = iterates (ssprk3Step (chFieldA o.variant o.par dx bx bY bz nx ny nz)) t d u0) {n : Nat} (hn1 : 1 ≤ n) (hnN : n < N)
    (hst : ShortExact E.io (t n)) (hsd : ShortExact E.io (d n)) (hlast : ¬ (o.tfinal ≤ t n + d (n - 1))) (m : Mem A K) :
    RunsAny sz (program E o (some (vts3 E.io xb yb zb dx nx ny nz (u n) ⟨i0 + n, t n, d (n - 1)⟩)) w) m
      ⟨t n, o.tfinal, d n, false, o.maxSteps, i0 + n, 0, 0⟩ o.logFreq.natAbs o.saveEvery.natAbs
      (fun k => t (n + k)) (fun k => d (n + k)) (fun k => p (n + k))
      (fun k => Range3 E.big E.tiny nx ny nz (u (n + (k + 1)))) (stepName o.base W) (stepName (finalBase o.base) W)
      (fun k => vts3 E.io xb yb zb dx nx ny nz (u (n + (k + 1)))) ∧
    EndsAfter ⟨t n, o.tfinal, d n, false, o.maxSteps, i0 + n, 0, 0⟩ o.logFreq.natAbs (fun k => t (n + k)) (fun k => p (n + k))
      (fun _ => 0) (N - n) ∧
    finalStatus (i0 + n) o.tfinal (fun k => t (n + k)) (fun k => d (n + k)) (fun k => p (n + k)) (N - n) =
      finalStatus i0 o.tfinal t d p N := by
  obtain ⟨k, rfl⟩ : ∃ k, n = k + 1 := ⟨n - 1, by omega⟩
  simp only [Nat.add_sub_cancel] at hlast ⊢
  obtain ⟨Φ, hΦ⟩ : ∃ Φ, Φ = ssprk3Step (chFieldA o.variant o.par dx bx bY bz nx ny nz) := ⟨_, rfl⟩
  have hdx2 : (FileDomain.box (⟨nx, ny, nz, xb, xe', yb, zb⟩ : FileDomain K)).dx nx = dx := hdx'
  have hb := hN.bound (by dsimp only; omega)
  dsimp only at hb
  have hnl : ¬ LastStep o.tfinal t p (k + 1) := by
    rintro ⟨-, h⟩
    rw [hp] at h
    exact hlast h
  have hdd : d k = d (k + 1) := by
    have h2 : ¬ (o.tfinal ≤ t (k + 1) + p (k + 1)) := by rw [hp]; exact hlast
    rw [hm.d_succ, if_neg h2, hp]
  rw [hdd]
  rw [← hΦ] at hu
  have huk : ∀ c, Exact E.io (u (k + 1) c) := by
    intro c
    rw [hu, iterates, hΦ]
    exact hex _ _ _ _
  have hdom2 := hre (u (k + 1)) ⟨i0 + (k + 1 : Nat), t (k + 1), d (k + 1)⟩
  have htime := time_file (o := o) (f := vts3 E.io xb yb zb dx nx ny nz (u (k + 1)) ⟨i0 + (k + 1 : Nat), t (k + 1), d (k + 1)⟩)
    (s := ⟨i0 + (k + 1 : Nat), t (k + 1), d (k + 1)⟩) rfl hst hsd ⟨by dsimp only; omega, by dsimp only; omega⟩ hcfl hM
  rw [hrt, hat] at htime
  have key := run3_any (file := some (vts3 E.io xb yb zb dx nx ny nz (u (k + 1))
      ⟨i0 + (k + 1 : Nat), t (k + 1), d (k + 1)⟩)) (dom := ⟨nx, ny, nz, xb, xe', yb, zb⟩) (u0 := u (k + 1))
    hdom2 htime heq rfl hlf hms (by dsimp only; omega) (by dsimp only; omega) rfl rfl hbx hby hbz hdim hv hn hw
    (by dsimp only; omega)
    (fun G hG hg m => by
      rw [hg]
      exact ic3_file ⟨by omega, by omega, by omega⟩ hdom2 (fun c _ => huk c) (hw.cells _ (by simp)) G.interior m)
    hint (hm.shift (k + 1)) (fun j => hp (k + 1 + j)) (u := fun j => u (k + 1 + j))
    (by dsimp only; rw [hdx2, ← hΦ]; funext j; rw [hu]; exact (iterates_shift Φ t d u0 (k + 1) j).symm) m
  dsimp only at key
  rw [hdx2, ← hW] at key
  obtain ⟨N', hN', -⟩ := id key
  have hlen : N = k + 1 + N' := endsAfter_shift_any (M := o.maxSteps) hnl hN (by omega) (t0' := t (k + 1)) (dt0' := d (k + 1)) (c' := false)
    (r' := fun _ => 0) (f' := o.logFreq.natAbs) hN'
  have e1 : N - (k + 1) = N' := by omega
  have hfs := finalStatus_shift_any (i0 := i0) (T := o.tfinal) (t := t) (d := d) (p := p) hN'.1 hnl
  have hN'1 : k + 1 + (N' - 1 + 1) = N := by have := hN'.1; omega
  rw [e1]
  refine ⟨key, hN', ?_⟩
  rw [hlen]
  exact hfs

end

end Madg
