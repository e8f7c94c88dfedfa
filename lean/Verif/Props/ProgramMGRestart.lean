/-
C87: runs with the multigrid integrator started from a solution file.
-/
import Verif.Props.ProgramRestart
import Verif.Props.ProgramMG

set_option linter.unusedSectionVars false
set_option linter.unusedVariables false

namespace Madg
open Spec

section
variable {A : Type} [DecidableEq A] (sz : A → Int) (E : Env ℝ) (o : RunOpts) (w : ProgArr A)
  (hcfl : o.useCfl = false) (hlf : o.logFreq ≠ 0) (hms : 0 < o.maxSteps) (hmax : o.maxSteps < 2147483648)
  (xb xe yb zb : ℝ) (hle : xb ≤ xe) {bx bY bz : BCType}
  (hbx : (o.sel.bcx, bx) ∈ [("periodic", BCType.periodic), ("neumann", .neumann), ("dirichlet", .dirichlet)])
  (hby : (o.sel.bcy, bY) ∈ [("periodic", BCType.periodic), ("neumann", .neumann), ("dirichlet", .dirichlet)])
  (hbz : (o.sel.bcz, bz) ∈ [("periodic", BCType.periodic), ("neumann", .neumann), ("dirichlet", .dirichlet)])
  (hdim : o.sel.dimension = 3) (nx ny nz : Int) (hn' : nx < 2147483648 ∧ ny < 2147483648 ∧ nz < 2147483648)
  (nl : Nat) (hnl : o.mg.levels = nl) (hl : 1 ≤ nl ∧ nl ≤ 6) (ns : Nat) (hns : o.mg.nsmooth = ns) (hn1 : 1 ≤ ns)
  (hmode : o.mg.interp = "nearest" ∨ o.mg.interp = "linear")
  (hd : 2 ^ (nl - 1) ∣ nx ∧ 2 ^ (nl - 1) ∣ ny ∧ 2 ^ (nl - 1) ∣ nz)
  (hb : 2 ^ nl ≤ nx ∧ 2 ^ nl ≤ ny ∧ 2 ^ nl ≤ nz) (hw : ArraysMG sz w nl nx ny nz)
  (dx : Nat → ℝ) (hdx : ∀ ℓ, dx ℓ = (xe - xb) / ((nx / 2 ^ ℓ : Int) : ℝ))
  (hex : ∀ i : Int, 0 ≤ i → i ≤ nx → Exact E.io (xb + dx 0 * i)) (hey : ∀ i : Int, 0 ≤ i → i ≤ ny → Exact E.io (yb + dx 0 * i))
  (hez : ∀ i : Int, 0 ≤ i → i ≤ nz → Exact E.io (zb + dx 0 * i))
  (u0 : Int × Int × Int → ℝ) (hu0 : ∀ c, In3 nx ny nz c → Exact E.io (u0 c)) (st : Status ℝ)
  (hst : 0 ≤ st.iter ∧ st.iter < 2147483648) (htime : ShortExact E.io st.time) (hdt : ShortExact E.io st.dt)
  (un : Bool) (hun : (un = true ∧ o.sel.integrator = "bdf1") ∨ (un = false ∧ o.sel.integrator = "steady"))
  (hz : un = true → 0 < st.dt ∧ o.tfinal ≠ st.time + st.dt)
  (t d p : Nat → ℝ) (hm : Marching o.tfinal st.time st.dt t d p) (hp : ∀ k, p (k + 1) = d k)
  (u s : Nat → Int × Int × Int → ℝ) (c : Nat → Nat) (W : Nat) (hW : W = max (Nat.log 10 o.maxSteps + 1) 4) (m : Mem A ℝ)

include hcfl hlf hms hmax hle hbx hby hbz hdim hn' hnl hl hns hn1 hmode hd hb hw hdx hex hey hez hu0 hst htime hdt hun hz hm hp hW

/-- C87. A Cahn–Hilliard run with the multigrid integrator started from a solution file with status `st` and values `u0`: grid,
spacings of all levels, initial field, time, step size and step number are those of the file. The smoothers begin as in a new run. -/
theorem C87_restart3_multigrid (heq : o.sel.equation = "cahn-hilliard") (hv : o.variant = 0 ∨ o.variant = 1 ∨ o.variant = 2)
    (S : Fas (Int × Int × Int) ℝ)
    (hS : S = chFas (levelGrid ⟨nx, ny, nz, 2⟩) bx bY bz dx o.par o.mg.interp o.mg.cfl o.mg.relax o.mg.coarseRelax)
    (hr : FasRun S ns (nl - 1) o.mg.relTol o.mg.maxCycles.toNat (rms3 E.rt nx ny nz) un (fun _ => 1 / 1000000) d u0 u s c) :
    RunsAs sz (program E o (some (vts3 E.io xb yb zb (dx 0) nx ny nz u0 st)) w) m
      ⟨st.time, o.tfinal, st.dt, false, o.maxSteps, st.iter, o.relTol, o.absTol⟩
      o.logFreq.natAbs o.saveEvery.natAbs t d p (fun k => rms3 E.rt nx ny nz (s k))
      (fun k => Monitors3 E.rt E.big E.tiny (dx 0) nx ny nz (u (k + 1)))
      (stepName o.base W) (stepName (o.base ++ "_final".toList) W)
      (fun k => vts3 E.io xb yb zb (dx 0) nx ny nz (u (k + 1))) := by
  obtain rfl : dx = fun ℓ => (xe - xb) / ((nx / 2 ^ ℓ : Int) : ℝ) := funext hdx
  subst hW hS
  have hund : un = decide (o.sel.integrator ≠ "steady") := by
    rcases hun with ⟨rfl, h⟩ | ⟨rfl, h⟩ <;> rw [h] <;> decide
  rw [hund] at hr
  have h2 := (level_facts hl.1 hd hb).2 0 (by omega)
  have g0 : levelGrid ⟨nx, ny, nz, 2⟩ 0 = ⟨nx, ny, nz, 2⟩ := by simp [levelGrid]
  rw [g0] at h2
  dsimp only at h2
  have e0 : (nx / 2 ^ 0 : Int) = nx := by simp
  simp only [e0] at hex hey hez ⊢
  have hsz : sz w.rk.sol = (nx + 4) * (ny + 4) * (nz + 4) := by
    show sz (named w (.field 0 .state)) = _
    rw [hw.fields 0 (by omega)]
    simp
  have hdom := domain_vts3 E.io (nx := nx) (xb := xb) (xe := xe) ⟨by omega, hn'.2.1⟩ ⟨by omega, hn'.2.2⟩ yb zb hex hey hez u0 st
    ⟨by omega, hn'.1⟩ hle
  exact run3_mg (file := some _) (dom := ⟨nx, ny, nz, xb, xe, yb, zb⟩) hdom (time_file (o := o) rfl htime hdt hst hcfl hmax) rfl hlf hms
    (by dsimp only; omega) hst.1 hbx hby hbz hdim (by dsimp only; omega) hnl hl hns hn1 hmode hd hb hw
    (hun.elim (fun h => Or.inl h.2) fun h => Or.inr h.2)
    (fun h => hz (by rcases hun with h' | h'; exact h'.1; exact absurd h'.2 h)) heq hv
    (fun G hG hg m => by
      rw [hg]
      exact ic3_file ⟨by omega, by omega, by omega⟩ hdom hu0 hsz G.interior m) hm hp hr m

/-- C87. The same for the Poisson equation, where a restart file takes the place of the initial field zero. -/
theorem C87_restart3_poisson (heq : o.sel.equation = "poisson") (S : Fas (Int × Int × Int) ℝ)
    (hS : S = poisFas (levelGrid ⟨nx, ny, nz, 2⟩)
      (fun ℓ i j k => E.sn (xb + dx ℓ * (i + 1 / 2)) * E.cs (yb + dx ℓ * (j + 1 / 2)) * E.cs (zb + dx ℓ * (k + 1 / 2)))
      dx o.mg.interp o.mg.cfl o.mg.relax o.mg.coarseRelax)
    (hr : FasRun S ns (nl - 1) o.mg.relTol o.mg.maxCycles.toNat (rms3 E.rt nx ny nz) un (fun _ => 1 / 1000000) d u0 u s c) :
    RunsAs sz (program E o (some (vts3 E.io xb yb zb (dx 0) nx ny nz u0 st)) w) m
      ⟨st.time, o.tfinal, st.dt, false, o.maxSteps, st.iter, o.relTol, o.absTol⟩
      o.logFreq.natAbs o.saveEvery.natAbs t d p (fun k => rms3 E.rt nx ny nz (s k))
      (fun k => Monitors3 E.rt E.big E.tiny (dx 0) nx ny nz (u (k + 1)))
      (stepName o.base W) (stepName (o.base ++ "_final".toList) W)
      (fun k => vts3 E.io xb yb zb (dx 0) nx ny nz (u (k + 1))) := by
  obtain rfl : dx = fun ℓ => (xe - xb) / ((nx / 2 ^ ℓ : Int) : ℝ) := funext hdx
  subst hW hS
  have hund : un = decide (o.sel.integrator ≠ "steady") := by
    rcases hun with ⟨rfl, h⟩ | ⟨rfl, h⟩ <;> rw [h] <;> decide
  rw [hund] at hr
  have h2 := (level_facts hl.1 hd hb).2 0 (by omega)
  have g0 : levelGrid ⟨nx, ny, nz, 2⟩ 0 = ⟨nx, ny, nz, 2⟩ := by simp [levelGrid]
  rw [g0] at h2
  dsimp only at h2
  have e0 : (nx / 2 ^ 0 : Int) = nx := by simp
  simp only [e0] at hex hey hez ⊢
  have hsz : sz w.rk.sol = (nx + 4) * (ny + 4) * (nz + 4) := by
    show sz (named w (.field 0 .state)) = _
    rw [hw.fields 0 (by omega)]
    simp
  have hdom := domain_vts3 E.io (nx := nx) (xb := xb) (xe := xe) ⟨by omega, hn'.2.1⟩ ⟨by omega, hn'.2.2⟩ yb zb hex hey hez u0 st
    ⟨by omega, hn'.1⟩ hle
  exact run3_poisson (file := some _) (dom := ⟨nx, ny, nz, xb, xe, yb, zb⟩) hdom (time_file (o := o) rfl htime hdt hst hcfl hmax) rfl hlf hms
    (by dsimp only; omega) hst.1 hbx hby hbz hdim (by dsimp only; omega) hnl hl hns hn1 hmode hd hb hw
    (hun.elim (fun h => Or.inl h.2) fun h => Or.inr h.2)
    (fun h => hz (by rcases hun with h' | h'; exact h'.1; exact absurd h'.2 h)) heq
    (fun G hG hg m => by
      rw [hg]
      exact ic3_file (o := o) ⟨by omega, by omega, by omega⟩ hdom hu0 hsz G.interior m) hm hp hr m

end

/-- A file with step 7 at time 1/2 from which a backward Euler run goes on. -/
example (E : Env ℝ) (u0 : Int × Int × Int → ℝ) (m : Mem MGName ℝ) : ∃ (io : RealText ℝ) (t d p r : Nat → ℝ) (Q : Nat → ℝ × ℝ × ℝ → Prop)
    (file : Nat → Status ℝ → VtsFile), RunsAs mgDemoSize (program { E with io := io } (mgDemoOpts "cahn-hilliard" "bdf1")
        (some (vts3 io 0 0 0 ((8 - 0) / ((8 / 2 ^ 0 : Int) : ℝ)) 8 8 4 u0 ⟨7, 1 / 2, 1 / 100⟩)) mgDemoArr) m
      ⟨1 / 2, 1, 1 / 100, false, 100, 7, 0, 0⟩ 1 5 t d p r Q (stepName ['s'] 4) (stepName "s_final".toList 4) file := by
  obtain ⟨t, d, p, ⟨hm, hp⟩, -⟩ := C85_sequences 1 (1 / 2) (1 / 100)
  have hdx : ∀ ℓ : Nat, (fun ℓ : Nat => ((8 : ℝ) - 0) / (((8 : ℤ) / 2 ^ ℓ : Int) : ℝ)) ℓ =
      ((8 : ℝ) - 0) / (((8 : ℤ) / 2 ^ ℓ : Int) : ℝ) := fun _ => rfl
  obtain ⟨u, s, c, hr, -⟩ := C88_sequences (chFas (levelGrid ⟨8, 8, 4, 2⟩) .periodic .periodic .dirichlet
    (fun ℓ : Nat => ((8 : ℝ) - 0) / (((8 : ℤ) / 2 ^ ℓ : Int) : ℝ)) ⟨1, 1, 1⟩ "nearest" (1 / 5) (9 / 10) 1) 2 1 (1 / 1000000) 5000
    (rms3 E.rt 8 8 4) true (fun _ => 1 / 1000000) d u0
  obtain ⟨L, hLe⟩ : ∃ L : List ℝ, L = (1 / 2) :: (1 / 100) :: ((triples 8 8 4).map u0 ++
    (irange 0 9).map fun i : Int => 0 + ((8 : ℝ) - 0) / ((8 / 2 ^ 0 : Int) : ℝ) * (i : ℝ)) := ⟨_, rfl⟩
  have hL : ∀ i : Int, 0 ≤ i → i ≤ 8 → Exact (listText L) (0 + ((8 : ℝ) - 0) / ((8 / 2 ^ 0 : Int) : ℝ) * (i : ℝ)) := fun i i0 i1 =>
    (listText_exact (by rw [hLe]; exact List.mem_cons_of_mem _ (List.mem_cons_of_mem _ (List.mem_append_right _
      (List.mem_map.2 ⟨i, mem_irange.2 ⟨i0, by omega⟩, rfl⟩))))).1
  have := C87_restart3_multigrid (bx := .periodic) (bY := .periodic) (bz := .dirichlet) mgDemoSize
    { E with io := listText L } (mgDemoOpts "cahn-hilliard" "bdf1") mgDemoArr (by simp [mgDemoOpts, demoOpts])
    (by simp [mgDemoOpts, demoOpts]) (by simp [mgDemoOpts, demoOpts]) (by simp [mgDemoOpts, demoOpts]) 0 8 0 0 (by norm_num)
    (by simp [mgDemoOpts]) (by simp [mgDemoOpts]) (by simp [mgDemoOpts]) rfl 8 8 4 (by norm_num) 2 rfl (by omega) 2 rfl (by omega)
    (Or.inl rfl) (by decide) (by decide) (mgDemo_arrays 2) _ hdx (fun i i0 i1 => hL i i0 i1) (fun i i0 i1 => hL i i0 i1)
    (fun i i0 i1 => hL i i0 (by omega)) u0
    (fun c hc => (listText_exact (by rw [hLe]; exact List.mem_cons_of_mem _ (List.mem_cons_of_mem _ (List.mem_append_left _
      (List.mem_map_of_mem (mem_triples.2 hc)))))).1) ⟨7, 1 / 2, 1 / 100⟩ (by norm_num)
    (listText_exact (by rw [hLe]; exact List.mem_cons_self)).2
    (listText_exact (by rw [hLe]; exact List.mem_cons_of_mem _ List.mem_cons_self)).2 true (Or.inl ⟨rfl, rfl⟩)
    (fun _ => by simp only [mgDemoOpts, demoOpts]; norm_num) t d p hm hp u s c 4
    (by simp only [mgDemoOpts, demoOpts]; decide +kernel) m rfl (by simp [mgDemoOpts, demoOpts]) _ rfl hr
  exact ⟨listText L, t, d, p, _, _, _, this⟩

end Madg
