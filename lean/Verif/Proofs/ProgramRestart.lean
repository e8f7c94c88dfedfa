/-
Restarting the program from a solution file.
-/
import Verif.Proofs.ProgramInit

set_option linter.unusedSectionVars false

namespace Madg
open Spec

section
variable {K : Type} [Arith K] (io : RealText K)

theorem vts3_points (xb yb zb dx : K) (ni nj nk : Int) (u : Int × Int × Int → K) (s : Status K) :
    (vts3 io xb yb zb dx ni nj nk u s).points = pointsText ((triples (ni + 1) (nj + 1) (nk + 1)).map fun c =>
      (io.full (xb + dx * (c.1 : K)), io.full (yb + dx * (c.2.1 : K)), io.full (zb + dx * (c.2.2 : K)))) := by
  unfold vts3 pointsText
  rw [spaced_triples]

theorem vts2_points (xb yb dx : K) (n : Int) (u : Int × Int → K) (s : Status K) :
    (vts2 io xb yb dx n u s).points = pointsText ((pairs (n + 1) (n + 1)).map fun c =>
      (io.full (xb + dx * (c.1 : K)), io.full (yb + dx * (c.2 : K)), "0.0".toList)) := by
  unfold vts2 pointsText
  rw [spaced_triples]

theorem mem_triples {ni nj nk : Int} {c : Int × Int × Int} : c ∈ triples ni nj nk ↔ In3 ni nj nk c := by
  rw [triples_eq, List.mem_map]
  constructor
  · rintro ⟨x, hx, rfl⟩
    rw [mem_box3] at hx
    exact ⟨hx.2.2, hx.2.1, hx.1⟩
  · rintro ⟨h1, h2, h3⟩
    exact ⟨(c.2.2, c.2.1, c.1), mem_box3.2 ⟨h3, h2, h1⟩, rfl⟩

theorem mem_pairs {ni nj : Int} {c : Int × Int} : c ∈ pairs ni nj ↔ (0 ≤ c.1 ∧ c.1 < ni) ∧ (0 ≤ c.2 ∧ c.2 < nj) := by
  rw [pairs_eq, List.mem_map]
  constructor
  · rintro ⟨x, hx, rfl⟩
    rw [mem_box2] at hx
    exact ⟨hx.2, hx.1⟩
  · rintro ⟨h1, h2⟩
    exact ⟨(c.2, c.1), mem_box2.2 ⟨h2, h1⟩, rfl⟩

theorem vts3_cells (xb yb zb dx : K) (ni nj nk : Int) (u : Int × Int × Int → K) (s : Status K) :
    (vts3 io xb yb zb dx ni nj nk u s).cells =
      cellsText io ((box3 0 nk 0 nj 0 ni).map fun x => u (x.2.2, x.2.1, x.1)) := by
  unfold vts3 cellsText
  rw [triples_eq, List.map_map, Function.comp_def, spaced_flatMap, List.flatMap_map]

theorem vts2_cells (xb yb dx : K) (n : Int) (u : Int × Int → K) (s : Status K) :
    (vts2 io xb yb dx n u s).cells = cellsText io ((box2 0 n 0 n).map fun x => u (x.2, x.1)) := by
  unfold vts2 cellsText
  rw [pairs_eq, List.map_map, Function.comp_def, spaced_flatMap, List.flatMap_map]

end

section
variable {K : Type} [Field K] [LinearOrder K] [IsStrictOrderedRing K] (io : RealText K)
  {nx : Int} (hx : 1 ≤ nx ∧ nx < 2147483648) {xb xe : K} (hle : xb ≤ xe)

include hx hle in
theorem spacing_nonneg : 0 ≤ (xe - xb) / (nx : K) ∧ (xe - xb) / (nx : K) * (nx : K) = xe - xb := by
  have h0 : (0 : K) < (nx : K) := by exact_mod_cast (show 0 < nx by omega)
  exact ⟨div_nonneg (by linarith) h0.le, div_mul_cancel₀ _ h0.ne'⟩

theorem domain_vts3 {ny nz : Int} (hy : 1 ≤ ny ∧ ny < 2147483648) (hz : 1 ≤ nz ∧ nz < 2147483648) (yb zb : K)
    (hex : ∀ i : Int, 0 ≤ i → i ≤ nx → Exact io (xb + (xe - xb) / (nx : K) * (i : K)))
    (hey : ∀ i : Int, 0 ≤ i → i ≤ ny → Exact io (yb + (xe - xb) / (nx : K) * (i : K)))
    (hez : ∀ i : Int, 0 ≤ i → i ≤ nz → Exact io (zb + (xe - xb) / (nx : K) * (i : K)))
    (u : Int × Int × Int → K) (s : Status K) (hx : 1 ≤ nx ∧ nx < 2147483648) (hle : xb ≤ xe) :
    getCartesianDomain io (vts3 io xb yb zb ((xe - xb) / (nx : K)) nx ny nz u s) = .ok ⟨nx, ny, nz, xb, xe, yb, zb⟩ := by
  obtain ⟨hd0, hdn⟩ := spacing_nonneg (K := K) hx hle
  generalize (xe - xb) / (nx : K) = h at *
  have hb : ∀ c ∈ triples (nx + 1) (ny + 1) (nz + 1), (0 ≤ c.1 ∧ c.1 ≤ nx) ∧ (0 ≤ c.2.1 ∧ c.2.1 ≤ ny) ∧ (0 ≤ c.2.2 ∧ c.2.2 ≤ nz) := by
    intro c hc
    obtain ⟨h1, h2, h3⟩ := mem_triples.1 hc
    omega
  have h0 : ((0, 0, 0) : Int × Int × Int) ∈ triples (nx + 1) (ny + 1) (nz + 1) := mem_triples.2 ⟨by dsimp only; omega, by dsimp only; omega, by dsimp only; omega⟩
  have hN : ((nx, 0, 0) : Int × Int × Int) ∈ triples (nx + 1) (ny + 1) (nz + 1) := mem_triples.2 ⟨by dsimp only; omega, by dsimp only; omega, by dsimp only; omega⟩
  have mono : ∀ (b : K) (i : Int), 0 ≤ i → b ≤ b + h * (i : K) := fun b i hi =>
    le_add_of_nonneg_right (mul_nonneg hd0 (by exact_mod_cast hi))
  refine getCartesianDomain_ok io _ ⟨by omega, hx.2⟩ ⟨by omega, hy.2⟩ ⟨by omega, hz.2⟩ rfl
    (triples (nx + 1) (ny + 1) (nz + 1)) _ _ _ (fun c => xb + h * (c.1 : K)) (fun c => yb + h * (c.2.1 : K))
    (fun c => zb + h * (c.2.2 : K)) (vts3_points io xb yb zb h nx ny nz u s) ?_ ?_ ?_ ?_ ?_ ?_ ?_
  · rw [triples_eq, List.length_map, length_box3]
    push_cast
    rw [Int.toNat_of_nonneg (by omega), Int.toNat_of_nonneg (by omega), Int.toNat_of_nonneg (by omega)]
    ring
  · intro c hc
    obtain ⟨h1, h2, h3⟩ := hb c hc
    exact ⟨(hex c.1 h1.1 h1.2).1, (hey c.2.1 h2.1 h2.2).1, (hez c.2.2 h3.1 h3.2).1⟩
  · intro c hc
    obtain ⟨h1, h2, h3⟩ := hb c hc
    exact ⟨(hex c.1 h1.1 h1.2).2, (hey c.2.1 h2.1 h2.2).2, (hez c.2.2 h3.1 h3.2).2⟩
  · exact ⟨⟨_, h0, by simp⟩, fun c hc => mono xb c.1 (hb c hc).1.1⟩
  · refine ⟨⟨_, hN, by dsimp only; rw [hdn]; ring⟩, fun c hc => ?_⟩
    have : h * (c.1 : K) ≤ h * (nx : K) := mul_le_mul_of_nonneg_left (by exact_mod_cast (hb c hc).1.2) hd0
    linarith
  · exact ⟨⟨_, h0, by simp⟩, fun c hc => mono yb c.2.1 (hb c hc).2.1.1⟩
  · exact ⟨⟨_, h0, by simp⟩, fun c hc => mono zb c.2.2 (hb c hc).2.2.1⟩

theorem domain_vts2 (yb : K) (h00 : io.parse "0.0".toList = some 0)
    (hex : ∀ i : Int, 0 ≤ i → i ≤ nx → Exact io (xb + (xe - xb) / (nx : K) * (i : K)))
    (hey : ∀ i : Int, 0 ≤ i → i ≤ nx → Exact io (yb + (xe - xb) / (nx : K) * (i : K)))
    (u : Int × Int → K) (s : Status K) (hx : 1 ≤ nx ∧ nx < 2147483648) (hle : xb ≤ xe) :
    getCartesianDomain io (vts2 io xb yb ((xe - xb) / (nx : K)) nx u s) = .ok ⟨nx, nx, 0, xb, xe, yb, 0⟩ := by
  obtain ⟨hd0, hdn⟩ := spacing_nonneg (K := K) hx hle
  generalize (xe - xb) / (nx : K) = h at *
  have hb : ∀ c ∈ pairs (nx + 1) (nx + 1), (0 ≤ c.1 ∧ c.1 ≤ nx) ∧ (0 ≤ c.2 ∧ c.2 ≤ nx) := by
    intro c hc
    obtain ⟨h1, h2⟩ := mem_pairs.1 hc
    omega
  have h0 : ((0, 0) : Int × Int) ∈ pairs (nx + 1) (nx + 1) := mem_pairs.2 ⟨by dsimp only; omega, by dsimp only; omega⟩
  have hN : ((nx, 0) : Int × Int) ∈ pairs (nx + 1) (nx + 1) := mem_pairs.2 ⟨by dsimp only; omega, by dsimp only; omega⟩
  have mono : ∀ (b : K) (i : Int), 0 ≤ i → b ≤ b + h * (i : K) := fun b i hi =>
    le_add_of_nonneg_right (mul_nonneg hd0 (by exact_mod_cast hi))
  refine getCartesianDomain_ok io _ ⟨by omega, hx.2⟩ ⟨by omega, hx.2⟩ ⟨by omega, by omega⟩ rfl
    (pairs (nx + 1) (nx + 1)) _ _ _ (fun c => xb + h * (c.1 : K)) (fun c => yb + h * (c.2 : K))
    (fun _ => 0) (vts2_points io xb yb h nx u s) ?_ ?_ ?_ ?_ ?_ ?_ ?_
  · rw [pairs_eq, List.length_map, length_box2]
    push_cast
    rw [Int.toNat_of_nonneg (by omega)]
    ring
  · intro c hc
    obtain ⟨h1, h2⟩ := hb c hc
    exact ⟨(hex c.1 h1.1 h1.2).1, (hey c.2 h2.1 h2.2).1, by unfold Word; decide +kernel⟩
  · intro c hc
    obtain ⟨h1, h2⟩ := hb c hc
    exact ⟨(hex c.1 h1.1 h1.2).2, (hey c.2 h2.1 h2.2).2, h00⟩
  · exact ⟨⟨_, h0, by simp⟩, fun c hc => mono xb c.1 (hb c hc).1.1⟩
  · refine ⟨⟨_, hN, by dsimp only; rw [hdn]; ring⟩, fun c hc => ?_⟩
    have : h * (c.1 : K) ≤ h * (nx : K) := mul_le_mul_of_nonneg_left (by exact_mod_cast (hb c hc).1.2) hd0
    linarith
  · exact ⟨⟨_, h0, by simp⟩, fun c hc => mono yb c.2 (hb c hc).2.1⟩
  · exact ⟨⟨_, h0, rfl⟩, fun c hc => le_refl 0⟩

end

/-! ### Initial condition and time options from a file -/

section
variable {A K : Type} [DecidableEq A] [Arith K] [LinearOrder K] {sz : A → Int} {E : Env K} {o : RunOpts K}

theorem ic3_file {nx ny nz : Int} (hn : 1 ≤ nx ∧ 1 ≤ ny ∧ 1 ≤ nz) {xb xe yb zb dx : K} {u0 : Int × Int × Int → K}
    {s : Status K} (hd : getCartesianDomain E.io (vts3 E.io xb yb zb dx nx ny nz u0 s) = .ok ⟨nx, ny, nz, xb, xe, yb, zb⟩)
    (hu : ∀ c, In3 nx ny nz c → Exact E.io (u0 c)) {sol : A} (hs : sz sol = (nx + 4) * (ny + 4) * (nz + 4))
    (interior : List Int) (m : Mem A K) :
    ∃ m1, CDet sz (icOf E o (some (vts3 E.io xb yb zb dx nx ny nz u0 s)) interior (.d3 ⟨nx, ny, nz, 2⟩ sol) sol) m () m1 ∧
      (∀ c, In3 nx ny nz c → m1 sol ((⟨nx, ny, nz, 2⟩ : Grid3).at3 c.1 c.2.1 c.2.2) = u0 c) ∧ ∀ b, b ≠ sol → m1 b = m b := by
  obtain ⟨m1, h1, h2, -, h4⟩ := setSolution3_ok (A := A) E.io _ (g := ⟨nx, ny, nz, 2⟩) (by dsimp only; omega) hn hd
    (fun i j k => u0 (i, j, k)) (vts3_cells E.io xb yb zb dx nx ny nz u0 s) (fun i j k h => hu (i, j, k) h) (sz := sz)
    (d := sol) hs m
  exact ⟨m1, CDet.ofProg h1, fun c hc => h2 _ _ _ hc, h4⟩

theorem ic2_file {n : Int} (hn : 1 ≤ n) {xb xe yb zb dx : K} {u0 : Int × Int → K}
    {s : Status K} (hd : getCartesianDomain E.io (vts2 E.io xb yb dx n u0 s) = .ok ⟨n, n, 0, xb, xe, yb, zb⟩)
    (hu : ∀ c, In2 n c → Exact E.io (u0 c)) {sol : A} (hs : sz sol = (n + 4) * (n + 4))
    (interior : List Int) (m : Mem A K) :
    ∃ m1, CDet sz (icOf E o (some (vts2 E.io xb yb dx n u0 s)) interior (.d2 ⟨n, n, 2⟩ sol) sol) m () m1 ∧
      (∀ c, In2 n c → m1 sol ((⟨n, n, 2⟩ : Grid2).at2 c.1 c.2) = u0 c) ∧ ∀ b, b ≠ sol → m1 b = m b := by
  obtain ⟨m1, h1, h2, -, h4⟩ := setSolution2_ok (A := A) E.io _ (g := ⟨n, n, 2⟩) rfl (by dsimp only; omega) hn hd
    (fun i j => u0 (i, j)) (vts2_cells E.io xb yb dx n u0 s) (fun i j h => hu (i, j) h) (sz := sz)
    (d := sol) hs m
  exact ⟨m1, CDet.ofProg h1, fun c hc => h2 _ _ hc, h4⟩

theorem time_file {f : VtsFile} {s : Status K} (hf : f.fields = statusFields E.io s) (ht : ShortExact E.io s.time)
    (hd : ShortExact E.io s.dt) (hi : 0 ≤ s.iter ∧ s.iter < 2147483648) (hcfl : o.useCfl = false)
    (hM : o.maxSteps < 2147483648) :
    setInitialTimeStep E.io f o.timeOpts =
      .ok ⟨s.time, o.tfinal, s.dt, false, o.maxSteps, s.iter, o.relTol, o.absTol⟩ := by
  rw [setInitialTimeStep_ok E.io f s o.timeOpts hf ⟨ht.1, hd.1⟩ ht.2 hd.2 ⟨by omega, hi.2⟩]
  unfold RunOpts.timeOpts
  rw [hcfl, maxSteps_small _ hM]

end

/-! ### Shifted sequences -/

theorem Spec.Marching.shift {K : Type} [Arith K] [LT K] [DecidableLT K] [LE K] [DecidableLE K] [DecidableEq K] [Max K] [Min K] {T t0 dt0 : K} {t d p : Nat → K} (hm : Marching T t0 dt0 t d p) (n : Nat) :
    Marching T (t n) (d n) (fun k => t (n + k)) (fun k => d (n + k)) (fun k => p (n + k)) :=
  ⟨rfl, rfl, fun k => hm.t_succ (n + k), fun k => hm.d_succ (n + k)⟩

theorem states_shift {K C : Type} [Field K] (T : Tableau K) (F : K → (C → K) → C → K) (t d : Nat → K) (u0 : C → K) (n : Nat) :
    ∀ k, states T F (fun k => t (n + k)) (fun k => d (n + k)) (states T F t d u0 n) k = states T F t d u0 (n + k)
  | 0 => rfl
  | k + 1 => by rw [states, states_shift T F t d u0 n k]; rfl

theorem endsAfter_shift {K : Type} [Arith K] [LT K] [DecidableLT K] [LE K] [DecidableLE K] [DecidableEq K] [Max K] [Min K] {T t0 dt0 t0' dt0' : K} {c c' : Bool} {M : Int} {t p r r' : Nat → K}
    {f f' : Nat} {n N N' : Nat} (hnl : ¬ LastStep T t p n)
    (h1 : EndsAfter ⟨t0, T, dt0, c, M, 0, 0, 0⟩ f t p r N) (h2 : n < N)
    (h3 : EndsAfter ⟨t0', T, dt0', c', M, n, 0, 0⟩ f' (fun k => t (n + k)) (fun k => p (n + k)) r' N') : N = n + N' := by
  have stop : ∀ (a b : K) (c : Bool) (i : Int) (f : Nat) (r : Nat → K) (k : Nat), StopAt ⟨a, T, b, c, M, i, 0, 0⟩ f r k ↔ M ≠ 0 ∧ M ≤ i + k := by
    intro a b c i f r k
    unfold StopAt
    constructor
    · rintro (h | ⟨h, -⟩ | ⟨h, -⟩)
      · exact h
      · exact absurd rfl h
      · exact absurd rfl h
    · exact Or.inl
  have key : ∀ k, 1 ≤ k → (MustEnd ⟨t0', T, dt0', c', M, n, 0, 0⟩ f' (fun k => t (n + k)) (fun k => p (n + k)) r' k ↔
      MustEnd ⟨t0, T, dt0, c, M, 0, 0, 0⟩ f t p r (n + k)) := by
    intro k hk
    unfold MustEnd
    rw [stop, stop]
    refine or_congr ?_ (by push_cast; rw [zero_add])
    by_cases h1 : k = 1
    · subst h1
      refine iff_of_false (fun h => by have := h.1; omega) ?_
      simpa using hnl
    · unfold LastStep
      have e : n + (k - 1) = n + k - 1 := by omega
      simp only [e]
      refine and_congr (by omega) Iff.rfl
  refine h1.unique ⟨by have := h3.1; omega, (key N' h3.1).1 h3.2.1, fun k k1 k2 => ?_⟩
  by_cases hk : k ≤ n
  · exact h1.2.2 k k1 (by omega)
  · intro hM
    have := (key (k - n) (by omega)).2 (by rw [show n + (k - n) = k by omega]; exact hM)
    exact h3.2.2 (k - n) (by omega) (by omega) this

theorem finalStatus_shift {K : Type} [Arith K] [LT K] [DecidableLT K] [LE K] [DecidableLE K] [DecidableEq K] [Max K] [Min K] {T : K} {t d p : Nat → K} {n N' : Nat} (h1 : 1 ≤ N')
    (hnl : ¬ LastStep T t p n) :
    finalStatus (n : Int) T (fun k => t (n + k)) (fun k => d (n + k)) (fun k => p (n + k)) N' =
      finalStatus 0 T t d p (n + N') := by
  have hl : LastStep T (fun k => t (n + k)) (fun k => p (n + k)) (N' - 1) ↔ LastStep T t p (n + N' - 1) := by
    by_cases h : N' = 1
    · subst h
      exact iff_of_false (fun h => by have := h.1; omega) (by simpa using hnl)
    · unfold LastStep
      dsimp only
      rw [show n + (N' - 1) = n + N' - 1 by omega]
      exact and_congr (by omega) Iff.rfl
  unfold finalStatus
  dsimp only
  rw [show n + (N' - 1) = n + N' - 1 by omega]
  congr 1
  · push_cast; ring
  · by_cases h : LastStep T t p (n + N' - 1)
    · rw [if_pos h, if_pos (hl.2 h)]
    · rw [if_neg h, if_neg (fun x => h (hl.1 x))]

end Madg
