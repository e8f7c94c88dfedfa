/-
Residual, monitor and files of the Cahn–Hilliard runs, as functions of the interior field.
-/
import Verif.Proofs.ProgramRK
import Verif.Props.RK
import Verif.Props.Reduce
import Verif.Proofs.VTK
import Verif.Proofs.Coords

set_option linter.unusedSectionVars false

namespace Madg
open Spec

theorem spaced_flatMap {α : Type} (f : α → Text) (s : Text) (l : List α) :
    spaced (l.map fun x => (f x, s)) = l.flatMap fun x => f x ++ s := by
  induction l with
  | nil => rfl
  | cons x l ih => simp only [List.map_cons, spaced, List.flatMap_cons, ih]

theorem spaced_triples {α : Type} (f : α → Text × Text × Text) (l : List α) :
    spaced ((l.map f).flatMap triple) =
      l.flatMap fun x => (f x).1 ++ " ".toList ++ (f x).2.1 ++ " ".toList ++ (f x).2.2 ++ "\n".toList := by
  induction l with
  | nil => rfl
  | cons x l ih =>
    simp only [List.map_cons, List.flatMap_cons]
    rw [← ih]
    simp only [triple, List.cons_append, List.nil_append, spaced, List.append_assoc]

theorem triples_eq (ni nj nk : Int) : triples ni nj nk = (box3 0 nk 0 nj 0 ni).map fun x => (x.2.2, x.2.1, x.1) := by
  unfold triples box3
  simp only [List.map_flatMap, List.map_map, Function.comp_def]

theorem pairs_eq (ni nj : Int) : pairs ni nj = (box2 0 nj 0 ni).map fun x => (x.2, x.1) := by
  unfold pairs box2
  simp only [List.map_flatMap, List.map_map, Function.comp_def]

section
variable {A K : Type} [DecidableEq A] [Arith K] {g : Grid3} {G : Geom3} (hn : 1 ≤ g.ni ∧ 1 ≤ g.nj ∧ 1 ≤ g.nk) (hh : g.nhalo = 2)
  (hGg : G.g = g) {sz : A → Int} {w : ProgArr A} (hsol : sz w.rk.sol = g.size)
  (hsv : ∀ a ∈ [w.co.xv, w.co.yv, w.co.zv], sz a = g.vert.size) {b : Box K} {mc : Mem A K}
  (hmc : ∀ i j k, g.vert.Pad i j k → mc w.co.xv (g.vert.at3 i j k) = b.xbeg + b.dx g.ni * (i : K) ∧
    mc w.co.yv (g.vert.at3 i j k) = b.ybeg + b.dx g.ni * (j : K) ∧
    mc w.co.zv (g.vert.at3 i j k) = b.zbeg + b.dx g.ni * (k : K))
include hn hh hGg hsol hsv hmc

theorem write3 (io : RealText K) (m : Mem A K) (u : Int × Int × Int → K) (st : Status K)
    (h : ∀ c, In3 g.ni g.nj g.nk c → m w.rk.sol (g.at3 c.1 c.2.1 c.2.2) = u c)
    (hk : ∀ a ∈ [w.co.xv, w.co.yv, w.co.zv], m a = mc a) :
    CDet sz (Cmd.ofProg (vtkWrite3 io G.g w.co.xv w.co.yv w.co.zv w.rk.sol st)) m
      (vts3 io b.xbeg b.ybeg b.zbeg (b.dx g.ni) g.ni g.nj g.nk u st) m := by
  subst hGg
  refine CDet.ofProg ?_
  rw [vtkWrite3_run io (by omega) hsol hsv st m]
  have e : file3 io G.g w.co.xv w.co.yv w.co.zv w.rk.sol st m =
      vts3 io b.xbeg b.ybeg b.zbeg (b.dx G.g.ni) G.g.ni G.g.nj G.g.nk u st := by
    unfold file3 vts3 cellsText pointsText
    congr 1
    · rw [triples_eq, spaced_flatMap, List.flatMap_map, List.flatMap_map]
      congr 2
      refine List.flatMap_congr fun x hx => ?_
      rw [mem_box3] at hx
      rw [h (x.2.2, x.2.1, x.1) ⟨hx.2.2, hx.2.1, hx.1⟩]
    · rw [triples_eq, spaced_triples, List.flatMap_map]
      congr 2
      refine List.flatMap_congr fun x hx => ?_
      rw [mem_box3] at hx
      obtain ⟨a1, a2, a3⟩ := hmc x.2.2 x.2.1 x.1 (Grid3.vert_pad.2 ⟨by omega, by omega, by omega⟩)
      rw [hk _ (by simp), hk w.co.yv (by simp), hk w.co.zv (by simp), a1, a2, a3]
  rw [e]

end

variable {A K H : Type} [DecidableEq A] [Field K] [LinearOrder K] [IsStrictOrderedRing K]

theorem diff1_congr {n : Int} (h2 : 2 ≤ n) {w w' : Int → K} {i : Int} (dx : K) (hi : 0 ≤ i ∧ i < n)
    (h : ∀ x, 0 ≤ x → x < n → w x = w' x) : diff1 n w i dx = diff1 n w' i dx := by
  unfold diff1
  split
  · rw [h 1 (by omega) (by omega), h 0 (by omega) (by omega)]
  · split
    · rw [h _ (by omega) (by omega), h _ (by omega) (by omega)]
    · rw [h _ (by omega) (by omega), h _ (by omega) (by omega)]

section
variable {g : Grid3} (hn : 2 ≤ g.ni ∧ 2 ≤ g.nj ∧ 2 ≤ g.nk) (hh : g.nhalo = 2) {G : Geom3} (hGo : G.Ok) (hGg : G.g = g)
  {sz : A → Int} {w : ProgArr A} (hsol : sz w.rk.sol = g.size) (hres : sz w.rk.res = g.size)
  (hsv : ∀ a ∈ [w.co.xv, w.co.yv, w.co.zv], sz a = g.vert.size) {b : Box K} {mc : Mem A K}
  (hmc : ∀ i j k, g.vert.Pad i j k → mc w.co.xv (g.vert.at3 i j k) = b.xbeg + b.dx g.ni * (i : K) ∧
    mc w.co.yv (g.vert.at3 i j k) = b.ybeg + b.dx g.ni * (j : K) ∧
    mc w.co.zv (g.vert.at3 i j k) = b.zbeg + b.dx g.ni * (k : K))
include hn hh hGo hGg hsol hres hsv hmc

theorem view3 (E : Env K) (maxSteps : Int) (doStep : H → K → K → Cmd A K H) (nextDT : H → K → Cmd A K (H × K)) (dx : K) :
    ViewOk (sim3 E G dx w maxSteps doStep nextDT) sz (In3 g.ni g.nj g.nk) (fun c => g.at3 c.1 c.2.1 c.2.2)
      w.rk.sol w.rk.res (fun m => ∀ a ∈ [w.co.xv, w.co.yv, w.co.zv], m a = mc a) (rms3 E.rt g.ni g.nj g.nk)
      (Monitors3 E.rt E.big E.tiny dx g.ni g.nj g.nk)
      (vts3 E.io b.xbeg b.ybeg b.zbeg (b.dx g.ni) g.ni g.nj g.nk) where
  resid m mx r h := by
    have d := residNorm_det (K := K) (sz := sz) E.rt G.interior w.rk.res
      (fun n hn => hGo.int_inB (by rw [hGg]; exact hres) hn) m
    rw [hGo.int_sum, hGo.length_int', hGg] at d
    have e : sum3 g.ni g.nj g.nk (fun i j k => m w.rk.res (g.at3 i j k) ^ 2) =
        sum3 g.ni g.nj g.nk fun i j k => r (i, j, k) ^ 2 :=
      sum3_congr fun i j k hi hj hk => by rw [← h (i, j, k) ⟨hi, hj, hk⟩]
    rw [e] at d
    exact d.bind (CDet.ret _ _)
  mon m u h := by
    subst hGg
    have d := solMonitor3_det (K := K) hGo (by omega) hsol E.rt E.big E.tiny dx m
    have hset : ∀ s : K, {x | x = s ∨ x ∈ G.interior.map (m w.rk.sol)} =
        insert s {x | ∃ c, In3 G.g.ni G.g.nj G.g.nk c ∧ u c = x} := by
      intro s
      ext x
      simp only [Set.mem_ofPred_eq, Set.mem_insert_iff, List.mem_map]
      refine or_congr_right ⟨?_, ?_⟩
      · rintro ⟨n, hn, rfl⟩
        obtain ⟨i, j, k, hi, rfl⟩ := hGo.mem_int.1 hn
        exact ⟨(i, j, k), hi, (h (i, j, k) hi).symm⟩
      · rintro ⟨⟨i, j, k⟩, hi, rfl⟩
        exact ⟨_, hGo.mem_int.2 ⟨i, j, k, hi, rfl⟩, h (i, j, k) hi⟩
    refine ⟨_, d, ?_, ?_, fun e1 e2 => ?_⟩
    · rw [← hset]; exact foldl_min_least _ _
    · rw [← hset]; exact foldl_max_greatest _ _
    · dsimp only
      rw [e1, e2] at h ⊢
      refine sum3_congr fun i j k hi hj hk => ?_
      rw [mul_assoc, ← pow_two]
      congr 1
      unfold gradMag3
      rw [diff1_congr hn.1 (w' := fun a => u (a, j, k)) dx hi fun x x0 x1 => h (x, j, k) ⟨⟨x0, x1⟩, hj, hk⟩,
        diff1_congr hn.1 (w' := fun a => u (i, a, k)) dx hj fun x x0 x1 => h (i, x, k) ⟨hi, ⟨x0, x1⟩, hk⟩,
        diff1_congr hn.1 (w' := fun a => u (i, j, a)) dx hk fun x x0 x1 => h (i, j, x) ⟨hi, hj, ⟨x0, x1⟩⟩]
  write m u st h hk := by
    exact write3 ⟨by omega, by omega, by omega⟩ hh hGg hsol hsv hmc E.io m u st h hk

end

section
variable {n : Int} (hn : 2 ≤ n) {G : Geom2} (hGo : G.Ok) (hGg : G.g = ⟨n, n, 2⟩)
  {sz : A → Int} {w : ProgArr A} (hsol : sz w.rk.sol = G.g.size) (hres : sz w.rk.res = G.g.size)
  (hsv : ∀ a ∈ [w.co.xv, w.co.yv], sz a = G.g.vert.size) {b : Box K} {mc : Mem A K}
  (hmc : ∀ i j, G.g.vert.Pad i j → mc w.co.xv (G.g.vert.at2 i j) = b.xbeg + b.dx n * (i : K) ∧
    mc w.co.yv (G.g.vert.at2 i j) = b.ybeg + b.dx n * (j : K))
include hn hGo hGg hsol hres hsv hmc

theorem view2 (E : Env K) (maxSteps : Int) (doStep : H → K → K → Cmd A K H) (nextDT : H → K → Cmd A K (H × K)) (dx : K) :
    ViewOk (sim2 E G dx w maxSteps doStep nextDT) sz (In2 n) (fun c => G.g.at2 c.1 c.2)
      w.rk.sol w.rk.res (fun m => ∀ a ∈ [w.co.xv, w.co.yv], m a = mc a) (rms2 E.rt n)
      (Monitors2 E.rt E.big E.tiny dx n) (vts2 E.io b.xbeg b.ybeg (b.dx n) n) where
  resid m mx r h := by
    have d := residNorm_det (K := K) (sz := sz) E.rt G.interior w.rk.res (fun n hn => hGo.int_inB hres hn) m
    have e1 : G.g.ni = n := by rw [hGg]
    rw [hGo.int_sum, hGo.length_int', e1] at d
    have e : sum2 n n (fun i j => m w.rk.res (G.g.at2 i j) ^ 2) = sum2 n n fun i j => r (i, j) ^ 2 :=
      sum2_congr fun i j hi hj => by rw [← h (i, j) ⟨hi, hj⟩]
    rw [e] at d
    exact d.bind (CDet.ret _ _)
  mon m u h := by
    have e1 : G.g.ni = n := by rw [hGg]
    have e2 : G.g.nj = n := by rw [hGg]
    have e3 : G.g.nhalo = 2 := by rw [hGg]
    have d := solMonitor2_det (K := K) hGo (by omega) hsol E.rt E.big E.tiny dx m
    have hset : ∀ s : K, {x | x = s ∨ x ∈ G.interior.map (m w.rk.sol)} =
        insert s {x | ∃ c, In2 n c ∧ u c = x} := by
      intro s
      ext x
      simp only [Set.mem_ofPred_eq, Set.mem_insert_iff, List.mem_map]
      refine or_congr_right ⟨?_, ?_⟩
      · rintro ⟨y, hy, rfl⟩
        obtain ⟨i, j, hi, rfl⟩ := hGo.mem_int.1 hy
        have a1 := hi.1; have a2 := hi.2
        rw [e1] at a1; rw [e2] at a2
        exact ⟨(i, j), ⟨a1, a2⟩, (h (i, j) ⟨a1, a2⟩).symm⟩
      · rintro ⟨⟨i, j⟩, hi, rfl⟩
        exact ⟨_, hGo.mem_int.2 ⟨i, j, ⟨by rw [e1]; exact hi.1, by rw [e2]; exact hi.2⟩, rfl⟩, h (i, j) hi⟩
    refine ⟨_, d, ?_, ?_, ?_⟩
    · rw [← hset]; exact foldl_min_least _ _
    · rw [← hset]; exact foldl_max_greatest _ _
    · dsimp only
      rw [e1]
      refine sum2_congr fun i j hi hj => ?_
      rw [mul_assoc, ← pow_two]
      congr 1
      unfold gradMag2
      rw [diff1_congr hn (w' := fun a => u (a, j)) dx hi fun x x0 x1 => h (x, j) ⟨⟨x0, x1⟩, hj⟩,
        diff1_congr hn (w' := fun a => u (i, a)) dx hj fun x x0 x1 => h (i, x) ⟨hi, ⟨x0, x1⟩⟩]
  write m u st h hk := by
    have e1 : G.g.ni = n := by rw [hGg]
    have e2 : G.g.nj = n := by rw [hGg]
    have e3 : G.g.nhalo = 2 := by rw [hGg]
    refine CDet.ofProg ?_
    rw [vtkWrite2_run E.io hGo.sq (by omega) hsol hsv st m]
    have e : file2 E.io G.g w.co.xv w.co.yv w.rk.sol st m = vts2 E.io b.xbeg b.ybeg (b.dx n) n u st := by
      unfold file2 vts2 cellsText pointsText
      rw [e1]
      congr 1
      · rw [pairs_eq, spaced_flatMap, List.flatMap_map, List.flatMap_map]
        congr 2
        refine List.flatMap_congr fun x hx => ?_
        rw [mem_box2] at hx
        rw [h (x.2, x.1) ⟨hx.2, hx.1⟩]
      · rw [pairs_eq, spaced_triples, List.flatMap_map]
        congr 2
        refine List.flatMap_congr fun x hx => ?_
        rw [mem_box2] at hx
        obtain ⟨a1, a2⟩ := hmc x.2 x.1 ((Grid2.vert_pad hGo.sq).2 ⟨by omega, by omega⟩)
        rw [hk _ (by simp), hk w.co.yv (by simp), a1, a2]
    rw [e]

end

end Madg
