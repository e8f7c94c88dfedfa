/-
What a run of the program is expected to leave behind.
-/
import Verif.Model.Program
import Verif.Spec.Program

namespace Madg.Spec

/-- The arrays of a 3D run are different and have the sizes of the grid with a halo of width 2. -/
structure Arrays3 {A : Type} (sz : A → Int) (w : ProgArr A) (nx ny nz : Int) : Prop where
  distinct : [w.co.x, w.co.y, w.co.z, w.co.xv, w.co.yv, w.co.zv, w.rk.sol, w.rk.res, w.rk.k1, w.rk.k2, w.rk.k3, w.rk.k4,
    w.rk.stage, w.l1, w.l2, w.l3, w.l4].Nodup
  cells : ∀ a ∈ [w.co.x, w.co.y, w.co.z, w.rk.sol, w.rk.res, w.rk.k1, w.rk.k2, w.rk.k3, w.rk.k4, w.rk.stage, w.l1, w.l2,
    w.l3, w.l4], sz a = (nx + 4) * (ny + 4) * (nz + 4)
  verts : ∀ a ∈ [w.co.xv, w.co.yv, w.co.zv], sz a = (nx + 5) * (ny + 5) * (nz + 5)

/-- The arrays of a 2D run. -/
structure Arrays2 {A : Type} (sz : A → Int) (w : ProgArr A) (n : Int) : Prop where
  distinct : [w.co.x, w.co.y, w.co.xv, w.co.yv, w.rk.sol, w.rk.res, w.rk.k1, w.rk.k2, w.rk.k3, w.rk.k4, w.rk.stage, w.l1,
    w.l2, w.l3, w.l4].Nodup
  cells : ∀ a ∈ [w.co.x, w.co.y, w.rk.sol, w.rk.res, w.rk.k1, w.rk.k2, w.rk.k3, w.rk.k4, w.rk.stage, w.l1, w.l2, w.l3,
    w.l4], sz a = (n + 4) * (n + 4)
  verts : ∀ a ∈ [w.co.xv, w.co.yv], sz a = (n + 5) * (n + 5)

/-- The draws of the random number generator, one per cell with the last index fastest, shifted to mean value `mean`. -/
noncomputable def initial3 (draw : Nat → ℝ) (mean : ℝ) (nx ny nz : Int) (c : Int × Int × Int) : ℝ :=
  mean + (draw ((c.1 * ny + c.2.1) * nz + c.2.2).toNat -
    ((List.range (nx * ny * nz).toNat).map draw).sum / ((nx * ny * nz : Int) : ℝ))

/-- The same for a 2D grid. -/
noncomputable def initial2 (draw : Nat → ℝ) (mean : ℝ) (n : Int) (c : Int × Int) : ℝ :=
  mean + (draw (c.1 * n + c.2).toNat - ((List.range (n * n).toNat).map draw).sum / ((n * n : Int) : ℝ))

/-- Every execution of a program started from the memory `m` takes the same steps and leaves the same log and files.
`run fuel` is the program stopped after `fuel` steps, `o` its time options, `lf` the log frequency, `se` the save frequency,
`t d p r` times, step sizes, proposals and residual norms, `Q k` a property of the monitored values after step `k`, `name i`
and `fname i` the file names with step number `i`, `file k` the contents written after step `k`. -/
def RunsAs {A K : Type} [DecidableEq A] [Field K] [LinearOrder K] (sz : A → Int) (run : Nat → Cmd A K (RunResult K))
    (m : Mem A K) (o : TimeOpts K) (lf se : Nat) (t d p r : Nat → K) (Q : Nat → K × K × K → Prop) (name fname : Int → Text)
    (file : Nat → Status K → VtsFile) : Prop :=
  ∃ N, EndsAfter o lf t p r N ∧
    (∀ fuel, N ≤ fuel → ∃ v m', (∀ k, k < N → lf ∣ k → Q k (v k)) ∧
      CDet sz (run fuel) m (.done
        (savedFiles o.initialStep se t d name file N ++
          [(fname (o.initialStep + N), file (N - 1) (finalStatus o.initialStep o.tfinal t d p N))])
        (reportRows o.initialStep lf t d r v N)) m') ∧
    (∀ fuel, fuel < N → ∃ m', CDet sz (run fuel) m .outOfFuel m')

end Madg.Spec
