/-
Residual norms (governing_equations/residual_calculator.cpp, time_stepping/bdf_multigrid.cpp) and the solution monitor
(governing_equations/cahn_hilliard/cahn_hilliard_solution_monitor.cpp).
-/
import Verif.Model.Cmd
import Verif.Model.Grid3
import Verif.Model.Grid2
import Verif.Model.Monitor

namespace Madg
variable {A K : Type}

/-- Bodies of a reduction `maDGForAll(ii, 0, idx.size(), { r += ... idx[ii] ... })`
(data_structures/exec_includes.hpp:26-86, data_structures/span.hpp:14-20). -/
def redIdx (l : List Int) (body : Int → Prog A K K) : List (Prog A K K) :=
  (List.range l.length).map fun ii => (Prog.idx l ii).bind body

variable [Arith K]

/-- Residual norm (governing_equations/residual_calculator.cpp:24-31; the same code is
time_stepping/bdf_multigrid.cpp:46-51): `l` the interior indices, `a` the residual array, `rt` the square root. -/
def residNorm (rt : K → K) (l : List Int) (a : A) : Cmd A K K :=
  (Cmd.reduceOf (· + ·) 0 (redIdx l fun n => (Prog.rd a n).bind fun v => .pure (v ^ 2))).bind fun s =>
    .ret (rt (s / (l.length : K)))

/-- `residual_calculator` (governing_equations/residual_calculator.cpp:13-46), one equation named `c`; `maxRes` is the
process-wide `max_res` before the call, the result holds the monitor entries and the new `max_res`. -/
def residualCalculator [LT K] [DecidableLT K] [DecidableEq K] (rt : K → K) (maxRes : K) (l : List Int) (a : A) :
    Cmd A K (List (String × K) × K) :=
  (residNorm rt l a).bind fun r => .ret (residRecord maxRes r)

/-- One difference quotient of the monitor
(governing_equations/cahn_hilliard/cahn_hilliard_solution_monitor.cpp:37-45): one-sided where `i` is `0` or `n - 1`, else
central; `hi`, `lo` read the two neighbours, `v` is the cell's value. -/
def sideDiff (n i : Int) (hi lo : Prog A K K) (v dx : K) : Prog A K K :=
  if i = 0 then hi.bind fun a => .pure ((a - v) / dx)
  else if i = n - 1 then lo.bind fun b => .pure ((v - b) / dx)
  else hi.bind fun a => lo.bind fun b => .pure ((a - b) / (2 * dx))

/-- Contribution of a cell to `grad_c_mag` in 2D
(governing_equations/cahn_hilliard/cahn_hilliard_solution_monitor.cpp:27-58). -/
def Grid2.gradCell (g : Grid2) (rt : K → K) (dx : K) (f : A) (n : Int) : Prog A K K :=
  let i := g.getI n
  let j := g.getJ n
  (Prog.rd f (g.at2 i j)).bind fun v =>
  (sideDiff g.ni i (Prog.rd f (g.at2 (i + 1) j)) (Prog.rd f (g.at2 (i - 1) j)) v dx).bind fun dfdx =>
  (sideDiff g.ni j (Prog.rd f (g.at2 i (j + 1))) (Prog.rd f (g.at2 i (j - 1))) v dx).bind fun dfdy =>
  .pure (rt (dfdx ^ 2 + dfdy ^ 2) * dx * dx)

/-- Contribution of a cell to `grad_c_mag` in 3D
(governing_equations/cahn_hilliard/cahn_hilliard_solution_monitor.cpp:82-126): all three directions are compared with
`ni - 1`, and the contribution is scaled by `dx * dx`. -/
def Grid3.gradCell (g : Grid3) (rt : K → K) (dx : K) (f : A) (n : Int) : Prog A K K :=
  let i := g.getI n
  let j := g.getJ n
  let k := g.getK n
  (Prog.rd f (g.at3 i j k)).bind fun v =>
  (sideDiff g.ni i (Prog.rd f (g.at3 (i + 1) j k)) (Prog.rd f (g.at3 (i - 1) j k)) v dx).bind fun dfdx =>
  (sideDiff g.ni j (Prog.rd f (g.at3 i (j + 1) k)) (Prog.rd f (g.at3 i (j - 1) k)) v dx).bind fun dfdy =>
  (sideDiff g.ni k (Prog.rd f (g.at3 i j (k + 1))) (Prog.rd f (g.at3 i j (k - 1))) v dx).bind fun dfdz =>
  .pure (rt (dfdx ^ 2 + dfdy ^ 2 + dfdz ^ 2) * dx * dx)

variable [Max K] [Min K]

/-- `cahn_hilliard_solution_monitor`, 2D (governing_equations/cahn_hilliard/cahn_hilliard_solution_monitor.cpp:10-62):
`(min_c, max_c, grad_c_mag)`. `big` is `numeric_limits::max()`, `tiny` is `numeric_limits::min()` (the smallest positive
normal number). The three reductions share one loop in the code and are separate here; the bodies only read. -/
def Geom2.solMonitor (G : Geom2) (rt : K → K) (big tiny dx : K) (f : A) : Cmd A K (K × K × K) :=
  (Cmd.reduceOf min big (redIdx G.interior fun n => Prog.rd f (G.g.at2 (G.g.getI n) (G.g.getJ n)))).bind fun mn =>
  (Cmd.reduceOf max tiny (redIdx G.interior fun n => Prog.rd f (G.g.at2 (G.g.getI n) (G.g.getJ n)))).bind fun mx =>
  (Cmd.reduceOf (· + ·) 0 (redIdx G.interior (G.g.gradCell rt dx f))).bind fun gm => .ret (mn, mx, gm)

/-- `cahn_hilliard_solution_monitor`, 3D (governing_equations/cahn_hilliard/cahn_hilliard_solution_monitor.cpp:65-131). -/
def Geom3.solMonitor (G : Geom3) (rt : K → K) (big tiny dx : K) (f : A) : Cmd A K (K × K × K) :=
  (Cmd.reduceOf min big (redIdx G.interior fun n => Prog.rd f (G.g.at3 (G.g.getI n) (G.g.getJ n) (G.g.getK n)))).bind fun mn =>
  (Cmd.reduceOf max tiny (redIdx G.interior fun n => Prog.rd f (G.g.at3 (G.g.getI n) (G.g.getJ n) (G.g.getK n)))).bind fun mx =>
  (Cmd.reduceOf (· + ·) 0 (redIdx G.interior (G.g.gradCell rt dx f))).bind fun gm => .ret (mn, mx, gm)

end Madg
