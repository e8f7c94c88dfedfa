# Formal model of maDGiCart-CH: design

## Layout

| Directory | Contents |
|---|---|
| `lean/Verif/Model/` | the model, function by function; each definition cites the file and lines of /repo it models |
| `lean/Verif/Spec/` | small specifications that do not use the model |
| `lean/Verif/Proofs/` | helper lemmas |
| `lean/Verif/Props/` | property theorems and their non-vacuity examples |

## Model architecture

* **Arithmetic.** The solver's definitions take any type with the operations `0 1 + - * / ^` and integer constants, without laws
  (`Arith`), with bare comparisons `<`, `≤`, `=` and `max`, `min` where they occur.  Most theorems instantiate it with an arbitrary field `K` (ordered where
  comparisons occur, `ℝ` where `sqrt`, `pow` with real exponent or derivatives occur).  C93 holds for every `Arith`, and
  `Fl rnd` (Model/Rounded) is the instance in which each operation is the exact one followed by one rounding, such as
  `binary64.round`.  In it expressions are evaluated in the order of the source.  `Fl` has no NaN and no infinities (`0/0` in the multigrid
  convergence test is modelled as a distinct outcome); `Ieee F` (Model/IEEE) has signed zeros, infinities and one NaN, and C101 is
  about it; C102 and C103 hold for every `Arith` with bare comparisons.  There is one number type: with `real_wp = float` the source
  evaluates expressions with literals such as `2.0 * f` in double before rounding to float, which the model does not follow.  `pow` is taken to be correctly rounded, and
  a compiler's contraction of `a*b+c` into one operation is not modelled (C93_reproducible does not depend on that: it
  holds for every meaning of the operations).  The matrix classes and the PETSc callbacks are still over a field.  `int_t` is `Int`, with a separate checked
  32-bit evaluation for the overflow property.
* **Memory.** `Mem A K := A → Int → K` with array names `A` and sizes `sz : A → Int`.  An access outside
  `[0, sz a)` is a distinct fault outcome (undefined behaviour), never a default value.
* **Parallel loops.** A loop body is a program in a free monad of single loads and stores (`Prog`).
  `maDGForAll` is a pool of such programs.  Its semantics is every interleaving of single loads and
  stores, with a fault outcome; a host routine is a list of pools with a barrier in between
  (`HostExec`).  Two threads of one loop touching the same element, one of them writing, is a separate
  outcome (`dataRace`), so race freedom is part of every `Det` statement.  This covers RAJA's serial, OpenMP and GPU policies.  The central predicate is
  `Det h m m'`: the set of outcomes over *all* schedules is exactly the single normal outcome `m'`.
* **Index lists** are built by models of the constructors' loops and read with checked access.
* **Specification side.** Fields are functions on `ℤ³`; boundary conditions extend an interior field by
  `wrap`/`clamp` of coordinates; operators are textbook stencils (`lap`), the biharmonic is *defined* as
  `lap ∘ lap`.

* **Undefined behaviour and errors** are constructors of `Err`: `outOfBounds` (array access or `front()` of an
  empty vector), `divByZero` (integer division or modulus by zero), `uninit` (read of unwritten memory),
  `dataRace`, `badConv` (conversion of a double that does not fit the integer type), `abort` (`FatalMessage`,
  `exit`, `abort`), `thrown` (C++ exceptions).  `MMErr` is the analogue for the memory manager (double free, dead
  block, failed lookup, counter overflow, lifetime).  No operation is totalised: an operation that C++ leaves
  undefined ends the run in one of these outcomes.
* **Host code with scalars and reductions** is the free monad `Cmd`; `CDet sz c m x m'` says that every schedule and
  every way of combining partial results ends with value `x` and memory `m'`.

## Trusted base

* Lean 4.33.0's kernel and the three standard axioms `propext`, `Classical.choice`, `Quot.sound`
  (per-theorem list at the end of this file).  No axioms of our own, no `sorry`, no `native_decide`, no `bv_decide`.
* The reading of the C++ sources: the model was transcribed by hand.  Every definition in `lean/Verif/Model` cites
  file and lines.
* Sequential consistency for data-race-free loops (C++/OpenMP/CUDA memory models give this for
  race-free programs; race freedom itself is proved on the model).
* RAJA executes every index of a `RangeSegment` exactly once and a `forall` is a barrier; a reduction combines the
  contributions of all indices in some tree.
* Documented behaviour of library functions: boost `program_options` (store/notify), boost `lexical_cast` and
  `iostream` printing (correctly rounded), rocSPARSE products and triangular solves, `std::unordered_map`,
  `std::map`, `std::vector`.  Each is a parameter or a small definition in the model, named where it is used.

## What is modelled

| Source | Model file |
|---|---|
| typedefs: the number type `real_wp` | `Arith`, `Rounded`, `IEEE` |
| data_structures: managed_array_2d/3d, span, exec_includes | `Prog`, `Loop`, `Grid2`, `Grid3`, `Int32` |
| data_structures: memory_manager, managed_array, managed_array_owner, memory_handle | `Memory` |
| data_structures: csr_matrix, ldu_csr_matrix | `CSR`, `GaussSeidel` |
| spatial_discretization: 2D and 3D constructors, boundary fills, operators, transfers | `Grid2`, `Grid3`, `Coords`, `Transfer` |
| governing_equations/cahn_hilliard: 2D and 3D right-hand sides (all variants), Jacobian, initial conditions, solution monitor | `CH2`, `CH3`, `Jacobian`, `InitCond`, `Reduce` |
| governing_equations/poisson | `Poisson`, `MGPoisson` |
| governing_equations/residual_calculator | `Reduce`, `Monitor` |
| time_stepping: rk3ssp, ode23 with controller, time_integrator, bdf_multigrid, ode23_smoother | `RK`, `Controller`, `TimeLoop`, `Multigrid`, `MGCH`, `MGPoisson` |
| time_stepping/petsc_time_integrator (callbacks, copies, session) | `Petsc`, `PetscSession` |
| file_io: VTK writer and reader, read_csr_matrix | `Text`, `VTK`, `FileName`, `ReadArray` |
| utils: registry, observer; program_options; initialization/puppeteer | `Options`, `Settings` (table of options, printed settings, config files), `Main` (from the command line to the run), `Machine` (machine report, words for PETSc), `Observer`, `Monitor` |
| logger/logger | `Logger` |
| logger/profiler | `Profiler` |
| initialization/puppeteer and maDGiCart_main as a whole: all equations and integrators except the PETSc ones (result `unmodelled`, C92_unmodelled) | `Program` |

## Not modelled

* Floating-point rounding of the solver outside C93–C108, C111, C113–C115 (for the other properties real_wp is an exact field); NaN and infinities except in C101–C103, C105, C107, C108, C111, C114, C115 and `0/0` in the multigrid
  convergence test; overflow to infinity when printing.  Printing and parsing of numbers *is* modelled with rounding.
* CUDA/HIP transfers other than the synchronisation state machine; failing allocations; the debug stack traces.
* PETSc itself: the order of its calls is not in /repo, so C73 quantifies over all call orders.
* `StridedArray`, `StridedArraySet`, `ReferenceMatrix`, `NodalScalarSet`, `UniquelyNamedObject`: no code of the program uses them.
* rocSPARSE's analysis step (its buffer is allocated with `buffer_size/sizeof(real_wp)` elements, an observation outside the model).
* XML syntax below the level of the texts the reader looks at; tokenising of the command line (that of the config file is modelled, C109).
* Boost.Log, `tabulate` rendering of headings, MPI, plotting scripts, tests, CMake.

## Places where the code and the natural claim disagree

Each is proved as a negation with a concrete witness or as an exact description; the positive part is proved too.

| Where | What happens | Theorems |
|---|---|---|
| memory manager | byte counts are kept in 32 bits, so arrays above 2^31-1 bytes report a wrong size | C03_reported_size_wrong, C03_manager_size |
| 3D/2D periodic fill | extents below the halo width race or read unset cells | C12_* |
| Neumann boundaries | the biharmonic with one reflected layer does not conserve mass | C19_neumann_not_conservative, C19_mass_drift |
| Jacobian | correct only with halos filled from the same vector; wrong on Neumann grids; out of bounds for extents < 5 | C24_*, C25_neumann_wrong, C26_* |
| LDU matrix | missing diagonal entry reads an unset position; tiny diagonals treated differently by the variants | C28_*, C29_* |
| CSR cached diagonal | a retained raw view bypasses the invalidation | C31_retained_view_breaks |
| ode23 | the first-same-as-last stage is stale when `solve` is called twice | C35_* |
| time loop | first step never clipped: it may overshoot and the next step is negative; a step limit of at least 2^31 wraps | C42_* |
| whole run | `max_time_steps = 0` ("no limit") makes the name of the final file undefined, so no run ends normally; a run takes at least two steps | C85_no_limit, C85_steps |
| restart | resuming from the last file before the final step goes past the final time and back | C87_penultimate |
| residual monitor | a zero residual is reported as 1; absolute tolerance without monitor reads an empty vector | C46_zero_reports_one, C44_no_monitor_is_undefined |
| linear prolongation | not exact for functions of x (axes exchanged) | C50_affine_x_wrong |
| multigrid | a zero residual gives 0/0 and never converges | C54_zero_residual_not_converged |
| multigrid | a backward Euler step of size zero divides by zero (a bdf1 run whose first step is the whole interval takes one as its second step) | C54_zero_step, C89_zero_step |
| managed arrays | write-only access followed by a partial write exposes stale or uninitialised memory | C55_partial_write_* |
| options | values of an earlier parse survive in the bound variables | C59_* |
| printed settings | only six digits are printed, so a run with the printed config file has other values of `eps2` and `sigma` even if no option was given; a `#` in a file name starts a comment | C109_defaults_change, C109_comment_cut |
| initial condition file | a name that is neither `none` nor a readable solution file is not reported; a null pointer is followed | C110_missing_file |
| host name in the report | the buffer has 64 characters; a host name of 64 characters, which Linux allows, leaves it without terminator and is read beyond its end | C112_host |
| derived box ends | integer division in `domain_y_end`, `domain_z_end` | C63_* |
| files | 2D names collide after a million steps; single precision fields lose digits; the reader does not check the cell count | C60_*, C62_*, C68_* |
| Poisson in 2D | selecting it throws `bad_cast` | C67_* |
| Gauss-Seidel | the first call rescales the shared rows, so other operations compute something else afterwards | C70_* |
| PETSc | observers may be shown states that were not accepted; `<=` versus `<`; restart with fixed steps uses the option's step | C73_*, C74_* |
| log | columns run together for wide values; iteration numbers from 10^6 on collide; no columns means an empty row is indexed | C78_* |
| multigrid in 2D | the 2D equation does not override `cflScale`, so `bdf1` and `steady` always abort during construction | C92_multigrid_2d |
| sums over cells | the order of combination is the runtime's, so in floating point two runs may log different residuals; with a tolerance set they may stop at different steps | C93_sum_depends_on_order |
| multigrid defaults | with three or more levels and coarse relaxation 1 the coarse correction is twice the Galerkin one, which C81 excludes | C81 note |
| time loop | rounding of the accumulated time can add a tiny last step: 0 to 1 with 0.1 takes eleven steps in double precision | C97_extra_step |
| time loop | a step below half the spacing of numbers at the current time leaves the time unchanged, and without a step limit the run never ends | C97_clock_stops |
| time loop | with proposals above half the final time the run can miss it by a rounding | C97_end_inexact |
| restart | the spacing is recomputed from the box ends in the file; in double precision it can differ from that of the run (11 cells from 0.2 to 1), so a resumed run solves with another spacing | C99_spacing_changes, C99_spacing_kept |
| restart | the save counter starts again at zero, so with `save_every` ≥ 2 a resumed run saves other steps than the uninterrupted one | C99_saves_shift |
| blow-up | a solution that has become NaN is not noticed: runs end normally with files of NaN, tolerances never stop them, and ode23 takes the error estimate to be 0 and enlarges its steps | C101_run3, C101_no_stop, C101_error_estimate, C101_step_sizes |
| step size limits | `std::min`/`std::max` let a suggested size that is NaN pass (two infinite error estimates in a row produce one); from then on all sizes and times are NaN and the final time never ends the run | C102_nan_proposed, C102_nan_forever, C102_infinite_errors |
| profiler | the table is printed while the timer of `Puppeteer::run` is live, so `run` has one call and no time | C75_outermost_shows_zero |
| profiler | time of a recursive function is counted once per activation | C75_recursive_counts_twice |

Smaller observations, not stated as theorems: `Logger::ErrorMessage` prints the prefix "[Trace]"; `Logger::initialized_` and
`auto_flush_` have no initialiser (the singleton has static storage, so they start as zero); Gauss-Seidel loops over `x.size()`
while its work vectors have `cols()` elements; `StridedArraySet` passes a shape where an `int` is expected; the `_final` file
records the next (possibly clipped) step size; the reader leaves `yend` and `zend` unset; 2D ignores `ny` and the `bc_*`
options; a Dirichlet boundary type with Cahn-Hilliard behaves as periodic; with zero smoothing passes multigrid restricts a
stale slope; on runs without restart file the unused ends `domain_y_end`, `domain_z_end` are computed by dividing by the x
resolution, so `domain_resolution_x = 0` divides by zero before any check.

## Plan and outcome per property

All properties are proved except where the table says partial; MANIFEST.json lists the theorem names.

| Id | What is modelled | How it is proved |
|---|---|---|
| C01, C02 | `get1DindexFrom3D`/`getIJK`, `get1Dindex`/`getIJ` | Euclidean division lemmas |
| C03 | checked 32-bit evaluation of every intermediate; byte size with wrap-around | monotonicity of products; witness for the byte size |
| C04, C05 | constructor loops writing index lists with a running counter | list induction: nodup, membership iff, length |
| C06 | constructor coordinate loops | closed form of the loops |
| C07 | interleaving semantics of `Prog` pools | invariant over steps (what each thread would still do), well-foundedness of steps |
| C08 | all kernels | instances of C07's theorem |
| C09-C11 | boundary fill kernels | C07 + closed forms; composition of fills |
| C12 | same | concrete two-schedule witness |
| C13-C15 | `evalRHS*` | composition of kernel closed forms; algebra |
| C16-C18 | specification operators | shift-invariance of sums, summation by parts |
| C19 | same with clamp | witness and exact boundary drift |
| C20 | energy | derivative computed as polynomial in t, sign by C17 |
| C21, C22 | specification operators | algebra |
| C23 | stencils on polynomials | algebra |
| C24 | `createSparseMatrix` with checked vector read | distinctness of 25 wrapped columns for extents >= 5; witness below |
| C25 | `evalJacobian` | derivative of each RHS entry, matched with the 25 entries |
| C26 | `PetscRHSJacobian` | witness; positive part from C25 |
| C27-C31 | `CSRMatrix`, `LDUCSRMatrix` | list/finset sums; contraction estimate; invariant over operation histories |
| C32 | `readArray` over token lists | list induction |
| C33-C39 | integrators as host routines over an RHS contract | refinement to textbook methods; induction over steps |
| C40 | `PIDController::adaptStep` | case analysis on clamps |
| C41-C44 | `TimeIntegrator::solve` as a step function | induction over the loop |
| C45 | `Observable` | induction over notification histories |
| C46 | `residual_calculator` | induction over histories |
| C47 | initial condition loop incl. Kahan compensation | algebra, sums |
| C48 | solution monitors | fold lemmas, witnesses |
| C49, C50 | grid transfer kernels | C07 + sums |
| C51 | `getMGCycle` | unbounded nsmooth: list lemma |
| C52-C54 | multigrid levels over abstract transfer/RHS | induction over stage list |
| C55-C57 | `ManagedArray`, `MemoryManager` as state machines | invariants/refinement over histories |
| C58, C59 | registry and option maps | induction over histories |
| C60-C62 | VTK writer/reader at token level, restart | list lemmas; induction over steps; witness for printed precision |
| C63 | `domain_y_end` | algebra; witness |
| C64 | copy kernels | C07 |
| C65 | reductions as arbitrary combination trees | induction over trees and permutations |
| C66 | `Poisson3DFD` | C07 + closed forms |
| C67 | `puppeteer` factories | case analysis over all option values |
| C68 | file names with `log10` digits | injectivity of padded decimal text; witnesses |
| C69, C70 | Gauss-Seidel sweeps over the LDU matrix | refinement to the textbook sweep; witness for the rescaling |
| C71 | `diagonalDominance` | reduction lemmas |
| C72 | `createCoarsened` | divisibility induction |
| C73, C74 | PETSc callbacks in any order | invariant over call histories; comparison of the two stopping rules |
| C75 | profile table | induction over timer events with the stack of live timers; integral of activations |
| C76 | `doTimeStep` of the multigrid integrator | refinement of the stage list to a recursive full approximation scheme |
| C77 | kernels on sampled functions | Taylor expansion with bounded derivatives (compactness of the box) |
| C78 | logger and its observers | induction over logged steps; text width lemmas |
| C79-C81 | Poisson multigrid hierarchy | refinement to V-cycles; symmetric positive definite operator theory; contraction by induction over levels |
| C82 | same with C77 | stability plus consistency plus iteration error |
| C83 | whole simulations, rk3ssp and ode23 | energy stability of the three-stage step in an abstract inner product space, truncation error, discrete Gronwall, bootstrapping of the pointwise bound |
| C84 | order of accuracy in time on a fixed grid, existence of the semi-discrete solution | the right-hand side is `Q(u³) + M u + c` with linear maps; Taylor expansion of one step and of the solution to fourth order with remainder calculus, stability of a step on balls, induction over the steps; existence for all times from a cut-off field, Picard–Lindelöf and a growth bound on the sum of squares (the Laplacian of a monotone function of the state dissipates) |
| C85, C86 | the whole program: construction, initial field, steps, observers, files | refinement: a simulation relation between the driver's host state and the specified sequences, induction over the steps; termination from the step limit |
| C87 | the program started from a file | file texts read back to domain, field and time options, then as C85 (explicit) and C88/C89 (multigrid); shifted sequences |
| C88, C89 | the whole program with the multigrid integrator | as C85 with the hierarchy's refinement (C76, C79) as the step; error bounds from C80–C82 carried along the sequence of solves; energy contraction per step; the mean is kept by every smoothing pass, restriction and prolongation |
| C90 | energy stability of explicit runs on periodic grids | the right-hand side is the Laplacian of the energy's gradient in the potential formulation; descent inequality with a Lipschitz constant on the sup-bounded set, Runge–Kutta slope close to the first stage, induction on steps keeps the bound; counting logged residuals above the tolerance |
| C91 | the program with Poisson and an explicit integrator | as C85; the operator is symmetric and definite with bounds from both sides (C80); bounds of the methods' stability polynomials give contraction and the residual certificate |
| C92 | outcome of every configuration | rejection by walking through the constructor with an arbitrary continuation; completion from C85, C86, C88, C89, C91 and existence of the sequences |
| C93 | repeated runs in floating point | relational reasoning on pairs of executions of the program (`Agree`): loops are deterministic, reductions by max/min are order independent, sums flow only into logged columns when the tolerances are zero |
| C94 | sums in rounded arithmetic | induction over the combination tree with a running bound `Near u n B` (error at most `(1+u)^n - 1` times `B`) |
| C95 | rounding error of the right-hand side | the same bound propagated through every operation of the stencils in source order, uniformly over the three implementations |
| C96 | mean concentration in rounded runs | cell errors of the stages (C95) summed over the periodic grid, where the exact stencils cancel; induction over steps |
| C97 | time loop in rounded arithmetic | the invariants of C41–C43 with one rounding per addition; grid of a binary format: rounding keeps numbers of the format and the order, differences within a factor of two are exact; double precision witnesses evaluated in the kernel |
| C98 | explicit runs in rounded arithmetic against the differential equation | C83 with per-stage rounding errors: the stages of C96 are a noisy Runge–Kutta recursion, whose error obeys the recursion of C83 plus the noise; the bound on the states is carried along by the error estimate itself |
| C99 | interrupting and resuming explicit runs in floating point | run theorem over law-free arithmetic with the sums left free (`RunsAny`), closed form of the compensated initial field, domain of a written file by monotonicity of rounding; spacing: rounding takes a nearest number, so dividing, multiplying back and dividing again by a whole number returns the first quotient |
| C100 | random initial field and mean over a run in floating point | invariant of the compensated sum (sum minus correction tracks the exact sum), error of the renormalisation, then C96 along the memory sequence realising the iterates of C99 |
| C101 | runs whose solution overflows | law-free run theorem of C99 without an order; NaN spreads by the stencil width per stage (induction over moves and steps); `{inf, NaN}` is closed under addition, so the reaction term of two overflowing neighbours is `inf - inf`; zeros and NaN are closed under everything the error estimate does, and `std::max(0, NaN)` is 0; exponent sum of the controller is 1/8 for equal errors |
| C102 | every execution of an explicit run | a step of a run as a relation (state, slope, possible error estimates, proposal) with an invariant on memory and controller history; induction over the loop with the outcomes of all reductions kept as existential witnesses; reductions over the cells and the zero padding turned into one tree over a permuted list; 2D and 3D |
| C103 | every execution of an explicit Poisson run | the same loop theorem with the law-free contract of the Poisson right-hand side (fill, boundary, Laplacian, source) |
| C104 | explicit Poisson runs in floating point arrive at the solution in every cell | C103, a discrete maximum principle, and a contraction of both methods in a weighted maximum norm with the rounding error of one step (`Near` calculus); the last step size from the marching rule |
| C105 | no overflow in Poisson runs; operations of the format | value-by-value simulation of Model/IEEE by rounded arithmetic with a size bound for every intermediate result, closed by the bound of C104; case analysis of the operations |
| C106 | resumed runs, every execution, floating point | the outcome theorems of C102/C103 with the initial state read from a file: the points of the file are monotone in the index because rounding is, so the reader finds the corner and the far end; `RunsEach` from the file's step number |
| C107 | no overflow in Cahn–Hilliard runs, convergence in floating point | value-by-value simulation of the stages by the rounded arithmetic of C98 (`Same`), each step from a bounded ordinary state a noisy step of the exact scheme; the chain theorem of C98 with NaN and infinities replaced by an arbitrary real; gaps between neighbouring floats keep the clipped last step from being tiny |
| C108 | adaptive runs in floating point: step sizes in range, no overflow | intervals for every quotient, power and product of the controller given bounded estimates and ratios of successive sizes (`Rg`); bounds for the two slopes of ode23 and their largest difference; strong induction over the steps with the states of C105 / C107. The C library's `pow` is a parameter with the hypothesis `PowFn` |
| C109 | printed settings read back | model of the option table, the printed lines (`%g` with six digits) and Boost's config file lines; printing and reading of numbers meet in the nearest decimal (`NearestDecimal`), stated without the printing functions; the accepted-input characterisation C59 applied to the table (facts about names and defaults by evaluation of the whole table) |
| C110 | from the command line to the files | model of `main`: parse, read each member by name, open the initial condition, run; `Configured` lists one equation per option; for the default run the settings are evaluated and C102 applied; in doubles, an induction over the steps keeps the time below 0.02 so that only the step limit can stop the run |
| C111 | 2D runs in floating point | the analogues of C95, C107 and C108 for the 2D stencils: nearness of the rounded 2D right-hand side to the exact one (25 roundings), the stage bounds of C98 over any right-hand side with such a bound (`RoundGen`), simulation by the rounded arithmetic, chain theorem on square grids |
| C112 | machine report, words for PETSc | induction over texts: splitting at blanks and joining again gives the text back; `Words` describes the words of a text independently and is shown equivalent to the reading loop |
| C113 | mean concentration of rounded 2D runs | C96 and C100 over the square: cell errors of the stages summed over the grid, where the exact stencils cancel; the states of an adaptive run (C102) are realised by memories step by step |
| C114 | energy of floating-point runs without relaxation term | a rounded step lies within 3η of the exact one from the same field (as in C98), the exact step does not raise the energy below the sup bound (C90), and the energy changes by at most the Lipschitz bound over that distance; energy bounds the field, which closes the induction over the steps together with the absence of overflow. With the adaptive integrator bounded states give bounded error estimates and these, by C108, proposals in range, in one induction. Only σ = 0 and periodic grids |
| C115 | random initial field in floating point with overflow | bounded, ordinary draws keep every operation of the compensated sum and of the shift in range (`Same.kahan`, `Same.field`), so the values are those of the arithmetic without overflow and the bounds of C100 hold. Discharges the assumption of C111 and C114 on the initial field |

Partial: C50 (the full trilinear claim is false, see the table above; everything that holds is proved).

## Testing the theorems against wrong programs

`seeded/LOG.jsonl` has one line per edited copy of the model: the definition, the edit, the claim it breaks, the theorems that
failed, and what was tightened where an edit survived.


## Axioms per theorem

Output of `collectAxioms` on every property theorem (namespace `Madg`).

### No axioms

`C03_reported_size_wrong`, `C56_swap_contents`

### `propext`

`C09_interior_unchanged`, `C101_no_stop`, `C32_missing_and_empty`, `C45_zero_frequency`, `C55_partial_write_stale`, `C55_partial_write_uninitialised`, `C58_first_wins`, `C59_previous_value_survives`, `C65_chunks_possible`, `C78_shown`

### `Quot.sound`, `propext`

`C03_reported_size`, `C101_residual`, `C102_limits`, `C102_nan_forever`, `C102_nan_proposed`, `C112_host`, `C32_matrix_round_trip`, `C32_round_trip`, `C32_short_columns`, `C32_truncated`, `C32_truncated_header`, `C45_registration_order`, `C56_swap`, `C56_swap_self`, `C58_order_irrelevant`, `C59_accepts`, `C59_precedence`, `C61_rejected`, `C65_max`, `C65_min`, `C78_level`, `C78_switch`, `C99_saved_split`, `C99_saves_shift`

### `Classical.choice`, `Quot.sound`, `propext`

`C01_index3_bijection`, `C02_index2_bijection`, `C03_index2_no_overflow`, `C03_index3_no_overflow`, `C03_manager_size`, `C03_size3_overflow_iff`, `C04_index_lists3`, `C05_index_lists2`, `C06_coordinates2`, `C06_coordinates3`, `C07_race_free`, `C08_2d`, `C08_boundary_fills3`, `C08_integrator_loops`, `C08_poisson`, `C08_rhs3`, `C08_stencils3`, `C08_transfers`, `C08_vector_loops`, `C09_periodic_fill3`, `C100_compensated_sum`, `C100_double`, `C100_initial`, `C100_initial3`, `C100_run_mean`, `C101_all_lost`, `C101_error_estimate`, `C101_growth`, `C101_overflow`, `C101_run3`, `C101_spreads`, `C101_step_sizes`, `C102_always_ends`, `C102_always_ends2`, `C102_infinite_errors`, `C102_ode23_2`, `C102_ode23_3`, `C102_rk3ssp2`, `C102_rk3ssp3`, `C103_always_ends`, `C103_ode23`, `C103_rk3ssp`, `C104_certificate`, `C104_converges`, `C104_discretization_error`, `C104_maximum`, `C104_ode23`, `C104_rk3ssp`, `C105_comparisons`, `C105_converges`, `C105_invalid`, `C105_operations`, `C105_rk3ssp`, `C105_too_large`, `C106_always_ends`, `C106_ode23_2`, `C106_ode23_3`, `C106_poisson_ode23`, `C106_poisson_rk3ssp`, `C106_rk3ssp2`, `C106_rk3ssp3`, `C107_converges`, `C107_rk3ssp`, `C108_cahn_hilliard`, `C108_errors`, `C108_poisson`, `C108_sizes`, `C109_comment_cut`, `C109_defaults_change`, `C109_error`, `C109_kept`, `C109_read_back`, `C109_stable`, `C10_periodic_fill2`, `C110_configured`, `C110_default`, `C110_default_steps`, `C110_exit`, `C110_missing_file`, `C110_repeat`, `C110_repeat_again`, `C110_runs_iff`, `C110_source`, `C111_converges`, `C111_errors`, `C111_ode23`, `C111_rhs_error`, `C111_rk3ssp`, `C112_petsc_logged`, `C112_petsc_words`, `C112_processor`, `C112_processor_unknown`, `C113_double`, `C113_initial`, `C113_ode23_mean`, `C113_ode23_run`, `C113_ode23_small_steps`, `C113_ode23_step`, `C113_rk3_mean`, `C113_rk3_run`, `C113_rk3_small_steps`, `C113_rk3_step`, `C113_run_mean`, `C113_run_mean_ode23`, `C114_errors2`, `C114_errors3`, `C114_initial2`, `C114_initial3`, `C114_ode23_2`, `C114_ode23_3`, `C114_rk3ssp2`, `C114_rk3ssp3`, `C114_stable2`, `C114_stable3`, `C115_double2`, `C115_double3`, `C115_initial`, `C115_initial2`, `C115_initial3`, `C11_mixed_fill`, `C12_periodic_fill_needs_extent`, `C13_rhs3`, `C14_unknown_variant_aborts`, `C14_variants_agree`, `C15_rhs2`, `C16_biharmonic2_is_lap_lap`, `C16_biharmonic3_is_lap_lap`, `C16_biharmonic_symmetric_psd`, `C16_laplacian2`, `C16_laplacian3`, `C17_filled_laplacian`, `C17_laplacian_nonpositive`, `C17_laplacian_sums_to_zero`, `C17_laplacian_symmetric`, `C18_mass_balance2`, `C18_mass_balance3`, `C18_no_drift_at_mean3`, `C19_mass_drift`, `C19_neumann_not_conservative`, `C20_energy_dissipation2`, `C20_energy_dissipation3`, `C21_equilibrium_kept_2d`, `C21_equilibrium_kept_ode23`, `C21_equilibrium_kept_rk3`, `C21_uniform_state2`, `C21_uniform_state3`, `C22_reflection`, `C22_reflection2`, `C22_sign`, `C22_sign2`, `C22_swap2`, `C22_swap_xy`, `C22_swap_yz`, `C22_translation`, `C22_translation2`, `C23_biharmonic2_exact`, `C23_biharmonic_error`, `C23_biharmonic_exact`, `C23_laplacian2_exact`, `C23_laplacian_error`, `C23_laplacian_exact`, `C23_on_constructor_coordinates`, `C24_narrow_out_of_bounds`, `C24_pattern`, `C25_assembly_operator`, `C25_code_derivative`, `C25_jacobian_is_derivative`, `C25_neumann_wrong`, `C26_consistent_halo_partial`, `C26_other_vector_wrong`, `C26_same_vector`, `C26_session`, `C26_stale_halo_wrong`, `C27_matvec`, `C27_rms`, `C27_rms_zero_iff`, `C27_scale_rows`, `C28_matvec`, `C28_missing_diagonal_faults`, `C28_rms`, `C28_same_product`, `C28_split`, `C29_cached_sweep`, `C29_fixed_points`, `C29_fixed_points_cached`, `C29_ldu_sweeps`, `C29_library_ldu_sweep`, `C29_library_sweep`, `C29_missing_diagonal_undefined`, `C29_plain_sweep`, `C29_tiny_diagonal_differs`, `C30_convergence`, `C30_factor_lt_one`, `C30_sweeps`, `C31_cache_coherent`, `C31_retained_view_breaks`, `C33_cahn_hilliard2`, `C33_cahn_hilliard3`, `C33_rk3ssp_run`, `C33_rk3ssp_shu_osher`, `C33_rk3ssp_step`, `C34_cahn_hilliard2`, `C34_cahn_hilliard3`, `C34_ode23_run`, `C35_second_solve_differs`, `C35_used_integrator_step`, `C36_bs23_order`, `C36_ode23_linear`, `C36_ode23_time_polynomial`, `C36_rk3ssp_linear`, `C36_rk3ssp_time_polynomial`, `C36_ssprk3_order`, `C37_ssp_bounds`, `C37_ssp_convex_invariance`, `C38_mean_ode23_2d`, `C38_mean_preserved_ode23`, `C38_mean_preserved_rk3`, `C38_mean_relaxation_rk3`, `C38_mean_rk3_2d`, `C39_error_estimate`, `C40_always_defined`, `C40_antitone`, `C40_bounds`, `C40_first_three`, `C40_formula`, `C40_minimum_overrides`, `C40_steady`, `C41_lands_on_final_time`, `C41_never_beyond`, `C42_first_step_unclipped`, `C42_huge_limit_stops`, `C42_limit_reached_still_steps`, `C42_overshoot_steps_back`, `C42_witness_limit`, `C42_witness_overshoot`, `C43_adaptive_proposals`, `C43_may_diverge`, `C43_min_step_count`, `C43_min_step_terminates`, `C43_min_step_terminates'`, `C43_step_count`, `C43_step_limit_terminates`, `C44_decision`, `C44_no_failure`, `C44_no_monitor_is_undefined`, `C44_stops_exactly`, `C44_zero_log_frequency`, `C45_count`, `C45_fires`, `C46_records`, `C46_relative_range`, `C46_zero_reports_one`, `C47_bound_attained`, `C47_constant_2d`, `C47_constant_3d`, `C47_mean_2d`, `C47_mean_3d`, `C48_cube`, `C48_extrema_3d`, `C48_max_wrong_3d`, `C48_reads_halo`, `C48_report_2d`, `C48_report_3d`, `C49_between_children`, `C49_coarsen`, `C49_constants`, `C49_mean_preserved`, `C49_nearest`, `C49_restrict_after_nearest`, `C49_restriction`, `C49_unknown_mode_aborts`, `C50_affine_error`, `C50_affine_partial`, `C50_affine_x_wrong`, `C50_between_neighbours`, `C50_difference`, `C50_linear`, `C50_mean_preserved`, `C50_needs_halo`, `C50_writes_once`, `C51_counts`, `C51_descends_first`, `C51_other_inputs`, `C51_stays_on_levels`, `C52_coarse_residual`, `C53_cycle_keeps_solution`, `C53_cycle_without_smoothing`, `C54_convergence_report`, `C54_fine_equation`, `C54_zero_residual_not_converged`, `C54_zero_step`, `C55_no_leak`, `C55_refines_single_copy`, `C57_foreign_memory`, `C57_lookup_dead`, `C57_lookup_live`, `C57_no_double_free`, `C57_release_view_as_owned`, `C60_double_exact`, `C60_round_trip2`, `C60_round_trip2_double`, `C60_round_trip3`, `C60_round_trip3_double`, `C60_short_file`, `C60_single_collision`, `C60_single_error`, `C60_single_values`, `C60_wrong_dimension`, `C61_accepted`, `C61_grid2`, `C61_grid3`, `C62_cahn_hilliard3_ode23`, `C62_cahn_hilliard3_rk3`, `C62_restart`, `C62_seven_digits`, `C62_time_lost`, `C63_cubic_iff`, `C63_empty`, `C63_value`, `C64_petsc_rhs`, `C64_round_trip_state`, `C64_round_trip_vec`, `C64_state_to_vec`, `C64_vec_to_state`, `C65_chunked_sum`, `C65_residual_calculator_3d`, `C65_residual_norm_2d`, `C65_residual_norm_3d`, `C65_residual_zero_iff_3d`, `C65_sum`, `C66_affine`, `C66_consistency`, `C66_poisson_rhs`, `C67_components`, `C67_starts_iff`, `C68_collisions2`, `C68_distinct2`, `C68_distinct3`, `C68_final`, `C68_million2`, `C68_name2`, `C68_name3`, `C68_needs_steps`, `C68_order3`, `C69_calls`, `C69_convergence`, `C69_fixed_points`, `C69_later_calls`, `C69_long_vector_faults`, `C69_no_library_aborts`, `C69_sweep_unique`, `C70_jacobi_after`, `C70_product_after`, `C70_residual_changes`, `C70_rms_after`, `C70_rms_scaled`, `C71_guarantee`, `C71_stored`, `C71_value`, `C72_hierarchy`, `C72_levels`, `C73_accepted_not_shown`, `C73_session`, `C73_shown_initially`, `C73_shown_is_last_argument`, `C73_solve`, `C74_absolute_tests`, `C74_post_step`, `C74_restart_step`, `C74_settings`, `C74_zero_residual`, `C75_bounded`, `C75_calls`, `C75_outermost_shows_zero`, `C75_recursive_counts_twice`, `C75_table`, `C75_time`, `C76_cycle`, `C76_time_step`, `C77_biharmonic`, `C77_laplacian`, `C77_rhs2`, `C77_rhs3`, `C78_iteration`, `C78_iteration_collision`, `C78_message_lines`, `C78_message_outcome`, `C78_no_columns`, `C78_row_reads`, `C78_run`, `C78_run_together`, `C78_zero_frequency`, `C79_cycle`, `C79_solution_kept`, `C79_time_step`, `C80_converged_accuracy`, `C80_residual_bounds_error`, `C80_unique_solution`, `C81_contraction`, `C81_converges`, `C82_discretization_error`, `C82_solver_accuracy`, `C83_ode23_2d`, `C83_ode23_3d`, `C83_rk3_2d`, `C83_rk3_3d`, `C84_ode23_2d`, `C84_ode23_3d`, `C84_rk3_2d`, `C84_rk3_3d`, `C84_solution_2d`, `C84_solution_3d`, `C85_file_base`, `C85_mean2`, `C85_mean3`, `C85_no_limit`, `C85_rk3ssp2`, `C85_rk3ssp3`, `C85_sequences`, `C85_steps`, `C86_ode23_2`, `C86_ode23_3`, `C86_sequences`, `C87_penultimate`, `C87_restart2_ode23`, `C87_restart2_rk3`, `C87_restart3_multigrid`, `C87_restart3_ode23`, `C87_restart3_poisson`, `C87_restart3_rk3`, `C87_resume2`, `C87_resume3`, `C87_same_final2`, `C87_same_final3`, `C88_accuracy`, `C88_converges`, `C88_residual_certifies`, `C88_run`, `C88_sequences`, `C88_solution_files`, `C89_mean`, `C89_run`, `C89_zero_step`, `C90_energy2`, `C90_energy3`, `C90_plain2`, `C90_plain3`, `C90_potential2`, `C90_potential3`, `C90_program2`, `C90_program3`, `C90_residuals2`, `C90_residuals3`, `C90_settles2`, `C90_settles3`, `C90_stops2`, `C90_stops3`, `C91_accuracy`, `C91_decay`, `C91_residual_certifies`, `C91_restart_ode23`, `C91_restart_rk3ssp`, `C91_run_ode23`, `C91_run_rk3ssp`, `C91_solution_files`, `C91_step_range`, `C92_completes`, `C92_multigrid_2d`, `C92_rejected`, `C92_unmodelled`, `C93_fused_variants`, `C93_reproducible`, `C93_sum_depends_on_order`, `C94_residual`, `C94_sum`, `C95_rhs_error`, `C96_ode23_mean`, `C96_ode23_run`, `C96_ode23_small_steps`, `C96_ode23_step`, `C96_rk3_mean`, `C96_rk3_run`, `C96_rk3_small_steps`, `C96_rk3_step`, `C97_clock_stops`, `C97_end_exact`, `C97_end_inexact`, `C97_end_time`, `C97_extra_step`, `C97_extra_step_exact`, `C97_one_more_step`, `C97_step_count`, `C97_terminates`, `C98_ode23`, `C98_rk3`, `C99_double`, `C99_resume`, `C99_resume_again`, `C99_run3`, `C99_spacing_changes`, `C99_spacing_kept`
