{
 "C11": [
  "proved",
  "Needs every extent >= nhalo (see C12) and nhalo >= 0."
 ],
 "C12": [
  "proved",
  "Shown by a concrete grid on which two schedules leave different halos; the fill contains a data race there."
 ],
 "C18": [
  "proved",
  "3D periodic and 2D."
 ],
 "C19": [
  "proved",
  "The naive conservation claim is refuted by C19_neumann_not_conservative; C19_mass_drift gives the exact drift for any boundary mix."
 ],
 "C20": [
  "proved",
  "Semi-discrete statement over the reals; the characterisation of a vanishing rate is proved in 3D."
 ],
 "C35": [
  "proved",
  "the claim is false for the code; the theorems give the general behaviour of a used integrator and a concrete witness"
 ],
 "C28": [
  "proved",
  "The failing case (no stored diagonal entry) is C28_missing_diagonal_faults."
 ],
 "C29": [
  "proved",
  "Variants agree for diagonals above the threshold; C29_tiny_diagonal_differs and C29_missing_diagonal_undefined show where they do not."
 ],
 "C31": [
  "proved",
  "C31_retained_view_breaks proves the negative part of the statement with a concrete history."
 ],
 "C32": [
  "proved",
  "boost::lexical_cast is a parameter with the round-trip property as hypothesis; a unary instance is given."
 ],
 "C26": [
  "proved",
  "The naive claim is refuted for every wide periodic grid (C26_stale_halo_wrong, C26_other_vector_wrong); C26_consistent_halo_partial and C26_same_vector are the cases in which it holds."
 ],
 "C25": [
  "proved",
  "Periodic grids. C25_neumann_wrong shows the same code is not the derivative on Neumann grids."
 ],
 "C50": [
  "partial",
  "Proved: in range, race free, each fine cell of interior plus one halo layer stored once, closed form, constants and affine functions of y, z reproduced, no new extrema, mean preserved for periodic data. The full trilinear claim is false: C50_affine_x_wrong shows the affine function x is not reproduced. C50_difference gives the distance from trilinear interpolation for every field, C50_affine_error for every affine function."
 ],
 "C03": [
  "proved",
  "Index arithmetic does not overflow under the stated size bound; C03_reported_size_wrong records that the byte count kept by the memory manager wraps past 2^31-1."
 ],
 "C48": [
  "proved",
  ""
 ],
 "C51": [
  "proved",
  "Model of getMGCycle matches the six schedules of the source literally; proved equal to a recursive V-cycle for every number of passes."
 ],
 "C52": [
  "proved",
  "Stated for the Cahn-Hilliard hierarchy with any kernel variant and boundary mix; the lemma setCoarse_det behind it holds for any right-hand side meeting the FillRhs contract."
 ],
 "C53": [
  "proved",
  "Cahn-Hilliard hierarchy, 1..6 levels. With zero smoothing passes the slopes handed down are those of the allocation, so that case assumes the zero-initialised arrays."
 ],
 "C54": [
  "proved",
  "C54_zero_residual_not_converged proves the flaw stated in the property (0/0 is never <= tolerance)."
 ],
 "C69": [
  "proved",
  "The library triangular solve is modelled as forward/backward substitution."
 ],
 "C70": [
  "proved",
  "Describes a defect: C70_residual_changes is the concrete witness."
 ],
 "C71": [
  "proved",
  "Exact arithmetic; a row without off-diagonal entries divides by zero in the code and is excluded from C71_guarantee."
 ],
 "C68": [
  "proved",
  "log10 is taken as exact; the 2D claim beyond a million steps is refuted by C68_collisions2 and C68_million2."
 ],
 "C81": [
  "proved",
  "Holds for the shipped single- and two-level runs of configs/poisson_128cubed.dat; three or more levels need coarse relaxation at most 1/2, which the default (1.0) is not, because piecewise constant transfers make the coarse correction twice the Galerkin one."
 ],
 "C80": [
  "proved",
  "Exact arithmetic; steady mode (time_integrator = steady)."
 ],
 "C82": [
  "proved",
  "Exact arithmetic; coordinates and periods exact (the shipped configuration gives pi to twelve digits)."
 ],
 "C83": [
  "proved",
  "Exact real arithmetic. The step bound dt <= dx^4/(4608 eps^2) is the explicit stability limit up to the constant. The existence of smooth solutions is a hypothesis (CHSolution); uniform_solution shows it can be met."
 ],
 "C84": [
  "proved",
  "Exact real arithmetic. Existence is proved, not assumed: C84_solution_* gives the solution for every initial field and time. The ode23 theorems need the stage arrays zero outside the interior, as allocated."
 ],
 "C85": [
  "proved",
  "Exact real arithmetic. Option parsing, the text layout of the log and XML syntax are separate models (C58, C59, C78, C60). Multigrid runs are C88 and C89; cfl-based steps abort in the model as in the code."
 ],
 "C86": [
  "proved",
  "Exact real arithmetic; `pow` is the real power."
 ],
 "C87": [
  "proved",
  "Numbers that do not survive printing are the subject of C60 and C62. Resumption is stated for rk3ssp only: ode23 starts with empty controller histories after a restart, so its later steps differ in general (C87_restart*_ode23 describe them). Multigrid restarts are described by C87_restart3_multigrid and C87_restart3_poisson; the smoothers begin with their first step size again, so a resumed multigrid run is not claimed to continue identically."
 ],
 "C88": [
  "proved",
  "Exact real arithmetic. C88_converges needs coarse relaxation at most 1/2 with three or more levels (see C81); the error bounds do not. Runs started from a file are in C87. Poisson with the explicit integrators is in C91."
 ],
 "C89": [
  "proved",
  "Exact real arithmetic. 3D only: in 2D the code always aborts (C92_multigrid_2d). Runs started from a file are in C87. Tolerances and stopping as in C85. With step size 0 the model faults where the C++ computes infinities or NaN."
 ],
 "C90": [
  "proved",
  "Exact real arithmetic; periodic grids (2D is always periodic). The step limit is sufficient, not necessary; with sigma = 0 any mean, otherwise the mean must be m as it is for the program's initial field. For 3D Neumann boundaries the code's operator does not conserve mass (C19), and no decay is claimed."
 ],
 "C91": [
  "proved",
  "Exact real arithmetic. The step condition dx^2/5 is sufficient, not necessary; without it the runs still refine the method's steps (C91_run_*). The first step of a run is never clipped to the final time, hence the condition t0 + dt0 <= tfinal."
 ],
 "C92": [
  "proved",
  "Exact real arithmetic (overflow or NaN of an unstable run is not an error in C++ either). PETSc integrators are not part of the program model (C73, C74 treat their callbacks). Completion is stated for runs without a restart file; restarts are in C87 and C91."
 ],
 "C93": [
  "proved",
  "The arithmetic is arbitrary but linearly ordered, so NaN is excluded. Multigrid integrators are excluded because their cycle test compares a sum with mg_rel_tol. Random draws are inputs; the source seeds its generator with the constant 1. The GPU reductions of the source are atomic (any order); its OpenMP reduction is ordered by thread, which fixes the order only for one thread count and one partition of the loop, so any order is modelled."
 ],
 "C94": [
  "proved",
  "Rounding is assumed to have relative error u above an underflow threshold, proved for the round-to-nearest-even of Model/Rounded in double precision; overflow and contraction of a*b+c into one operation are not modelled. The square root is arbitrary."
 ],
 "C95": [
  "proved",
  "Rounding is assumed to have relative error u above an underflow threshold, proved for the round-to-nearest-even of Model/Rounded in double precision; overflow and contraction of a*b+c into one operation are not modelled. Three dimensions."
 ],
 "C96": [
  "proved",
  "Rounding is assumed to have relative error u above an underflow threshold, proved for the round-to-nearest-even of Model/Rounded in double precision; overflow and contraction of a*b+c into one operation are not modelled. Three dimensions, periodic. The step theorems assume a bound on the stage values, which the small-step theorems derive from a bound on the states alone."
 ],
 "C75": [
  "proved",
  "Sequence of timer events (constructor/destructor of FunctionTimer) over an arbitrary clock; the unstable std::sort is modelled as any sorted permutation. C75_recursive_counts_twice and C75_outermost_shows_zero are the negative parts."
 ],
 "C97": [
  "proved",
  "Rounds (relative error u above an underflow threshold) and monotone rounding; exact landing for every binary format by representability of close differences. C97_extra_step, C97_clock_stops and C97_end_inexact are the negative parts with double precision witnesses."
 ],
 "C98": [
  "proved",
  "C83 with the rounding errors of each stage added (C95, C96): a noisy Runge-Kutta recursion. Parameters and spacing are the stored numbers and the box is exactly ni*dx long; the constants do not depend on the number format. The example uses a format whose precision grows as the grid is refined, since for a fixed format the number of steps needed grows like dx^-4. Three dimensions, periodic."
 ],
 "C99": [
  "proved",
  "C99_run3 for every law-free arithmetic, C99_resume and C99_resume_again for every binary format with lossless printing of fields, C99_double for double with the printed digits of the writer. Hypotheses of resuming are the seven printed digits of time and step (C62) and the recomputed spacing, which C99_spacing_kept discharges for domains beginning at 0 and C99_spacing_changes shows to be needed. 3D, rk3ssp; residual and gradient columns of the log are left open because they depend on the order of summation."
 ],
 "C100": [
  "proved",
  "Error analysis of compensated summation (C100_compensated_sum) under the standard rounding model, then of the renormalisation, for every rounding with relative error u; C100_double is the program of C99 in double precision combined with C96. In the source the sum, the correction and the mean are doubles even when real_wp is float; the model has one number type, so the statement is about double builds. Contraction of the compensation by the compiler (FMA, fast-math) is outside the model; the build files set no such option except -march=native."
 ],
 "C101": [
  "proved",
  "Model/IEEE is the number type with signed zeros, infinities and one NaN; model and driver are now over bare comparisons (no order laws). C101_run3, C101_spreads, C101_residual and C101_no_stop hold for every arithmetic with an absorbing, incomparable NaN, C101_overflow and C101_error_estimate for IEEE formats, C101_growth and C101_step_sizes for the controller over the reals (the library function pow is not modelled in IEEE arithmetic). 3D; a maximum or minimum reduction may return any of its arguments when NaN is among them. Equality tests distinguish the two zeros, which C++ does not; the only tested quantities (largest residual, tolerances) are never negative zero."
 ],
 "C102": [
  "proved",
  "Spec.RunsEach is a statement about every single execution: reductions are arbitrary binary trees over any permutation (Comb), so step sizes and numbers of steps may differ between executions. Over a law-free arithmetic and bare comparisons. 2D and 3D Cahn-Hilliard, fresh start, a step limit below 2^31 and explicit integrators; ode23 needs its stage arrays to be 0 at the start, as the constructor of ManagedArray leaves them (data_structures/managed_array.hpp:28). The gradient integral in the log is not constrained. The library function pow is any function."
 ],
 "C103": [
  "proved",
  "The same run specification as C102 (Spec.RunsEach) for the Poisson problem; poisOps writes the right-hand side operation by operation. sin and cos are arbitrary functions of the arithmetic."
 ],
 "C104": [
  "proved",
  "Maximum norm throughout: discrete maximum principle with the barrier (k+1)(nz-k) and a weighted maximum norm in which one stage of either method is a contraction. The values of sin and cos enter as stored (their accuracy is not modelled); the rounding is assumed to keep the sign of nonnegative numbers, as IEEE rounding does. The final time must be small enough for its rounding to be harmless (u (T + 1) <= dx^2 / 64). Fresh runs."
 ],
 "C105": [
  "proved",
  "Simulation: under explicit size conditions every operation of a stage gives the same value in Model/IEEE as in the rounded arithmetic of C104 (`Same`), so the bound of C104 keeps the next state small. C105_converges covers the steps of both methods, C105_rk3ssp the whole program with rk3ssp. sin and cos are assumed to return ordinary numbers in [-1, 1] that depend on the value of the argument only."
 ],
 "C106": [
  "proved",
  "The contents of the file are `vts3`/`vts2` of C35/C99 with values of the format. The spacing recomputed from the file may differ from the spacing of the run that wrote it (C99_spacing_changes), so the statement uses the recomputed one; the theorems cover 3D Cahn-Hilliard, 2D Cahn-Hilliard and Poisson with both explicit methods."
 ],
 "C107": [
  "proved",
  "Simulation of the floating-point stages by the rounded arithmetic of C98 with an explicit bound for every intermediate result, under the bound of the states that C98 itself proves; NaN and infinities are replaced by an arbitrary real number and the error bound, holding for every such number, excludes them. C107_converges covers the steps of both methods, C107_rk3ssp the whole program with rk3ssp from a fresh start."
 ],
 "C108": [
  "proved",
  "Strong induction over the steps: sizes in range give bounded states (C105, C107), bounded states give ordinary bounded slopes and error estimates, those give ordinary quotients and powers in the controller, whose clamps then hold. The power function of the C library is a hypothesis (PowFn). C108_sizes is the controller alone, C108_errors the estimates of Cahn-Hilliard runs, C108_poisson and C108_cahn_hilliard whole fresh runs."
 ],
 "C109": [
  "proved",
  "C109_read_back: the printed settings are accepted as a config file and reproduce every option (Reread); C109_kept: numbers given with at most six digits survive exactly; C109_error: the others change by at most |x|/199999; C109_defaults_change: the default eps2 and sigma do not survive; C109_stable: settings printed by a run from a printed config file reproduce it exactly; C109_comment_cut: a '#' in a text cuts it off. Boost's config file grammar is modelled from its documentation; upper-case words for switches are not modelled."
 ],
 "C110": [
  "proved",
  "C110_runs_iff, C110_exit: run, exit codes, exceptions; C110_configured: every named option acts with its effective value (Configured, one field per option); C110_source, C110_repeat, C110_repeat_again: the source of a value does not matter, printed settings repeat the run; C110_default, C110_default_steps: the run without options; C110_missing_file: an unreadable initial condition file is undefined behaviour. The tokenising of the command line by Boost and the log file are not modelled."
 ],
 "C111": [
  "proved",
  "C111_rhs_error: the rounded 2D right-hand side; C111_converges: both explicit methods, any step sequence; C111_rk3ssp, C111_ode23: whole runs; C111_errors: the error estimates of the adaptive method. 2D analogues of C95, C107, C108. The pow of the C library is a parameter, as in C108."
 ],
 "C112": [
  "proved",
  "C112_processor, C112_processor_unknown: the processor line; C112_host: exact for names shorter than the buffer, undefined otherwise (gethostname as in glibc); C112_petsc_words, C112_petsc_logged: words of the option and of the logged command line."
 ],
 "C113": [
  "proved",
  "C113_rk3_step/run/mean/small_steps and the same for ode23: 2D analogues of C96. C113_initial: the compensated initial field; C113_run_mean, C113_run_mean_ode23: both together; C113_double: whole adaptive runs in double precision through C102_ode23_2. As in C100 the statement is about double builds; step sizes and states are assumed within their bounds along the run."
 ],
 "C38": [
  "proved",
  "Exact arithmetic; the same with rounding is C96 (3D) and C113 (2D)."
 ],
 "C40": [
  "proved",
  "Real numbers with the real power function; floating point is C108. The comment in the source announces other limits than the code uses; the theorems are about the code."
 ],
 "C42": [
  "proved",
  "The natural claim is false; C42_witness_overshoot and C42_witness_limit are concrete runs refuting it, the other theorems say exactly what happens instead. C41 and C43 give what does hold."
 ],
 "C44": [
  "proved",
  "C44_stops_exactly is the rule as coded, including the use of a stale residual between log steps; C44_zero_log_frequency and C44_no_monitor_is_undefined are the undefined cases."
 ],
 "C46": [
  "proved",
  "The monitor of the source is one object per process; the statement is about any history in one process."
 ],
 "C55": [
  "proved",
  "C55_partial_write_stale and C55_partial_write_uninitialised are the two witnesses for partial write-only sessions."
 ],
 "C60": [
  "proved",
  "Texts are modelled character by character, numbers printed with the digits of the source; single precision loses digits as stated."
 ],
 "C62": [
  "proved",
  "False in general (C62_seven_digits, C62_time_lost are witnesses); true whenever time and step survive printing. C99 and C106 continue this in floating point."
 ],
 "C63": [
  "proved",
  "C63_cubic_iff decides exactly when the claim holds, C63_value gives the end actually used, C63_empty the degenerate box."
 ],
 "C73": [
  "proved",
  "PETSc itself is not modelled: the theorems hold for every sequence of callbacks it may make."
 ],
 "C74": [
  "proved",
  "PETSc itself is not modelled; C74_settings lists the values passed to it."
 ],
 "C77": [
  "proved",
  "Functions of real arguments, derivatives from Mathlib; the constant depends on the function and the parameters only."
 ],
 "C78": [
  "proved",
  "Values are rational numbers in the rows; infinities and NaN are not rendered. C78_run_together and C78_iteration_collision are the cases in which a row cannot be read back. C78_switch: the on/off switch."
 ],
 "C24": [
  "proved",
  "C24_narrow_out_of_bounds is the undefined case below extent 5."
 ],
 "C65": [
  "proved",
  "Exact arithmetic; in floating point the sums do depend on the order (C93_sum_depends_on_order), which C102 takes into account."
 ],
 "C114": [
  "proved",
  "C114_stable2, C114_stable3: any number of rk3ssp or ode23 steps from any field of ordinary numbers; C114_initial2/3: energy of a field in [-1, 1]; C114_rk3ssp2, C114_rk3ssp3: whole runs, on every schedule; C114_ode23_2, C114_ode23_3: whole adaptive runs, with C114_errors2/3 for the error estimates; the pow of the C library is a parameter, as in C108. Only without relaxation term (sigma = 0) and with periodic boundary conditions: for sigma > 0 the energy of C90 exists only if the mean is exactly m, which rounding does not keep (C113)."
 ],
 "C115": [
  "proved",
  "C115_initial: the routine on any list of cells; C115_initial2, C115_initial3: the initial field of a run; C115_double2, C115_double3: the assumption of C114 on the initial field, in double precision. That the draws are ordinary and bounded is assumed: the random generator of the C++ library is not modelled."
 ]
}