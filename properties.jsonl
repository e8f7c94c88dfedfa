{"id": "C01", "title": "3D array indexing is a bijection onto the allocation", "statement": "For a 3D array with ni x nj x nk interior cells and nhalo halo layers, every coordinate triple in the padded box addresses an offset inside the allocated size, different triples address different offsets, every offset is addressed, and converting an offset back to a triple and forth are mutually inverse.", "quantifier": "all interior extents >= 1, all halo widths >= 0, all triples in the padded box, all offsets in the allocation", "why_tests_cant": "The unit tests visit a few fixed grid sizes; the property is over all (also non-cubic) sizes and the debug assertion only checks an upper bound that is too weak.", "anchors": ["data_structures/managed_array_3d.hpp:get1DindexFrom3D", "data_structures/managed_array_3d.hpp:getIJK", "data_structures/managed_array_3d.hpp:ManagedArray3DOwning"]}
{"id": "C02", "title": "2D array indexing is a bijection onto the allocation", "statement": "Same as C01 for 2D arrays: every padded (i,j) maps to a distinct in-range offset, all offsets are hit, and getIJ inverts the map.", "quantifier": "all interior extents >= 1, all halo widths >= 0, all pairs in the padded box, all offsets", "why_tests_cant": "Tests use a handful of square sizes.", "anchors": ["data_structures/managed_array_2d.hpp:get1Dindex", "data_structures/managed_array_2d.hpp:getIJ", "data_structures/managed_array_2d.hpp:ManagedArray2DOwning"]}
{"id": "C03", "title": "Index arithmetic never overflows 32-bit int when the padded volume fits", "statement": "If the padded number of cells is at most 2^31-1, then evaluating the offset of any padded coordinate and recovering coordinates from any offset performs no 32-bit signed overflow and returns the mathematically exact result. Reported array size, in contrast, is kept as a 32-bit byte count and is wrong as soon as elements*sizeof(element) exceeds 2^31-1.", "quantifier": "all extents and halo widths whose padded volume fits in int, all coordinates/offsets; all element counts for the byte-size part", "why_tests_cant": "Overflow appears only on grids too large for a unit test (more than 2^28 doubles).", "anchors": ["data_structures/managed_array_3d.hpp:get1DindexFrom3D", "data_structures/memory_manager.cpp:allocate", "data_structures/memory_manager.cpp:size", "typedefs.hpp:int_t"]}
{"id": "C04", "title": "3D interior and halo index lists are an exact partition of the array", "statement": "Constructing a 3D discretization fills its index lists without writing outside them: the interior list holds each interior cell exactly once and its length is ni*nj*nk; the halo (receiver) list holds each halo cell exactly once; the two lists together cover every cell of the padded array; each halo entry has a donor that is the periodic image and, when nhalo does not exceed any extent, is an interior cell.", "quantifier": "all ni,nj,nk >= 1, all nhalo >= 0 (donor-is-interior: nhalo <= min extent)", "why_tests_cant": "Tests check list sizes for one or two grids; duplicates or misses for other shapes are not sampled.", "anchors": ["spatial_discretization/discretization_3d_cart.cpp:Discretization3DCart::Discretization3DCart"]}
{"id": "C05", "title": "2D interior and boundary index lists are an exact partition of the array", "statement": "Constructing a 2D discretization fills its interior and boundary index lists without writing outside the allocated lists; every interior cell appears exactly once in the interior list, every halo cell exactly once in the boundary list, and nothing else appears.", "quantifier": "all ni >= 1, nhalo >= 0", "why_tests_cant": "Tests look at one grid size.", "anchors": ["spatial_discretization/discretization_2d_cart.cpp:Discretization2DCart::Discretization2DCart"]}
{"id": "C06", "title": "Cell centres and vertices form the uniform grid of the requested box", "statement": "Vertex (i,j,k) is the box corner plus integer multiples of dx, cell centre coordinates are corner plus (index+1/2)*dx, adjacent centres are exactly dx apart, the first/last x vertices are the two x ends of the box, and all coordinate writes stay inside the coordinate arrays.", "quantifier": "all box bounds, all grid sizes, all cells", "why_tests_cant": "Only sample points are printed in tests; the statement is over all boxes and sizes.", "anchors": ["spatial_discretization/discretization_3d_cart.cpp:Discretization3DCart::Discretization3DCart", "spatial_discretization/discretization_2d_cart.cpp:Discretization2DCart::Discretization2DCart"]}
{"id": "C07", "title": "Race-free parallel loops give the serial result under every schedule", "statement": "For any parallel loop whose iterations write disjoint locations that no other iteration reads, every interleaving of the individual loads and stores terminates, never faults, contains no data race, and leaves the same memory; a location written by iteration t holds what t alone would have written from the initial memory and all other locations are unchanged.", "quantifier": "all loop bodies with the stated footprints, all iteration counts, all initial memories, all interleavings at single load/store granularity", "why_tests_cant": "A test run observes a handful of schedules on one machine.", "anchors": ["data_structures/exec_includes.hpp:maDGForAll"]}
{"id": "C08", "title": "Every solver kernel is memory-safe and schedule-independent", "statement": "Each parallel loop of the boundary fills, stencil operators, right-hand-side evaluations, Runge-Kutta updates, grid transfers and vector copies only touches elements inside its arrays, has no data race (two iterations never access the same element with one of them writing), and ends in one and the same memory under every schedule (serial, OpenMP, GPU thread order), from any memory contents.", "quantifier": "all grid sizes with nhalo = 2 layers (and extents >= the stated minimum), all memory contents, all schedules", "why_tests_cant": "Data races and out-of-bounds accesses depend on schedule and shape; release builds have no bounds checks.", "anchors": ["spatial_discretization/discretization_3d_cart.cpp", "spatial_discretization/discretization_2d_cart.cpp", "governing_equations/cahn_hilliard/cahn_hilliard_3d_fd.cpp", "time_stepping/rk3ssp.cpp", "time_stepping/ode23.cpp", "time_stepping/bdf_multigrid.cpp"]}
{"id": "C09", "title": "3D periodic boundary fill makes the halo the periodic image of the interior", "statement": "After the 3D periodic fill each halo cell equals the interior cell at the coordinates wrapped modulo the extents, interior cells are unchanged, independent of the previous halo contents and of the schedule.", "quantifier": "all ni,nj,nk >= nhalo, all nhalo, all fields (arbitrary halo garbage), all schedules", "why_tests_cant": "Tests check one smooth field on one grid.", "anchors": ["spatial_discretization/discretization_3d_cart.cpp:applyPeriodicBCs"]}
{"id": "C10", "title": "2D periodic boundary fill makes the whole halo, corners included, the periodic image", "statement": "After the 2D periodic fill every halo cell including all four corner blocks equals the interior cell at the wrapped coordinates and the interior is unchanged.", "quantifier": "all ni >= nhalo, all nhalo, all fields, all schedules", "why_tests_cant": "Corner blocks are filled by separate loops; tests check one case.", "anchors": ["spatial_discretization/discretization_2d_cart.cpp:applyPeriodicBCs"]}
{"id": "C11", "title": "Mixed Neumann/periodic fill is clamp on Neumann axes and wrap on periodic axes", "statement": "Applying the periodic fill and then the Neumann fill with any subset of axes marked Neumann leaves in every halo cell, corners and edges included, the interior value at coordinates clamped on Neumann axes and wrapped on periodic axes; the interior is unchanged.", "quantifier": "all 8 axis combinations, all ni,nj,nk >= nhalo, all fields, all schedules", "why_tests_cant": "Interplay of three sequential fills over corners on arbitrary shapes is not enumerated by tests.", "anchors": ["spatial_discretization/discretization_3d_cart.cpp:applyNeumannBCs", "spatial_discretization/discretization_3d_cart.cpp:applyNeumannBCX", "spatial_discretization/discretization_3d_cart.cpp:applyPeriodicBCs"]}
{"id": "C12", "title": "Periodic fill needs extents at least as large as the halo", "statement": "On a grid with an extent smaller than the halo width the periodic fill is not well defined: donors are themselves halo cells and the outcome depends on the schedule (the loop contains a data race). With extents >= nhalo it is deterministic (C09).", "quantifier": "existence of a grid, field and two schedules with different results", "why_tests_cant": "Nobody tests a 1-cell-thick 3D run under two schedules.", "anchors": ["spatial_discretization/discretization_3d_cart.cpp:applyPeriodicBCs"]}
{"id": "C13", "title": "3D right-hand side evaluates the modified Cahn-Hilliard equation, in all three kernel variants", "statement": "Evaluating the 3D right-hand side leaves in every interior cell of the result -eps2*Lap(Lap c) + Lap(c^3-c) - sigma*(c-m), with the seven-point Laplacian on the field extended by the boundary conditions (periodic), for each of the three kernel variants; the state's interior is unchanged, other arrays than the documented ones are untouched, and no access is out of bounds.", "quantifier": "all extents >= 2, all parameters, all states with arbitrary halo contents, arbitrary scratch contents, all schedules, kernel_variant 0,1,2", "why_tests_cant": "Tests compare variants on one random field with tolerance.", "anchors": ["governing_equations/cahn_hilliard/cahn_hilliard_3d_fd.cpp:evalRHSBasic", "governing_equations/cahn_hilliard/cahn_hilliard_3d_fd.cpp:evalRHSFused", "governing_equations/cahn_hilliard/cahn_hilliard_3d_fd.cpp:evalRHSFullyFused"]}
{"id": "C14", "title": "The three 3D kernel variants agree for every boundary condition", "statement": "For any mix of periodic/Neumann axes the three kernel variants produce identical interior results from the same state, whatever was in halos and scratch arrays; an unknown variant number aborts.", "quantifier": "all extents >= 2, all states, all BC combinations, all integers as kernel_variant", "why_tests_cant": "Equality over all fields and shapes; tests sample.", "anchors": ["governing_equations/cahn_hilliard/cahn_hilliard_3d_fd.cpp:evalRHSImpl", "governing_equations/cahn_hilliard/cahn_hilliard_3d_fd.cpp:CahnHilliard3DFD"]}
{"id": "C15", "title": "2D right-hand side evaluates the modified Cahn-Hilliard equation", "statement": "Evaluating the 2D right-hand side leaves in every interior cell -eps2*Lap(Lap c)+Lap(c^3-c)-sigma*(c-m) with the five-point periodic Laplacian, zero in the result's halo, state interior unchanged, no out-of-bounds access, under every schedule.", "quantifier": "all ni >= 2, all parameters, all states with arbitrary halo, all schedules", "why_tests_cant": "Tests use a manufactured smooth solution with tolerance.", "anchors": ["governing_equations/cahn_hilliard/cahn_hilliard_2d_fd.cpp:evalRHSImpl", "spatial_discretization/discretization_2d_cart.cpp:laplacian", "spatial_discretization/discretization_2d_cart.cpp:biharmonic"]}
{"id": "C16", "title": "The discrete biharmonic is the square of the discrete Laplacian", "statement": "The 25-point (3D) and 13-point (2D) biharmonic stencils equal the seven-/five-point Laplacian applied twice on any grid function; hence on periodic grids the operator is symmetric and positive semidefinite.", "quantifier": "all grid functions, all spacings dx, all sizes", "why_tests_cant": "An algebraic identity over all fields.", "anchors": ["spatial_discretization/discretization_3d_cart.cpp:biharmonic", "spatial_discretization/discretization_2d_cart.cpp:biharmonic"]}
{"id": "C17", "title": "Discrete Laplacian conserves, is symmetric and negative semidefinite", "statement": "On the field extended by any mix of periodic and Neumann conditions, the discrete Laplacian sums to zero over the interior, is symmetric, and satisfies <u,Lap u> <= 0.", "quantifier": "all sizes, all fields, all BC mixes", "why_tests_cant": "Universally quantified over fields and sizes.", "anchors": ["spatial_discretization/discretization_3d_cart.cpp:laplacian", "spatial_discretization/discretization_3d_cart.cpp:applyNeumannBCs"]}
{"id": "C18", "title": "Mass balance of the right-hand side", "statement": "On periodic grids the sum of the right-hand side over the interior equals -sigma * sum(c-m); in particular it vanishes when the mean of c is m or sigma is 0.", "quantifier": "all fields, all sizes, all parameters, 2D and 3D", "why_tests_cant": "Conservation is claimed for all states; tests log a mean once.", "anchors": ["governing_equations/cahn_hilliard/cahn_hilliard_3d_fd.cpp:evalRHSImpl", "governing_equations/cahn_hilliard/cahn_hilliard_2d_fd.cpp:evalRHSImpl"]}
{"id": "C19", "title": "Mass conservation fails with Neumann boundaries (full claim refuted, exact drift given)", "statement": "Claimed: with Neumann (zero-flux) boundaries and sigma=0 the sum of the right-hand side is zero. The two-layer clamped halo makes the biharmonic term non-conservative, so the claim is false for the code; the exact drift is determined.", "quantifier": "all fields on Neumann grids; existence of a violating field", "why_tests_cant": "Tests never check conservation with Neumann boundaries.", "anchors": ["governing_equations/cahn_hilliard/cahn_hilliard_3d_fd.cpp:evalRHSBasic", "spatial_discretization/discretization_3d_cart.cpp:applyNeumannBCX"]}
{"id": "C20", "title": "Energy dissipation of the semi-discrete scheme", "statement": "On periodic grids with sigma=0 the discrete free energy sum((c^2-1)^2/4 + eps2/2 |grad c|^2) has non-positive derivative along the right-hand side, for eps2 of any sign; the derivative vanishes only when the chemical potential is discretely constant along neighbours.", "quantifier": "all real fields, all sizes, all dx > 0", "why_tests_cant": "An inequality over all fields.", "anchors": ["governing_equations/cahn_hilliard/cahn_hilliard_3d_fd.cpp:evalRHSImpl"]}
{"id": "C21", "title": "Uniform states and equilibrium", "statement": "If c equals a constant a everywhere in the interior (any halo contents), the right-hand side is the constant -sigma*(a-m), so c=m is an exact equilibrium for every parameter set and boundary mix, and explicit time stepping keeps it forever.", "quantifier": "all sizes, parameters, BC mixes, step counts", "why_tests_cant": "Every parameter set and number of steps.", "anchors": ["governing_equations/cahn_hilliard/cahn_hilliard_3d_fd.cpp:evalRHSImpl", "governing_equations/cahn_hilliard/cahn_hilliard_2d_fd.cpp:evalRHSImpl"]}
{"id": "C22", "title": "Symmetries of the right-hand side", "statement": "On periodic grids the right-hand side commutes with translation by any number of cells in any direction, with reflections, with exchange of axes on matching extents, and changes sign under c -> -c, m -> -m.", "quantifier": "all fields, all shifts, all sizes", "why_tests_cant": "Universally quantified equivariance.", "anchors": ["governing_equations/cahn_hilliard/cahn_hilliard_3d_fd.cpp:evalRHSImpl"]}
{"id": "C23", "title": "Stencil exactness on polynomials", "statement": "Away from boundaries the discrete Laplacian is exact on all polynomials of total degree at most 3 in the coordinates and the discrete biharmonic on all polynomials of total degree at most 5; on x^4 (respectively x^6) the error is exactly 2 dx^2 (respectively 120 dx^2), so the schemes are second order and not higher.", "quantifier": "all such polynomials, all points, all dx != 0", "why_tests_cant": "Order tests fit slopes on two meshes.", "anchors": ["spatial_discretization/discretization_3d_cart.cpp:laplacian", "spatial_discretization/discretization_3d_cart.cpp:biharmonic"]}
{"id": "C24", "title": "Jacobian sparsity pattern is well-formed for extents >= 5 and reads out of bounds below", "statement": "Building the sparse Jacobian on a grid with all extents >= 5 performs no out-of-range access and yields for each row exactly 25 strictly increasing in-range column indices, namely the periodic images of the biharmonic stencil, with row offsets 25*row. If some extent is below 5 fewer than 25 distinct columns exist and the copy reads past the end of the vector.", "quantifier": "all extents; all rows", "why_tests_cant": "Tests build one matrix; small extents are never built.", "anchors": ["governing_equations/cahn_hilliard/cahn_hilliard_3d_fd.cpp:createSparseMatrix", "governing_equations/cahn_hilliard/cahn_hilliard_3d_fd.cpp:nNonZerosPerRow"]}
{"id": "C25", "title": "Assembled Jacobian is the exact derivative of the right-hand side", "statement": "With all extents >= 5 and periodic halos filled, the assembled sparse matrix times any direction v equals the directional derivative of the right-hand side at the state in direction v.", "quantifier": "all states, all directions, all parameters, all extents >= 5", "why_tests_cant": "Tests compare finite differences at one state with a tolerance.", "anchors": ["governing_equations/cahn_hilliard/cahn_hilliard_3d_fd.cpp:evalJacobian", "governing_equations/cahn_hilliard/cahn_hilliard_3d_fd.cpp:createSparseMatrix"]}
{"id": "C26", "title": "Jacobian assembled right after importing a solution vector uses stale halos", "statement": "Claimed: the Jacobian callback assembles the Jacobian at the solution vector it is given. It copies only interior cells and assembles without refilling halos, so the result depends on leftovers; the claim is false for the code, true if the halos happen to be the periodic image.", "quantifier": "existence of a state and leftover halo with a wrong Jacobian; all consistent states for the positive part", "why_tests_cant": "A tolerance-based Newton test converges anyway.", "anchors": ["time_stepping/petsc_time_integrator.cpp:PetscRHSJacobian", "governing_equations/cahn_hilliard/cahn_hilliard_3d_fd.cpp:evalJacobian"]}
{"id": "C27", "title": "CSR matrix-vector product equals the dense product", "statement": "For every well-formed CSR matrix the product kernel computes row by row the sum over columns of the represented dense matrix (duplicates add up) times the vector, without out-of-range access, under every schedule.", "quantifier": "all well-formed matrices, vectors, sizes, schedules", "why_tests_cant": "Tests use 5x5 and tridiagonal matrices.", "anchors": ["data_structures/csr_matrix.cpp:matVecMultiply"]}
{"id": "C28", "title": "LDU splitting preserves the operator", "statement": "Splitting a CSR matrix having exactly one diagonal entry per row into lower, diagonal and upper parts gives the same matrix-vector product as the original; with a missing diagonal entry the split is misaligned and the claim fails.", "quantifier": "all well-formed matrices with the diagonal property, all vectors; witness for the failing case", "why_tests_cant": "Tests use matrices with full diagonals only.", "anchors": ["data_structures/ldu_csr_matrix.cpp:LDUCSRMatrix", "data_structures/ldu_csr_matrix.cpp:matVecMultiply"]}
{"id": "C29", "title": "Jacobi smoothing: fixed points are exactly solutions, and all Jacobi variants agree", "statement": "For matrices whose diagonal entries exceed machine epsilon in magnitude (value > 0 or < 0) and any non-zero weight w, one sweep leaves x unchanged iff A x = b; the plain sweep, the sweep with cached diagonal inverse and the LDU sweeps compute the same x.", "quantifier": "all such matrices, right-hand sides, iterates, weights", "why_tests_cant": "Tests run a few sweeps of one matrix.", "anchors": ["data_structures/csr_matrix.cpp:jacobiSmooth", "data_structures/csr_matrix.cpp:jacobiSmoothCacheDiagonalInverse", "data_structures/ldu_csr_matrix.cpp:jacobiSmooth"]}
{"id": "C30", "title": "Jacobi converges on strictly diagonally dominant systems", "statement": "For strictly diagonally dominant matrices and weights in (0,1], each Jacobi sweep contracts the max-norm error by the factor 1-w+w*q with q<1 the worst row ratio, so any number of sweeps obeys the geometric bound.", "quantifier": "all such matrices, right-hand sides, initial guesses, numbers of sweeps", "why_tests_cant": "Tests sample.", "anchors": ["data_structures/csr_matrix.cpp:jacobiSmooth"]}
{"id": "C31", "title": "Cached diagonals never go stale through the accessor API", "statement": "In every history of value updates through the mutable accessors (each obtained afresh), row scalings and cached-diagonal sweeps, each sweep uses the diagonal inverse of the current matrix. A retained mutable view written after a sweep breaks this.", "quantifier": "all histories of operations", "why_tests_cant": "Cache staleness depends on the history.", "anchors": ["data_structures/csr_matrix.hpp:values", "data_structures/csr_matrix.cpp:updateDiags", "data_structures/csr_matrix.cpp:jacobiSmoothCacheDiagonalInverse"]}
{"id": "C32", "title": "Reading matrix files", "statement": "Reading back a file written as one token per line yields the same array, for arrays of any length; a truncated file is accepted silently and the last token is repeated in the missing positions.", "quantifier": "all arrays and all truncation points", "why_tests_cant": "One sample file.", "anchors": ["file_io/read_csr_matrix.hpp:readArray", "file_io/read_csr_matrix.cpp:readCSRMatrix"]}
{"id": "C33", "title": "RK3-SSP step refines the textbook three-stage method", "statement": "One step of the rk3ssp integrator, executed on padded arrays with parallel loops, changes the interior of the state exactly as the three-stage Runge-Kutta method with its tableau, for any right-hand side that depends only on the interior; equivalently it is the Shu-Osher convex combination of forward Euler steps. Stored residual equals (new-old)/dt.", "quantifier": "all states, step sizes, right-hand sides satisfying the contract, grid sizes, schedules", "why_tests_cant": "Order tests sample one problem.", "anchors": ["time_stepping/rk3ssp.cpp:doTimeStep", "time_stepping/rk3ssp.hpp"]}
{"id": "C34", "title": "ODE23 step refines the Bogacki-Shampine pair including FSAL reuse", "statement": "Over any sequence of steps of one solve with any step sizes, the ode23 integrator (which reuses the last stage as the next first stage) produces the same states and error estimates as the textbook Bogacki-Shampine pair recomputing every stage.", "quantifier": "all step counts, step sizes, states, time-dependent right-hand sides", "why_tests_cant": "Reuse correctness is a history property.", "anchors": ["time_stepping/ode23.cpp:doTimeStep", "time_stepping/ode23.hpp"]}
{"id": "C35", "title": "ODE23 reuses a stale stage when solve is called twice on the same integrator", "statement": "Claimed: a second solve on the same integrator object behaves like a fresh one. The first-step flag is never reset, so the first step of the second run uses the last stage of the first run: false for the code (witness).", "quantifier": "existence of an initial condition pair and right-hand side", "why_tests_cant": "Nobody tests re-solving.", "anchors": ["time_stepping/ode23.cpp:doTimeStep"]}
{"id": "C36", "title": "Runge-Kutta order conditions", "statement": "The rk3ssp and ode23 tableaux satisfy row-sum consistency and all four order-3 conditions, the embedded ode23 weights satisfy the order-2 conditions but not the order-3 ones; on y'=lambda*y both methods give exactly 1+z+z^2/2+z^3/6; both integrate time polynomials of degree <= 2 exactly.", "quantifier": "exact tableaux; all lambda, dt", "why_tests_cant": "Slope fitting only.", "anchors": ["time_stepping/rk3ssp.hpp", "time_stepping/ode23.hpp"]}
{"id": "C37", "title": "SSP property: convex bounds are inherited from forward Euler", "statement": "If forward Euler with step dt maps a convex set into itself then so does one rk3ssp step with that dt, and any number of them.", "quantifier": "all convex sets, autonomous right-hand sides, all step counts", "why_tests_cant": "Quantifies over sets and functions.", "anchors": ["time_stepping/rk3ssp.cpp:doTimeStep"]}
{"id": "C38", "title": "Mean concentration is preserved through a whole simulation", "statement": "Starting from any field whose interior mean is m, after any number of rk3ssp or ode23 steps of any sizes on a periodic grid the interior mean is still exactly m; from any other mean with sigma=0 the mean is constant too. For rk3ssp the deviation of the mean from m evolves by the factor 1-z+z^2/2-z^3/6 with z=sigma*dt.", "quantifier": "all step counts, step sizes, fields, grid sizes, schedules", "why_tests_cant": "Any number of steps.", "anchors": ["time_stepping/rk3ssp.cpp:doTimeStep", "time_stepping/ode23.cpp:doTimeStep", "governing_equations/cahn_hilliard/cahn_hilliard_3d_fd.cpp:evalRHSImpl"]}
{"id": "C39", "title": "Error estimate of ode23 is the interior maximum difference of the two embedded solutions", "statement": "After a step the reported error estimate equals dt times the maximum over interior cells of the absolute difference of the third- and second-order stage combinations (zero for no cells), although the reduction runs over the whole padded array, provided the stage halos are zero; it is non-negative and independent of reduction order.", "quantifier": "all states, stages, sizes, reduction orders", "why_tests_cant": "Reduction order and all fields.", "anchors": ["time_stepping/ode23.cpp:doTimeStep"]}
{"id": "C40", "title": "Step controller stays within its bounds", "statement": "Once three errors are recorded, the next step returned by the adaptive controller lies in [min_step, max_step] for any positive inputs with min<=max, and differs from the current step by at most the factors 0.01 and 1.1 unless the absolute limits force otherwise; for the first calls the step is returned unchanged. Documentation comment (halving/doubling style limits) disagrees with the code.", "quantifier": "all error histories, step histories, tolerances, gains", "why_tests_cant": "All histories of floating inputs.", "anchors": ["time_stepping/ode23.cpp:adaptStep", "time_stepping/ode23.cpp:computeNextDT"]}
{"id": "C41", "title": "Time loop lands exactly on the final time", "statement": "If the first step does not overshoot and no step limit or tolerance stops it, the time loop's final time equals final_time exactly, step times increase strictly, and every step size after the first is at most the controller's proposal.", "quantifier": "all initial times, step proposals (any positive adaptive sequence), final times", "why_tests_cant": "All step sequences.", "anchors": ["time_stepping/time_integrator.cpp:solve", "time_stepping/time_integrator.cpp:computeNextTimestep"]}
{"id": "C42", "title": "The first step is never clipped and always taken", "statement": "Claimed: the simulation never advances beyond final_time and never takes more than max_time_steps steps. The code takes the first step unclipped and unconditionally: witness overshooting final_time and then stepping backwards in time; witness exceeding the step limit on restart.", "quantifier": "existence of options; all options for the exact characterisation", "why_tests_cant": "Edge options.", "anchors": ["time_stepping/time_integrator.cpp:solve", "time_stepping/time_integrator.cpp:initialTimestep"]}
{"id": "C43", "title": "Termination and step-count bound", "statement": "With step proposals bounded below by a positive number, or a non-zero max_time_steps, the time loop terminates for every right-hand side; the number of steps is at most max(1, max_time_steps - initial_step) respectively 1 + ceil((tfinal-t0-dt0)/dtmin) + 1.", "quantifier": "all proposals, all options", "why_tests_cant": "Termination over all runs.", "anchors": ["time_stepping/time_integrator.cpp:solve", "time_stepping/time_integrator.cpp:computeNextTimestep"]}
{"id": "C44", "title": "Stopping decisions follow the documented tolerances on the last recorded residual", "statement": "When a relative/absolute tolerance is non-zero the loop stops after a step iff the residual recorded by the monitor at its last refresh is below it; the monitor is refreshed only at notifications divisible by log_frequency, so the decision may use a residual up to log_frequency-1 steps old; the monitor is never read while empty when log_frequency >= 1; log_frequency 0 divides by zero.", "quantifier": "all residual histories, tolerances, log frequencies", "why_tests_cant": "History property.", "anchors": ["time_stepping/time_integrator.cpp:computeNextTimestep", "utils/observer.hpp:notifyObservers", "initialization/puppeteer.cpp:attachSolutionObservers"]}
{"id": "C45", "title": "Observers fire at notification 0, f, 2f, ...", "statement": "An observer group with frequency f >= 1 on an event fires at exactly the notifications whose ordinal (since first notification with observers) is a multiple of f, in registration order, i.e. ceil(n/f) times after n notifications, independently of other events; f = 0 is undefined behaviour at the first notification.", "quantifier": "all event histories, frequencies", "why_tests_cant": "Interleaved histories of several events.", "anchors": ["utils/observer.hpp:Observable"]}
{"id": "C46", "title": "Residual monitor normalisation", "statement": "Over any history of residual evaluations in one process, the recorded maximum is the maximum of all residual norms so far, and the relative residual is in [0,1] when any residual was non-zero (equal to 1 exactly when the current one attains the maximum), so it is never NaN; with all residuals zero so far it reports relative and absolute residual 1. A second run in the same process inherits the maximum.", "quantifier": "all residual histories", "why_tests_cant": "History property with process-wide state.", "anchors": ["governing_equations/residual_calculator.cpp:residual_calculator"]}
{"id": "C47", "title": "Random initial condition has mean exactly m", "statement": "For any sequence of random draws in [lo,hi] and any grid, the initial field's interior mean is exactly m and every cell deviates from m by at most hi-lo (by less than the range when more than one cell).", "quantifier": "all draws, all sizes, all m", "why_tests_cant": "All random sequences.", "anchors": ["governing_equations/cahn_hilliard/cahn_hilliard_initial_conditions.cpp:set"]}
{"id": "C48", "title": "Solution monitor extrema and integral", "statement": "Reported min is the field minimum; reported max is the field maximum for fields with some positive value at least the smallest positive double (otherwise it is wrong: all-negative fields report a positive max). The reported interface measure reads only interior cells in 2D and on grids with equal extents; for unequal 3D extents it reads halo cells.", "quantifier": "all fields and extents; witnesses for the failures", "why_tests_cant": "Tests use fields of mixed sign on cubes.", "anchors": ["governing_equations/cahn_hilliard/cahn_hilliard_solution_monitor.cpp"]}
{"id": "C49", "title": "Restriction preserves the mean and inverts nearest prolongation", "statement": "Fine-to-coarse transfer averages the 8 children: it preserves the mean exactly, maps constants to constants, stays between the children's min and max, and applied after nearest coarse-to-fine transfer gives back the coarse field; accesses stay in range; odd extents abort.", "quantifier": "all even extents, all fields, all schedules", "why_tests_cant": "All fields/sizes.", "anchors": ["spatial_discretization/discretization_3d_cart.cpp:interpolateFineToCoarse", "spatial_discretization/discretization_3d_cart.cpp:interpolateCoarseToFine", "spatial_discretization/discretization_3d_cart.cpp:createCoarsenedDiscretization"]}
{"id": "C50", "title": "Linear prolongation writes every fine cell once, in range, and reproduces constants", "statement": "Linear coarse-to-fine transfer writes every fine cell of the interior plus one halo layer exactly once, is race-free and in range when nhalo >= 1, and reproduces constants and functions affine in y and z (with coarse halos consistent). Full claim: it is trilinear interpolation, i.e. reproduces all affine functions.", "quantifier": "all extents, all coarse fields", "why_tests_cant": "All fields/sizes.", "anchors": ["spatial_discretization/discretization_3d_cart.cpp:interpolateCoarseToFine"]}
{"id": "C51", "title": "Multigrid cycle schedule is well-formed", "statement": "For 1..6 levels and any number of smoothing passes the cycle's stage sequence starts and ends on the finest level, never leaves levels 0..L-1, restricts before it prolongs from a level, visits the coarsest level, and prolongs exactly as often as it restricts; other level counts abort.", "quantifier": "levels 1..6, all nsmooth", "why_tests_cant": "nsmooth unbounded.", "anchors": ["time_stepping/bdf_multigrid.cpp:getMGCycle"]}
{"id": "C52", "title": "FAS consistency: coarse problem reproduces the restricted fine residual", "statement": "Immediately after transfer to a coarse level the coarse right-hand side including its source, evaluated at the transferred state, equals the restricted fine residual; hence a zero fine residual makes the transferred state an exact steady state of the coarse problem.", "quantifier": "all states, levels, right-hand sides", "why_tests_cant": "All states.", "anchors": ["time_stepping/bdf_multigrid.cpp:setCoarseStatesFromFine", "time_stepping/bdf_multigrid.cpp:CoarsenedLevelRHS"]}
{"id": "C53", "title": "An exact solution is a fixed point of the whole multigrid cycle", "statement": "If the fine-level residual (with or without the unsteady term) is zero in the interior, a complete cycle with any number of levels, smoothing passes, relaxation factors and either prolongation leaves the interior of the fine state unchanged.", "quantifier": "all levels 1..6, all nsmooth, relaxation factors, prolongations, right-hand sides", "why_tests_cant": "All configurations.", "anchors": ["time_stepping/bdf_multigrid.cpp:doTimeStepCycle", "time_stepping/ode23_smoother.cpp:doSmooth"]}
{"id": "C54", "title": "BDF1 fine-level equation and convergence report", "statement": "The fine-level residual used by bdf1 vanishes iff the state satisfies backward Euler (c_new-c_old)/dt = RHS(c_new); with 'steady' it vanishes iff RHS(c)=0. A step is reported converged iff some cycle's residual ratio is <= tolerance; starting from zero residual the ratio is 0/0 and the step is reported as not converged after all cycles.", "quantifier": "all states, dt != 0, tolerances, residual sequences", "why_tests_cant": "All sequences.", "anchors": ["time_stepping/bdf_multigrid.cpp:FineGridRHS::evalRHSImpl", "time_stepping/bdf_multigrid.cpp:doTimeStepCycle"]}
{"id": "C55", "title": "Host/device synchronisation refines a single copy", "statement": "In every history of read, write and read-write accesses on host and device in which every write-only session overwrites all elements, each read sees exactly the latest written contents; with read-write sessions partial writes are fine. A write-only session that overwrites only part (as the interior-only kernels do) may expose stale or uninitialised elements: witness.", "quantifier": "all access histories and contents", "why_tests_cant": "All histories; needs a GPU to observe.", "anchors": ["data_structures/managed_array.hpp"]}
{"id": "C56", "title": "Swapping arrays exchanges contents without losing updates", "statement": "Swapping two managed arrays exchanges their logical contents, sizes and pending synchronisation for every synchronisation status of both; swapping twice is the identity.", "quantifier": "all statuses and contents", "why_tests_cant": "All status combinations.", "anchors": ["data_structures/managed_array.hpp:swap"]}
{"id": "C57", "title": "Memory manager: handles are unique, no double free, no use after free", "statement": "In every history of allocate, allocate-view, deallocate and lookups: live handles are pairwise distinct, owned blocks are freed at most once, borrowed (view) memory is never freed, lookups of live handles return their own block, lookups of released handles abort and releases of unknown handles are no-ops.", "quantifier": "all operation histories", "why_tests_cant": "All histories.", "anchors": ["data_structures/memory_manager.cpp"]}
{"id": "C58", "title": "Registry: first registration wins, unknown names throw", "statement": "After any sequence of registrations, looking up a name returns the first registered creator of that name, and an unknown name throws.", "quantifier": "all registration histories", "why_tests_cant": "All histories.", "anchors": ["utils/registry.hpp:FactoryRegistry"]}
{"id": "C59", "title": "Option precedence", "statement": "For each option the effective value is the command line's if given, else the config file's if given, else the default.", "quantifier": "all option assignments", "why_tests_cant": "All combinations.", "anchors": ["program_options/program_options_parser.cpp:parseInputOptions"]}
{"id": "C60", "title": "Solution files round-trip the interior field", "statement": "Writing a 2D or 3D field and reading it back into a grid of the same extents restores every interior cell (values printed exactly), leaving the halo alone, for every extents (also non-cubic). A single precision build reads only single precision numbers and restores any value with relative error at most 2^-23 (plus 2^-149).", "quantifier": "all extents and fields", "why_tests_cant": "Tests use N=16 cubes.", "anchors": ["file_io/vtk_solution_writer.cpp", "file_io/vtk_solution_reader.cpp:setSolution"]}
{"id": "C61", "title": "Solution files round-trip the grid description", "statement": "Reading the domain back from a written file recovers nx, ny, nz (0 in 2D) and the x extent and y/z starts exactly when coordinates are printed exactly; y/z ends are not restored. Any file that is accepted, whoever wrote it, has extents starting at zero in all directions and one point per vertex, and the reported box consists of attained extrema of its points; other extents or point counts end the program with an error message.", "quantifier": "all extents and boxes", "why_tests_cant": "One sample.", "anchors": ["file_io/vtk_solution_reader.cpp:getCartesianDomain", "file_io/vtk_solution_writer.cpp"]}
{"id": "C62", "title": "Restart equals continuing", "statement": "Running n+k fixed-size steps equals running n steps, writing the solution, and restarting for k steps, in state and time, if the stored time and step are printed exactly. Time and step are printed with 6 decimals of a scientific mantissa, so the claim is false for times needing more digits (witness).", "quantifier": "all n, k, states, right-hand sides", "why_tests_cant": "All n, k; depends on digits.", "anchors": ["file_io/vtk_solution_writer.cpp", "file_io/vtk_solution_reader.cpp:setInitialTimeStep", "initialization/puppeteer.cpp:timeIntegratorFactory"]}
{"id": "C63", "title": "Derived box ends use integer division", "statement": "Claimed: cells are cubes, i.e. the derived y and z ends equal the start plus n*dx. The code divides the integer cell counts first, so the claim holds iff the x count divides the y (z) count (for a non-empty box); witness otherwise. Grid spacing itself only uses the x box.", "quantifier": "all counts and boxes", "why_tests_cant": "Edge counts.", "anchors": ["program_options/program_options.hpp:domain_y_end"]}
{"id": "C64", "title": "Copy between solver vector and padded state round-trips", "statement": "Copying a dense vector into the state's interior and back is the identity; copying the state's interior out and in leaves the state unchanged; halos are never touched.", "quantifier": "all extents, vectors, states, schedules", "why_tests_cant": "All sizes.", "anchors": ["time_stepping/petsc_time_integrator.cpp:copyPetscVecToSolutionState", "time_stepping/petsc_time_integrator.cpp:copySolutionStateToPetscVec"]}
{"id": "C65", "title": "Reductions are independent of chunking and order", "statement": "Sums, minima and maxima computed by parallel reduction equal the sequential ones over exact arithmetic for every way of chunking and combining; the residual norm equals sqrt(mean of squares) and is zero iff every interior residual is zero.", "quantifier": "all values, all chunkings and combination orders", "why_tests_cant": "Schedules.", "anchors": ["data_structures/exec_includes.hpp", "time_stepping/bdf_multigrid.cpp:reduce_residual", "governing_equations/residual_calculator.cpp"]}
{"id": "C66", "title": "Poisson right-hand side and boundary values", "statement": "The Poisson verification problem's right-hand side equals the seven-point Laplacian of the state extended periodically in x,y and by the prescribed values in the z halo, plus the source; the map is affine in the interior state.", "quantifier": "all extents, states, schedules", "why_tests_cant": "One grid.", "anchors": ["governing_equations/poisson/poisson_3d_fd.cpp"]}
{"id": "C67", "title": "Component selection", "statement": "The program starts exactly for known boundary names, dimension 2 or 3, a known equation (Poisson only in 3D) and a registered time integrator, and then uses the grid, equation, initial condition (the restart file's if given) and integrator named by the options; every other combination stops with an error before time stepping.", "quantifier": "all option values, all registration orders", "why_tests_cant": "All combinations of strings and numbers.", "anchors": ["initialization/puppeteer.cpp:geomFactory", "initialization/puppeteer.cpp:rhsFactory", "initialization/puppeteer.cpp:initialConditionsFactory", "initialization/puppeteer.cpp:timeIntegratorFactory", "utils/registry.hpp"]}
{"id": "C68", "title": "Solution files do not overwrite each other", "statement": "In 3D the files of different steps and of different base names (in particular the final file) have different names, and listing the files of a run alphabetically lists them by step. In 2D this holds below a million steps; from then on only six significant digits of the step are printed, so different steps share one name (e.g. 1000000 to 1000004 all write ..._step_1e+06.vts) and overwrite each other. With max_time_steps <= 0 composing the name is undefined behaviour (infinite logarithm converted to int).", "quantifier": "all base names, step limits and steps", "why_tests_cant": "No test runs a million steps or compares all pairs of names.", "anchors": ["file_io/vtk_solution_writer.cpp:write_solution_to_vtk_2d", "file_io/vtk_solution_writer.cpp:write_solution_to_vtk_3d", "initialization/puppeteer.cpp:run"]}
{"id": "C69", "title": "Gauss-Seidel smoothers perform the textbook sweeps", "statement": "On a newly split matrix any sequence of forward, backward and symmetric Gauss-Seidel calls with any relaxation weights changes x exactly as the textbook relaxed sweeps for the original matrix do, although the first call rescales the stored matrix. A vector is left fixed by a forward or backward call with non-zero weight iff it solves the system. For row-dominant matrices (ratio q<1) and weights in [0,1] the maximal error shrinks by 1-w+wq per sweep (squared for the symmetric smoother). Without the library build flag the calls abort, and an x longer than the matrix is read out of range.", "quantifier": "all square matrices with exactly one stored diagonal entry per row above the threshold, all x, b, weights, all finite sequences of calls", "why_tests_cant": "Infinitely many matrices and call sequences; the triangular solves need a GPU library and are not exercised by the unit tests on the host.", "anchors": ["data_structures/ldu_csr_matrix.cpp:gaussSeidel", "data_structures/csr_matrix.cpp:scaleDiagonalAndInit", "data_structures/csr_matrix.cpp:triangularSolve"]}
{"id": "C70", "title": "The first Gauss-Seidel call changes what the other operations of the split matrix compute", "statement": "After the first Gauss-Seidel call on a split matrix its product is D^-1 A x instead of A x, its residual norm compares D^-1 A x with the unscaled b (so it is non-zero for an exact solution), its plain Jacobi sweep relaxes towards A x = D b, and only the norm that scales the right-hand side still vanishes exactly for solutions.", "quantifier": "all matrices and vectors as in C69; a concrete system for the observable change", "why_tests_cant": "Tests call one operation on a new object; the defect shows in sequences of different operations.", "anchors": ["data_structures/ldu_csr_matrix.cpp:matVecMultiply", "data_structures/ldu_csr_matrix.cpp:rmsNorm", "data_structures/ldu_csr_matrix.cpp:rmsNormDiagScaledRHS", "data_structures/ldu_csr_matrix.cpp:jacobi", "data_structures/csr_matrix.cpp:scaleDiagonalAndInit"]}
{"id": "C71", "title": "Reported diagonal dominance is a sound bound", "statement": "diagonalDominance returns, for every order of the parallel minimum, the smallest ratio of the diagonal to the sum of the stored off-diagonal magnitudes (or the initial bound if smaller) and changes nothing. The stored sum is never less than the off-diagonal sum of the represented matrix and equal to it when no column is stored twice in a row. A reported value r > 1 therefore guarantees off-diagonal sums at most 1/r times the diagonal, the hypothesis of the convergence theorems.", "quantifier": "all well-formed matrices with one stored diagonal entry per row, all reduction orders; rows without off-diagonal entries excluded from the guarantee", "why_tests_cant": "All matrices and all reduction orders.", "anchors": ["data_structures/csr_matrix.cpp:diagonalDominance"]}
{"id": "C72", "title": "Multigrid hierarchy exists exactly for extents divisible by a power of two", "statement": "Setting up L levels succeeds iff 2^(L-1) divides every extent, level l then having the extents divided by 2^l and the same halo width; otherwise the program stops with an error message. If in addition every extent is at least 2^L, the levels satisfy the hypotheses of the cycle theorems.", "quantifier": "all extents and level counts", "why_tests_cant": "All extents and level counts.", "anchors": ["time_stepping/bdf_multigrid.cpp:BDFMultigrid", "spatial_discretization/discretization_3d_cart.cpp:createCoarsenedDiscretization"]}
{"id": "C73", "title": "PETSc sessions: callbacks are functions of their argument; what observers see", "statement": "Whatever right-hand side, Jacobian and monitor callbacks the PETSc library makes, in any order and with any of its vectors, none of them faults and none of their results depends on thread scheduling. A right-hand side callback stores the right-hand side of exactly the vector it was given. Observers are shown the vector last handed to any callback and the residual of the vector last handed to a right-hand side callback, not the accepted solution vector handed to the monitor; before the first callback they see the initial state. A solve starts from the initial state and ends with the interior of the final solution vector in the state.", "quantifier": "all finite sequences of callbacks interleaved with arbitrary library writes, all vectors, all grids and parameters, all schedules", "why_tests_cant": "The library's calling order is not fixed by the program; all orders and all contents are quantified over.", "anchors": ["time_stepping/petsc_time_integrator.cpp:PetscRHSFunction", "time_stepping/petsc_time_integrator.cpp:PetscRHSJacobian", "time_stepping/petsc_time_integrator.cpp:PetscMonitor", "time_stepping/petsc_time_integrator.cpp:solve"]}
{"id": "C74", "title": "PETSc integrator: stopping rule and settings compared with the native loop", "statement": "After each step the PETSc integrator stops exactly if an enabled tolerance is reached (equality included) and ends the program if the entry it needs is missing. Compared with the native loop it uses <= on the rescaled entry where the native loop uses < on the norm, and a stationary state with zero residual never meets a tolerance below one. Step limits, final time and error tolerance are passed on as documented; the fixed-step variant uses the option value even after a restart that carries another step size.", "quantifier": "all tolerances, monitors, residual histories and option values", "why_tests_cant": "All residual values including the boundary cases equality and zero.", "anchors": ["time_stepping/petsc_time_integrator.cpp:PetscPostStep", "time_stepping/petsc_time_integrator.cpp:initializePetsc", "time_stepping/time_integrator.cpp:computeNextTimestep"]}
{"id": "C75", "title": "The profile printed at the end of a run", "statement": "The functions listed are exactly those entered, each once, and the number of calls is how often each was entered. The time listed for a function, plus the time for which its unfinished calls have been running, is the integral over time of its number of activations. With a clock that does not go back it is not negative and, for a function that does not call itself, at most the time passed; a recursive function can be charged more. Rows are in descending order of time, percentages are relative to the largest time (first row 100), and are not numbers when no time was recorded. A function that is still running when the table is printed, as the outermost one is, is listed with its calls and no time.", "quantifier": "all sequences of entering and leaving profiled functions, all clock readings, all orders the unstable sort may produce", "why_tests_cant": "Nesting depth, recursion and clock readings are unbounded; a test compares one trace with a tolerance.", "anchors": ["logger/profiler.cpp: Profiler::finalize, Profiler::tic, Profiler::toc, FunctionTimer", "logger/profiler.hpp: FunctionProfile, profile", "initialization/puppeteer.cpp: Puppeteer::run"]}
{"id": "C76", "title": "A multigrid step is a sequence of full approximation scheme cycles", "statement": "With at least one smoothing pass, one multigrid cycle of the implicit integrator changes the solution exactly like one textbook full-approximation-scheme V-cycle for the backward Euler (or steady) equation: smooth, restrict solution and residual, add the coarse correction to the coarse right-hand side, recurse, interpolate the coarse change, smooth. On each level the first pass uses the step size the smoother holds (1e-6 at first) and later passes the level's own step mg_cfl*dx^4. A time step repeats cycles until the tested norm has dropped by the requested factor or the allowed number of cycles is used up.", "quantifier": "all hierarchies of any depth, all grids, fields, numbers of smoothing passes, cycles and step sizes", "why_tests_cant": "A test runs one hierarchy and compares a final residual; it cannot tell a correct cycle from one with a stale coarse correction or the wrong per-level step that still reduces the residual.", "anchors": ["time_stepping/bdf_multigrid.cpp:doTimeStep", "time_stepping/bdf_multigrid.cpp:doTimeStepCycle", "time_stepping/ode23_smoother.cpp:doSmooth", "time_stepping/ode23_smoother.cpp:computeNextDT"]}
{"id": "C77", "title": "Second-order consistency with the differential equation", "statement": "For every smooth (six times continuously differentiable) function that is periodic on the box there is one constant such that on every periodic grid covering the box, whatever its extents and spacing and whatever the halo and scratch arrays held before, evaluating the right-hand side on samples at the cell centres gives the Cahn-Hilliard operator -eps^2 Lap^2 u + Lap(u^3-u) - sigma(u-m) of that function at the cell centres up to the constant times dx^2, in 2D and in all three 3D kernel variants. Laplacian and biharmonic kernels satisfy explicit bounds M dx^2/4 and 3M dx^2/2 with M bounding fourth and sixth derivatives, at every interior cell whose neighbours hold samples.", "quantifier": "all smooth periodic functions, boxes, parameters, grids, kernel variants and thread schedules", "why_tests_cant": "A convergence test measures an observed order for one function on a few grids; it gives no bound and cannot exclude an error term that is invisible for that function (for instance a wrong mixed derivative weight).", "anchors": ["spatial_discretization/discretization_3d_cart.cpp:laplacian", "spatial_discretization/discretization_3d_cart.cpp:biharmonic", "governing_equations/cahn_hilliard/cahn_hilliard_3d_fd.cpp:evalRHSImpl", "governing_equations/cahn_hilliard/cahn_hilliard_2d_fd.cpp:evalRHSImpl", "spatial_discretization/discretization_2d_cart.cpp:biharmonic"]}
{"id": "C78", "title": "The log shows one coherent row per logged step, readable by column", "statement": "Every line of every message starts with a comment prefix, so that a reader skipping '#' lines sees only rows. During a run one completed step in log_frequency is logged, starting with the first; each row lists time, residual and solution quantities of one and the same state, the column names are given once and a heading precedes rows 0, 50, 100, .... A row splits on blanks into exactly one number per quantity, each within half a unit of the sixth significant digit (iteration numbers below a million exactly), as long as negative values have two-digit exponents; beyond that two columns run together, and iteration numbers from a million on are no longer distinguishable. Records are filtered by the last level set explicitly, else by the level given when the first file was opened; opening another file does not change the level. Fatal messages end the program, others do not.", "quantifier": "all messages and severities, all sequences of level calls, all lists of monitored values, all runs (sequences of states), all frequencies", "why_tests_cant": "The guarantee concerns every sequence of steps and all values a column may take; the failure cases sit at exponents and iteration counts that test runs never reach.", "anchors": ["logger/logger.cpp: Logger::updateLog, Logger::Message, Logger::setLogLevel, Logger::initLogFile", "initialization/puppeteer.cpp: Puppeteer::attachTimeObservers, attachResidualObservers, attachSolutionObservers", "utils/observer.hpp: Observable::notifyObservers"]}
{"id": "C79", "title": "The multigrid solver on the Poisson problem performs full approximation V-cycles", "statement": "Each multigrid cycle on the Poisson problem transforms the state exactly as one V-cycle of the full approximation scheme built from the discrete Poisson operators of the levels, with boundary values and sources from the coordinates of each level; a step repeats cycles until the reported norm has fallen by the tolerance or the allowed cycles are used. A solution of the discrete problem is kept and leaves residual zero, the halo of the state holds the periodic and prescribed continuation, and the coordinates are never changed.", "quantifier": "all level counts up to the supported maximum, smoothing counts >= 1, extents, states, both prolongations, schedules, reduction orders", "why_tests_cant": "Tests compare cycle counts of a few grids with recorded numbers; they cannot tell an intended scheme from an accidental one that happens to converge.", "anchors": ["time_stepping/bdf_multigrid.cpp: BDFMultigrid::doTimeStep, doTimeStepCycle", "governing_equations/poisson/poisson_3d_fd.cpp", "time_stepping/ode23_smoother.cpp: ODE23Smoother::doSmooth"]}
{"id": "C80", "title": "A reported residual bounds the true error of the Poisson solver", "statement": "The discrete Poisson problem has exactly one solution. After every cycle of the steady solver with 0 < mg_cfl <= 1/5 the root mean square difference between the state and that solution is at most 8/5 (nk dx)^2 times the reported residual, hence at most 8/5 (nk dx)^2 tol r0 when the step reports convergence, r0 being the initial residual.", "quantifier": "all grids, boundary values, sources, states, level counts, both prolongations, relaxation factors, tolerances", "why_tests_cant": "The reported residual is the averaged slope of a smoothing pass, not the residual of the returned state; only a proof shows that no state with a small reported value can be far from the solution.", "anchors": ["time_stepping/bdf_multigrid.cpp: BDFMultigrid::doTimeStep", "time_stepping/ode23_smoother.cpp: ODE23Smoother::doSmooth", "governing_equations/poisson/poisson_3d_fd.cpp"]}
{"id": "C81", "title": "The Poisson multigrid solver converges", "statement": "With piecewise constant prolongation, 0 < mg_cfl <= 1/5, fine relaxation in [0,1] and, for three or more levels, coarse relaxation in [0,1/2], every cycle after the first reduces the energy of the error by a fixed factor below one; for every positive tolerance the step reports convergence within a finite number of cycles unless the initial state already solves the problem.", "quantifier": "all grids, level counts, smoothing counts >= 1, boundary values, sources, initial states, initial smoother steps, positive tolerances", "why_tests_cant": "Tests run a few grids; convergence for every grid and initial state needs an energy argument.", "anchors": ["time_stepping/bdf_multigrid.cpp: BDFMultigrid::doTimeStep, doTimeStepCycle", "spatial_discretization/discretization_3d_cart.cpp: interpolateFineToCoarse, interpolateCoarseToFine", "configs/poisson_128cubed.dat"]}
{"id": "C82", "title": "The Poisson solver delivers the exact solution to second order", "statement": "On a uniform grid with dx <= 1 whose x and y lengths are multiples of 2 pi, a step that reports convergence leaves a state whose root mean square difference from sin x cos y cos z is at most (nk dx)^2 (8/5 tol r0 + 5/16 dx^2).", "quantifier": "all such grids, level counts, both prolongations, relaxation factors, initial states, tolerances", "why_tests_cant": "The tests compare the error on one grid with a recorded value.", "anchors": ["testing/verification_tests/poisson/poisson_multigrid_test.cpp: poisson_l2error", "governing_equations/poisson/poisson_3d_fd.cpp", "time_stepping/bdf_multigrid.cpp"]}
{"id": "C83", "title": "Simulations converge to the solution of the Cahn-Hilliard equation", "statement": "For every smooth periodic solution of the Cahn-Hilliard equation on a box and a time interval there are a constant C and a largest spacing h0 such that: on every periodic grid covering the box with spacing dx <= h0, started within a*dx^2 of the initial state, every run of the rk3ssp or ode23 integrator whose step sizes satisfy dt <= dx^4/(4608 eps^2) ends without fault, and the root-mean-square difference between the computed field and the solution at the time reached is at most C*dx^2 (so the error at each cell tends to zero too).", "quantifier": "all parameters with eps^2 > 0, all boxes, all final times, all six times differentiable periodic solutions, all grids with at least two cells per axis, all kernel variants, all step sequences under the bound, all initial contents of halos and scratch arrays, all loop schedules, 2D and 3D", "why_tests_cant": "convergence is a statement about all sufficiently fine grids and all step sequences; a test sees a few grids and has no exact solution of the nonlinear equation to compare with", "anchors": ["time_stepping/rk3ssp.cpp: RK3SSP::doTimeStep", "time_stepping/ode23.cpp: ODE23::doTimeStep", "governing_equations/cahn_hilliard/cahn_hilliard_3d_fd.cpp: CahnHilliard3DFD::evalRHSImpl", "governing_equations/cahn_hilliard/cahn_hilliard_2d_fd.cpp: CahnHilliard2DFD::evalRHSImpl", "spatial_discretization/discretization_3d_cart.cpp", "spatial_discretization/discretization_2d_cart.cpp"]}
{"id": "C84", "title": "Both explicit integrators are third-order accurate in time on every grid", "statement": "On every grid and with every mix of boundary conditions, the equation dc/dt = RHS(c) that the right-hand-side evaluation defines on the interior cells has exactly one solution from every initial field up to every time. For that solution there are a constant C and a largest step such that every run of the rk3ssp or ode23 integrator with step sizes at most d (which may vary from step to step), started within a*d^3 of the solution, ends without fault and within C*d^3 of the solution at every cell at the time reached; every error estimate ode23 reports on the way is also at most C*d^3.", "quantifier": "all grids with at least two cells per axis, all 3D boundary mixes and the 2D periodic grid, all parameters (any sign), all kernel variants, all initial fields, all final times, all step sequences below the bound, all initial contents of halos and scratch arrays, all loop schedules", "why_tests_cant": "order of accuracy is a statement about all small steps, all step sequences and all initial fields; a convergence test fits a slope to a few runs of one problem, and cannot show that the solution exists for all times", "anchors": ["time_stepping/rk3ssp.cpp: RK3SSP::doTimeStep", "time_stepping/ode23.cpp: ODE23::doTimeStep", "governing_equations/cahn_hilliard/cahn_hilliard_3d_fd.cpp: CahnHilliard3DFD::evalRHSImpl", "governing_equations/cahn_hilliard/cahn_hilliard_2d_fd.cpp: CahnHilliard2DFD::evalRHSImpl", "spatial_discretization/discretization_3d_cart.cpp: applyNeumannBCX, applyNeumannBCY, applyNeumannBCZ"]}
{"id": "C85", "title": "A whole Cahn-Hilliard run with rk3ssp leaves exactly the documented log and files", "statement": "For valid options the program, started without a restart file, ends after exactly the number of steps that final time, step limit and tolerances call for. The files it leaves are, in order, one per save_every steps beginning with the first and one with suffix _final, with the step number padded into the name, the grid's vertex coordinates, and at each cell the field obtained from the seeded random field of mean m by that many three-stage steps on the discretised equation with the chosen boundary conditions; the log rows are, every log_frequency steps, step number, time, step size, residual norm (also relative to the largest so far), minimum, maximum and gradient integral of those fields. Without tolerances the number of steps is min(M, max(2, ceil((T-t0)/dt))) and the last time is T if M allows; on periodic grids every saved field has mean m. With max_time_steps = 0 no run ends normally.", "quantifier": "all option values (sizes at least 2 per axis, positive step limit that fits the integer type), boundary mixes, kernel variants, parameters, random sequences, 2D and 3D, all schedules of every loop and reduction, all initial memory contents", "why_tests_cant": "Tests exercise components one at a time or compare one run with a recorded one; they cannot show that the driver puts the components together so that every file and log entry of every run is the right one.", "anchors": ["initialization/puppeteer.cpp: Puppeteer::Puppeteer, Puppeteer::run", "time_stepping/time_integrator.cpp: TimeIntegrator::solve", "time_stepping/rk3ssp.cpp", "governing_equations/cahn_hilliard/cahn_hilliard_initial_conditions.cpp", "governing_equations/cahn_hilliard/cahn_hilliard_solution_monitor.cpp", "governing_equations/residual_calculator.cpp", "file_io/vtk_solution_writer.cpp", "logger/logger.cpp: updateLog"]}
{"id": "C86", "title": "A whole Cahn-Hilliard run with ode23 leaves exactly the documented log and files", "statement": "As C85 for the adaptive integrator: steps are those of the Bogacki-Shampine method, the step sizes follow from the error estimates by the stated proportional-integral-derivative rule with its limits, and such a sequence exists for every initial field.", "quantifier": "as C85, with all tolerances and step bounds; stage arrays zero at the start as allocated", "why_tests_cant": "The step sizes depend on the whole history of error estimates; a test follows one history.", "anchors": ["initialization/puppeteer.cpp: Puppeteer::Puppeteer, Puppeteer::run", "time_stepping/time_integrator.cpp: TimeIntegrator::solve", "time_stepping/ode23.cpp: ODE23::doTimeStep, computeNextDT, adaptStep", "governing_equations/cahn_hilliard/cahn_hilliard_initial_conditions.cpp", "governing_equations/cahn_hilliard/cahn_hilliard_solution_monitor.cpp", "governing_equations/residual_calculator.cpp", "file_io/vtk_solution_writer.cpp", "logger/logger.cpp: updateLog"]}
{"id": "C87", "title": "Restarting the program from a solution file resumes the run", "statement": "Started from a solution file all of whose numbers survive printing, the program takes grid, field, time, step size and step number from the file, whatever the options say about them, and then behaves as a new run does. With rk3ssp, interrupting after any step (unless the next step is the one cut to reach the final time) and restarting with the same options repeats exactly the remaining steps, files and log entries of the uninterrupted run, and without tolerances ends at the same step with the same final file. If the next step is the one cut, the resumed run instead goes to or beyond the final time and takes one more step of zero or negative size back to it.", "quantifier": "all files the program writes, all options valid for the file's grid, 2D and 3D, both integrators (resumption: rk3ssp), all schedules, all memory contents", "why_tests_cant": "The repository tests reading back a file and not the continued run; equality of all later files is a statement about all steps.", "anchors": ["initialization/puppeteer.cpp: geomFactory, initialConditionsFactory, timeIntegratorFactory", "file_io/vtk_solution_reader.cpp: getCartesianDomain, setSolution, setInitialTimeStep", "governing_equations/initial_conditions_from_file.cpp", "time_stepping/time_integrator.cpp: solve, initialTimestep, computeNextTimestep"]}
{"id": "C88", "title": "A whole steady Poisson run leaves solution files whose distance to the exact solution is certified by the logged residual", "statement": "For valid options a Poisson run with the multigrid integrator ends after exactly the number of steps that final time, step limit and tolerances call for, and its log rows and solution files are those of the sequence of V-cycle solves of a textbook full approximation scheme on the halved grids, started from zero. In steady mode the field in every solution file differs from the solution of the discrete problem by at most 8/5 (nz dx)^2 times the residual reported for that step, and on boxes with x and y lengths that are multiples of 2 pi from sin x cos y cos z by at most (nz dx)^2 (8/5 r + 5/16 dx^2) - for every number of levels, relaxation factor and prolongation, converged or not. With piecewise constant prolongation (and coarse relaxation at most 1/2 if there are three or more levels) the fields converge to the discrete solution as the number of steps grows.", "quantifier": "all option values (levels that halve the grid evenly down to 2 cells per axis, at least one smoothing pass, cfl at most 1/5 for the error bounds), both prolongations, boundary options, all schedules of every loop and reduction, all initial memory contents", "why_tests_cant": "The repository checks the error of one converged run on one grid; that the logged number bounds the error of the written file for all grids, hierarchies and stopping points cannot be tested.", "anchors": ["initialization/puppeteer.cpp: Puppeteer::Puppeteer, Puppeteer::run", "time_stepping/bdf_multigrid.cpp: BDFMultigrid, doTimeStep, doTimeStepCycle, getMGCycle", "time_stepping/ode23_smoother.cpp", "governing_equations/poisson/poisson_3d_fd.cpp", "governing_equations/constant_initial_conditions.cpp", "spatial_discretization/discretization_3d_cart.cpp: createCoarsenedDiscretization", "file_io/vtk_solution_writer.cpp"]}
{"id": "C89", "title": "A whole backward Euler Cahn-Hilliard run does what its options say, keeps the mean, and fails on zero steps", "statement": "For valid options a 3D Cahn-Hilliard run with the multigrid integrator (backward Euler or steady) leaves exactly the documented log and files: the fields are those of the V-cycle solves of the backward Euler equation, each from the field of the step before, beginning with the seeded random field. On triply periodic grids every field has mean m, however early the cycles are stopped, with both prolongations. A backward Euler run with step size zero, or whose final time is exactly one step after the start and which may take a second step, never delivers a result: it divides by the step size zero.", "quantifier": "all option values (levels that halve the grid evenly down to 2 cells per axis), kernel variants, boundary mixes, prolongations, random sequences, all schedules, all initial memory contents", "why_tests_cant": "The repository runs one multigrid step per test; whole runs, exact conservation of unconverged cycles and the zero step at the end of an interval are not exercised.", "anchors": ["initialization/puppeteer.cpp: Puppeteer::Puppeteer, Puppeteer::run", "time_stepping/bdf_multigrid.cpp: BDFMultigrid, doTimeStep, doTimeStepCycle", "time_stepping/time_integrator.cpp: solve, computeNextTimestep", "governing_equations/cahn_hilliard/cahn_hilliard_3d_fd.cpp"]}
{"id": "C90", "title": "Explicit runs on periodic grids lose energy at every step and settle", "statement": "For a Cahn-Hilliard run with rk3ssp or ode23 steps on a periodic grid, let the free energy be the sum of double-well energy, interface energy and, for sigma > 0, sigma/2 times the squared gradient of a potential phi with Lap phi = m - c (which exists exactly when the mean of c is m). If every step obeys dt (12/dx^2 (28 + 54 sqrt(E0) + 12 eps2/dx^2) + sigma) <= 1/2 (8 instead of 12 in 2D), with E0 the initial energy, then each step lowers the free energy by at least dt/4 times the dissipation, all values satisfy c^2 <= 1 + 2 sqrt(E0) forever, the reported residual norms satisfy sum dt r^2 <= 96 E0/(dx^2 cells) (64 in 2D), and they tend to zero if the steps do not shrink to zero. A whole program run with rk3ssp and absolute tolerance a > 0 therefore ends by itself: (N-1) dt a^2 <= log_frequency * 96 E0/(dx^2 cells), whatever final time and step limit are.", "quantifier": "all periodic grids, eps2 >= 0, sigma >= 0, all fields (sigma = 0) or all fields of mean m (sigma > 0), all step sequences within the limit, all random draws, all schedules of loops and reductions", "why_tests_cant": "A bound for all times and all initial fields; tests can only watch the energy for a number of steps of one field.", "anchors": ["time_stepping/rk3ssp.cpp: RK3SSP::doTimeStep", "time_stepping/ode23.cpp: ODE23::doTimeStep", "governing_equations/cahn_hilliard/cahn_hilliard_3d_fd.cpp: evalRHSImpl", "governing_equations/cahn_hilliard/cahn_hilliard_2d_fd.cpp: evalRHSImpl", "governing_equations/cahn_hilliard/cahn_hilliard_initial_conditions.cpp: set", "time_stepping/time_integrator.cpp: solve"]}
{"id": "C91", "title": "Explicit Poisson runs relax to the discrete solution and certify their error", "statement": "A Poisson run with rk3ssp or ode23 starts from zero and leaves exactly the documented log and files of the method's steps on the discrete equation, whatever boundary names are configured; a restart continues from the file. If the steps are at most dx^2/5, the field after each step differs from the discrete solution by at most 8/5 (nz dx)^2 times the residual reported for that step, and on boxes with x and y lengths that are multiples of 2 pi from sin x cos y cos z by at most (nz dx)^2 (8/5 r + 5/16 dx^2). The energy of the error decreases in every step and is at most exp(-(t - t0)/(8 (nz dx)^2)) times its initial value. With a first step that does not pass the final time and, for ode23, limits within that bound, all steps of the run meet the condition.", "quantifier": "all grids, steps in [0, dx^2/5], initial fields, option values, log and save frequencies, all schedules of every loop and reduction, all memory contents (stage arrays zero for ode23)", "why_tests_cant": "The repository does not run the Poisson equation with the explicit integrators at all; the bounds are for all grids, steps and times.", "anchors": ["governing_equations/poisson/poisson_3d_fd.cpp: evalRHSImpl, addSourceTerm", "time_stepping/rk3ssp.cpp: RK3SSP::doTimeStep", "time_stepping/ode23.cpp: ODE23::doTimeStep, computeNextDT", "governing_equations/residual_calculator.cpp", "initialization/puppeteer.cpp: Puppeteer::Puppeteer, Puppeteer::run"]}
{"id": "C92", "title": "Which configurations run: supported ones always finish, all others end with an error before the first step", "statement": "Leave the three PETSc integrators aside. A configuration is supported if its boundary names are known, CFL-based stepping is off, and it combines 2D Cahn-Hilliard with rk3ssp or ode23, or 3D Cahn-Hilliard (kernel variant 0, 1 or 2) or 3D Poisson with rk3ssp, ode23, or bdf1/steady with 1 to 6 levels and a nonnegative number of smoothing passes. Any other configuration, started with or without a restart file, ends with an error before its first step. Every supported configuration with at least two cells per axis, arrays of the right sizes, a nonzero log frequency, a positive step limit and (for multigrid) evenly halving grids runs to its end, all executions giving the same log and files, at least one of them. In particular 2D Cahn-Hilliard with bdf1 or steady always aborts during construction.", "quantifier": "all option values, restart files, memory contents, schedules of every loop and reduction, numbers of steps", "why_tests_cant": "The combinations of dimension, equation, boundary, integrator and restart are many and each run is long; absence of any successful or hanging outcome is a statement about all executions.", "anchors": ["initialization/puppeteer.cpp: Puppeteer::Puppeteer, geomFactory, rhsFactory, timeIntegratorFactory, parseBC", "time_stepping/time_integrator.cpp: initialTimestep", "time_stepping/bdf_multigrid.cpp: BDFMultigrid, getMGCycle", "time_stepping/ode23_smoother.cpp: ODE23Smoother::ODE23Smoother", "governing_equations/time_integrable_rhs.hpp: cflScale", "maDGiCart_main.cpp"]}
{"id": "C93", "title": "Repeated explicit runs give identical files in floating-point arithmetic", "statement": "In any arithmetic, including one that rounds every operation: if no convergence tolerance is set (the default), any two executions of the program with the explicit integrators from the same options, restart file, random draws and memory end alike, and there is at least one execution. Either both end with the same error, or both write the same files with the same names, leave the same contents in every array and log the same rows except the columns obtained by summing over all cells. The fused and fully fused implementations of the right-hand side agree to the last bit. The summed columns are not reproducible: in double precision two executions of the residual norm can lie on different sides of a tolerance.", "quantifier": "all arithmetics with a linear order and no other law, all options with an explicit integrator (both equations, 2D and 3D), restart files, memory contents, numbers of steps, all schedules of every loop and all orders of combination in every reduction", "why_tests_cant": "A test sees one schedule and one summation order per run; reproducibility is about all pairs of schedules, in rounded arithmetic where addition is not associative.", "anchors": ["initialization/puppeteer.cpp: Puppeteer::Puppeteer, Puppeteer::run", "time_stepping/time_integrator.cpp: TimeIntegrator::solve, computeNextTimestep", "time_stepping/rk3ssp.cpp: RK3SSP::doTimeStep", "time_stepping/ode23.cpp: ODE23::doTimeStep, computeNextDT", "governing_equations/residual_calculator.cpp", "governing_equations/cahn_hilliard/cahn_hilliard_3d_fd.cpp: evalRHSImpl", "governing_equations/cahn_hilliard/cahn_hilliard_solution_monitor.cpp", "data_structures/exec_includes.hpp: ReduceSumReal"]}
{"id": "C94", "title": "Sums over all cells in rounded arithmetic", "statement": "However a sum over n cells is split among threads and combined, its computed value differs from the exact sum of the stored terms by at most (1+u)^(n-1) - 1 times the sum of their sizes (plus an underflow threshold per term). The logged residual norm is the root of a number that differs from the exact mean square of the stored residuals by at most (1+u)^(n+4) - 1 times that mean square, up to a multiple of the underflow threshold; every execution of it ends normally and leaves memory unchanged.", "quantifier": "all rounding functions with relative error u above an underflow threshold (double precision is one), all cell counts and contents, all orders of combination", "why_tests_cant": "The order of combination is up to the runtime and the number of orders grows factorially with the number of cells.", "anchors": ["governing_equations/residual_calculator.cpp: residual_calculator", "data_structures/exec_includes.hpp: ReduceSumReal", "time_stepping/bdf_multigrid.cpp: reduce_residual"]}
{"id": "C95", "title": "Rounding error of the Cahn-Hilliard right-hand side", "statement": "In rounded arithmetic the number stored in each interior cell by an evaluation of the right-hand side differs from the exact finite-difference right-hand side of the stored concentrations by at most (1+u)^25 - 1 times |eps2| 144 M/dx^4 + 13 (M^3+M)/dx^2 + |sigma| (M+|m|), where M >= 1 bounds the concentrations.", "quantifier": "all three implementations, all grids and mixes of boundary conditions, all schedules, all parameters, spacings between 2^-255 and 2^255 in double precision, all concentrations", "why_tests_cant": "A bound for all fields cannot be established by sampling; cancellation in the biharmonic stencil makes the worst case rare.", "anchors": ["governing_equations/cahn_hilliard/cahn_hilliard_3d_fd.cpp: evalRHSBasic, evalRHSFused, evalRHSFullyFused", "spatial_discretization/discretization_3d_cart.cpp: laplacian, biharmonic"]}
{"id": "C96", "title": "Drift of the mean concentration by rounding in explicit runs", "statement": "On periodic grids in rounded arithmetic: after n steps of rk3ssp or ode23 of sizes at most T the distance of the total concentration from N m is that at the start up to n times 3 N ((1+u)^34 - 1)(2M + T R), where M bounds the states and stages and R is the size of the right-hand side; each step multiplies the distance by 1 - z + z^2/2 - z^3/6 with z = sigma dt up to such an error. With sigma = 0 the mean is that of the initial state up to n ((1+u)^34 - 1)(2M + T R), and if 4 T R <= M and the states are at most M/2 no condition on the stages is needed.", "quantifier": "all grids, implementations, parameters with 0 <= sigma dt <= 1, numbers and sizes of steps, initial contents and schedules", "why_tests_cant": "The drift of long runs is bounded uniformly in the number of steps and in the data; tests see single short runs.", "anchors": ["time_stepping/rk3ssp.cpp: RK3SSP::doTimeStep", "time_stepping/ode23.cpp: ODE23::doTimeStep", "governing_equations/cahn_hilliard/cahn_hilliard_3d_fd.cpp: evalRHSImpl"]}
{"id": "C97", "title": "Time stepping to the final time in floating-point arithmetic", "statement": "With every operation rounded, for any integrator without step limit or tolerances: no step starts at or after the final time, only the last differs from its proposal, and the run ends within u(2+u) of the final time, relative to it. In a binary format a run with a fixed step size, or with proposals below half the final time, ends exactly at the final time and time never decreases. A fixed-step run of N steps satisfies (N-1)(dt-eta) < tfinal-t0 <= N(dt+eta) with eta = 2 u tfinal, so an interval of n steps takes n or n+1 steps; from 0 to 1 with 0.1 takes eleven in double precision, the last of size 2^-53. Proposals of at least dtmin >= 4 u tfinal end the run in a bounded number of steps; with smaller steps the clock can stand still and the run never ends.", "quantifier": "all integrators, initial states and options with t0 >= 0, all order-keeping roundings with relative error u (all binary formats for the exact part), unbounded numbers of steps", "why_tests_cant": "Accumulated rounding depends on every step; the extra step and the standstill appear only for particular step sizes, and non-termination cannot be observed.", "anchors": ["time_stepping/time_integrator.cpp: TimeIntegrator::solve, computeNextTimestep, initialTimestep", "typedefs.hpp: real_wp"]}
{"id": "C98", "title": "Explicit runs in floating-point arithmetic approximate the solution of the differential equation", "statement": "For a smooth periodic solution of the 3D Cahn-Hilliard equation on a box there are a constant C and a largest spacing such that on every finer grid, in every rounded arithmetic with unit u, every run of rk3ssp or of a fresh ode23 integrator with steps dt <= dx^4/(4608 eps^2), started within a dx^2 of the solution, ends without fault, and if the number n of steps satisfies n((1+u)^34 - 1) <= a dx^2 the stored state differs from the solution at the final time by at most C dx^2 in root mean square and by C sqrt(volume dx) in every cell. No bound on the computed states is assumed.", "quantifier": "all solutions, grids, implementations, parameters, step sequences, number formats satisfying the rounding model, initial contents and schedules", "why_tests_cant": "Ties discretization error, step-size stability and accumulated rounding of unboundedly many steps together for all solutions and all precisions; a test compares one solution on a few grids.", "anchors": ["time_stepping/rk3ssp.cpp: RK3SSP::doTimeStep", "time_stepping/ode23.cpp: ODE23::doTimeStep", "governing_equations/cahn_hilliard/cahn_hilliard_3d_fd.cpp: evalRHSImpl", "typedefs.hpp: real_wp"]}
{"id": "C99", "title": "An explicit run in floating-point arithmetic can be interrupted and resumed without changing a digit", "statement": "In any arithmetic, a 3D Cahn-Hilliard run with rk3ssp and no convergence tolerance ends normally in every execution, with the same steps, the same solution files character for character, and the same step numbers, times, step sizes and extrema in the log, whatever the order in which sums are formed; the states are those of the method carried out operation by operation from the compensated initial field. In a binary floating-point format whose printed digits restore every number, a run (fresh or itself resumed) stopped after a step n and continued from the file of that step takes exactly the remaining steps and leaves every later file, in particular the last one, as if it had not been interrupted, provided time and step size of that file survive their seven digits, step n is not already cut to end at the final time, and the spacing recomputed from the points of the file is that of the run. The spacing is always recomputed exactly for a domain beginning at 0; it is not for 11 cells from 0.2 to 1 in double precision. When only every s-th step is saved the resumed run saves other steps.", "quantifier": "all grids, boundary types, implementations, parameters, initial draws, step sequences, interruption points, binary formats, memory contents and schedules", "why_tests_cant": "Bit-for-bit equality after any interruption point of any run depends on printing, parsing and rounding together for all values; a test resumes one run and compares with a tolerance.", "anchors": ["maDGiCart_main.cpp: main", "initialization/puppeteer.cpp: Puppeteer::run", "file_io/vtk_solution_writer.cpp: write_solution_to_vtk", "file_io/vtk_solution_reader.cpp: VTKSolutionReader", "time_stepping/rk3ssp.cpp: RK3SSP::doTimeStep", "governing_equations/cahn_hilliard/cahn_hilliard_initial_conditions.cpp: CahnHilliardInitialConditions::set"]}
{"id": "C100", "title": "The random initial field and its mean over a run in floating-point arithmetic", "statement": "In rounded arithmetic with unit roundoff u, on every grid of N cells with 16 N u <= 1, the random initial field has in each cell the value mean + draw - (mean of the draws) up to 21 u B, and its exact mean differs from the prescribed one by at most 19 u B, where B bounds |mean| + |draw|; neither bound depends on the number of cells. A periodic 3D Cahn-Hilliard run with rk3ssp in double precision, with or without the nonlocal term, leaves in its files states whose mean after n steps differs from the prescribed mean by at most (19 B + 230 n L) / 2^53 as long as the states stay below L/2 and the steps are small enough for that.", "quantifier": "all grids up to 2^49 cells, all means and draws, all parameters, implementations, step sequences and schedules", "why_tests_cant": "The bound independent of the grid size comes from the compensation in the summation; a test on one small grid passes just as well with plain summation, and cannot bound the drift of all runs.", "anchors": ["governing_equations/cahn_hilliard/cahn_hilliard_initial_conditions.cpp: CahnHilliardInitialConditions::set", "time_stepping/rk3ssp.cpp: RK3SSP::doTimeStep", "governing_equations/cahn_hilliard/cahn_hilliard_3d_fd.cpp: CahnHilliard3DFD::evalRHSImpl", "maDGiCart_main.cpp: main"]}
{"id": "C101", "title": "A solution that has blown up is never noticed", "statement": "In IEEE arithmetic with overflow, infinities and NaN: as soon as two neighbouring cells hold numbers of the same sign whose cubes are too large for the format (from 2^342 on in double precision), the first one is NaN after the next step, whatever the rest of the field. With rk3ssp every step then loses all cells within six more moves, none is recovered, and after a sixth of the sum of the grid extents all later solution files hold only NaN. A run without convergence tolerances nevertheless takes exactly the steps it would take otherwise and ends normally. The reported residual is NaN, the largest residual so far is kept, and no absolute or relative tolerance (up to 1) ends the run. With ode23 the error estimate of a lost solution is 0 in every execution, the best possible one, so that the controller enlarges every step by the full 10 percent up to the largest step allowed.", "quantifier": "all grids, boundary types, implementations, parameters, fields, step sequences, formats with at least 3 digits, memory contents and schedules", "why_tests_cant": "Tests run stable configurations; what an unstable run reports depends on how NaN passes through every comparison and reduction, for any place and time of its first appearance.", "anchors": ["time_stepping/ode23.cpp: ODE23::doTimeStep", "time_stepping/ode23.cpp: PIDController::adaptStep", "time_stepping/time_integrator.cpp: TimeIntegrator::computeNextTimestep", "governing_equations/residual_calculator.cpp: residual_calculator", "governing_equations/cahn_hilliard/cahn_hilliard_3d_fd.cpp: CahnHilliard3DFD::evalRHSImpl", "time_stepping/rk3ssp.cpp: RK3SSP::doTimeStep"]}
{"id": "C102", "title": "Every execution of an explicit run is one documented run, in any arithmetic", "statement": "For any arithmetic whatever (rounded, with infinities and NaN, with comparisons obeying no law) and any order in which the reductions combine their values, each single execution of a fresh 2D or 3D Cahn-Hilliard run with rk3ssp or ode23, with any tolerances, step size limits, parameters and log and save frequencies and a step limit, ends normally, and its log rows, file names and file contents are those of one sequence of steps of the documented method from the documented initial state: each logged residual norm is the root of a mean of squares added in some order, each error estimate the largest difference between the two embedded slopes as some order of comparisons finds it, each further step size the documented function of the last two sizes and three error estimates, and the number of steps follows the documented stopping rule applied to these very numbers. Hence no parameter values can crash or hang such a run. From the fourth step on no proposed size is below the smallest or above the largest step allowed, but a size that is not a number passes these limits (two infinite error estimates in a row produce it), is never recovered, and then the final time never ends the run.", "quantifier": "all arithmetics, grids, boundary types, implementations, parameters, tolerances, memory contents, schedules and reduction orders", "why_tests_cant": "A test sees one reduction order on one machine; that every order leads to a consistent log, consistent step sizes and a normal end, for any values at all, is a statement about all executions.", "anchors": ["time_stepping/time_integrator.cpp: TimeIntegrator::solve", "time_stepping/time_integrator.cpp: TimeIntegrator::computeNextTimestep", "time_stepping/ode23.cpp: ODE23::doTimeStep", "time_stepping/ode23.cpp: PIDController::adaptStep", "time_stepping/rk3ssp.cpp: RK3SSP::doTimeStep", "governing_equations/residual_calculator.cpp: residual_calculator", "governing_equations/cahn_hilliard/cahn_hilliard_solution_monitor.cpp", "initialization/puppeteer.cpp: Puppeteer::run", "governing_equations/cahn_hilliard/cahn_hilliard_2d_fd.cpp: CahnHilliard2DFD::evalRHSImpl"]}
{"id": "C103", "title": "Every execution of an explicit Poisson run is one documented run, in any arithmetic", "statement": "For any arithmetic whatever, any functions in place of sin and cos and any order in which the reductions combine their values, each single execution of a fresh run of the Poisson problem with rk3ssp or ode23 and a step limit ends normally, whatever valid boundary conditions were asked for, and its log rows, file names and file contents are those of one sequence of steps of the documented method from the zero field, with the right-hand side evaluated operation by operation (seven point Laplacian of the state continued periodically in x and y and by sin x cos y cos z in z, plus the source), and with the documented stopping rule and step size controller applied to the very numbers computed.", "quantifier": "all arithmetics, grids, domains, requested boundary conditions, tolerances, step size limits, log and save frequencies, memory contents, schedules and reduction orders", "why_tests_cant": "A test sees one configuration and one reduction order with one library; that the run is the same documented computation and ends for any values at all is a statement about all executions.", "anchors": ["governing_equations/poisson/poisson_3d_fd.cpp: Poisson3DFD::evalRHSImpl", "governing_equations/poisson/poisson_3d_fd.cpp: addSourceTerm", "time_stepping/time_integrator.cpp: TimeIntegrator::solve", "time_stepping/ode23.cpp: ODE23::doTimeStep", "time_stepping/rk3ssp.cpp: RK3SSP::doTimeStep", "governing_equations/constant_initial_conditions.cpp", "initialization/puppeteer.cpp: Puppeteer::run"]}
{"id": "C104", "title": "Explicit Poisson runs in floating point arrive at the solution, cell by cell", "statement": "In rounded arithmetic every execution of a fresh Poisson run with rk3ssp or ode23 whose steps are at most dx^2/8 writes files whose values are, in every cell, within (1 + 3/8 H^2) (2 (1 - 8 dmin / (3 H^2))^n + 120 ((1+u)^34 - 1) H^2 / dmin) of the solution of the discrete problem after n + 1 steps, where H is the distance between the two planes of prescribed values, dmin the smallest allowed step and u the unit roundoff; no bound on the states has to be known beforehand. The solution itself is bounded by 1 + 3/8 H^2, any field with residual at most a is within a H^2 / 8 of it in every cell, and on a domain of whole periods it is within 5/128 H^2 dx^2 of sin x cos y cos z in every cell.", "quantifier": "all roundings with a unit roundoff, grids, domains, implementations of sin and cos with values in [-1, 1], step sizes within the stability limit, schedules, reduction orders, numbers of steps", "why_tests_cant": "A test compares one run on one grid with a tolerance chosen beforehand; that rounding errors never accumulate, for any number of steps and any grid, is a statement about all runs.", "anchors": ["governing_equations/poisson/poisson_3d_fd.cpp: Poisson3DFD::evalRHSImpl", "time_stepping/rk3ssp.cpp: RK3SSP::doTimeStep", "time_stepping/ode23.cpp: ODE23::doTimeStep, adaptStep", "time_stepping/time_integrator.cpp: TimeIntegrator::solve", "governing_equations/constant_initial_conditions.cpp"]}
{"id": "C105", "title": "Nothing overflows in a Poisson run, and the exceptional results of the arithmetic are exactly the standard ones", "statement": "In floating-point arithmetic with overflow, signed zeros, infinities and NaN, every execution of a fresh Poisson run with rk3ssp whose step size is at most dx^2/8 ends with files that hold no NaN and no infinity: every value of every file is a number of the format within the distance of C104 from the solution of the discrete problem, provided the largest number of the format exceeds 16 (L + 4 n), 2^47 (1 + 3/8 H^2) / dx^2 and 4 (|t0| + T + 1), where L bounds the corner of the domain and n the number of cells per direction. Operations on ordinary numbers are the exact operation rounded once, unless the rounded result is too large, in which case the result is infinite with the sign of the exact result; NaN arises exactly from NaN, from the difference of equal infinities, from zero times infinity, from 0/0 and from the quotient of infinities; comparisons of ordinary numbers compare their values.", "quantifier": "all formats with at least four digits and a sufficient exponent range, grids, domains, implementations of sin and cos with ordinary results in [-1, 1], step sizes, schedules, reduction orders, numbers of steps", "why_tests_cant": "A test sees that one run did not overflow; that no intermediate result of any stage of any run can overflow is a statement about all intermediate results.", "anchors": ["governing_equations/poisson/poisson_3d_fd.cpp: Poisson3DFD::evalRHSImpl", "time_stepping/rk3ssp.cpp: RK3SSP::doTimeStep", "time_stepping/time_integrator.cpp: TimeIntegrator::solve, computeNextTimestep", "typedefs.hpp: real_wp"]}
{"id": "C106", "title": "Every execution of a run resumed from a file of the program continues that file, in floating-point arithmetic", "statement": "In floating-point arithmetic, every execution of an explicit run started from a file the program wrote (2D or 3D Cahn-Hilliard, or Poisson; rk3ssp or ode23) is one documented run that starts from the values, time, step size and step number in the file: the grid sizes and boundary values of the coordinates come from the file and not from the command line, the spacing is (x_last - x_first) / nx recomputed from the points of the file, the steps and step sizes follow the documented method, each saved file holds the state it is named after, and the run ends after at most max(1, max_time_steps - step number of the file) steps whether or not values overflow the documented bounds, provided time and step size survive printing with seven digits.", "quantifier": "all formats with at least one digit, grids, domains, boundary conditions, parameters, file contents with values of the format, schedules, reduction orders, results of the error estimates, proposals of the step-size control, numbers of steps", "why_tests_cant": "A test compares one resumed run on one machine; that every order of the parallel loops and every reduction result gives the documented continuation of the file is a statement about all executions.", "anchors": ["file_io/vtk_solution_reader.cpp: VTKSolutionReader", "initialization/puppeteer.cpp: Puppeteer::geomFactory, initialConditionsFactory", "governing_equations/initial_conditions_from_file.cpp: InitialConditionsFromFile::set", "time_stepping/time_integrator.cpp: TimeIntegrator::solve", "time_stepping/time_integrator_options.hpp: TimeIntegratorOptions"]}
{"id": "C107", "title": "Cahn-Hilliard runs in floating point neither overflow nor leave the solution", "statement": "For every smooth periodic solution of the Cahn-Hilliard equation with rational parameters there are constants such that in every floating-point format with overflow, signed zeros, infinities and NaN, on every fine enough grid, from ordinary numbers within a dx^2 of the initial state, with steps of at most dx^4/(4608 eps2) and so many that the accumulated rounding k((1+u)^34-1) is at most a dx^2, and with the largest number of the format above B/dx^4, every state of rk3ssp and of ode23 consists of ordinary numbers (no NaN, no infinity), its root-mean-square distance from the solution is at most a constant times dx^2 and the error at each cell at most a constant times sqrt(dx). Every execution of a whole fresh rk3ssp program run with step size at most dx^4/(6144 eps2) ends normally with log and files of such states, and the logged time differs from the time at which the solution is compared by rounding only.", "quantifier": "all smooth periodic solutions, formats with at least four digits and a sufficient exponent range, grids, kernel variants, step sequences within the limit, initial data within a dx^2, schedules, reduction orders, convergence tolerances, numbers of steps", "why_tests_cant": "A test compares one run on one grid with one reference; that no intermediate result of any stage can overflow and that the error constant does not depend on grid, format, step sequence or number of steps is a statement about all of them.", "anchors": ["governing_equations/cahn_hilliard/cahn_hilliard_3d_fd.cpp: evalRHSImpl", "time_stepping/rk3ssp.cpp: RK3SSP::doTimeStep", "time_stepping/ode23.cpp: ODE23::doTimeStep", "time_stepping/time_integrator.cpp: TimeIntegrator::solve, computeNextTimestep", "typedefs.hpp: real_wp"]}
{"id": "C108", "title": "Adaptive runs in floating point keep their step sizes in range and never overflow", "statement": "In every floating-point format with overflow, signed zeros, infinities and NaN: if the error estimates of a run of ode23 are ordinary numbers of bounded size and the tolerance is within the range of the format, every proposed step size is an ordinary number between the smallest and the largest step, whatever the sequence of estimates. For the Poisson equation and for every smooth periodic solution of the Cahn-Hilliard equation the estimates are such numbers, so every execution of a whole fresh adaptive run whose largest step obeys the stability limit ends normally, its step sizes before the last are in that range, and all numbers in its files are ordinary and close to the discrete Poisson solution, respectively to the Cahn-Hilliard solution at a time that differs from the logged time by rounding only.", "quantifier": "all formats with a sufficient exponent range, power functions that return ordinary positive numbers for ordinary positive bases and exponents between 0 and 1, tolerances in range, sequences of error estimates, grids, kernel variants, schedules, reduction orders, numbers of steps", "why_tests_cant": "A NaN in the power function or in the estimate would pass the clamps of the controller silently, and only for particular states; that no run reaches such a state needs the bound on all states and all estimates at once.", "anchors": ["time_stepping/ode23.cpp: ODE23::doTimeStep, computeNextDT, adaptStep", "time_stepping/time_integrator.cpp: TimeIntegrator::solve, computeNextTimestep", "governing_equations/cahn_hilliard/cahn_hilliard_3d_fd.cpp: evalRHSImpl", "governing_equations/poisson/poisson_3d_fd.cpp: evalRHSImpl"]}
{"id": "C109", "title": "The printed settings are a config file that reproduces the run up to six digits", "statement": "After any accepted command line and config file, the settings the program prints at the start of a run (and for --help) are a config file which the program accepts. A run started with that file alone has the same value for every option: texts, integers and switches are unchanged, and every real number becomes the double nearest to its six printed digits, so it changes by at most one part in 199999 and does not change if it was given with at most six digits. Texts must be free of '#', line breaks and surrounding blanks; a '#' cuts them off. The program's own defaults for the interface parameter and the proportionality coefficient have sixteen digits and are changed.", "quantifier": "all command lines, config files, option values, file names", "why_tests_cant": "The values of 45 options of five types range over unbounded sets of texts and numbers, and rounding to six digits changes only some numbers.", "anchors": ["program_options/program_options_parser.cpp: getConfigurationFileTemplate, parseInputOptions, operator<<(std::ostream&, const boost::any&)", "program_options/program_options.hpp: Options", "initialization/puppeteer.cpp: Puppeteer::Puppeteer"]}
{"id": "C110", "title": "What a run does is determined by the command line and config file alone", "statement": "The program goes on to a run exactly for accepted options; it exits with code 0 if the options can be read and ask for help, with code 1 if they can be read but name a config file that cannot be opened, and throws otherwise. In a run every option acts with its effective value (command line, else config file, else default), under its own name. It does not matter which source a value comes from: two invocations with the same effective values run the same program, and a run whose real numbers were given with at most six digits is repeated exactly by the config file it prints. Without any option the program simulates the Cahn-Hilliard equation on a 128 x 128 periodic square, ends normally in any arithmetic, and in double precision takes exactly 10000 steps, logs 500 rows and leaves the single file maDGiCart_final_step_10000.vts. An initial condition file that cannot be read is not reported: a null pointer is followed.", "quantifier": "all command lines, config files, disk contents, initial memory contents, orders of reductions", "why_tests_cant": "A mix-up of two of 45 options shows only for some combinations of values and sources, and termination of the default run must hold for every order of parallel reductions.", "anchors": ["maDGiCart_main.cpp: main", "initialization/puppeteer.cpp: Puppeteer::Puppeteer, Puppeteer::run", "program_options/program_options_parser.cpp: parseInputOptions", "program_options/program_options.hpp: Options", "time_stepping/time_integrator_options.hpp: getTimeOptionsUsingGlobalOptions", "file_io/vtk_solution_reader.cpp: getCartesianDomain"]}
{"id": "C111", "title": "2D runs in floating point do not overflow and stay close to the solution", "statement": "On a square periodic 2D grid the right-hand side computed in rounded arithmetic differs from the exact finite-difference right-hand side of the stored concentrations by at most (1+u)^25 - 1 times the size of its terms, on every schedule. For every smooth periodic solution of the 2D Cahn-Hilliard equation there are constants such that every rk3ssp or ode23 run in floating-point arithmetic with overflow, infinities and NaN ends normally, and if its initial field is within a dx^2 of the solution, its largest step is at most dx^4/(6144 eps^2) and the format is precise and wide enough, then every state of the run and every number in its files is ordinary, the root-mean-square error is at most C dx^2 and the error at each single cell at most C' dx; with ode23 the step sizes stay between the smallest and the largest step, and the error estimates are bounded independently of the grid and the format.", "quantifier": "all smooth solutions, parameters, grids, floating-point formats, step sequences, orders of reductions, boundary condition options", "why_tests_cant": "A test runs one format on one grid; whether intermediate results overflow, and how errors of thousands of roundings add up, depends on all grids, formats and step sequences.", "anchors": ["governing_equations/cahn_hilliard/cahn_hilliard_2d_fd.cpp: CahnHilliard2DFD::evalRHSImpl", "spatial_discretization/discretization_2d_cart.cpp: laplacian, biharmonic, applyPeriodicBoundaryConditions", "time_stepping/rk3ssp.cpp: RK3SSP::doTimeStep", "time_stepping/ode23.cpp: ODE23::doTimeStep", "initialization/puppeteer.cpp: Puppeteer::run"]}
{"id": "C112", "title": "The machine report names processor and host correctly, and PETSc gets exactly the words of its option", "statement": "At the start of every run the report shows as processor the text after the second blank of the first line of /proc/cpuinfo beginning with 'model name', with all its blanks, and 'not found' if there is no such line or nothing follows there. The host name is shown exactly if it has at most 63 characters; Linux allows 64, and then the buffer has no terminator and reading it is undefined. PETSc is started with the program name and the words of petsc_options, whatever spaces separate them (quotation marks do not keep words together), and the words of the command line in the log are exactly these arguments.", "quantifier": "all contents of /proc/cpuinfo, host names, uninitialised buffers, option texts", "why_tests_cant": "A test sees one machine; the undefined read happens only on hosts with the longest permitted name.", "anchors": ["parallel/machine.cpp: Machine::getProcessorModel, Machine::getHostname", "logger/logger.cpp: Logger::makeBanner", "time_stepping/petsc_environment.cpp: PetscEnvironment::PetscEnvironment"]}
{"id": "C113", "title": "Drift of the mean concentration by rounding in 2D explicit runs, from the command line on", "statement": "On the periodic square in rounded arithmetic: each rk3ssp or ode23 step multiplies the distance of the total concentration from N m by 1 - z + z^2/2 - z^3/6 with z = sigma dt up to an error of a few hundred roundings per cell, and after n steps of sizes at most T the distance is that at the start up to n times 3 N ((1+u)^34 - 1)(2M + T R). The initial field has the prescribed mean up to 19 u B and each of its values is the prescribed one up to 21 u B. In double precision every execution of a 2D ode23 run (the default kind of run) ends normally with the states of the method in its files, and as long as the steps are at most T and the states below L/2 the mean after n steps differs from the prescribed one by at most (19 B + 230 n L)/2^53.", "quantifier": "all grid sizes, parameters with 0 <= sigma dt <= 1, numbers and sizes of steps, draws, initial contents and schedules", "why_tests_cant": "The drift is bounded uniformly in the number of steps, the data and the order of operations; a test sees one short run.", "anchors": ["time_stepping/ode23.cpp: ODE23::doTimeStep", "time_stepping/rk3ssp.cpp: RK3SSP::doTimeStep", "governing_equations/cahn_hilliard/cahn_hilliard_2d_fd.cpp: evalRHSImpl", "governing_equations/cahn_hilliard/cahn_hilliard_initial_conditions.cpp: CahnHilliardInitialConditions::set"]}
{"id": "C114", "title": "In floating point the free energy rises by rounding only, and bounds every number of the run", "statement": "Without relaxation term (sigma = 0), on periodic 2D and 3D grids, in floating-point arithmetic with overflow, infinities and NaN: from any initial field of ordinary numbers, if the step sizes are at most M/13 over the size of the right-hand side and the energy of the initial field plus k eta is at most ((M^2 - 4)/8)^2, where eta is 27/4 N ((1+u)^34 - 1) M^2 (M^2 + 8 eps^2/dx^2) (12 for 8 in 3D), then after each of the k steps of rk3ssp or ode23 every value is an ordinary number of absolute value at most M/2, and no step raises the discrete free energy by more than eta. Every execution of an rk3ssp or ode23 run from a field in [-1, 1] ends normally, with these bounds for every state in its files; with ode23 all steps but the last are between the smallest and the largest step. Nothing is assumed about a solution of the equation, and the bound does not grow with the simulated time except through the k eta of rounding.", "quantifier": "all grid sizes, floating-point formats, parameters with sigma = 0, initial fields, step sequences, numbers of steps, orders of reductions, initial contents of memory", "why_tests_cant": "That no intermediate result ever overflows and that the energy never rises by more than rounding holds for all fields, formats and step sequences; a test observes one run in one format.", "anchors": ["time_stepping/rk3ssp.cpp: RK3SSP::doTimeStep", "time_stepping/ode23.cpp: ODE23::doTimeStep", "governing_equations/cahn_hilliard/cahn_hilliard_2d_fd.cpp: CahnHilliard2DFD::evalRHSImpl", "governing_equations/cahn_hilliard/cahn_hilliard_3d_fd.cpp: CahnHilliard3DFD::evalRHSImpl", "time_stepping/time_integrator.cpp: TimeIntegrator::solve", "initialization/puppeteer.cpp: Puppeteer::run"]}
{"id": "C115", "title": "The random initial field never overflows and is what is prescribed up to rounding", "statement": "In floating-point arithmetic with overflow, infinities and NaN: if the mean and the random draws are ordinary numbers with |mean| + |draw| <= B and the format holds the number N of cells exactly and 256 N (B + 1), then setting the initial field produces no overflow and no NaN, every value is an ordinary number within 21 u B of the mean plus its draw minus the average of the draws, the average of the stored values is within 19 u B of the mean, and nothing else is written. In double precision every 2D or 3D run of at most 2^49 cells with |mean| + 2 delta <= 1 - 2^-40, where delta bounds the draws, therefore starts from ordinary numbers of size at most one.", "quantifier": "all floating-point formats, grid sizes, lists of cells, means, draws and initial contents of memory", "why_tests_cant": "The draws are random and the compensated sum depends on all of them; a test sees a few seeds on a few grids.", "anchors": ["governing_equations/cahn_hilliard/cahn_hilliard_initial_conditions.cpp: CahnHilliardInitialConditions::set", "maDGiCart_main.cpp: main"]}
