{
 "claims": [
  {
   "property": "C01",
   "status": "proved",
   "theorems": [
    "Madg.C01_index3_bijection"
   ],
   "note": ""
  },
  {
   "property": "C02",
   "status": "proved",
   "theorems": [
    "Madg.C02_index2_bijection"
   ],
   "note": ""
  },
  {
   "property": "C03",
   "status": "proved",
   "theorems": [
    "Madg.C03_index3_no_overflow",
    "Madg.C03_size3_overflow_iff",
    "Madg.C03_index2_no_overflow",
    "Madg.C03_reported_size",
    "Madg.C03_reported_size_wrong",
    "Madg.C03_manager_size"
   ],
   "note": "Index arithmetic does not overflow under the stated size bound; C03_reported_size_wrong records that the byte count kept by the memory manager wraps past 2^31-1."
  },
  {
   "property": "C04",
   "status": "proved",
   "theorems": [
    "Madg.C04_index_lists3"
   ],
   "note": ""
  },
  {
   "property": "C05",
   "status": "proved",
   "theorems": [
    "Madg.C05_index_lists2"
   ],
   "note": ""
  },
  {
   "property": "C06",
   "status": "proved",
   "theorems": [
    "Madg.C06_coordinates3",
    "Madg.C06_coordinates2"
   ],
   "note": ""
  },
  {
   "property": "C07",
   "status": "proved",
   "theorems": [
    "Madg.C07_race_free"
   ],
   "note": ""
  },
  {
   "property": "C08",
   "status": "proved",
   "theorems": [
    "Madg.C08_boundary_fills3",
    "Madg.C08_stencils3",
    "Madg.C08_rhs3",
    "Madg.C08_poisson",
    "Madg.C08_2d",
    "Madg.C08_integrator_loops",
    "Madg.C08_transfers",
    "Madg.C08_vector_loops"
   ],
   "note": ""
  },
  {
   "property": "C09",
   "status": "proved",
   "theorems": [
    "Madg.C09_periodic_fill3",
    "Madg.C09_interior_unchanged"
   ],
   "note": ""
  },
  {
   "property": "C10",
   "status": "proved",
   "theorems": [
    "Madg.C10_periodic_fill2"
   ],
   "note": ""
  },
  {
   "property": "C11",
   "status": "proved",
   "theorems": [
    "Madg.C11_mixed_fill"
   ],
   "note": "Needs every extent >= nhalo (see C12) and nhalo >= 0."
  },
  {
   "property": "C12",
   "status": "proved",
   "theorems": [
    "Madg.C12_periodic_fill_needs_extent"
   ],
   "note": "Shown by a concrete grid on which two schedules leave different halos; the fill contains a data race there."
  },
  {
   "property": "C13",
   "status": "proved",
   "theorems": [
    "Madg.C13_rhs3"
   ],
   "note": ""
  },
  {
   "property": "C14",
   "status": "proved",
   "theorems": [
    "Madg.C14_variants_agree",
    "Madg.C14_unknown_variant_aborts"
   ],
   "note": ""
  },
  {
   "property": "C15",
   "status": "proved",
   "theorems": [
    "Madg.C15_rhs2"
   ],
   "note": ""
  },
  {
   "property": "C16",
   "status": "proved",
   "theorems": [
    "Madg.C16_biharmonic_symmetric_psd",
    "Madg.C16_biharmonic3_is_lap_lap",
    "Madg.C16_laplacian3",
    "Madg.C16_biharmonic2_is_lap_lap",
    "Madg.C16_laplacian2"
   ],
   "note": ""
  },
  {
   "property": "C17",
   "status": "proved",
   "theorems": [
    "Madg.C17_filled_laplacian",
    "Madg.C17_laplacian_sums_to_zero",
    "Madg.C17_laplacian_symmetric",
    "Madg.C17_laplacian_nonpositive"
   ],
   "note": ""
  },
  {
   "property": "C18",
   "status": "proved",
   "theorems": [
    "Madg.C18_mass_balance3",
    "Madg.C18_no_drift_at_mean3",
    "Madg.C18_mass_balance2"
   ],
   "note": "3D periodic and 2D."
  },
  {
   "property": "C19",
   "status": "proved",
   "theorems": [
    "Madg.C19_mass_drift",
    "Madg.C19_neumann_not_conservative"
   ],
   "note": "The naive conservation claim is refuted by C19_neumann_not_conservative; C19_mass_drift gives the exact drift for any boundary mix."
  },
  {
   "property": "C20",
   "status": "proved",
   "theorems": [
    "Madg.C20_energy_dissipation3",
    "Madg.C20_energy_dissipation2"
   ],
   "note": "Semi-discrete statement over the reals; the characterisation of a vanishing rate is proved in 3D."
  },
  {
   "property": "C21",
   "status": "proved",
   "theorems": [
    "Madg.C21_uniform_state3",
    "Madg.C21_uniform_state2",
    "Madg.C21_equilibrium_kept_rk3",
    "Madg.C21_equilibrium_kept_ode23",
    "Madg.C21_equilibrium_kept_2d"
   ],
   "note": ""
  },
  {
   "property": "C22",
   "status": "proved",
   "theorems": [
    "Madg.C22_translation",
    "Madg.C22_reflection",
    "Madg.C22_swap_xy",
    "Madg.C22_swap_yz",
    "Madg.C22_sign",
    "Madg.C22_translation2",
    "Madg.C22_reflection2",
    "Madg.C22_swap2",
    "Madg.C22_sign2"
   ],
   "note": ""
  },
  {
   "property": "C23",
   "status": "proved",
   "theorems": [
    "Madg.C23_laplacian_exact",
    "Madg.C23_biharmonic_exact",
    "Madg.C23_laplacian2_exact",
    "Madg.C23_biharmonic2_exact",
    "Madg.C23_laplacian_error",
    "Madg.C23_biharmonic_error",
    "Madg.C23_on_constructor_coordinates"
   ],
   "note": ""
  },
  {
   "property": "C24",
   "status": "proved",
   "theorems": [
    "Madg.C24_pattern",
    "Madg.C24_narrow_out_of_bounds"
   ],
   "note": "C24_narrow_out_of_bounds is the undefined case below extent 5."
  },
  {
   "property": "C25",
   "status": "proved",
   "theorems": [
    "Madg.C25_assembly_operator",
    "Madg.C25_jacobian_is_derivative",
    "Madg.C25_code_derivative",
    "Madg.C25_neumann_wrong"
   ],
   "note": "Periodic grids. C25_neumann_wrong shows the same code is not the derivative on Neumann grids."
  },
  {
   "property": "C26",
   "status": "proved",
   "theorems": [
    "Madg.C26_consistent_halo_partial",
    "Madg.C26_stale_halo_wrong",
    "Madg.C26_same_vector",
    "Madg.C26_other_vector_wrong",
    "Madg.C26_session"
   ],
   "note": "The naive claim is refuted for every wide periodic grid (C26_stale_halo_wrong, C26_other_vector_wrong); C26_consistent_halo_partial and C26_same_vector are the cases in which it holds."
  },
  {
   "property": "C27",
   "status": "proved",
   "theorems": [
    "Madg.C27_matvec",
    "Madg.C27_scale_rows",
    "Madg.C27_rms",
    "Madg.C27_rms_zero_iff"
   ],
   "note": ""
  },
  {
   "property": "C28",
   "status": "proved",
   "theorems": [
    "Madg.C28_split",
    "Madg.C28_matvec",
    "Madg.C28_same_product",
    "Madg.C28_missing_diagonal_faults",
    "Madg.C28_rms"
   ],
   "note": "The failing case (no stored diagonal entry) is C28_missing_diagonal_faults."
  },
  {
   "property": "C29",
   "status": "proved",
   "theorems": [
    "Madg.C29_plain_sweep",
    "Madg.C29_cached_sweep",
    "Madg.C29_ldu_sweeps",
    "Madg.C29_fixed_points",
    "Madg.C29_fixed_points_cached",
    "Madg.C29_tiny_diagonal_differs",
    "Madg.C29_missing_diagonal_undefined",
    "Madg.C29_library_sweep",
    "Madg.C29_library_ldu_sweep"
   ],
   "note": "Variants agree for diagonals above the threshold; C29_tiny_diagonal_differs and C29_missing_diagonal_undefined show where they do not."
  },
  {
   "property": "C30",
   "status": "proved",
   "theorems": [
    "Madg.C30_sweeps",
    "Madg.C30_convergence",
    "Madg.C30_factor_lt_one"
   ],
   "note": ""
  },
  {
   "property": "C31",
   "status": "proved",
   "theorems": [
    "Madg.C31_cache_coherent",
    "Madg.C31_retained_view_breaks"
   ],
   "note": "C31_retained_view_breaks proves the negative part of the statement with a concrete history."
  },
  {
   "property": "C32",
   "status": "proved",
   "theorems": [
    "Madg.C32_round_trip",
    "Madg.C32_truncated",
    "Madg.C32_truncated_header",
    "Madg.C32_missing_and_empty",
    "Madg.C32_matrix_round_trip",
    "Madg.C32_short_columns"
   ],
   "note": "boost::lexical_cast is a parameter with the round-trip property as hypothesis; a unary instance is given."
  },
  {
   "property": "C33",
   "status": "proved",
   "theorems": [
    "Madg.C33_rk3ssp_step",
    "Madg.C33_rk3ssp_shu_osher",
    "Madg.C33_rk3ssp_run",
    "Madg.C33_cahn_hilliard3",
    "Madg.C33_cahn_hilliard2"
   ],
   "note": ""
  },
  {
   "property": "C34",
   "status": "proved",
   "theorems": [
    "Madg.C34_ode23_run",
    "Madg.C34_cahn_hilliard3",
    "Madg.C34_cahn_hilliard2"
   ],
   "note": ""
  },
  {
   "property": "C35",
   "status": "proved",
   "theorems": [
    "Madg.C35_used_integrator_step",
    "Madg.C35_second_solve_differs"
   ],
   "note": "the claim is false for the code; the theorems give the general behaviour of a used integrator and a concrete witness"
  },
  {
   "property": "C36",
   "status": "proved",
   "theorems": [
    "Madg.C36_rk3ssp_linear",
    "Madg.C36_rk3ssp_time_polynomial",
    "Madg.C36_ode23_linear",
    "Madg.C36_ode23_time_polynomial",
    "Madg.C36_ssprk3_order",
    "Madg.C36_bs23_order"
   ],
   "note": ""
  },
  {
   "property": "C37",
   "status": "proved",
   "theorems": [
    "Madg.C37_ssp_convex_invariance",
    "Madg.C37_ssp_bounds"
   ],
   "note": ""
  },
  {
   "property": "C38",
   "status": "proved",
   "theorems": [
    "Madg.C38_mean_preserved_rk3",
    "Madg.C38_mean_preserved_ode23",
    "Madg.C38_mean_relaxation_rk3",
    "Madg.C38_mean_rk3_2d",
    "Madg.C38_mean_ode23_2d"
   ],
   "note": "Exact arithmetic; the same with rounding is C96 (3D) and C113 (2D)."
  },
  {
   "property": "C39",
   "status": "proved",
   "theorems": [
    "Madg.C39_error_estimate"
   ],
   "note": ""
  },
  {
   "property": "C40",
   "status": "proved",
   "theorems": [
    "Madg.C40_always_defined",
    "Madg.C40_first_three",
    "Madg.C40_formula",
    "Madg.C40_bounds",
    "Madg.C40_steady",
    "Madg.C40_antitone",
    "Madg.C40_minimum_overrides"
   ],
   "note": "Real numbers with the real power function; floating point is C108. The comment in the source announces other limits than the code uses; the theorems are about the code."
  },
  {
   "property": "C41",
   "status": "proved",
   "theorems": [
    "Madg.C41_never_beyond",
    "Madg.C41_lands_on_final_time"
   ],
   "note": ""
  },
  {
   "property": "C42",
   "status": "proved",
   "theorems": [
    "Madg.C42_overshoot_steps_back",
    "Madg.C42_first_step_unclipped",
    "Madg.C42_limit_reached_still_steps",
    "Madg.C42_huge_limit_stops",
    "Madg.C42_witness_overshoot",
    "Madg.C42_witness_limit"
   ],
   "note": "The natural claim is false; C42_witness_overshoot and C42_witness_limit are concrete runs refuting it, the other theorems say exactly what happens instead. C41 and C43 give what does hold."
  },
  {
   "property": "C43",
   "status": "proved",
   "theorems": [
    "Madg.C43_adaptive_proposals",
    "Madg.C43_step_limit_terminates",
    "Madg.C43_step_count",
    "Madg.C43_min_step_terminates",
    "Madg.C43_min_step_terminates'",
    "Madg.C43_min_step_count",
    "Madg.C43_may_diverge"
   ],
   "note": ""
  },
  {
   "property": "C44",
   "status": "proved",
   "theorems": [
    "Madg.C44_stops_exactly",
    "Madg.C44_no_failure",
    "Madg.C44_zero_log_frequency",
    "Madg.C44_no_monitor_is_undefined",
    "Madg.C44_decision"
   ],
   "note": "C44_stops_exactly is the rule as coded, including the use of a stale residual between log steps; C44_zero_log_frequency and C44_no_monitor_is_undefined are the undefined cases."
  },
  {
   "property": "C45",
   "status": "proved",
   "theorems": [
    "Madg.C45_fires",
    "Madg.C45_registration_order",
    "Madg.C45_count",
    "Madg.C45_zero_frequency"
   ],
   "note": ""
  },
  {
   "property": "C46",
   "status": "proved",
   "theorems": [
    "Madg.C46_records",
    "Madg.C46_relative_range",
    "Madg.C46_zero_reports_one"
   ],
   "note": "The monitor of the source is one object per process; the statement is about any history in one process."
  },
  {
   "property": "C47",
   "status": "proved",
   "theorems": [
    "Madg.C47_mean_3d",
    "Madg.C47_constant_3d",
    "Madg.C47_mean_2d",
    "Madg.C47_constant_2d",
    "Madg.C47_bound_attained"
   ],
   "note": ""
  },
  {
   "property": "C48",
   "status": "proved",
   "theorems": [
    "Madg.C48_report_3d",
    "Madg.C48_extrema_3d",
    "Madg.C48_max_wrong_3d",
    "Madg.C48_cube",
    "Madg.C48_reads_halo",
    "Madg.C48_report_2d"
   ],
   "note": ""
  },
  {
   "property": "C49",
   "status": "proved",
   "theorems": [
    "Madg.C49_coarsen",
    "Madg.C49_restriction",
    "Madg.C49_mean_preserved",
    "Madg.C49_between_children",
    "Madg.C49_constants",
    "Madg.C49_nearest",
    "Madg.C49_restrict_after_nearest",
    "Madg.C49_unknown_mode_aborts"
   ],
   "note": ""
  },
  {
   "property": "C50",
   "status": "partial",
   "theorems": [
    "Madg.C50_linear",
    "Madg.C50_writes_once",
    "Madg.C50_affine_partial",
    "Madg.C50_difference",
    "Madg.C50_affine_error",
    "Madg.C50_between_neighbours",
    "Madg.C50_mean_preserved",
    "Madg.C50_affine_x_wrong",
    "Madg.C50_needs_halo"
   ],
   "note": "Proved: in range, race free, each fine cell of interior plus one halo layer stored once, closed form, constants and affine functions of y, z reproduced, no new extrema, mean preserved for periodic data. The full trilinear claim is false: C50_affine_x_wrong shows the affine function x is not reproduced. C50_difference gives the distance from trilinear interpolation for every field, C50_affine_error for every affine function."
  },
  {
   "property": "C51",
   "status": "proved",
   "theorems": [
    "Madg.C51_stays_on_levels",
    "Madg.C51_counts",
    "Madg.C51_descends_first",
    "Madg.C51_other_inputs"
   ],
   "note": "Model of getMGCycle matches the six schedules of the source literally; proved equal to a recursive V-cycle for every number of passes."
  },
  {
   "property": "C52",
   "status": "proved",
   "theorems": [
    "Madg.C52_coarse_residual"
   ],
   "note": "Stated for the Cahn-Hilliard hierarchy with any kernel variant and boundary mix; the lemma setCoarse_det behind it holds for any right-hand side meeting the FillRhs contract."
  },
  {
   "property": "C53",
   "status": "proved",
   "theorems": [
    "Madg.C53_cycle_keeps_solution",
    "Madg.C53_cycle_without_smoothing"
   ],
   "note": "Cahn-Hilliard hierarchy, 1..6 levels. With zero smoothing passes the slopes handed down are those of the allocation, so that case assumes the zero-initialised arrays."
  },
  {
   "property": "C54",
   "status": "proved",
   "theorems": [
    "Madg.C54_fine_equation",
    "Madg.C54_convergence_report",
    "Madg.C54_zero_residual_not_converged",
    "Madg.C54_zero_step"
   ],
   "note": "C54_zero_residual_not_converged proves the flaw stated in the property (0/0 is never <= tolerance)."
  },
  {
   "property": "C55",
   "status": "proved",
   "theorems": [
    "Madg.C55_refines_single_copy",
    "Madg.C55_no_leak",
    "Madg.C55_partial_write_stale",
    "Madg.C55_partial_write_uninitialised"
   ],
   "note": "C55_partial_write_stale and C55_partial_write_uninitialised are the two witnesses for partial write-only sessions."
  },
  {
   "property": "C56",
   "status": "proved",
   "theorems": [
    "Madg.C56_swap",
    "Madg.C56_swap_contents",
    "Madg.C56_swap_self"
   ],
   "note": ""
  },
  {
   "property": "C57",
   "status": "proved",
   "theorems": [
    "Madg.C57_no_double_free",
    "Madg.C57_lookup_live",
    "Madg.C57_lookup_dead",
    "Madg.C57_foreign_memory",
    "Madg.C57_release_view_as_owned"
   ],
   "note": ""
  },
  {
   "property": "C58",
   "status": "proved",
   "theorems": [
    "Madg.C58_first_wins",
    "Madg.C58_order_irrelevant"
   ],
   "note": ""
  },
  {
   "property": "C59",
   "status": "proved",
   "theorems": [
    "Madg.C59_precedence",
    "Madg.C59_accepts",
    "Madg.C59_previous_value_survives"
   ],
   "note": ""
  },
  {
   "property": "C60",
   "status": "proved",
   "theorems": [
    "Madg.C60_single_values",
    "Madg.C60_single_error",
    "Madg.C60_round_trip3",
    "Madg.C60_wrong_dimension",
    "Madg.C60_round_trip2",
    "Madg.C60_double_exact",
    "Madg.C60_single_collision",
    "Madg.C60_round_trip3_double",
    "Madg.C60_round_trip2_double",
    "Madg.C60_short_file"
   ],
   "note": "Texts are modelled character by character, numbers printed with the digits of the source; single precision loses digits as stated."
  },
  {
   "property": "C61",
   "status": "proved",
   "theorems": [
    "Madg.C61_accepted",
    "Madg.C61_rejected",
    "Madg.C61_grid3",
    "Madg.C61_grid2"
   ],
   "note": ""
  },
  {
   "property": "C62",
   "status": "proved",
   "theorems": [
    "Madg.C62_restart",
    "Madg.C62_cahn_hilliard3_rk3",
    "Madg.C62_cahn_hilliard3_ode23",
    "Madg.C62_seven_digits",
    "Madg.C62_time_lost"
   ],
   "note": "False in general (C62_seven_digits, C62_time_lost are witnesses); true whenever time and step survive printing. C99 and C106 continue this in floating point."
  },
  {
   "property": "C63",
   "status": "proved",
   "theorems": [
    "Madg.C63_cubic_iff",
    "Madg.C63_value",
    "Madg.C63_empty"
   ],
   "note": "C63_cubic_iff decides exactly when the claim holds, C63_value gives the end actually used, C63_empty the degenerate box."
  },
  {
   "property": "C64",
   "status": "proved",
   "theorems": [
    "Madg.C64_petsc_rhs",
    "Madg.C64_vec_to_state",
    "Madg.C64_state_to_vec",
    "Madg.C64_round_trip_vec",
    "Madg.C64_round_trip_state"
   ],
   "note": ""
  },
  {
   "property": "C65",
   "status": "proved",
   "theorems": [
    "Madg.C65_sum",
    "Madg.C65_min",
    "Madg.C65_max",
    "Madg.C65_chunks_possible",
    "Madg.C65_chunked_sum",
    "Madg.C65_residual_norm_3d",
    "Madg.C65_residual_zero_iff_3d",
    "Madg.C65_residual_calculator_3d",
    "Madg.C65_residual_norm_2d"
   ],
   "note": "Exact arithmetic; in floating point the sums do depend on the order (C93_sum_depends_on_order), which C102 takes into account."
  },
  {
   "property": "C66",
   "status": "proved",
   "theorems": [
    "Madg.C66_poisson_rhs",
    "Madg.C66_affine",
    "Madg.C66_consistency"
   ],
   "note": ""
  },
  {
   "property": "C67",
   "status": "proved",
   "theorems": [
    "Madg.C67_starts_iff",
    "Madg.C67_components"
   ],
   "note": ""
  },
  {
   "property": "C68",
   "status": "proved",
   "theorems": [
    "Madg.C68_needs_steps",
    "Madg.C68_name3",
    "Madg.C68_name2",
    "Madg.C68_distinct3",
    "Madg.C68_distinct2",
    "Madg.C68_order3",
    "Madg.C68_collisions2",
    "Madg.C68_million2",
    "Madg.C68_final"
   ],
   "note": "log10 is taken as exact; the 2D claim beyond a million steps is refuted by C68_collisions2 and C68_million2."
  },
  {
   "property": "C69",
   "status": "proved",
   "theorems": [
    "Madg.C69_calls",
    "Madg.C69_later_calls",
    "Madg.C69_sweep_unique",
    "Madg.C69_fixed_points",
    "Madg.C69_convergence",
    "Madg.C69_no_library_aborts",
    "Madg.C69_long_vector_faults"
   ],
   "note": "The library triangular solve is modelled as forward/backward substitution."
  },
  {
   "property": "C70",
   "status": "proved",
   "theorems": [
    "Madg.C70_product_after",
    "Madg.C70_rms_after",
    "Madg.C70_rms_scaled",
    "Madg.C70_jacobi_after",
    "Madg.C70_residual_changes"
   ],
   "note": "Describes a defect: C70_residual_changes is the concrete witness."
  },
  {
   "property": "C71",
   "status": "proved",
   "theorems": [
    "Madg.C71_value",
    "Madg.C71_stored",
    "Madg.C71_guarantee"
   ],
   "note": "Exact arithmetic; a row without off-diagonal entries divides by zero in the code and is excluded from C71_guarantee."
  },
  {
   "property": "C72",
   "status": "proved",
   "theorems": [
    "Madg.C72_levels",
    "Madg.C72_hierarchy"
   ],
   "note": ""
  },
  {
   "property": "C73",
   "status": "proved",
   "theorems": [
    "Madg.C73_session",
    "Madg.C73_solve",
    "Madg.C73_shown_is_last_argument",
    "Madg.C73_shown_initially",
    "Madg.C73_accepted_not_shown"
   ],
   "note": "PETSc itself is not modelled: the theorems hold for every sequence of callbacks it may make."
  },
  {
   "property": "C74",
   "status": "proved",
   "theorems": [
    "Madg.C74_post_step",
    "Madg.C74_absolute_tests",
    "Madg.C74_zero_residual",
    "Madg.C74_settings",
    "Madg.C74_restart_step"
   ],
   "note": "PETSc itself is not modelled; C74_settings lists the values passed to it."
  },
  {
   "property": "C75",
   "status": "proved",
   "theorems": [
    "Madg.C75_calls",
    "Madg.C75_time",
    "Madg.C75_bounded",
    "Madg.C75_recursive_counts_twice",
    "Madg.C75_table",
    "Madg.C75_outermost_shows_zero"
   ],
   "note": "Sequence of timer events (constructor/destructor of FunctionTimer) over an arbitrary clock; the unstable std::sort is modelled as any sorted permutation. C75_recursive_counts_twice and C75_outermost_shows_zero are the negative parts."
  },
  {
   "property": "C76",
   "status": "proved",
   "theorems": [
    "Madg.C76_cycle",
    "Madg.C76_time_step"
   ],
   "note": ""
  },
  {
   "property": "C77",
   "status": "proved",
   "theorems": [
    "Madg.C77_laplacian",
    "Madg.C77_biharmonic",
    "Madg.C77_rhs3",
    "Madg.C77_rhs2"
   ],
   "note": "Functions of real arguments, derivatives from Mathlib; the constant depends on the function and the parameters only."
  },
  {
   "property": "C78",
   "status": "proved",
   "theorems": [
    "Madg.C78_message_lines",
    "Madg.C78_message_outcome",
    "Madg.C78_level",
    "Madg.C78_switch",
    "Madg.C78_shown",
    "Madg.C78_row_reads",
    "Madg.C78_iteration",
    "Madg.C78_iteration_collision",
    "Madg.C78_run_together",
    "Madg.C78_no_columns",
    "Madg.C78_run",
    "Madg.C78_zero_frequency"
   ],
   "note": "Values are rational numbers in the rows; infinities and NaN are not rendered. C78_run_together and C78_iteration_collision are the cases in which a row cannot be read back. C78_switch: the on/off switch."
  },
  {
   "property": "C79",
   "status": "proved",
   "theorems": [
    "Madg.C79_cycle",
    "Madg.C79_solution_kept",
    "Madg.C79_time_step"
   ],
   "note": ""
  },
  {
   "property": "C80",
   "status": "proved",
   "theorems": [
    "Madg.C80_unique_solution",
    "Madg.C80_residual_bounds_error",
    "Madg.C80_converged_accuracy"
   ],
   "note": "Exact arithmetic; steady mode (time_integrator = steady)."
  },
  {
   "property": "C81",
   "status": "proved",
   "theorems": [
    "Madg.C81_contraction",
    "Madg.C81_converges"
   ],
   "note": "Holds for the shipped single- and two-level runs of configs/poisson_128cubed.dat; three or more levels need coarse relaxation at most 1/2, which the default (1.0) is not, because piecewise constant transfers make the coarse correction twice the Galerkin one."
  },
  {
   "property": "C82",
   "status": "proved",
   "theorems": [
    "Madg.C82_discretization_error",
    "Madg.C82_solver_accuracy"
   ],
   "note": "Exact arithmetic; coordinates and periods exact (the shipped configuration gives pi to twelve digits)."
  },
  {
   "property": "C83",
   "status": "proved",
   "theorems": [
    "Madg.C83_rk3_3d",
    "Madg.C83_ode23_3d",
    "Madg.C83_rk3_2d",
    "Madg.C83_ode23_2d"
   ],
   "note": "Exact real arithmetic. The step bound dt <= dx^4/(4608 eps^2) is the explicit stability limit up to the constant. The existence of smooth solutions is a hypothesis (CHSolution); uniform_solution shows it can be met."
  },
  {
   "property": "C84",
   "status": "proved",
   "theorems": [
    "Madg.C84_solution_3d",
    "Madg.C84_solution_2d",
    "Madg.C84_rk3_3d",
    "Madg.C84_ode23_3d",
    "Madg.C84_rk3_2d",
    "Madg.C84_ode23_2d"
   ],
   "note": "Exact real arithmetic. Existence is proved, not assumed: C84_solution_* gives the solution for every initial field and time. The ode23 theorems need the stage arrays zero outside the interior, as allocated."
  },
  {
   "property": "C85",
   "status": "proved",
   "theorems": [
    "Madg.C85_file_base",
    "Madg.C85_rk3ssp3",
    "Madg.C85_rk3ssp2",
    "Madg.C85_sequences",
    "Madg.C85_steps",
    "Madg.C85_mean3",
    "Madg.C85_mean2",
    "Madg.C85_no_limit"
   ],
   "note": "Exact real arithmetic. Option parsing, the text layout of the log and XML syntax are separate models (C58, C59, C78, C60). Multigrid runs are C88 and C89; cfl-based steps abort in the model as in the code."
  },
  {
   "property": "C86",
   "status": "proved",
   "theorems": [
    "Madg.C86_ode23_3",
    "Madg.C86_ode23_2",
    "Madg.C86_sequences"
   ],
   "note": "Exact real arithmetic; `pow` is the real power."
  },
  {
   "property": "C87",
   "status": "proved",
   "theorems": [
    "Madg.C87_restart3_multigrid",
    "Madg.C87_restart3_poisson",
    "Madg.C87_restart3_rk3",
    "Madg.C87_restart3_ode23",
    "Madg.C87_resume3",
    "Madg.C87_same_final3",
    "Madg.C87_restart2_rk3",
    "Madg.C87_restart2_ode23",
    "Madg.C87_resume2",
    "Madg.C87_same_final2",
    "Madg.C87_penultimate"
   ],
   "note": "Numbers that do not survive printing are the subject of C60 and C62. Resumption is stated for rk3ssp only: ode23 starts with empty controller histories after a restart, so its later steps differ in general (C87_restart*_ode23 describe them). Multigrid restarts are described by C87_restart3_multigrid and C87_restart3_poisson; the smoothers begin with their first step size again, so a resumed multigrid run is not claimed to continue identically."
  },
  {
   "property": "C88",
   "status": "proved",
   "theorems": [
    "Madg.C88_sequences",
    "Madg.C88_residual_certifies",
    "Madg.C88_accuracy",
    "Madg.C88_converges",
    "Madg.C88_run",
    "Madg.C88_solution_files"
   ],
   "note": "Exact real arithmetic. C88_converges needs coarse relaxation at most 1/2 with three or more levels (see C81); the error bounds do not. Runs started from a file are in C87. Poisson with the explicit integrators is in C91."
  },
  {
   "property": "C89",
   "status": "proved",
   "theorems": [
    "Madg.C89_mean",
    "Madg.C89_run",
    "Madg.C89_zero_step"
   ],
   "note": "Exact real arithmetic. 3D only: in 2D the code always aborts (C92_multigrid_2d). Runs started from a file are in C87. Tolerances and stopping as in C85. With step size 0 the model faults where the C++ computes infinities or NaN."
  },
  {
   "property": "C90",
   "status": "proved",
   "theorems": [
    "Madg.C90_potential3",
    "Madg.C90_energy3",
    "Madg.C90_residuals3",
    "Madg.C90_settles3",
    "Madg.C90_stops3",
    "Madg.C90_plain3",
    "Madg.C90_potential2",
    "Madg.C90_energy2",
    "Madg.C90_residuals2",
    "Madg.C90_settles2",
    "Madg.C90_stops2",
    "Madg.C90_plain2",
    "Madg.C90_program3",
    "Madg.C90_program2"
   ],
   "note": "Exact real arithmetic; periodic grids (2D is always periodic). The step limit is sufficient, not necessary; with sigma = 0 any mean, otherwise the mean must be m as it is for the program's initial field. For 3D Neumann boundaries the code's operator does not conserve mass (C19), and no decay is claimed."
  },
  {
   "property": "C91",
   "status": "proved",
   "theorems": [
    "Madg.C91_residual_certifies",
    "Madg.C91_accuracy",
    "Madg.C91_decay",
    "Madg.C91_step_range",
    "Madg.C91_run_rk3ssp",
    "Madg.C91_run_ode23",
    "Madg.C91_solution_files",
    "Madg.C91_restart_rk3ssp",
    "Madg.C91_restart_ode23"
   ],
   "note": "Exact real arithmetic. The step condition dx^2/5 is sufficient, not necessary; without it the runs still refine the method's steps (C91_run_*). The first step of a run is never clipped to the final time, hence the condition t0 + dt0 <= tfinal."
  },
  {
   "property": "C92",
   "status": "proved",
   "theorems": [
    "Madg.C92_unmodelled",
    "Madg.C92_rejected",
    "Madg.C92_multigrid_2d",
    "Madg.C92_completes"
   ],
   "note": "Exact real arithmetic (overflow or NaN of an unstable run is not an error in C++ either). PETSc integrators are not part of the program model (C73, C74 treat their callbacks). Completion is stated for runs without a restart file; restarts are in C87 and C91."
  },
  {
   "property": "C93",
   "status": "proved",
   "theorems": [
    "Madg.C93_reproducible",
    "Madg.C93_fused_variants",
    "Madg.C93_sum_depends_on_order"
   ],
   "note": "The arithmetic is arbitrary but linearly ordered, so NaN is excluded. Multigrid integrators are excluded because their cycle test compares a sum with mg_rel_tol. Random draws are inputs; the source seeds its generator with the constant 1. The GPU reductions of the source are atomic (any order); its OpenMP reduction is ordered by thread, which fixes the order only for one thread count and one partition of the loop, so any order is modelled."
  },
  {
   "property": "C94",
   "status": "proved",
   "theorems": [
    "Madg.C94_sum",
    "Madg.C94_residual"
   ],
   "note": "Rounding is assumed to have relative error u above an underflow threshold, proved for the round-to-nearest-even of Model/Rounded in double precision; overflow and contraction of a*b+c into one operation are not modelled. The square root is arbitrary."
  },
  {
   "property": "C95",
   "status": "proved",
   "theorems": [
    "Madg.C95_rhs_error"
   ],
   "note": "Rounding is assumed to have relative error u above an underflow threshold, proved for the round-to-nearest-even of Model/Rounded in double precision; overflow and contraction of a*b+c into one operation are not modelled. Three dimensions."
  },
  {
   "property": "C96",
   "status": "proved",
   "theorems": [
    "Madg.C96_rk3_step",
    "Madg.C96_rk3_run",
    "Madg.C96_rk3_mean",
    "Madg.C96_ode23_step",
    "Madg.C96_ode23_run",
    "Madg.C96_ode23_mean",
    "Madg.C96_rk3_small_steps",
    "Madg.C96_ode23_small_steps"
   ],
   "note": "Rounding is assumed to have relative error u above an underflow threshold, proved for the round-to-nearest-even of Model/Rounded in double precision; overflow and contraction of a*b+c into one operation are not modelled. Three dimensions, periodic. The step theorems assume a bound on the stage values, which the small-step theorems derive from a bound on the states alone."
  },
  {
   "property": "C97",
   "status": "proved",
   "theorems": [
    "Madg.C97_end_time",
    "Madg.C97_terminates",
    "Madg.C97_step_count",
    "Madg.C97_one_more_step",
    "Madg.C97_end_exact",
    "Madg.C97_extra_step",
    "Madg.C97_extra_step_exact",
    "Madg.C97_clock_stops",
    "Madg.C97_end_inexact"
   ],
   "note": "Rounds (relative error u above an underflow threshold) and monotone rounding; exact landing for every binary format by representability of close differences. C97_extra_step, C97_clock_stops and C97_end_inexact are the negative parts with double precision witnesses."
  },
  {
   "property": "C98",
   "status": "proved",
   "theorems": [
    "Madg.C98_rk3",
    "Madg.C98_ode23"
   ],
   "note": "C83 with the rounding errors of each stage added (C95, C96): a noisy Runge-Kutta recursion. Parameters and spacing are the stored numbers and the box is exactly ni*dx long; the constants do not depend on the number format. The example uses a format whose precision grows as the grid is refined, since for a fixed format the number of steps needed grows like dx^-4. Three dimensions, periodic."
  },
  {
   "property": "C99",
   "status": "proved",
   "theorems": [
    "Madg.C99_run3",
    "Madg.C99_saved_split",
    "Madg.C99_saves_shift",
    "Madg.C99_resume",
    "Madg.C99_resume_again",
    "Madg.C99_spacing_kept",
    "Madg.C99_spacing_changes",
    "Madg.C99_double"
   ],
   "note": "C99_run3 for every law-free arithmetic, C99_resume and C99_resume_again for every binary format with lossless printing of fields, C99_double for double with the printed digits of the writer. Hypotheses of resuming are the seven printed digits of time and step (C62) and the recomputed spacing, which C99_spacing_kept discharges for domains beginning at 0 and C99_spacing_changes shows to be needed. 3D, rk3ssp; residual and gradient columns of the log are left open because they depend on the order of summation."
  },
  {
   "property": "C100",
   "status": "proved",
   "theorems": [
    "Madg.C100_compensated_sum",
    "Madg.C100_initial",
    "Madg.C100_initial3",
    "Madg.C100_run_mean",
    "Madg.C100_double"
   ],
   "note": "Error analysis of compensated summation (C100_compensated_sum) under the standard rounding model, then of the renormalisation, for every rounding with relative error u; C100_double is the program of C99 in double precision combined with C96. In the source the sum, the correction and the mean are doubles even when real_wp is float; the model has one number type, so the statement is about double builds. Contraction of the compensation by the compiler (FMA, fast-math) is outside the model; the build files set no such option except -march=native."
  },
  {
   "property": "C101",
   "status": "proved",
   "theorems": [
    "Madg.C101_overflow",
    "Madg.C101_spreads",
    "Madg.C101_all_lost",
    "Madg.C101_run3",
    "Madg.C101_residual",
    "Madg.C101_no_stop",
    "Madg.C101_error_estimate",
    "Madg.C101_growth",
    "Madg.C101_step_sizes"
   ],
   "note": "Model/IEEE is the number type with signed zeros, infinities and one NaN; model and driver are now over bare comparisons (no order laws). C101_run3, C101_spreads, C101_residual and C101_no_stop hold for every arithmetic with an absorbing, incomparable NaN, C101_overflow and C101_error_estimate for IEEE formats, C101_growth and C101_step_sizes for the controller over the reals (the library function pow is not modelled in IEEE arithmetic). 3D; a maximum or minimum reduction may return any of its arguments when NaN is among them. Equality tests distinguish the two zeros, which C++ does not; the only tested quantities (largest residual, tolerances) are never negative zero."
  },
  {
   "property": "C102",
   "status": "proved",
   "theorems": [
    "Madg.C102_rk3ssp3",
    "Madg.C102_ode23_3",
    "Madg.C102_always_ends",
    "Madg.C102_limits",
    "Madg.C102_nan_proposed",
    "Madg.C102_nan_forever",
    "Madg.C102_infinite_errors",
    "Madg.C102_rk3ssp2",
    "Madg.C102_ode23_2",
    "Madg.C102_always_ends2"
   ],
   "note": "Spec.RunsEach is a statement about every single execution: reductions are arbitrary binary trees over any permutation (Comb), so step sizes and numbers of steps may differ between executions. Over a law-free arithmetic and bare comparisons. 2D and 3D Cahn-Hilliard, fresh start, a step limit below 2^31 and explicit integrators; ode23 needs its stage arrays to be 0 at the start, as the constructor of ManagedArray leaves them (data_structures/managed_array.hpp:28). The gradient integral in the log is not constrained. The library function pow is any function."
  },
  {
   "property": "C103",
   "status": "proved",
   "theorems": [
    "Madg.C103_rk3ssp",
    "Madg.C103_ode23",
    "Madg.C103_always_ends"
   ],
   "note": "The same run specification as C102 (Spec.RunsEach) for the Poisson problem; poisOps writes the right-hand side operation by operation. sin and cos are arbitrary functions of the arithmetic."
  },
  {
   "property": "C104",
   "status": "proved",
   "theorems": [
    "Madg.C104_maximum",
    "Madg.C104_certificate",
    "Madg.C104_discretization_error",
    "Madg.C104_converges",
    "Madg.C104_rk3ssp",
    "Madg.C104_ode23"
   ],
   "note": "Maximum norm throughout: discrete maximum principle with the barrier (k+1)(nz-k) and a weighted maximum norm in which one stage of either method is a contraction. The values of sin and cos enter as stored (their accuracy is not modelled); the rounding is assumed to keep the sign of nonnegative numbers, as IEEE rounding does. The final time must be small enough for its rounding to be harmless (u (T + 1) <= dx^2 / 64). Fresh runs."
  },
  {
   "property": "C105",
   "status": "proved",
   "theorems": [
    "Madg.C105_operations",
    "Madg.C105_comparisons",
    "Madg.C105_too_large",
    "Madg.C105_invalid",
    "Madg.C105_converges",
    "Madg.C105_rk3ssp"
   ],
   "note": "Simulation: under explicit size conditions every operation of a stage gives the same value in Model/IEEE as in the rounded arithmetic of C104 (`Same`), so the bound of C104 keeps the next state small. C105_converges covers the steps of both methods, C105_rk3ssp the whole program with rk3ssp. sin and cos are assumed to return ordinary numbers in [-1, 1] that depend on the value of the argument only."
  },
  {
   "property": "C106",
   "status": "proved",
   "theorems": [
    "Madg.C106_rk3ssp3",
    "Madg.C106_ode23_3",
    "Madg.C106_always_ends",
    "Madg.C106_poisson_rk3ssp",
    "Madg.C106_poisson_ode23",
    "Madg.C106_rk3ssp2",
    "Madg.C106_ode23_2"
   ],
   "note": "The contents of the file are `vts3`/`vts2` of C35/C99 with values of the format. The spacing recomputed from the file may differ from the spacing of the run that wrote it (C99_spacing_changes), so the statement uses the recomputed one; the theorems cover 3D Cahn-Hilliard, 2D Cahn-Hilliard and Poisson with both explicit methods."
  },
  {
   "property": "C107",
   "status": "proved",
   "theorems": [
    "Madg.C107_converges",
    "Madg.C107_rk3ssp"
   ],
   "note": "Simulation of the floating-point stages by the rounded arithmetic of C98 with an explicit bound for every intermediate result, under the bound of the states that C98 itself proves; NaN and infinities are replaced by an arbitrary real number and the error bound, holding for every such number, excludes them. C107_converges covers the steps of both methods, C107_rk3ssp the whole program with rk3ssp from a fresh start."
  },
  {
   "property": "C108",
   "status": "proved",
   "theorems": [
    "Madg.C108_sizes",
    "Madg.C108_poisson",
    "Madg.C108_errors",
    "Madg.C108_cahn_hilliard"
   ],
   "note": "Strong induction over the steps: sizes in range give bounded states (C105, C107), bounded states give ordinary bounded slopes and error estimates, those give ordinary quotients and powers in the controller, whose clamps then hold. The power function of the C library is a hypothesis (PowFn). C108_sizes is the controller alone, C108_errors the estimates of Cahn-Hilliard runs, C108_poisson and C108_cahn_hilliard whole fresh runs."
  },
  {
   "property": "C109",
   "status": "proved",
   "theorems": [
    "Madg.C109_read_back",
    "Madg.C109_comment_cut",
    "Madg.C109_kept",
    "Madg.C109_error",
    "Madg.C109_stable",
    "Madg.C109_defaults_change"
   ],
   "note": "C109_read_back: the printed settings are accepted as a config file and reproduce every option (Reread); C109_kept: numbers given with at most six digits survive exactly; C109_error: the others change by at most |x|/199999; C109_defaults_change: the default eps2 and sigma do not survive; C109_stable: settings printed by a run from a printed config file reproduce it exactly; C109_comment_cut: a '#' in a text cuts it off. Boost's config file grammar is modelled from its documentation; upper-case words for switches are not modelled."
  },
  {
   "property": "C110",
   "status": "proved",
   "theorems": [
    "Madg.C110_runs_iff",
    "Madg.C110_exit",
    "Madg.C110_configured",
    "Madg.C110_missing_file",
    "Madg.C110_source",
    "Madg.C110_repeat",
    "Madg.C110_repeat_again",
    "Madg.C110_default",
    "Madg.C110_default_steps"
   ],
   "note": "C110_runs_iff, C110_exit: run, exit codes, exceptions; C110_configured: every named option acts with its effective value (Configured, one field per option); C110_source, C110_repeat, C110_repeat_again: the source of a value does not matter, printed settings repeat the run; C110_default, C110_default_steps: the run without options; C110_missing_file: an unreadable initial condition file is undefined behaviour. The tokenising of the command line by Boost and the log file are not modelled."
  },
  {
   "property": "C111",
   "status": "proved",
   "theorems": [
    "Madg.C111_rhs_error",
    "Madg.C111_converges",
    "Madg.C111_rk3ssp",
    "Madg.C111_errors",
    "Madg.C111_ode23"
   ],
   "note": "C111_rhs_error: the rounded 2D right-hand side; C111_converges: both explicit methods, any step sequence; C111_rk3ssp, C111_ode23: whole runs; C111_errors: the error estimates of the adaptive method. 2D analogues of C95, C107, C108. The pow of the C library is a parameter, as in C108."
  },
  {
   "property": "C112",
   "status": "proved",
   "theorems": [
    "Madg.C112_processor",
    "Madg.C112_processor_unknown",
    "Madg.C112_host",
    "Madg.C112_petsc_words",
    "Madg.C112_petsc_logged"
   ],
   "note": "C112_processor, C112_processor_unknown: the processor line; C112_host: exact for names shorter than the buffer, undefined otherwise (gethostname as in glibc); C112_petsc_words, C112_petsc_logged: words of the option and of the logged command line."
  },
  {
   "property": "C113",
   "status": "proved",
   "theorems": [
    "Madg.C113_rk3_step",
    "Madg.C113_rk3_run",
    "Madg.C113_rk3_mean",
    "Madg.C113_ode23_step",
    "Madg.C113_ode23_run",
    "Madg.C113_ode23_mean",
    "Madg.C113_rk3_small_steps",
    "Madg.C113_ode23_small_steps",
    "Madg.C113_initial",
    "Madg.C113_run_mean",
    "Madg.C113_run_mean_ode23",
    "Madg.C113_double"
   ],
   "note": "C113_rk3_step/run/mean/small_steps and the same for ode23: 2D analogues of C96. C113_initial: the compensated initial field; C113_run_mean, C113_run_mean_ode23: both together; C113_double: whole adaptive runs in double precision through C102_ode23_2. As in C100 the statement is about double builds; step sizes and states are assumed within their bounds along the run."
  },
  {
   "property": "C114",
   "status": "proved",
   "theorems": [
    "Madg.C114_stable2",
    "Madg.C114_stable3",
    "Madg.C114_initial2",
    "Madg.C114_initial3",
    "Madg.C114_rk3ssp2",
    "Madg.C114_rk3ssp3",
    "Madg.C114_errors2",
    "Madg.C114_errors3",
    "Madg.C114_ode23_2",
    "Madg.C114_ode23_3"
   ],
   "note": "C114_stable2, C114_stable3: any number of rk3ssp or ode23 steps from any field of ordinary numbers; C114_initial2/3: energy of a field in [-1, 1]; C114_rk3ssp2, C114_rk3ssp3: whole runs, on every schedule; C114_ode23_2, C114_ode23_3: whole adaptive runs, with C114_errors2/3 for the error estimates; the pow of the C library is a parameter, as in C108. Only without relaxation term (sigma = 0) and with periodic boundary conditions: for sigma > 0 the energy of C90 exists only if the mean is exactly m, which rounding does not keep (C113)."
  },
  {
   "property": "C115",
   "status": "proved",
   "theorems": [
    "Madg.C115_initial",
    "Madg.C115_initial2",
    "Madg.C115_initial3",
    "Madg.C115_double2",
    "Madg.C115_double3"
   ],
   "note": "C115_initial: the routine on any list of cells; C115_initial2, C115_initial3: the initial field of a run; C115_double2, C115_double3: the assumption of C114 on the initial field, in double precision. That the draws are ordinary and bounded is assumed: the random generator of the C++ library is not modelled."
  }
 ]
}