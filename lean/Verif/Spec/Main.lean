/-
Which option controls what in a run.
-/
import Verif.Model.Main

namespace Madg.Spec
variable {K : Type}

/-- The run described by `o` has the settings `val`, looked up by the names of the options; `D` converts real numbers. -/
structure Configured (D : ℚ → K) (val : String → Option OptVal) (o : RunOpts K) : Prop where
  dimension : val "dimension" = some (.int o.sel.dimension)
  bc_x : val "bc_x" = some (.str o.sel.bcx.toList)
  bc_y : val "bc_y" = some (.str o.sel.bcy.toList)
  bc_z : val "bc_z" = some (.str o.sel.bcz.toList)
  equation : val "equation_type" = some (.str o.sel.equation.toList)
  integrator : val "time_integrator" = some (.str o.sel.integrator.toList)
  resolution_x : val "domain_resolution_x" = some (.int o.nx)
  resolution_y : val "domain_resolution_y" = some (.int o.ny)
  resolution_z : val "domain_resolution_z" = some (.int o.nz)
  x_begin : ∃ x, val "domain_x_begin" = some (.dbl x) ∧ o.box.xbeg = D x
  x_end : ∃ x, val "domain_x_end" = some (.dbl x) ∧ o.box.xend = D x
  y_begin : ∃ x, val "domain_y_begin" = some (.dbl x) ∧ o.box.ybeg = D x
  z_begin : ∃ x, val "domain_z_begin" = some (.dbl x) ∧ o.box.zbeg = D x
  kernel : val "kernel_variant" = some (.int o.variant)
  eps2 : ∃ x, val "eps2" = some (.dbl x) ∧ o.par.eps2 = D x
  sigma : ∃ x, val "sigma" = some (.dbl x) ∧ o.par.sigma = D x
  mean : ∃ x, val "m" = some (.dbl x) ∧ o.par.m = D x
  initial_time : ∃ x, val "initial_time" = some (.dbl x) ∧ o.t0 = D x
  final_time : ∃ x, val "final_time" = some (.dbl x) ∧ o.tfinal = D x
  step_size : ∃ x, val "time_step_size" = some (.dbl x) ∧ o.dt0 = D x
  use_cfl : val "use_cfl_time_step" = some (.bool o.useCfl)
  max_steps : val "max_time_steps" = some (.uint o.maxSteps)
  rel_tol : ∃ x, val "converged_rel_tol" = some (.dbl x) ∧ o.relTol = D x
  abs_tol : ∃ x, val "converged_abs_tol" = some (.dbl x) ∧ o.absTol = D x
  err_tol : ∃ x, val "time_rel_err_tol" = some (.dbl x) ∧ o.errTol = D x
  min_step : ∃ x, val "min_time_step_size" = some (.dbl x) ∧ o.minStep = D x
  max_step : ∃ x, val "max_time_step_size" = some (.dbl x) ∧ o.maxStep = D x
  log_every : val "log_frequency" = some (.int o.logFreq)
  save_every : val "save_every" = some (.int o.saveEvery)
  log_file : val "log_file" = some (.str o.logFile)
  solution_file : val "solution_output_file" = some (.str o.solFile)
  mg_levels : val "mg_levels" = some (.int o.mg.levels)
  mg_smooth : val "mg_nsmooth" = some (.int o.mg.nsmooth)
  mg_cycles : val "mg_max_cycles" = some (.int o.mg.maxCycles)
  mg_tol : ∃ x, val "mg_rel_tol" = some (.dbl x) ∧ o.mg.relTol = D x
  mg_relax : ∃ x, val "mg_relaxation" = some (.dbl x) ∧ o.mg.relax = D x
  mg_coarse : ∃ x, val "mg_coarse_relaxation" = some (.dbl x) ∧ o.mg.coarseRelax = D x
  mg_cfl : ∃ x, val "mg_cfl" = some (.dbl x) ∧ o.mg.cfl = D x
  mg_interp : val "mg_interpolation" = some (.str o.mg.interp.toList)

end Madg.Spec
