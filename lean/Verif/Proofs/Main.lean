/-
Helpers for the program from its command line on.
-/
import Verif.Spec.Main
import Verif.Proofs.Settings

namespace Madg
open Spec

theorem setting_typed {files : Text → Option (List (Text × Text))} {cmd : List (Text × Text)} {s : OptState Text OptVal}
    (h : parseInputOptions optTable files freshVars cmd = .ok s) {n : Text} {ty : OptTy} (hn : (rowOf n).map OptRow.ty = some ty) :
    ∃ v, s.vars n = some v ∧ Typed ty v := by
  obtain ⟨r, hr, rfl⟩ := Option.map_eq_some_iff.1 hn
  have hm : r ∈ optRows := List.mem_of_find?_eq_some hr
  have hname : r.name = n := by simpa using List.find?_some hr
  obtain ⟨v, h1, h2, -⟩ := settings_value h hm
  exact ⟨v, hname ▸ h1, h2⟩

section
variable {files : Text → Option (List (Text × Text))} {cmd : List (Text × Text)} {s : OptState Text OptVal}
  (h : parseInputOptions optTable files freshVars cmd = .ok s)
include h

theorem dbl_setting {n : Text} (hn : (rowOf n).map OptRow.ty = some .dbl) : ∃ x : ℚ, s.vars n = some (.dbl x) := by
  obtain ⟨v, h1, h2⟩ := setting_typed h hn
  cases v <;> first | exact absurd h2 id | exact ⟨_, h1⟩

theorem int_setting {n : Text} (hn : (rowOf n).map OptRow.ty = some .int) : ∃ x : Int, s.vars n = some (.int x) := by
  obtain ⟨v, h1, h2⟩ := setting_typed h hn
  cases v <;> first | exact absurd h2 id | exact ⟨_, h1⟩

theorem uint_setting {n : Text} (hn : (rowOf n).map OptRow.ty = some .uint) : ∃ x : Nat, s.vars n = some (.uint x) := by
  obtain ⟨v, h1, h2⟩ := setting_typed h hn
  cases v <;> first | exact absurd h2 id | exact ⟨_, h1⟩

theorem bool_setting {n : Text} (hn : (rowOf n).map OptRow.ty = some .bool) : ∃ x : Bool, s.vars n = some (.bool x) := by
  obtain ⟨v, h1, h2⟩ := setting_typed h hn
  cases v <;> first | exact absurd h2 id | exact ⟨_, h1⟩

theorem str_setting {n : Text} (hn : (rowOf n).map OptRow.ty = some .str) : ∃ x : Text, s.vars n = some (.str x) := by
  obtain ⟨v, h1, h2⟩ := setting_typed h hn
  cases v <;> first | exact absurd h2 id | exact ⟨_, h1⟩

end

section
variable {K : Type} (D : ℚ → K)

/-- The options of the run for given values of the settings. -/
theorem dblSetting_eq {vars : Text → Option OptVal} {n : String} {x : ℚ} (h : vars n.toList = some (.dbl x)) : dblSetting vars n = some x := by
  unfold dblSetting; rw [h]

theorem intSetting_eq {vars : Text → Option OptVal} {n : String} {x : Int} (h : vars n.toList = some (.int x)) : intSetting vars n = some x := by
  unfold intSetting; rw [h]

theorem uintSetting_eq {vars : Text → Option OptVal} {n : String} {x : Nat} (h : vars n.toList = some (.uint x)) : uintSetting vars n = some x := by
  unfold uintSetting; rw [h]

theorem boolSetting_eq {vars : Text → Option OptVal} {n : String} {x : Bool} (h : vars n.toList = some (.bool x)) : boolSetting vars n = some x := by
  unfold boolSetting; rw [h]

theorem strSetting_eq {vars : Text → Option OptVal} {n : String} {x : Text} (h : vars n.toList = some (.str x)) : strSetting vars n = some x := by
  unfold strSetting; rw [h]

theorem dblSetting_congr {vars vars' : Text → Option OptVal} {n : String} (h : vars n.toList = vars' n.toList) :
    dblSetting vars n = dblSetting vars' n := by
  unfold dblSetting; rw [h]

theorem intSetting_congr {vars vars' : Text → Option OptVal} {n : String} (h : vars n.toList = vars' n.toList) :
    intSetting vars n = intSetting vars' n := by
  unfold intSetting; rw [h]

theorem uintSetting_congr {vars vars' : Text → Option OptVal} {n : String} (h : vars n.toList = vars' n.toList) :
    uintSetting vars n = uintSetting vars' n := by
  unfold uintSetting; rw [h]

theorem boolSetting_congr {vars vars' : Text → Option OptVal} {n : String} (h : vars n.toList = vars' n.toList) :
    boolSetting vars n = boolSetting vars' n := by
  unfold boolSetting; rw [h]

theorem strSetting_congr {vars vars' : Text → Option OptVal} {n : String} (h : vars n.toList = vars' n.toList) :
    strSetting vars n = strSetting vars' n := by
  unfold strSetting; rw [h]

theorem runOptsOf_value {vars : Text → Option OptVal} {a0 : ℚ} {a1 : ℚ} {a2 : ℚ} {a3 : ℚ} {a4 : Int} {a5 : Text} {a6 : Text} {a7 : Text} {a8 : Text} {a9 : Text} {a10 : Text} {a11 : ℚ} {a12 : ℚ} {a13 : ℚ} {a14 : Int} {a15 : Int} {a16 : Int} {a17 : ℚ} {a18 : ℚ} {a19 : ℚ} {a20 : ℚ} {a21 : Text} {a22 : Int} {a23 : Int} {a24 : Int} {a25 : Int} {a26 : ℚ} {a27 : ℚ} {a28 : ℚ} {a29 : Bool} {a30 : Nat} {a31 : ℚ} {a32 : ℚ} {a33 : ℚ} {a34 : ℚ} {a35 : ℚ} {a36 : Int} {a37 : Int} {a38 : Text} {a39 : Text}
    (h0 : vars "domain_x_begin".toList = some (.dbl a0))
    (h1 : vars "domain_x_end".toList = some (.dbl a1))
    (h2 : vars "domain_y_begin".toList = some (.dbl a2))
    (h3 : vars "domain_z_begin".toList = some (.dbl a3))
    (h4 : vars "dimension".toList = some (.int a4))
    (h5 : vars "bc_x".toList = some (.str a5))
    (h6 : vars "bc_y".toList = some (.str a6))
    (h7 : vars "bc_z".toList = some (.str a7))
    (h8 : vars "equation_type".toList = some (.str a8))
    (h9 : vars "time_integrator".toList = some (.str a9))
    (h10 : vars "initial_condition_file".toList = some (.str a10))
    (h11 : vars "eps2".toList = some (.dbl a11))
    (h12 : vars "sigma".toList = some (.dbl a12))
    (h13 : vars "m".toList = some (.dbl a13))
    (h14 : vars "mg_levels".toList = some (.int a14))
    (h15 : vars "mg_nsmooth".toList = some (.int a15))
    (h16 : vars "mg_max_cycles".toList = some (.int a16))
    (h17 : vars "mg_rel_tol".toList = some (.dbl a17))
    (h18 : vars "mg_relaxation".toList = some (.dbl a18))
    (h19 : vars "mg_coarse_relaxation".toList = some (.dbl a19))
    (h20 : vars "mg_cfl".toList = some (.dbl a20))
    (h21 : vars "mg_interpolation".toList = some (.str a21))
    (h22 : vars "domain_resolution_x".toList = some (.int a22))
    (h23 : vars "domain_resolution_y".toList = some (.int a23))
    (h24 : vars "domain_resolution_z".toList = some (.int a24))
    (h25 : vars "kernel_variant".toList = some (.int a25))
    (h26 : vars "initial_time".toList = some (.dbl a26))
    (h27 : vars "final_time".toList = some (.dbl a27))
    (h28 : vars "time_step_size".toList = some (.dbl a28))
    (h29 : vars "use_cfl_time_step".toList = some (.bool a29))
    (h30 : vars "max_time_steps".toList = some (.uint a30))
    (h31 : vars "converged_rel_tol".toList = some (.dbl a31))
    (h32 : vars "converged_abs_tol".toList = some (.dbl a32))
    (h33 : vars "time_rel_err_tol".toList = some (.dbl a33))
    (h34 : vars "min_time_step_size".toList = some (.dbl a34))
    (h35 : vars "max_time_step_size".toList = some (.dbl a35))
    (h36 : vars "log_frequency".toList = some (.int a36))
    (h37 : vars "save_every".toList = some (.int a37))
    (h38 : vars "log_file".toList = some (.str a38))
    (h39 : vars "solution_output_file".toList = some (.str a39)) :
    ∃ o, runOptsOf D vars = some o ∧ Configured D (fun n => vars n.toList) o := by
  refine ⟨⟨⟨a4, String.ofList a5, String.ofList a6, String.ofList a7, String.ofList a8, String.ofList a9, decide (a10 ≠ "none".toList)⟩, a22, a23, a24,
        ⟨D a0, D a1, D a2, D a3⟩, a25, ⟨D a11, D a12, D a13⟩,
        D a26, D a27, D a28, a29, a30, D a31, D a32, D a33, D a34, D a35, a36, a37, a38, a39,
        ⟨a14, a15, a16, D a17, D a18, D a19, D a20, String.ofList a21⟩⟩, ?_, ?_⟩
  · unfold runOptsOf selOf boxOf chOf mgOf
    rw [dblSetting_eq h0, dblSetting_eq h1, dblSetting_eq h2, dblSetting_eq h3,
      intSetting_eq h4, strSetting_eq h5, strSetting_eq h6, strSetting_eq h7,
      strSetting_eq h8, strSetting_eq h9, strSetting_eq h10, dblSetting_eq h11,
      dblSetting_eq h12, dblSetting_eq h13, intSetting_eq h14, intSetting_eq h15,
      intSetting_eq h16, dblSetting_eq h17, dblSetting_eq h18, dblSetting_eq h19,
      dblSetting_eq h20, strSetting_eq h21, intSetting_eq h22, intSetting_eq h23,
      intSetting_eq h24, intSetting_eq h25, dblSetting_eq h26, dblSetting_eq h27,
      dblSetting_eq h28, boolSetting_eq h29, uintSetting_eq h30, dblSetting_eq h31,
      dblSetting_eq h32, dblSetting_eq h33, dblSetting_eq h34, dblSetting_eq h35,
      intSetting_eq h36, intSetting_eq h37, strSetting_eq h38, strSetting_eq h39]
    rfl
  · have str : ∀ {n : String} {t : Text}, vars n.toList = some (.str t) → vars n.toList = some (.str (String.ofList t).toList) := fun h => by
      rw [h, String.toList_ofList]
    exact ⟨h4, str h5, str h6, str h7,
      str h8, str h9, h22, h23,
      h24, ⟨_, h0, rfl⟩, ⟨_, h1, rfl⟩, ⟨_, h2, rfl⟩,
      ⟨_, h3, rfl⟩, h25, ⟨_, h11, rfl⟩, ⟨_, h12, rfl⟩,
      ⟨_, h13, rfl⟩, ⟨_, h26, rfl⟩, ⟨_, h27, rfl⟩, ⟨_, h28, rfl⟩,
      h29, h30, ⟨_, h31, rfl⟩, ⟨_, h32, rfl⟩,
      ⟨_, h33, rfl⟩, ⟨_, h34, rfl⟩, ⟨_, h35, rfl⟩, h36,
      h37, h38, h39, h14,
      h15, h16, ⟨_, h17, rfl⟩, ⟨_, h18, rfl⟩,
      ⟨_, h19, rfl⟩, ⟨_, h20, rfl⟩, str h21⟩

theorem runOptsOf_ok {files : Text → Option (List (Text × Text))} {cmd : List (Text × Text)} {s : OptState Text OptVal}
    (h : parseInputOptions optTable files freshVars cmd = .ok s) :
    ∃ o f, runOptsOf D s.vars = some o ∧ s.vars "initial_condition_file".toList = some (.str f) ∧ Configured D (fun n => s.vars n.toList) o := by

  obtain ⟨a0, h0⟩ := dbl_setting h (n := "domain_x_begin".toList) (by decide +kernel)
  obtain ⟨a1, h1⟩ := dbl_setting h (n := "domain_x_end".toList) (by decide +kernel)
  obtain ⟨a2, h2⟩ := dbl_setting h (n := "domain_y_begin".toList) (by decide +kernel)
  obtain ⟨a3, h3⟩ := dbl_setting h (n := "domain_z_begin".toList) (by decide +kernel)
  obtain ⟨a4, h4⟩ := int_setting h (n := "dimension".toList) (by decide +kernel)
  obtain ⟨a5, h5⟩ := str_setting h (n := "bc_x".toList) (by decide +kernel)
  obtain ⟨a6, h6⟩ := str_setting h (n := "bc_y".toList) (by decide +kernel)
  obtain ⟨a7, h7⟩ := str_setting h (n := "bc_z".toList) (by decide +kernel)
  obtain ⟨a8, h8⟩ := str_setting h (n := "equation_type".toList) (by decide +kernel)
  obtain ⟨a9, h9⟩ := str_setting h (n := "time_integrator".toList) (by decide +kernel)
  obtain ⟨a10, h10⟩ := str_setting h (n := "initial_condition_file".toList) (by decide +kernel)
  obtain ⟨a11, h11⟩ := dbl_setting h (n := "eps2".toList) (by decide +kernel)
  obtain ⟨a12, h12⟩ := dbl_setting h (n := "sigma".toList) (by decide +kernel)
  obtain ⟨a13, h13⟩ := dbl_setting h (n := "m".toList) (by decide +kernel)
  obtain ⟨a14, h14⟩ := int_setting h (n := "mg_levels".toList) (by decide +kernel)
  obtain ⟨a15, h15⟩ := int_setting h (n := "mg_nsmooth".toList) (by decide +kernel)
  obtain ⟨a16, h16⟩ := int_setting h (n := "mg_max_cycles".toList) (by decide +kernel)
  obtain ⟨a17, h17⟩ := dbl_setting h (n := "mg_rel_tol".toList) (by decide +kernel)
  obtain ⟨a18, h18⟩ := dbl_setting h (n := "mg_relaxation".toList) (by decide +kernel)
  obtain ⟨a19, h19⟩ := dbl_setting h (n := "mg_coarse_relaxation".toList) (by decide +kernel)
  obtain ⟨a20, h20⟩ := dbl_setting h (n := "mg_cfl".toList) (by decide +kernel)
  obtain ⟨a21, h21⟩ := str_setting h (n := "mg_interpolation".toList) (by decide +kernel)
  obtain ⟨a22, h22⟩ := int_setting h (n := "domain_resolution_x".toList) (by decide +kernel)
  obtain ⟨a23, h23⟩ := int_setting h (n := "domain_resolution_y".toList) (by decide +kernel)
  obtain ⟨a24, h24⟩ := int_setting h (n := "domain_resolution_z".toList) (by decide +kernel)
  obtain ⟨a25, h25⟩ := int_setting h (n := "kernel_variant".toList) (by decide +kernel)
  obtain ⟨a26, h26⟩ := dbl_setting h (n := "initial_time".toList) (by decide +kernel)
  obtain ⟨a27, h27⟩ := dbl_setting h (n := "final_time".toList) (by decide +kernel)
  obtain ⟨a28, h28⟩ := dbl_setting h (n := "time_step_size".toList) (by decide +kernel)
  obtain ⟨a29, h29⟩ := bool_setting h (n := "use_cfl_time_step".toList) (by decide +kernel)
  obtain ⟨a30, h30⟩ := uint_setting h (n := "max_time_steps".toList) (by decide +kernel)
  obtain ⟨a31, h31⟩ := dbl_setting h (n := "converged_rel_tol".toList) (by decide +kernel)
  obtain ⟨a32, h32⟩ := dbl_setting h (n := "converged_abs_tol".toList) (by decide +kernel)
  obtain ⟨a33, h33⟩ := dbl_setting h (n := "time_rel_err_tol".toList) (by decide +kernel)
  obtain ⟨a34, h34⟩ := dbl_setting h (n := "min_time_step_size".toList) (by decide +kernel)
  obtain ⟨a35, h35⟩ := dbl_setting h (n := "max_time_step_size".toList) (by decide +kernel)
  obtain ⟨a36, h36⟩ := int_setting h (n := "log_frequency".toList) (by decide +kernel)
  obtain ⟨a37, h37⟩ := int_setting h (n := "save_every".toList) (by decide +kernel)
  obtain ⟨a38, h38⟩ := str_setting h (n := "log_file".toList) (by decide +kernel)
  obtain ⟨a39, h39⟩ := str_setting h (n := "solution_output_file".toList) (by decide +kernel)
  obtain ⟨o, e1, e2⟩ := runOptsOf_value D h0 h1 h2 h3 h4 h5 h6 h7 h8 h9 h10 h11 h12 h13 h14 h15 h16 h17 h18 h19 h20 h21 h22 h23 h24 h25 h26 h27 h28 h29 h30 h31 h32 h33 h34 h35 h36 h37 h38 h39
  exact ⟨o, _, e1, h10, e2⟩

theorem runOptsOf_congr {vars vars' : Text → Option OptVal} (h : ∀ n : String, rowOf n.toList ≠ none → n.toList ≠ configName → vars n.toList = vars' n.toList) :
    runOptsOf D vars = runOptsOf D vars' := by
  unfold runOptsOf selOf boxOf chOf mgOf
  rw [dblSetting_congr (h "domain_x_begin" (by decide +kernel) (by decide +kernel)), dblSetting_congr (h "domain_x_end" (by decide +kernel) (by decide +kernel)),
      dblSetting_congr (h "domain_y_begin" (by decide +kernel) (by decide +kernel)), dblSetting_congr (h "domain_z_begin" (by decide +kernel) (by decide +kernel)),
      intSetting_congr (h "dimension" (by decide +kernel) (by decide +kernel)), strSetting_congr (h "bc_x" (by decide +kernel) (by decide +kernel)),
      strSetting_congr (h "bc_y" (by decide +kernel) (by decide +kernel)), strSetting_congr (h "bc_z" (by decide +kernel) (by decide +kernel)),
      strSetting_congr (h "equation_type" (by decide +kernel) (by decide +kernel)), strSetting_congr (h "time_integrator" (by decide +kernel) (by decide +kernel)),
      strSetting_congr (h "initial_condition_file" (by decide +kernel) (by decide +kernel)), dblSetting_congr (h "eps2" (by decide +kernel) (by decide +kernel)),
      dblSetting_congr (h "sigma" (by decide +kernel) (by decide +kernel)), dblSetting_congr (h "m" (by decide +kernel) (by decide +kernel)),
      intSetting_congr (h "mg_levels" (by decide +kernel) (by decide +kernel)), intSetting_congr (h "mg_nsmooth" (by decide +kernel) (by decide +kernel)),
      intSetting_congr (h "mg_max_cycles" (by decide +kernel) (by decide +kernel)), dblSetting_congr (h "mg_rel_tol" (by decide +kernel) (by decide +kernel)),
      dblSetting_congr (h "mg_relaxation" (by decide +kernel) (by decide +kernel)), dblSetting_congr (h "mg_coarse_relaxation" (by decide +kernel) (by decide +kernel)),
      dblSetting_congr (h "mg_cfl" (by decide +kernel) (by decide +kernel)), strSetting_congr (h "mg_interpolation" (by decide +kernel) (by decide +kernel)),
      intSetting_congr (h "domain_resolution_x" (by decide +kernel) (by decide +kernel)), intSetting_congr (h "domain_resolution_y" (by decide +kernel) (by decide +kernel)),
      intSetting_congr (h "domain_resolution_z" (by decide +kernel) (by decide +kernel)), intSetting_congr (h "kernel_variant" (by decide +kernel) (by decide +kernel)),
      dblSetting_congr (h "initial_time" (by decide +kernel) (by decide +kernel)), dblSetting_congr (h "final_time" (by decide +kernel) (by decide +kernel)),
      dblSetting_congr (h "time_step_size" (by decide +kernel) (by decide +kernel)), boolSetting_congr (h "use_cfl_time_step" (by decide +kernel) (by decide +kernel)),
      uintSetting_congr (h "max_time_steps" (by decide +kernel) (by decide +kernel)), dblSetting_congr (h "converged_rel_tol" (by decide +kernel) (by decide +kernel)),
      dblSetting_congr (h "converged_abs_tol" (by decide +kernel) (by decide +kernel)), dblSetting_congr (h "time_rel_err_tol" (by decide +kernel) (by decide +kernel)),
      dblSetting_congr (h "min_time_step_size" (by decide +kernel) (by decide +kernel)), dblSetting_congr (h "max_time_step_size" (by decide +kernel) (by decide +kernel)),
      intSetting_congr (h "log_frequency" (by decide +kernel) (by decide +kernel)), intSetting_congr (h "save_every" (by decide +kernel) (by decide +kernel)),
      strSetting_congr (h "log_file" (by decide +kernel) (by decide +kernel)), strSetting_congr (h "solution_output_file" (by decide +kernel) (by decide +kernel))]

end

end Madg
