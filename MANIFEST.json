{
 "claims": [
  {
   "property": "C01",
   "status": "proved",
   "theorems": [
    "Verif.TimeLoop.C01_time_grid"
   ],
   "note": "Exact rational time; floating-point accumulation of dt is not modelled."
  },
  {
   "property": "C02",
   "status": "proved",
   "theorems": [
    "Verif.TimeLoop.C02_export_schedule",
    "Verif.TimeLoop.C02_coarse_steps"
   ],
   "note": "Exact rational time."
  },
  {
   "property": "C03",
   "status": "partial",
   "theorems": [
    "Verif.TimeLoop.C03_restart",
    "Verif.TimeLoop.C03_missing_stamp_violated",
    "Verif.TimeLoop.C03_nondivisible_violated",
    "Verif.TimeLoop.C03_second_iterate_violated",
    "Verif.TimeLoop.C03_load"
   ],
   "note": "Proved for integer steps per export with stored time stamps; the code violates the claim for missing stamps, non-divisible intervals and a second iterate call (witness theorems)."
  },
  {
   "property": "C04",
   "status": "partial",
   "theorems": [
    "Verif.TimeLoop.C04_end_date_partial",
    "Verif.TimeLoop.C04_end_date_violated",
    "Verif.TimeLoop.C04_end_time_option",
    "Verif.TimeLoop.C04_start_date"
   ],
   "note": "Holds for restart at time zero or with a numeric end time; timedelta(t) counts days, so the claim is violated otherwise (witness)."
  },
  {
   "property": "C05",
   "status": "proved",
   "theorems": [
    "Verif.TimeLoop.C05_time_step_fit",
    "Verif.TimeLoop.C05_missing_step"
   ],
   "note": ""
  },
  {
   "property": "C06",
   "status": "partial",
   "theorems": [
    "Verif.Export.C06_filename_injective",
    "Verif.Export.C06_manager_refines",
    "Verif.Export.C06_nth_export",
    "Verif.Export.C06_failed_export",
    "Verif.Export.C06_vtk_after_reset",
    "Verif.Export.C06_vtk_start_index_violated",
    "Verif.Export.C06_export_as_index"
   ],
   "note": "Checkpoint file names and indices proved; the VTK start index after a restart is violated for the first write (witness)."
  },
  {
   "property": "C07",
   "status": "partial",
   "theorems": [
    "Verif.Export.C07_single_export_partial",
    "Verif.Export.C07_double_export_violated"
   ],
   "note": "Exactly once when no exporter raises TypeError; double export otherwise (witness)."
  },
  {
   "property": "C08",
   "status": "partial",
   "theorems": [
    "Verif.Callback.C08_push",
    "Verif.Callback.C08_file_is_table",
    "Verif.Callback.C08_missing_time_violated"
   ],
   "note": "Table refinement for all push sequences; a push without time leaves a filler row (witness)."
  },
  {
   "property": "C09",
   "status": "proved",
   "theorems": [
    "Verif.Callback.C09_evaluate"
   ],
   "note": ""
  },
  {
   "property": "C10",
   "status": "partial",
   "theorems": [
    "Verif.Callback.C10_window_partial",
    "Verif.Callback.C10_zero_bound_violated",
    "Verif.Callback.C10_skipped_export_violated"
   ],
   "note": "Holds for non-zero bounds; zero bounds are ignored and skipped exports break indexed pushes (witnesses)."
  },
  {
   "property": "C11",
   "status": "proved",
   "theorems": [
    "Verif.Callback.C11_conservation",
    "Verif.Callback.C11_zero_initial",
    "Verif.Callback.C11_overshoot"
   ],
   "note": "Zero initial value raises, as stated by C11_zero_initial."
  },
  {
   "property": "C12",
   "status": "proved",
   "theorems": [
    "Verif.Callback.C12_regroup",
    "Verif.Callback.C12_no_loss",
    "Verif.Callback.C12_names_sorted"
   ],
   "note": ""
  },
  {
   "property": "C13",
   "status": "partial",
   "theorems": [
    "Verif.Callback.C13_restart_3d",
    "Verif.Callback.C13_restart_2d_violated",
    "Verif.Callback.C13_timestep_3d",
    "Verif.Callback.C13_newdir_3d_violated"
   ],
   "note": "3D export callbacks keep rows; 2D restart erases them, 3D timestep callbacks duplicate and a new directory fails (witnesses)."
  },
  {
   "property": "C14",
   "status": "proved",
   "theorems": [
    "Verif.Callback.C14_accumulator",
    "Verif.Turbine.C14_turbine"
   ],
   "note": "Exact arithmetic."
  },
  {
   "property": "C15",
   "status": "partial",
   "theorems": [
    "Verif.Interp.C15_history_independent",
    "Verif.Interp.C15_cache_bound",
    "Verif.Interp.C15_linear",
    "Verif.Interp.C15_last_time_violated",
    "Verif.Interp.C15_scaled"
   ],
   "note": "Proved except at the last stored time, where every query fails (C15_last_time_violated)."
  },
  {
   "property": "C16",
   "status": "proved",
   "theorems": [
    "Verif.Interp.C16_search",
    "Verif.Interp.C16_overlap_needed"
   ],
   "note": "Search tolerance 1e-6 s as in the code; stored times sorted within a file."
  },
  {
   "property": "C17",
   "status": "partial",
   "theorems": [
    "Verif.Interp.C17_lookup_partial",
    "Verif.Interp.C17_precedence_violated"
   ],
   "note": "Some matching variable is returned, error iff none; the claimed precedence is violated (witness)."
  },
  {
   "property": "C18",
   "status": "proved",
   "theorems": [
    "Verif.Interp.C18_daily"
   ],
   "note": "Parsing dates out of file names is not modelled."
  },
  {
   "property": "C19",
   "status": "partial",
   "theorems": [
    "Verif.Interp.C19_linear_exact",
    "Verif.Interp.C19_range",
    "Verif.Interp.C19_inside_iff",
    "Verif.Interp.C19_outside",
    "Verif.Interp.C19_normalised",
    "Verif.Interp.C19_normalize_2d_violated",
    "Verif.Interp.C19_norm_params"
   ],
   "note": "Exactness and range proved in any dimension; normalize=True fails for 2D data (C19_normalize_2d_violated)."
  },
  {
   "property": "C20",
   "status": "proved",
   "theorems": [
    "Verif.RK.C20_butcher_is_textbook",
    "Verif.RK.C20_shuosher_is_textbook",
    "Verif.RK.C20_shuosher_eq_butcher",
    "Verif.RK.C20_conversion_defined",
    "Verif.RK.C20_implicit_conversion",
    "Verif.RK.C20_ssprk33",
    "Verif.RK.C20_run"
   ],
   "note": "Real arithmetic; the 1e-13 chop of coefficients is modelled and excluded by the hypothesis NoTinyEntries, discharged for SSPRK33."
  },
  {
   "property": "C21",
   "status": "partial",
   "theorems": [
    "Verif.RK.C21_forwardEuler",
    "Verif.RK.C21_backwardEuler",
    "Verif.RK.C21_implicitMidpoint",
    "Verif.RK.C21_crankNicolson",
    "Verif.RK.C21_esdirkTrapezoid",
    "Verif.RK.C21_esdirkMidpoint",
    "Verif.RK.C21_erkMidpoint",
    "Verif.RK.C21_dirk22",
    "Verif.RK.C21_dirk23",
    "Verif.RK.C21_dirkLSPUM2",
    "Verif.RK.C21_dirkLPUM2",
    "Verif.RK.C21_erkLSPUM2",
    "Verif.RK.C21_erkLPUM2",
    "Verif.RK.C21_ssprk33",
    "Verif.RK.C21_dirk43",
    "Verif.RK.C21_dirk33_partial",
    "Verif.RK.C21_dirk33_not_exact",
    "Verif.RK.C21_dirk22_doc_weights_wrong",
    "Verif.RK.C21_imex_coupling",
    "Verif.RK.C21_leapfrog_am3",
    "Verif.RK.C21_ssprk22ale"
   ],
   "note": "Order conditions up to order 3 for every shipped tableau over the reals; DIRK33 uses a decimal gamma and satisfies them to 1e-9 only (C21_dirk33_not_exact)."
  },
  {
   "property": "C22",
   "status": "partial",
   "theorems": [
    "Verif.RK.C22_uform_eq_tendency_partial",
    "Verif.RK.C22_nonlinear_violation"
   ],
   "note": "Equal for semi-implicit or linear problems; the tendency form linearises around the previous stage, so fully nonlinear problems differ (C22_nonlinear_violation)."
  },
  {
   "property": "C23",
   "status": "proved",
   "theorems": [
    "Verif.RK.C23_imex_step",
    "Verif.RK.C23_imex_run"
   ],
   "note": "Linear implicit solves through an abstract root finder."
  },
  {
   "property": "C24",
   "status": "proved",
   "theorems": [
    "Verif.RK.C24_backwardEuler",
    "Verif.RK.C24_implicitMidpoint",
    "Verif.RK.C24_crankNicolson",
    "Verif.RK.C24_esdirkTrapezoid",
    "Verif.RK.C24_esdirkMidpoint",
    "Verif.RK.C24_dirk22",
    "Verif.RK.C24_dirk23",
    "Verif.RK.C24_dirk33",
    "Verif.RK.C24_dirkLSPUM2",
    "Verif.RK.C24_dirkLPUM2",
    "Verif.RK.C24_dirk43",
    "Verif.RK.C24_implicitMidpoint_not_strong",
    "Verif.RK.C24_theta"
   ],
   "note": "Every implicit scheme on scalar decay."
  },
  {
   "property": "C25",
   "status": "proved",
   "theorems": [
    "Verif.RK.C25_steady_state",
    "Verif.RK.C25_run",
    "Verif.RK.C25_picard",
    "Verif.RK.C25_energy",
    "Verif.RK.C25_skew",
    "Verif.RK.C25_energy_run",
    "Verif.RK.C25_forward_euler_run"
   ],
   "note": "Nonlinear solver abstracted as a root finder; energy in finite-dimensional inner product spaces."
  },
  {
   "property": "C26",
   "status": "proved",
   "theorems": [
    "Verif.RK.C26_ale_budget",
    "Verif.RK.C26_ale_mass",
    "Verif.RK.C26_ale_constant",
    "Verif.RK.C26_leap_budget",
    "Verif.RK.C26_leap_mass",
    "Verif.RK.C26_leap_constant"
   ],
   "note": "Mass and load operators abstract; the geometric conservation law is a hypothesis, as in the statement."
  },
  {
   "property": "C27",
   "status": "proved",
   "theorems": [
    "Verif.RK.C27_ssp_step",
    "Verif.RK.C27_ssprk33",
    "Verif.RK.C27_erk",
    "Verif.RK.C27_erkLPUM2",
    "Verif.RK.C27_erkLSPUM2"
   ],
   "note": "Also the advertised cfl_coeff of ERKLPUM2 and ERKLSPUM2."
  },
  {
   "property": "C28",
   "status": "partial",
   "theorems": [
    "Verif.RK.C28_shuosher_partial",
    "Verif.RK.C28_dirk_partial",
    "Verif.RK.C28_dirk_uform_partial",
    "Verif.RK.C28_two_level_partial",
    "Verif.RK.C28_moving_mesh_partial",
    "Verif.RK.C28_erk_violation",
    "Verif.RK.C28_imex_violation"
   ],
   "note": "Proved for Shu-Osher, DIRK, theta, forward Euler, ALE and leap-frog integrators; ERKGeneric and IMEX discard every external change (violation theorems)."
  },
  {
   "property": "C29",
   "status": "proved",
   "theorems": [
    "Verif.Coupled.C29_step",
    "Verif.Coupled.C29_error",
    "Verif.Coupled.C29_order_of_tracers",
    "Verif.Coupled.C29_set_dt",
    "Verif.Coupled.C29_set_dt_parts"
   ],
   "note": ""
  },
  {
   "property": "C30",
   "status": "partial",
   "theorems": [
    "Verif.Coupled.C30_no_update_violation",
    "Verif.Coupled.C30_elevation_partial",
    "Verif.Coupled.C30_stages_partial",
    "Verif.Coupled.C30_pressure_partial"
   ],
   "note": "Without free-surface update the integrator cannot be built (C30_no_update_violation); with it the elevation is shown to come from the free surface integrator only."
  },
  {
   "property": "C31",
   "status": "proved",
   "theorems": [
    "Verif.Mode3D.C31_split",
    "Verif.Mode3D.C31_coupling",
    "Verif.Mode3D.C31_export",
    "Verif.Mode3D.C31_mesh_ends",
    "Verif.Mode3D.C31_mesh_ordered",
    "Verif.Mode3D.C31_mesh_column_ordered",
    "Verif.Mode3D.C31_column_depth",
    "Verif.Mode3D.C31_mesh_velocity",
    "Verif.Mode3D.C31_mesh_velocity_rk",
    "Verif.Mode3D.C31_gcl"
   ],
   "note": "One column, exact arithmetic; vertical elements linear discontinuous; projections of the elevation to the continuous space are not modelled."
  },
  {
   "property": "C32",
   "status": "partial",
   "theorems": [
    "Verif.Config.C32_frozen_partial",
    "Verif.Config.C32_no_new_attribute",
    "Verif.Config.C32_unknown_attribute",
    "Verif.Config.C32_constructor",
    "Verif.Config.C32_exception_violated"
   ],
   "note": "Proved whenever no exception leaves a decorated method; after such an exception the object is never frozen again (witness for every body and continuation)."
  },
  {
   "property": "C33",
   "status": "proved",
   "theorems": [
    "Verif.Config.C33_assignment",
    "Verif.Config.C33_always_in_range",
    "Verif.Config.C33_update",
    "Verif.Config.C33_shipped_defaults"
   ],
   "note": "All assignment sequences; traitlets' store-after-validate behaviour is assumed; all shipped validated defaults checked."
  },
  {
   "property": "C34",
   "status": "partial",
   "theorems": [
    "Verif.Config.C34_class_matches_partial",
    "Verif.Config.C34_reselect",
    "Verif.Config.C34_refused",
    "Verif.Config.C34_modify",
    "Verif.Config.C34_update_order_partial",
    "Verif.Config.C34_mismatch_violated",
    "Verif.Config.C34_update_order_violated",
    "Verif.Config.C34_foreign_refused"
   ],
   "note": "Class matches unless a whole options object of another class is assigned; bulk update depends on entry order (both violated by the code, theorems for all declarations)."
  },
  {
   "property": "C35",
   "status": "partial",
   "theorems": [
    "Verif.Config.C35_registry_partial",
    "Verif.Config.C35_refused_partial",
    "Verif.Config.C35_refused_system_violated",
    "Verif.Config.C35_refused_overwrites_violated",
    "Verif.Config.C35_refused_argument_violated",
    "Verif.Config.C35_empty_system_violated"
   ],
   "note": "Successful registrations are consistent except for empty systems; refused system registrations leave traces (witnesses)."
  },
  {
   "property": "C36",
   "status": "partial",
   "theorems": [
    "Verif.Config.C36_all_or_nothing_partial",
    "Verif.Config.C36_steady_state",
    "Verif.Config.C36_partly_supported_violated",
    "Verif.Config.C36_error_iff",
    "Verif.Config.C36_sspimex_violated"
   ],
   "note": "All or nothing for types supported by all or by no component; partly supported types change the shallow water stepper before failing."
  },
  {
   "property": "C37",
   "status": "proved",
   "theorems": [
    "Verif.Forcing.C37_plain",
    "Verif.Forcing.C37_positive",
    "Verif.Forcing.C37_slope",
    "Verif.Forcing.C37_increasing",
    "Verif.Forcing.C37_close",
    "Verif.Forcing.C37_deep_bound",
    "Verif.Forcing.C37_deep_limit",
    "Verif.Forcing.C37_alpha_zero",
    "Verif.Forcing.C37_auto_alpha",
    "Verif.Forcing.C37_auto_alpha_flat",
    "Verif.Dg.C37_weak_form"
   ],
   "note": "Pointwise depth formula and automatic alpha over the reals; interpolation to P1 is nodal. alpha = 0, which the solver accepts, is outside the claim and characterised separately."
  },
  {
   "property": "C38",
   "status": "proved",
   "theorems": [
    "Verif.Forcing.C38_parallel",
    "Verif.Forcing.C38_zero",
    "Verif.Forcing.C38_rotation",
    "Verif.Forcing.C38_odd",
    "Verif.Forcing.C38_magnitude",
    "Verif.Forcing.C38_reference_values",
    "Verif.Forcing.C38_unsupported",
    "Verif.Forcing.C38_set_fields"
   ],
   "note": "All three drag formulas over the reals, for every wind vector."
  },
  {
   "property": "C39",
   "status": "partial",
   "theorems": [
    "Verif.Forcing.C39_elevation",
    "Verif.Forcing.C39_velocity_partial",
    "Verif.Forcing.C39_half_data_violated",
    "Verif.Forcing.C39_empty_set"
   ],
   "note": "Elevation fully proved. Velocity: nodes with both or no components correct; a node with only the first component available keeps it although the error handler writes zero (violation proved), and a process without boundary nodes leaves velocities unchanged."
  },
  {
   "property": "C40",
   "status": "partial",
   "theorems": [
    "Verif.Turbine.C40_segment_partial",
    "Verif.Turbine.C40_outside",
    "Verif.Turbine.C40_range",
    "Verif.Turbine.C40_short_table",
    "Verif.Turbine.C40_last_speed_violated"
   ],
   "note": "Holds except at the last tabulated speed, where the code returns zero (witness)."
  },
  {
   "property": "C41",
   "status": "proved",
   "theorems": [
    "Verif.Turbine.C41_pairs",
    "Verif.Turbine.C41_length",
    "Verif.Turbine.C41_feasible",
    "Verif.Turbine.C41_jacobian"
   ],
   "note": ""
  },
  {
   "property": "C42",
   "status": "proved",
   "theorems": [
    "Verif.Turb.C42_minimum",
    "Verif.Turb.C42_k_kept",
    "Verif.Turb.C42_length_limit",
    "Verif.Turb.C42_psi_limit",
    "Verif.Turb.C42_length_min",
    "Verif.Turb.C42_frequencies",
    "Verif.Turb.C42_init_consistent",
    "Verif.Turb.C42_closure"
   ],
   "note": "Pointwise model with real powers; stability functions are a parameter. The psi limit is proved for n < 0, which all predefined closures use."
  },
  {
   "property": "C43",
   "status": "proved",
   "theorems": [
    "Verif.Turb.C43_tke_positive",
    "Verif.Turb.C43_psi_positive",
    "Verif.Turb.C43_psi_flux",
    "Verif.Turb.C43_step_exists_unique",
    "Verif.Turb.C43_consistent"
   ],
   "note": "Backward Euler step on piecewise constant fields with sources, boundary fluxes and two-point vertical diffusion on any finite mesh. Assumes positive previous values (kept by C42, not by turbulence advection)."
  },
  {
   "property": "C44",
   "status": "partial",
   "theorems": [
    "Verif.Turb.C44_steady_solves",
    "Verif.Turb.C44_steady_positive",
    "Verif.Turb.C44_steady_default",
    "Verif.Turb.C44_cmu0",
    "Verif.Turb.C44_c3_minus",
    "Verif.Turb.C44_kappa_sigma",
    "Verif.Turb.C44_canuto_agree",
    "Verif.Turb.C44_cheng_agree",
    "Verif.Turb.C44_smooth",
    "Verif.Turb.C44_smooth_applies",
    "Verif.Turb.C44_kantha_clayson_violated",
    "Verif.Turb.C44_length_clim"
   ],
   "note": "All identities proved for the selectable functions; for the exported Kantha-Clayson function the steady shear number is negative at the default Richardson number (violation proved). The numerical minimiser in compute_c3_minus is a parameter."
  },
  {
   "property": "C45",
   "status": "partial",
   "theorems": [
    "Verif.Turb.C45_range",
    "Verif.Turb.C45_monotone_partial",
    "Verif.Turb.C45_unstable",
    "Verif.Turb.C45_unstable_violated"
   ],
   "note": "Range and monotonicity on the stable side proved. Unstable stratification uses N2 = 1e-12 instead of 0, so unsheared unstable columns get 1/121 of the maximum viscosity (violation proved)."
  },
  {
   "property": "C46",
   "status": "partial",
   "theorems": [
    "Verif.Sediment.C46_exchange_partial",
    "Verif.Sediment.C46_lagged_depth_violated",
    "Verif.Sediment.C46_nonneg",
    "Verif.Sediment.C46_erosion_threshold",
    "Verif.Sediment.C46_equilibrium",
    "Verif.Sediment.C46_equilibrium_boundary",
    "Verif.Sediment.C46_boundary_conflict",
    "Verif.Sediment.C46_profile_integral",
    "Verif.Sediment.C46_profile_special",
    "Verif.Sediment.C46_limit_inactive",
    "Verif.Sediment.C46_shear_velocity",
    "Verif.Sediment.C46_grain_size",
    "Verif.Sediment.C46_skin_friction",
    "Verif.Sediment.C46_pickup",
    "Verif.Sediment.C46_reference"
   ],
   "note": "Proved when the sediment equation is not depth-integrated, or the depth has not changed within the step; violated otherwise because the Exner source divides by the old depth (C46_lagged_depth_violated). Non-negativity, threshold, equilibrium and the profile integrals are proved for all states."
  },
  {
   "property": "C47",
   "status": "partial",
   "theorems": [
    "Verif.Sediment.C47_inactive",
    "Verif.Sediment.C47_value",
    "Verif.Sediment.C47_downslope_partial",
    "Verif.Sediment.C47_upslope_violated",
    "Verif.Sediment.C47_facets",
    "Verif.Sediment.C47_weak_form"
   ],
   "note": "Down-slope when angle*dt*morfac stays below pi/2; violated beyond, where the cosine changes sign."
  },
  {
   "property": "C48",
   "status": "partial",
   "theorems": [
    "Verif.Sediment.C48_range",
    "Verif.Sediment.C48_ione_integral",
    "Verif.Sediment.C48_itwo_integral",
    "Verif.Sediment.C48_itwo_special",
    "Verif.Sediment.C48_ione_violated",
    "Verif.Sediment.C48_meaning_partial",
    "Verif.Sediment.C48_jump_violated",
    "Verif.Sediment.C48_reference",
    "Verif.Sediment.C48_exponent"
   ],
   "note": "Range and integrals are proved; the special case of the first integral has the wrong sign (C48_ione_violated), so the factor jumps (C48_jump_violated)."
  },
  {
   "property": "C49",
   "status": "proved",
   "theorems": [
    "Verif.Limiter.C49_mean",
    "Verif.Limiter.C49_bounds",
    "Verif.Limiter.C49_unchanged",
    "Verif.Limiter.C49_global",
    "Verif.Limiter.C49_vector",
    "Verif.Limiter.C49_stale_mesh"
   ],
   "note": "scalar and vector fields, 2D and extruded; the firedrake base class is trusted"
  },
  {
   "property": "C50",
   "status": "partial",
   "theorems": [
    "Verif.Detect.C50_bracketing",
    "Verif.Detect.C50_placed_partial",
    "Verif.Detect.C50_kept_partial",
    "Verif.Detect.C50_partition_partial",
    "Verif.Detect.C50_tie_violated",
    "Verif.Detect.C50_empty_process_violated",
    "Verif.Detect.C50_no_detectors_violated"
   ],
   "note": "holds when nearest centres are unique, every process owns a cell and there is a detector; violated in the three other cases"
  },
  {
   "property": "C51",
   "status": "partial",
   "theorems": [
    "Verif.Log.C51_complete",
    "Verif.Log.C51_change",
    "Verif.Log.C51_console",
    "Verif.Log.C51_one_writer",
    "Verif.Log.C51_keep_log_violated",
    "Verif.Log.C51_second_setup_violated",
    "Verif.Log.C51_lost_file_violated",
    "Verif.Log.C51_warning"
   ],
   "note": "complete for the default mode and one logger setup; append mode truncates, a second setup loses or repeats messages"
  },
  {
   "property": "C52",
   "status": "partial",
   "theorems": [
    "Verif.Epoch.C52_zone_independent",
    "Verif.Epoch.C52_order",
    "Verif.Epoch.C52_roundtrip_partial",
    "Verif.Epoch.C52_strict_order_partial",
    "Verif.Epoch.C52_value_partial",
    "Verif.Epoch.C52_fixed_zone",
    "Verif.Epoch.C52_naive",
    "Verif.Epoch.C52_last_date_violated",
    "Verif.Epoch.C52_microsecond_violated"
   ],
   "note": "binary64 rounding: exact to the microsecond within 2^33 s of 1970, violated further away"
  },
  {
   "property": "C53",
   "status": "partial",
   "theorems": [
    "Verif.Coord.C53_matrix",
    "Verif.Coord.C53_isometry",
    "Verif.Coord.C53_linear",
    "Verif.Coord.C53_inverse",
    "Verif.Coord.C53_north",
    "Verif.Coord.C53_conformal",
    "Verif.Coord.C53_pointwise_rotation",
    "Verif.Coord.C53_points_partial",
    "Verif.Coord.C53_shapes",
    "Verif.Coord.C53_integer_violated",
    "Verif.Coord.C53_positive_lon"
   ],
   "note": "rotation over the reals for finite transformations; point transformation for float arrays, violated for integer arrays"
  },
  {
   "property": "C54",
   "status": "partial",
   "theorems": [
    "Verif.Extrude.C54_shape",
    "Verif.Extrude.C54_top",
    "Verif.Extrude.C54_bottom",
    "Verif.Extrude.C54_strict",
    "Verif.Extrude.C54_order_partial",
    "Verif.Extrude.C54_strict_partial",
    "Verif.Extrude.C54_limits",
    "Verif.Extrude.C54_limit_index_violated"
   ],
   "note": "With min_depth the layers are only weakly ordered, and the array index does not match the level: the second level from the top is limited by the entry of the surface. Without min_depth the property is proved in full."
  },
  {
   "property": "C55",
   "status": "partial",
   "theorems": [
    "Verif.Invert.C55_order",
    "Verif.Invert.C55_slices",
    "Verif.Invert.C55_own",
    "Verif.Invert.C55_lengths",
    "Verif.Invert.C55_mismatch_violated",
    "Verif.Invert.C55_tuple_violated",
    "Verif.Invert.C55_values"
   ],
   "note": "The number of masks is not compared with the number of controls, and a mismatch gives the values of one control to the next; masked controls given as a tuple are refused. Otherwise proved for all sequences of add_control and all event sequences."
  },
  {
   "property": "C56",
   "status": "partial",
   "theorems": [
    "Verif.Invert.C56_sum",
    "Verif.Invert.C56_parts",
    "Verif.Invert.C56_rspace",
    "Verif.Invert.C56_prior",
    "Verif.Invert.C56_expr_nonneg",
    "Verif.Invert.C56_regularisation",
    "Verif.Invert.C56_mismatch",
    "Verif.Invert.C56_default_scaling_violated"
   ],
   "note": "ControlRegularizationManager cannot be evaluated with its own default scaling None. The sum, its parts, non-negativity and the zero at the prior are proved."
  },
  {
   "property": "C57",
   "status": "partial",
   "theorems": [
    "Verif.Invert.C57_series",
    "Verif.Invert.C57_series_start",
    "Verif.Invert.C57_start_violated",
    "Verif.Invert.C57_own",
    "Verif.Invert.C57_shared_violated",
    "Verif.Invert.C57_shared_error_violated",
    "Verif.Invert.C57_success"
   ],
   "note": "With exports the start is stored and written twice until the first accepted step; two managers of the same variable store the rows of both."
  },
  {
   "property": "C58",
   "status": "partial",
   "theorems": [
    "Verif.Invert.C58_nearest",
    "Verif.Invert.C58_far",
    "Verif.Invert.C58_own",
    "Verif.Invert.C58_outside",
    "Verif.Invert.C58_duplicate_violated",
    "Verif.Invert.C58_fill_violated",
    "Verif.Invert.C58_vector",
    "Verif.Invert.C58_weight",
    "Verif.Invert.C58_constant_violated"
   ],
   "note": "Stations at the same place both use the observations of the first; a station in use outside its series is compared with zero once any station has a start or end time; constant observations get an infinite weight. Proved for stations at different places."
  },
  {
   "property": "C59",
   "status": "partial",
   "theorems": [
    "Verif.Optim.C59_order",
    "Verif.Optim.C59_nesting",
    "Verif.Optim.C59_pre",
    "Verif.Optim.C59_post",
    "Verif.Optim.C59_eval_post",
    "Verif.Optim.C59_transparent",
    "Verif.Optim.C59_append",
    "Verif.Optim.C59_functional",
    "Verif.Optim.C59_functional_pre_violated",
    "Verif.Optim.C59_controls",
    "Verif.Optim.C59_derivatives"
   ],
   "note": "The functional callback's check for use after an evaluation never fires (C59_functional_pre_violated)."
  },
  {
   "property": "C60",
   "status": "partial",
   "theorems": [
    "Verif.Equation.C60_residual",
    "Verif.Equation.C60_names",
    "Verif.Equation.C60_split",
    "Verif.Equation.C60_all",
    "Verif.Equation.C60_replace",
    "Verif.Equation.C60_accept",
    "Verif.Equation.C60_refuse",
    "Verif.Equation.C60_refused_stays_violated",
    "Verif.Equation.C60_unknown_label_violated"
   ],
   "note": "Residual by label proved for all histories of accepted registrations. Violated in two corners: a term refused for a bad label stays in the equation and makes the next residual raise; an unknown label silently selects nothing."
  },
  {
   "property": "C61",
   "status": "partial",
   "theorems": [
    "Verif.Schur.C61_operator",
    "Verif.Schur.C61_block_solve",
    "Verif.Schur.C61_invertible",
    "Verif.Schur.C61_reports",
    "Verif.Schur.C61_mass_only_violated"
   ],
   "note": "Proved when the (0,0) block is the mass matrix, which is what is inverted; violated when the form has more in that block."
  },
  {
   "property": "C62",
   "status": "proved",
   "theorems": [
    "Verif.Turbine.C62_upwind",
    "Verif.Turbine.C62_no_upwind",
    "Verif.Turbine.C62_betz",
    "Verif.Turbine.C62_power_is_thrust_times_speed",
    "Verif.Turbine.C62_density",
    "Verif.Turbine.C62_support",
    "Verif.Turbine.C62_smooth",
    "Verif.Turbine.C62_peak",
    "Verif.Turbine.C62_count"
   ],
   "note": "Constant thrust, no shear profile; the normalisation constant of the bump integral is not verified."
  },
  {
   "property": "C63",
   "status": "partial",
   "theorems": [
    "Verif.Coupled.C63_all_components_partial",
    "Verif.Coupled.C63_tracer_only_violation",
    "Verif.Coupled.C63_tracer_sediment_rejected",
    "Verif.Coupled.C63_nonhydrostatic_alone",
    "Verif.Coupled.C63_nonhydrostatic_steppers"
   ],
   "note": "tracer_only without tracers still advances shallow water (C63_tracer_only_violation)."
  },
  {
   "property": "C64",
   "status": "proved",
   "theorems": [
    "Verif.Turb.C64_positive",
    "Verif.Turb.C64_inactive"
   ],
   "note": "Proved for Canuto A, Canuto B and Cheng with their published constants."
  },
  {
   "property": "C65",
   "status": "partial",
   "theorems": [
    "Verif.Turb.C65_canuto_gotm",
    "Verif.Turb.C65_cheng_partial",
    "Verif.Turb.C65_cheng_violated"
   ],
   "note": "Canuto form equals the Umlauf-Burchard form. The Cheng class has the wrong sign in one coefficient and a missing term in another (violation proved)."
  },
  {
   "property": "C66",
   "status": "partial",
   "theorems": [
    "Verif.Turb.C66_select_partial",
    "Verif.Turb.C66_kantha_clayson_violated"
   ],
   "note": "The accepted name Kantha-Clayson refers to an undefined class (violation proved)."
  },
  {
   "property": "C67",
   "status": "partial",
   "theorems": [
    "Verif.Sediment.C67_threshold",
    "Verif.Sediment.C67_flow_direction",
    "Verif.Sediment.C67_slope",
    "Verif.Sediment.C67_angle",
    "Verif.Sediment.C67_secondary_value",
    "Verif.Sediment.C67_secondary_neutral",
    "Verif.Sediment.C67_secondary_side",
    "Verif.Sediment.C67_rest_violated",
    "Verif.Sediment.C67_closed",
    "Verif.Sediment.C67_volume"
   ],
   "note": "Everything but the water at rest is proved; at rest the flux is 0/0 (C67_rest_violated)."
  },
  {
   "property": "C68",
   "status": "partial",
   "theorems": [
    "Verif.Sediment.C68_update_partial",
    "Verif.Sediment.C68_history_partial",
    "Verif.Sediment.C68_bedload_only_violated",
    "Verif.Sediment.C68_dstar_check_violated"
   ],
   "note": "Proved unless the velocity correction is on without suspended sediment; that combination (both defaults) raises on every update. The size check only looks at the maximum."
  },
  {
   "property": "C69",
   "status": "partial",
   "theorems": [
    "Verif.Fields.C69_old_value",
    "Verif.Fields.C69_levels",
    "Verif.Fields.C69_steady",
    "Verif.Fields.C69_constant_violated",
    "Verif.Fields.C69_expression_missing",
    "Verif.Fields.C69_source",
    "Verif.Fields.C69_source_expression_violated",
    "Verif.Fields.C69_factor_violated",
    "Verif.Fields.C69_factor",
    "Verif.Fields.C69_source_varying",
    "Verif.Fields.C69_no_velocity"
   ],
   "note": "Proved for Functions, and for Constants that do not change. Violated for Constants that change (documented in the code), for expressions, which are left out of the old level so that a steady source loses its explicit part, and for the number 1 the sediment model passes, which raises."
  },
  {
   "property": "C70",
   "status": "partial",
   "theorems": [
    "Verif.Optim.C70_user_names",
    "Verif.Optim.C70_user_given",
    "Verif.Optim.C70_user_files",
    "Verif.Optim.C70_same_name_violated",
    "Verif.Optim.C70_same_file_violated",
    "Verif.Optim.C70_short_lists_violated",
    "Verif.Optim.C70_controls",
    "Verif.Optim.C70_derivatives",
    "Verif.Optim.C70_single",
    "Verif.Optim.C70_single_vector_violated",
    "Verif.Optim.C70_space",
    "Verif.Optim.C70_stale_violated",
    "Verif.Optim.C70_controls_same_name_violated"
   ],
   "note": "Holds for controls with distinct names in unchanged spaces and number; fails for equal names, a single vector control, short name lists, and a changing number of controls."
  },
  {
   "property": "C71",
   "status": "partial",
   "theorems": [
    "Verif.Optim.C71_independent",
    "Verif.Optim.C71_called",
    "Verif.Optim.C71_shared_default_violated",
    "Verif.Optim.C71_shared_later_violated"
   ],
   "note": "Holds for managers with dictionaries of their own; managers made without the argument share the default dictionary."
  },
  {
   "property": "C72",
   "status": "partial",
   "theorems": [
    "Verif.Tracer2.C72_residual",
    "Verif.Tracer2.C72_constant",
    "Verif.Tracer2.C72_matching",
    "Verif.Tracer2.C72_continuous",
    "Verif.Tracer2.C72_no_velocity",
    "Verif.Tracer2.C72_inflow_violated",
    "Verif.Tracer2.C72_continuous_residual",
    "Verif.Tracer2.C72_continuous_violated"
   ],
   "note": "Uniform tracers are steady for all velocities and test functions unless a boundary prescribes a velocity that differs from the interior one: then the form is half the difference times the tracer (C72_residual, C72_inflow_violated). For continuous tracer elements the normal velocity must be continuous as well; with discontinuous velocities the uniform tracer changes (C72_continuous_residual, C72_continuous_violated)."
  },
  {
   "property": "C73",
   "status": "partial",
   "theorems": [
    "Verif.Tracer2.C73_identity",
    "Verif.Tracer2.C73_bound",
    "Verif.Tracer2.C73_decay",
    "Verif.Tracer2.C73_strict",
    "Verif.Tracer2.C73_open_inflow_violated"
   ],
   "note": "Exact identity for velocities with continuous normal component and boundaries without prescribed velocity; bound, decay and strict decay follow. Inflow through a boundary without an entry creates variance (C73_open_inflow_violated)."
  },
  {
   "property": "C74",
   "status": "partial",
   "theorems": [
    "Verif.Tracer2.C74_local",
    "Verif.Tracer2.C74_mass",
    "Verif.Tracer2.C74_closed",
    "Verif.Tracer2.C74_no_conditions",
    "Verif.Tracer2.C74_prescribed",
    "Verif.Tracer2.C74_prescribed_flux",
    "Verif.Tracer2.C74_source",
    "Verif.Tracer2.C74_source_sign",
    "Verif.Tracer2.C74_outflow_violated"
   ],
   "note": "Single-valued facet fluxes and total budget for all fields. A boundary that prescribes an outgoing velocity lets out the interior product, which is zero for water at rest inside (C74_outflow_violated)."
  },
  {
   "property": "C75",
   "status": "proved",
   "theorems": [
    "Verif.Tracer2.C75_none",
    "Verif.Tracer2.C75_constant",
    "Verif.Tracer2.C75_local",
    "Verif.Tracer2.C75_mass",
    "Verif.Tracer2.C75_symmetric",
    "Verif.Tracer2.C75_dissipation",
    "Verif.Tracer2.C75_trace_linear",
    "Verif.Tracer2.C75_linear_triangles",
    "Verif.Tracer2.C75_penalty_needed",
    "Verif.Tracer2.C75_boundary"
   ],
   "note": "Dissipation needs a trace bound as hypothesis in general (C75_dissipation); it is proved for linear tracers and cellwise constant diffusivity (C75_trace_linear), where a penalty factor of one half suffices on triangles."
  },
  {
   "property": "C76",
   "status": "partial",
   "theorems": [
    "Verif.Swe.C76_local",
    "Verif.Swe.C76_total",
    "Verif.Swe.C76_closed",
    "Verif.Swe.C76_conserved",
    "Verif.Swe.C76_mass",
    "Verif.Swe.C76_mass_linear",
    "Verif.Swe.C76_open",
    "Verif.Swe.C76_flux",
    "Verif.Swe.C76_flux_half",
    "Verif.Swe.C76_continuous",
    "Verif.Swe.C76_flux_violated",
    "Verif.Swe.C76_callback_violated"
   ],
   "note": "Budget proved for all fields and wetting-drying. A prescribed flux passes only by half when the water inside is at rest (C76_flux_violated); the volume2d check is not the conserved quantity with wetting and drying (C76_callback_violated)."
  },
  {
   "property": "C77",
   "status": "proved",
   "theorems": [
    "Verif.Swe.C77_pressure",
    "Verif.Swe.C77_viscosity",
    "Verif.Swe.C77_advection",
    "Verif.Swe.C77_rest",
    "Verif.Swe.C77_slope",
    "Verif.Swe.C77_barometer"
   ],
   "note": "Includes slope and barometer statements."
  },
  {
   "property": "C78",
   "status": "partial",
   "theorems": [
    "Verif.Swe.C78_general",
    "Verif.Swe.C78_identity",
    "Verif.Swe.C78_bound",
    "Verif.Swe.C78_dgcg",
    "Verif.Swe.C78_elev_head",
    "Verif.Swe.C78_un_head",
    "Verif.Swe.C78_elev_flux",
    "Verif.Swe.C78_open_violated"
   ],
   "note": "Closed boundaries and the linear equations for discontinuous elements, any depth for the mixed continuous elevation element. A boundary that holds the elevation at zero can add energy (C78_open_violated)."
  },
  {
   "property": "C79",
   "status": "proved",
   "theorems": [
    "Verif.Swe.C79_coriolis_force",
    "Verif.Swe.C79_coriolis",
    "Verif.Swe.C79_quadratic",
    "Verif.Swe.C79_linear",
    "Verif.Swe.C79_boundary_force",
    "Verif.Swe.C79_boundary",
    "Verif.Swe.C79_turbine",
    "Verif.Swe.C79_dissipation",
    "Verif.Swe.C79_stresses",
    "Verif.Swe.C79_sources",
    "Verif.Swe.C79_bottom",
    "Verif.Swe.C79_coefficient",
    "Verif.Swe.C79_coefficient_nonneg"
   ],
   "note": "Depth positive where the terms divide by it."
  },
  {
   "property": "C80",
   "status": "proved",
   "theorems": [
    "Verif.Swe.C80_uniform_general",
    "Verif.Swe.C80_uniform",
    "Verif.Swe.C80_identity",
    "Verif.Swe.C80_energy",
    "Verif.Swe.C80_open",
    "Verif.Swe.C80_open_energy"
   ],
   "note": "C80_energy takes a carrying flow without divergence and normal jumps and closed boundaries."
  },
  {
   "property": "C81",
   "status": "partial",
   "theorems": [
    "Verif.Swe.C81_closed",
    "Verif.Swe.C81_open",
    "Verif.Swe.C81_error",
    "Verif.Swe.C81_order_violated",
    "Verif.Swe.C81_defined",
    "Verif.Swe.C81_values",
    "Verif.Swe.C81_conflict_violated",
    "Verif.Swe.C81_viscosity"
   ],
   "note": "Classification and values proved for all dictionaries. Unknown keys after an open key are silently accepted (C81_order_violated); with both un and uv the viscosity term uses the other velocity (C81_conflict_violated)."
  },
  {
   "property": "C82",
   "status": "partial",
   "theorems": [
    "Verif.Swe.C82_none",
    "Verif.Swe.C82_unstressed",
    "Verif.Swe.C82_local",
    "Verif.Swe.C82_momentum",
    "Verif.Swe.C82_symmetric",
    "Verif.Swe.C82_dissipation",
    "Verif.Swe.C82_noslip",
    "Verif.Swe.C82_trace_linear",
    "Verif.Swe.C82_linear_triangles",
    "Verif.Swe.C82_trace_linearB",
    "Verif.Swe.C82_noslip_triangles",
    "Verif.Swe.C82_depth",
    "Verif.Swe.C82_depth_violated"
   ],
   "note": "Proved with the symmetric stress, and without the depth gradient term for both stresses. With the default options (no symmetric stress, depth gradient term on) the momentum of the water column is not conserved: the code contracts the wrong index (C82_depth_violated)."
  },
  {
   "property": "C83",
   "status": "partial",
   "theorems": [
    "Verif.Swe.C83_consistent",
    "Verif.Swe.C83_violated"
   ],
   "note": "Proved for fields continuous across facets and boundaries without normal flow. With jumps of the surface the two equations use different facet fluxes (C83_violated)."
  },
  {
   "property": "C84",
   "status": "partial",
   "theorems": [
    "Verif.Morph.C84_budget",
    "Verif.Morph.C84_defect_bound",
    "Verif.Morph.C84_conserved_partial",
    "Verif.Morph.C84_depth_violated",
    "Verif.Morph.C84_still_partial",
    "Verif.Morph.C84_displaced_violated",
    "Verif.Morph.C84_drag_wall_violated",
    "Verif.Morph.C84_drag_open_violated",
    "Verif.Morph.C84_bed",
    "Verif.Morph.C84_slide"
   ],
   "note": "The budget is proved with its defect: for depth-integrated sediment the deposition is divided by the depth before the step in the water and by the depth after the step in the bed (C84_depth_violated: water loses a quarter, bed gains a half). For concentrations the exchange matches in still water of uniform depth, but the content changes when the rising bed displaces water (C84_displaced_violated). A boundary with only a drag coefficient is a wall for water but open for bedload, and an open boundary with zero drag is closed for bedload."
  },
  {
   "property": "C85",
   "status": "partial",
   "theorems": [
    "Verif.Ext.C85_cells",
    "Verif.Ext.C85_columns",
    "Verif.Ext.C85_closed",
    "Verif.Ext.C85_consistent",
    "Verif.Ext.C85_rest",
    "Verif.Ext.C85_linear",
    "Verif.Ext.C85_stretch",
    "Verif.Ext.C85_unique"
   ],
   "note": "Proved for the weak form: cell, column and basin budgets, consistency, linearity, independence of the matrix from vertical stretching. Uniqueness is proved for linear elements in a water column given by layer values. The linear solver is not modelled."
  },
  {
   "property": "C86",
   "status": "partial",
   "theorems": [
    "Verif.Tracer3.C86_advection",
    "Verif.Tracer3.C86_diffusion",
    "Verif.Tracer3.C86_mesh",
    "Verif.Tracer3.C86_uniform",
    "Verif.Tracer3.C86_fixed",
    "Verif.Tracer3.C86_split",
    "Verif.Tracer3.C86_missing_condition_violated",
    "Verif.Tracer3.C86_flux_violated"
   ],
   "note": "Proved for all test functions for which the vertical velocity equation holds. Violated where the momentum boundary is open and the tracer has no condition, and a flux condition raises an error."
  },
  {
   "property": "C87",
   "status": "partial",
   "theorems": [
    "Verif.Tracer3.C87_mass",
    "Verif.Tracer3.C87_conserved",
    "Verif.Tracer3.C87_identity",
    "Verif.Tracer3.C87_variance"
   ],
   "note": "Mass budget proved without further conditions; the variance needs the vertical velocity equation tested with the square of the tracer, which the discrete solution satisfies for piecewise constant tracers or exact flows."
  },
  {
   "property": "C88",
   "status": "partial",
   "theorems": [
    "Verif.Tracer3.C88_symmetric",
    "Verif.Tracer3.C88_columns",
    "Verif.Tracer3.C88_consistent",
    "Verif.Tracer3.C88_dissipation",
    "Verif.Tracer3.C88_mass_partial",
    "Verif.Tracer3.C88_horizontal_partial",
    "Verif.Tracer3.C88_horizontal_consistent",
    "Verif.Tracer3.C88_variance_partial",
    "Verif.Tracer3.C88_mass_violated"
   ],
   "note": "Vertical diffusion: all parts, with a trace bound as hypothesis for the inequality. Horizontal diffusion: conservation and decay over level bottom and surface; over a slope the bottom term creates mass (violated)."
  },
  {
   "property": "C89",
   "status": "partial",
   "theorems": [
    "Verif.Mom3.C89_uniform",
    "Verif.Mom3.C89_momentum",
    "Verif.Mom3.C89_energy",
    "Verif.Mom3.C89_dissipation",
    "Verif.Mom3.C89_outside"
   ],
   "note": "Proved for test functions (and their products with the velocity) for which the vertical velocity equation holds; explicit evaluation, that is solution equal to solution_old. The time discretisation is not covered."
  },
  {
   "property": "C90",
   "status": "partial",
   "theorems": [
    "Verif.Mom3.C90_vertical",
    "Verif.Mom3.C90_columns",
    "Verif.Mom3.C90_deviation",
    "Verif.Mom3.C90_horizontal_partial",
    "Verif.Mom3.C90_stress",
    "Verif.Mom3.C90_uniform",
    "Verif.Mom3.C90_friction",
    "Verif.Mom3.C90_drag",
    "Verif.Mom3.C90_coriolis",
    "Verif.Mom3.C90_wind",
    "Verif.Mom3.C90_source",
    "Verif.Mom3.C90_roughness",
    "Verif.Mom3.C90_roughness_violated",
    "Verif.Mom3.C90_fit_violated",
    "Verif.Mom3.C90_coriolis_right"
   ],
   "note": "Energy statements with a trace bound as hypothesis; horizontal viscosity where the stress on surface and bottom is zero. The drag coefficient is positive for elements higher than three roughness lengths; between two and three it divides by zero (violated), because the fit to the logarithmic profile lacks a term."
  },
  {
   "property": "C91",
   "status": "partial",
   "theorems": [
    "Verif.Mom3.C91_identity",
    "Verif.Mom3.C91_consistent",
    "Verif.Mom3.C91_total",
    "Verif.Mom3.C91_force",
    "Verif.Mom3.C91_scalar",
    "Verif.Mom3.C91_head_violated"
   ],
   "note": "Proved for exact quadrature. Violated: an entry with only baroc_head is read by the pressure gradient but makes the advection term raise an error."
  },
  {
   "property": "C92",
   "status": "partial",
   "theorems": [
    "Verif.Column.C92_exact",
    "Verif.Column.C92_total",
    "Verif.Column.C92_stable",
    "Verif.Column.C92_unique",
    "Verif.Column.C92_boundary_violated",
    "Verif.Column.C92_average",
    "Verif.Column.C92_head",
    "Verif.Column.C92_stretch"
   ],
   "note": "Proved for exact quadrature and vertical sides. Uniqueness in the discontinuous case. Violated: a nonzero bnd_value enters with the wrong sign, so that the integral starts at minus the value."
  },
  {
   "property": "C93",
   "status": "partial",
   "theorems": [
    "Verif.Eos.C93_defined",
    "Verif.Eos.C93_reference",
    "Verif.Eos.C93_negative",
    "Verif.Eos.C93_saltier",
    "Verif.Eos.C93_range",
    "Verif.Eos.C93_warmer",
    "Verif.Eos.C93_check",
    "Verif.Eos.C93_fresh",
    "Verif.Eos.C93_linear",
    "Verif.Eos.C93_linear_monotone",
    "Verif.Eos.C93_agree",
    "Verif.Eos.C93_positive",
    "Verif.Eos.C93_salt_violated"
   ],
   "note": "Proved for real arithmetic; monotonicity at zero pressure, which is what the solvers pass. Violated: with use_quadratic_density computing the density sets negative salinities of the state to zero and so adds salt, also with the linear equation of state."
  },
  {
   "property": "C94",
   "status": "partial",
   "theorems": [
    "Verif.Smag.C94_gradient",
    "Verif.Smag.C94_level",
    "Verif.Smag.C94_slope_violated",
    "Verif.Smag.C94_deviation_violated",
    "Verif.Smag.C94_turn",
    "Verif.Smag.C94_zero",
    "Verif.Smag.C94_shear",
    "Verif.Smag.C94_clip",
    "Verif.Smag.C94_stable"
   ],
   "note": "Proved for exact quadrature; the projection to the nodes is not modelled, the bounds hold for the nodal values after it. Violated twice: the weak gradient lacks the facets between layers, the surface and the bottom, so a uniform flow over a slope gets a viscosity; and the solver passes the deviation from the depth average, so a flow that is the same at all depths gets none."
  },
  {
   "property": "C95",
   "status": "partial",
   "theorems": [
    "Verif.Layers.C95_dg_above",
    "Verif.Layers.C95_dg_joined",
    "Verif.Layers.C95_cg_above",
    "Verif.Layers.C95_cg_joined",
    "Verif.Layers.C95_expand",
    "Verif.Layers.C95_extract",
    "Verif.Layers.C95_roundtrip",
    "Verif.Layers.C95_degree_zero_violated"
   ],
   "note": "Proved for vertical elements with at least two nodes; the rescaling of HDiv spaces is not modelled. Violated for degree zero in the vertical: the top facet mask points one node too far, so extraction from the top reads outside the element."
  },
  {
   "property": "C96",
   "status": "partial",
   "theorems": [
    "Verif.Split.C96_budget",
    "Verif.Split.C96_implicit",
    "Verif.Split.C96_average",
    "Verif.Split.C96_average_violated",
    "Verif.Split.C96_total",
    "Verif.Split.C96_steady",
    "Verif.Split.C96_leapfrog",
    "Verif.Split.C96_leapfrog_implicit",
    "Verif.Split.C96_leapfrog_violated",
    "Verif.Split.C96_leapfrog_shear"
   ],
   "note": "Proved for SSPRK22 on a fixed mesh (one component, one column, arbitrary tendencies). Violated for LeapFrog: the coupling term is computed from the prediction, which covers 5/6 of a step, and that of the correction is overwritten, so explicit 3D forces act on the depth averaged flow with 5/6 of their strength. Violated for both with implicit vertical diffusion: after the implicit step the depth average of the full velocity differs from uv_2d by the impulse of friction and wind."
  },
  {
   "property": "C97",
   "status": "partial",
   "theorems": [
    "Verif.Layers.C97_straight",
    "Verif.Layers.C97_sound",
    "Verif.Layers.C97_level",
    "Verif.Layers.C97_level_violated",
    "Verif.Layers.C97_shift"
   ],
   "note": "The last clause is proved for elements of uniform height and violated for others: under a flat surface the metric can be 2 although the facets are far apart."
  },
  {
   "property": "C98",
   "status": "partial",
   "theorems": [
    "Verif.Alloc.C98_once",
    "Verif.Alloc.C98_refused",
    "Verif.Alloc.C98_full_velocity",
    "Verif.Alloc.C98_tracer",
    "Verif.Alloc.C98_turbulence",
    "Verif.Alloc.C98_turbulence_violated",
    "Verif.Alloc.C98_updates",
    "Verif.Alloc.C98_updates_violated",
    "Verif.Alloc.C98_updates_leapfrog",
    "Verif.Alloc.C98_density",
    "Verif.Alloc.C98_density_violated"
   ],
   "note": "Proved for momentum, salinity and temperature. Violated for the gls closure with explicit vertical diffusion (it is handed the viscosity of the missing implicit part and fails), for LeapFrog with explicit vertical diffusion (turbulence is never updated), for the documented argument update_forcings3d of LeapFrog (never called) and for quadratic density without quadratic pressure (the space does not exist)."
  },
  {
   "property": "C99",
   "status": "partial",
   "theorems": [
    "Verif.Geo.C99_unique",
    "Verif.Geo.C99_uniform",
    "Verif.Geo.C99_mean",
    "Verif.Geo.C99_corner",
    "Verif.Geo.C99_negative_violated",
    "Verif.Geo.C99_min_angle",
    "Verif.Geo.C99_widths",
    "Verif.Geo.C99_alpha",
    "Verif.Geo.C99_cap",
    "Verif.Geo.C99_alpha_extrema",
    "Verif.Geo.C99_alpha_order_violated",
    "Verif.Geo.C99_aniso",
    "Verif.Geo.C99_aniso_eps",
    "Verif.Geo.C99_aniso_small_violated",
    "Verif.Geo.C99_area"
   ],
   "note": "Minimum angle, widths, parameter per cell, stretching and the size on meshes of equal cells are proved. Violated: the element size is a projection and is negative at the tip of a small cell next to a cell 16 times as large; the wetting and drying parameter at a vertex is that of the cell visited last, so it can be zero at a steep cell; the anisotropic size is NaN for cells of area below 3.7e-9."
  },
  {
   "property": "C100",
   "status": "partial",
   "theorems": [
    "Verif.Geo.C100_limits_partial",
    "Verif.Geo.C100_processes",
    "Verif.Geo.C100_processes_violated",
    "Verif.Geo.C100_degree",
    "Verif.Geo.C100_vertical_degree_violated",
    "Verif.Geo.C100_layers_violated",
    "Verif.Geo.C100_uniform_depth",
    "Verif.Geo.C100_uniform",
    "Verif.Geo.C100_negative_violated",
    "Verif.Geo.C100_negative3_violated",
    "Verif.Geo.C100_families",
    "Verif.Geo.C100_vertical_factor"
   ],
   "note": "Proved for positive element sizes. Violated: the vertical factor grows with the polynomial degree; only the top layer enters the vertical limit; the projected element size can be negative (C99), and then the 2D step is negative and the 3D step negative or not defined; a process without nodes fails."
  },
  {
   "property": "C101",
   "status": "proved",
   "theorems": [
    "Verif.Geo.C101_accuracy",
    "Verif.Geo.C101_mirror",
    "Verif.Geo.C101_north"
   ],
   "note": "Error at most Omega ((y - y_offset)/R)^2 against the sphere of radius R = 6371 km."
  },
  {
   "property": "C102",
   "status": "partial",
   "theorems": [
    "Verif.NonHyd.C102_continuity",
    "Verif.NonHyd.C102_level",
    "Verif.NonHyd.C102_unique",
    "Verif.NonHyd.C102_idle",
    "Verif.NonHyd.C102_energy",
    "Verif.NonHyd.C102_slope_violated",
    "Verif.NonHyd.C102_open_violated"
   ],
   "note": "Proved: weak continuity with the bottom velocity of the flow before the correction, exact over flat beds; uniqueness and energy decay in uniform depth; consistent flows are left alone. Violated over sloping beds (the corrected flow has another bottom velocity than the one in the equation, the terms with the bed slope are missing) and at open boundaries (the Dirichlet conditions are collected but not handed to the solver)."
  },
  {
   "property": "C103",
   "status": "proved",
   "theorems": [
    "Verif.Diag.C103_vorticity",
    "Verif.Diag.C103_vorticity_exact",
    "Verif.Diag.C103_circulation",
    "Verif.Diag.C103_gradient_exact",
    "Verif.Diag.C103_gradient",
    "Verif.Diag.C103_hessian",
    "Verif.Diag.C103_hessian_exact",
    "Verif.Diag.C103_gradient_jumps"
   ],
   "note": "Proved for continuous fields on meshes whose quadrature satisfies the divergence theorem for the products involved; the circulation needs constants in the test space."
  },
  {
   "property": "C104",
   "status": "partial",
   "theorems": [
    "Verif.Diag.C104_indicator",
    "Verif.Diag.C104_sum",
    "Verif.Diag.C104_sum_cells",
    "Verif.Diag.C104_sum_violated",
    "Verif.Diag.C104_orthogonal",
    "Verif.Diag.C104_accepted",
    "Verif.Diag.C104_mesh_violated"
   ],
   "note": "Proved: the indicator of a cell is the sum of the integrals over the cell and its facets, exact sum for functionals without interior facets, accepted arguments. Violated: interior facets are counted for both cells, so the sum is the functional plus its facet part and all indicators can vanish for a functional that does not; another mesh raises NameError."
  },
  {
   "property": "C105",
   "status": "partial",
   "theorems": [
    "Verif.Diag.C105_interpolated",
    "Verif.Diag.C105_horizontal",
    "Verif.Diag.C105_total",
    "Verif.Diag.C105_negative_violated"
   ],
   "note": "Proved for interpolation; the total for projection. Violated: projected kinetic energy can be negative."
  },
  {
   "property": "C106",
   "status": "partial",
   "theorems": [
    "Verif.Picard.C106_step",
    "Verif.Picard.C106_theta",
    "Verif.Picard.C106_converged",
    "Verif.Picard.C106_elevation",
    "Verif.Picard.C106_linear",
    "Verif.Picard.C106_volume",
    "Verif.Picard.C106_rest",
    "Verif.Picard.C106_source_violated",
    "Verif.Picard.C106_drying_violated",
    "Verif.Picard.C106_pressure_options_violated",
    "Verif.Picard.C106_momentum_options",
    "Verif.Picard.C106_pressure_solver"
   ],
   "note": "Proved: each iteration is the linearised theta scheme up to the explicit (viscous) terms, which are taken at the velocity of the momentum solve; convergence gives the theta scheme; linear waves need one iteration; volume and rest without wetting and drying. Violated: volume sources are labelled source and the wave system has the implicit terms only, so they have no effect; with wetting and drying the mass term has the displacement for the new elevation but not for the old one, so water at rest loses volume in every step; solver_parameters_pressure is only read for a check and never given to the pressure solver."
  },
  {
   "property": "C107",
   "status": "partial",
   "theorems": [
    "Verif.Picard.C107_fields",
    "Verif.Picard.C107_constants_violated",
    "Verif.Picard.C107_run",
    "Verif.Picard.C107_euler",
    "Verif.Picard.C107_euler_violated",
    "Verif.Picard.C107_steady",
    "Verif.Picard.C107_steady_time"
   ],
   "note": "Proved for forcings held in Functions. Violated for Constants in the fields and for all boundary values: no old copy is kept, both residuals use the value at the new time, and the scheme is first order in them."
  },
  {
   "property": "C108",
   "status": "partial",
   "theorems": [
    "Verif.Probe.C108_names",
    "Verif.Probe.C108_files",
    "Verif.Probe.C108_files_violated",
    "Verif.Probe.C108_fields_violated",
    "Verif.Probe.C108_created",
    "Verif.Probe.C108_station",
    "Verif.Probe.C108_station_violated",
    "Verif.Probe.C108_attribute_violated",
    "Verif.Probe.C108_profile",
    "Verif.Probe.C108_profile_violated",
    "Verif.Probe.C108_transect",
    "Verif.Probe.C108_transect_ends",
    "Verif.Probe.C108_limit_violated",
    "Verif.Probe.C108_layout",
    "Verif.Probe.C108_broadcast",
    "Verif.Probe.C108_variables"
   ],
   "note": "Proved: names determine locations and short field names; files without blanks in names; positions in water deeper than the nudges; layout of transects. Violated: blanks and underscores in names give the same file; fields with the same short name give the same name and no file; a station moved from below the bed is reported at its first position and is above the surface where the water is less than 0.1 deep; profiles leave water shallower than 0.01; forced limits above the surface or below the bed are not checked."
  },
  {
   "property": "C109",
   "status": "partial",
   "theorems": [
    "Verif.Source.C109_ends",
    "Verif.Source.C109_monotone",
    "Verif.Source.C109_layer",
    "Verif.Source.C109_displacement",
    "Verif.Source.C109_constant",
    "Verif.Source.C109_zero_violated",
    "Verif.Source.C109_dry_violated"
   ],
   "note": "Proved for every column with water and the bed below the datum. Violated: constant_zeta=0 is ignored; where the bed is higher than 0.1 m the levels are upside down."
  },
  {
   "property": "C110",
   "status": "partial",
   "theorems": [
    "Verif.Source.C110_support",
    "Verif.Source.C110_minimal",
    "Verif.Source.C110_once",
    "Verif.Source.C110_box",
    "Verif.Source.C110_box_valid",
    "Verif.Source.C110_generic",
    "Verif.Source.C110_roms",
    "Verif.Source.C110_faces_violated",
    "Verif.Source.C110_ncom",
    "Verif.Source.C110_mask_violated",
    "Verif.Source.C110_ncom_valid",
    "Verif.Source.C110_ncom_nearest",
    "Verif.Source.C110_ncom_partition",
    "Verif.Source.C110_ncom_cell",
    "Verif.Source.C110_ncom_nonempty",
    "Verif.Source.C110_land_violated",
    "Verif.Source.C110_partition_violated",
    "Verif.Source.C110_outside_violated",
    "Verif.Source.C110_ncom_coarse_violated",
    "Verif.Source.C110_latlon",
    "Verif.Source.C110_latlon_2d",
    "Verif.Source.C110_mixed_violated"
   ],
   "note": "Proved: pairing of points and data in all readers, the triangles of targets on the grid are read, NCOM fills from the nearest node with data whatever the partition. Violated: other readers fill from the nodes read for this process (last triangle for targets outside; an error or another value next to land, depending on the partition), variables on faces of ROMS layers are read without error at wrong heights, masks of later variables are ignored, NCOM grids coarser than 0.2 degrees are not interpolated, one-dimensional latitudes with two-dimensional longitudes are accepted."
  },
  {
   "property": "C111",
   "status": "partial",
   "theorems": [
    "Verif.Source.C111_generic",
    "Verif.Source.C111_generic_scalar",
    "Verif.Source.C111_ncom",
    "Verif.Source.C111_single_violated",
    "Verif.Source.C111_ncom_grid",
    "Verif.Source.C111_duration",
    "Verif.Source.C111_duration_span",
    "Verif.Source.C111_duration_continues",
    "Verif.Source.C111_all",
    "Verif.Source.C111_irregular_violated",
    "Verif.Source.C111_short_violated"
   ],
   "note": "Proved for two components and distinct names, and for regular time stamps. Violated: one NCOM velocity component alone is not rotated; irregular time stamps are cut by their mean interval; a single time stamp or a duration below the interval cannot be read."
  },
  {
   "property": "C112",
   "status": "partial",
   "theorems": [
    "Verif.Supg.C112_tau",
    "Verif.Supg.C112_switch",
    "Verif.Supg.C112_peclet_violated",
    "Verif.Supg.C112_units",
    "Verif.Supg.C112_units_violated",
    "Verif.Supg.C112_off",
    "Verif.Supg.C112_value",
    "Verif.Supg.C112_conserves",
    "Verif.Supg.C112_constant",
    "Verif.Supg.C112_steady",
    "Verif.Supg.C112_streamline",
    "Verif.Supg.C112_dissipates",
    "Verif.Supg.C112_cg",
    "Verif.Supg.C112_system_violated",
    "Verif.Supg.C112_cg_violated",
    "Verif.Supg.C112_unsteady_off",
    "Verif.Supg.C112_unsteady",
    "Verif.Supg.C112_unsteady_violated",
    "Verif.Supg.C112_gradient"
   ],
   "note": "Proved for discontinuous tracers (uniform and steady tracers, conservation, streamline diffusion, variance). Violated: in continuous spaces the jumps of the modified test function are not integrated, so uniform tracers do not stay uniform; the time derivative is tested with the unmodified function, so unsteady solutions are not satisfied; with diffusion the parameter depends on the unit of time and the switch ignores the cell size; several tracers in one system cannot be assembled."
  },
  {
   "property": "C113",
   "status": "partial",
   "theorems": [
    "Verif.Start.C113_rk",
    "Verif.Start.C113_rk_stage",
    "Verif.Start.C113_leapfrog",
    "Verif.Start.C113_leapfrog_half",
    "Verif.Start.C113_leapfrog_frozen_violated",
    "Verif.Start.C113_leapfrog_violated",
    "Verif.Start.C113_initial",
    "Verif.Start.C113_initial_values",
    "Verif.Start.C113_tke_violated",
    "Verif.Start.C113_limits",
    "Verif.Start.C113_rk_stages",
    "Verif.Start.C113_vertical",
    "Verif.Start.C113_leapfrog_stages",
    "Verif.Start.C113_coupling"
   ],
   "note": "Proved for the two-stage scheme and the initial conditions, and for the leap-frog scheme except the eddy viscosity. Violated: the leap-frog scheme computes the eddy viscosity before the implicit steps and, without implicit vertical diffusion, never; the arguments tke and psi of assign_initial_conditions have no effect."
  },
  {
   "property": "C114",
   "status": "partial",
   "theorems": [
    "Verif.Start.C114_depth_averaged",
    "Verif.Start.C114_profile",
    "Verif.Start.C114_profile_violated",
    "Verif.Start.C114_both_violated",
    "Verif.Start.C114_deviation",
    "Verif.Start.C114_deviation_violated"
   ],
   "note": "Proved in a column with the two-stage scheme if only uv_2d is given, and from the second step on if only uv_3d is given or uv_3d is given as a deviation. Violated: with uv_3d only the 2D velocity is zero at first and half the mean after a step; with both, uv_3d being the full velocity, the depth average is doubled; with both, uv_3d being a deviation, the first export lacks the depth average."
  },
  {
   "property": "C115",
   "status": "partial",
   "theorems": [
    "Verif.Start.C115_fields",
    "Verif.Start.C115_exact",
    "Verif.Start.C115_limits",
    "Verif.Start.C115_velocity",
    "Verif.Start.C115_momentum_violated",
    "Verif.Start.C115_steady_violated"
   ],
   "note": "Proved: all fields but the coupling terms are restored, the velocity at all depths too, and the run continues exactly if the coupling term agrees and the full velocity averages to the 2D velocity. Violated: the coupling term split_residual_2d and the depth average left in uv_3d by implicit friction are not restored, so each restart loses half the 3D impulse of a step. The time axis and the files are C03 and C06."
  },
  {
   "property": "C116",
   "status": "partial",
   "theorems": [
    "Verif.Start.C116_total",
    "Verif.Start.C116_linear",
    "Verif.Start.C116_exact",
    "Verif.Start.C116_stretched_violated",
    "Verif.Start.C116_shear"
   ],
   "note": "Proved on the mesh of the first use of the solvers. Violated on a moving mesh: the mass matrix is assembled once, so the gradient is that of the old layer thickness; on layers c times as thick it is c times too large, and the Richardson number is divided by c."
  },
  {
   "property": "C117",
   "status": "partial",
   "theorems": [
    "Verif.Solver2.C117_names",
    "Verif.Solver2.C117_initial",
    "Verif.Solver2.C117_sediment",
    "Verif.Solver2.C117_sediment_violated",
    "Verif.Solver2.C117_label_violated",
    "Verif.Solver2.C117_other_violated",
    "Verif.Solver2.C117_restart",
    "Verif.Solver2.C117_exact",
    "Verif.Solver2.C117_lost_violated",
    "Verif.Solver2.C117_equilibrium_violated"
   ],
   "note": "Proved for the initial conditions, and for restarts if tracers, bed and non-hydrostatic fields of the new solver agree with the stored state and there is no suspended sediment. Violated: a restart loses tracers, the bed and the non-hydrostatic fields and sets sediment to its equilibrium; a tracer whose label does not end with _2d cannot be initialised, and its value may go to another one; in conservative form a given sediment concentration is not multiplied by the depth. The time axis of a restart is C03."
  },
  {
   "property": "C118",
   "status": "partial",
   "theorems": [
    "Verif.Solver2.C118_own",
    "Verif.Solver2.C118_depends",
    "Verif.Solver2.C118_other_violated",
    "Verif.Solver2.C118_mixed_violated",
    "Verif.Solver2.C118_mixed_none_violated",
    "Verif.Solver2.C118_shared_violated",
    "Verif.Solver2.C118_free",
    "Verif.Solver2.C118_value"
   ],
   "note": "Proved for tracers on their own with labels ending with _2d. Violated: conditions under the labels of the tracers of a mixed system are ignored; a value for the system is imposed on all of its tracers; a tracer without conditions whose label is another name and three more characters gets the conditions of that name."
  },
  {
   "property": "C119",
   "status": "partial",
   "theorems": [
    "Verif.Solver2.C119_setup",
    "Verif.Solver2.C119_names",
    "Verif.Solver2.C119_default",
    "Verif.Solver2.C119_again_violated",
    "Verif.Solver2.C119_export",
    "Verif.Solver2.C119_export_violated"
   ],
   "note": "Proved for the default tracer with solvers one after the other, and for distinct labels. Violated: a second solver with the same tracer label, other than tracer_2d, raises; creating a second solver removes the entry of tracer_2d, so that exporters of the first one cannot be created afterwards."
  },
  {
   "property": "C120",
   "status": "partial",
   "theorems": [
    "Verif.Rotor.C120_weights",
    "Verif.Rotor.C120_samples",
    "Verif.Rotor.C120_mean_height",
    "Verif.Rotor.C120_between",
    "Verif.Rotor.C120_scaling",
    "Verif.Rotor.C120_hub",
    "Verif.Rotor.C120_profile_mean",
    "Verif.Rotor.C120_profile_mean_violated",
    "Verif.Rotor.C120_slices_violated",
    "Verif.Rotor.C120_moves",
    "Verif.Rotor.C120_below_violated",
    "Verif.Rotor.C120_energy",
    "Verif.Rotor.C120_energy_violated",
    "Verif.Rotor.C120_callback_violated",
    "Verif.Rotor.C120_correction_violated",
    "Verif.Rotor.C120_span",
    "Verif.Rotor.C120_drag",
    "Verif.Rotor.C120_drag_upwind",
    "Verif.Rotor.C120_power",
    "Verif.Rotor.C120_width"
   ],
   "note": "Proved: the speed is between those at the tips, at most that at the hub for exponents up to 1/3, proportional to the mean speed; without shear profile and support the power never exceeds the energy taken from the flow. Violated: with a shear profile the drag uses the mean speed and the power that at the rotor, so power can exceed the loss; correction factors of power and drag differ below cut-in; the callback uses the depth at rest; the profile has the given mean for one value of shear_beta only; samples are not in the middle of the slices their weights belong to; rotors may reach below the bed."
  },
  {
   "property": "C121",
   "status": "partial",
   "theorems": [
    "Verif.Rotor.C121_constant",
    "Verif.Rotor.C121_table",
    "Verif.Rotor.C121_missing",
    "Verif.Rotor.C121_ignored_violated",
    "Verif.Rotor.C121_no_support",
    "Verif.Rotor.C121_range"
   ],
   "note": "Proved for coefficients, diameter, support and missing entries. Violated: hub height and structure type are read but the shear profile that uses them stays off, and entries for it, for the projected diameter and, in continuous farms, for the upwind correction are ignored."
  },
  {
   "property": "C122",
   "status": "partial",
   "theorems": [
    "Verif.Wall.C122_dissipation",
    "Verif.Wall.C122_stability",
    "Verif.Wall.C122_closure",
    "Verif.Wall.C122_tke",
    "Verif.Wall.C122_psi",
    "Verif.Wall.C122_flux",
    "Verif.Wall.C122_parameters",
    "Verif.Wall.C122_steady",
    "Verif.Wall.C122_defaults",
    "Verif.Wall.C122_option_violated",
    "Verif.Wall.C122_process_violated",
    "Verif.Wall.C122_fixed_violated",
    "Verif.Wall.C122_richardson",
    "Verif.Wall.C122_variable",
    "Verif.Wall.C122_limits"
   ],
   "note": "Proved if kappa or the Schmidt number of psi is computed and the closure's kappa is the constant of the process. Violated: a kappa set by the user enters the Schmidt number only, not the wall flux or drag; compute_kappa changes the constant of the process for all later solvers; with computed parameters off none of the three default parameter sets is in balance."
  },
  {
   "property": "C123",
   "status": "partial",
   "theorems": [
    "Verif.RK.C123_erk",
    "Verif.RK.C123_shuosher",
    "Verif.RK.C123_ssprk33",
    "Verif.RK.C123_dirk",
    "Verif.RK.C123_uform",
    "Verif.RK.C123_imex",
    "Verif.RK.C123_theta",
    "Verif.RK.C123_picard",
    "Verif.RK.C123_euler",
    "Verif.RK.C123_erk_steady",
    "Verif.RK.C123_shuosher_steady",
    "Verif.RK.C123_dirk_steady",
    "Verif.RK.C123_euler_steady",
    "Verif.RK.C123_weights",
    "Verif.RK.C123_signs",
    "Verif.RK.C123_negative_violated"
   ],
   "note": "Proved for all integrators on a fixed mesh (moving mesh: C26). Violated: DIRK33 and DIRK43 have a negative weight, so a source that acts during their second stage lowers the total."
  },
  {
   "property": "C124",
   "status": "partial",
   "theorems": [
    "Verif.Mass2.C124_step",
    "Verif.Mass2.C124_budget",
    "Verif.Mass2.C124_conserved",
    "Verif.Mass2.C124_continuous",
    "Verif.Mass2.C124_outflow",
    "Verif.Mass2.C124_inflow",
    "Verif.Mass2.C124_conservative",
    "Verif.Mass2.C124_conservative_closed",
    "Verif.Mass2.C124_uniform",
    "Verif.Mass2.C124_diffusion",
    "Verif.Mass2.C124_diffusion_flat",
    "Verif.Mass2.C124_source",
    "Verif.Mass2.C124_conserved_violated",
    "Verif.Mass2.C124_diffusion_violated"
   ],
   "note": "Exact budget of the reported mass for the semi-discrete equations: it is conserved in a closed basin if at every facet the tracer is continuous, or depth, elevation and normal velocity are; always in conservative form. Violated otherwise: free surface and tracer equation use different volume fluxes at facets, and diffusion over a slope changes the mass of the non-conservative form."
  },
  {
   "property": "C125",
   "status": "partial",
   "theorems": [
    "Verif.Bound2.C125_mean",
    "Verif.Bound2.C125_limited",
    "Verif.Bound2.C125_step",
    "Verif.Bound2.C125_run",
    "Verif.Bound2.C125_step_boundary",
    "Verif.Bound2.C125_limiter_on",
    "Verif.Bound2.C125_degree_violated",
    "Verif.Bound2.C125_inflow_violated"
   ],
   "note": "Cell means keep the bounds of the values in the cell, across its facets and at its boundary; with the limiter the nodal values keep them on meshes without boundary facets for any number of steps, and with a boundary if the means over boundary facets do. Violated at an inflow boundary, where the limiter takes the unlimited mean over the boundary facet as a bound, and with polynomial_degree 0, which switches the limiter off although tracers are linear. Stages of Runge-Kutta methods are not limited and not covered."
  },
  {
   "property": "C126",
   "status": "partial",
   "theorems": [
    "Verif.WetDry.C126_solver",
    "Verif.WetDry.C126_crank",
    "Verif.WetDry.C126_crank_run",
    "Verif.WetDry.C126_uform",
    "Verif.WetDry.C126_uform_closed",
    "Verif.WetDry.C126_semi_violated",
    "Verif.WetDry.C126_plain",
    "Verif.WetDry.C126_uform_semi_violated",
    "Verif.WetDry.C126_example_violated"
   ],
   "note": "With Newton's method, the default, the budget holds for Crank-Nicolson and for diagonally implicit methods in solution form; without wetting and drying also for one linear solve. Violated with use_semi_implicit_linearization: one linear solve replaces the convex mass term by its tangent, and every step that changes the elevation in a closed basin creates water (Crank-Nicolson; stages with non-negative coefficients)."
  },
  {
   "property": "C127",
   "status": "partial",
   "theorems": [
    "Verif.Contract.C127_theta_budget",
    "Verif.Contract.C127_theta",
    "Verif.Contract.C127_half",
    "Verif.Contract.C127_algebraic",
    "Verif.Contract.C127_backward",
    "Verif.Contract.C127_dirk22_uform",
    "Verif.Contract.C127_dirk22_tendency",
    "Verif.Contract.C127_trapezoid",
    "Verif.Contract.C127_run",
    "Verif.Contract.C127_waves_theta",
    "Verif.Contract.C127_waves_run",
    "Verif.Contract.C127_waves_dirk22",
    "Verif.Contract.C127_waves_backward",
    "Verif.Contract.C127_waves_conserved",
    "Verif.Contract.C127_mode",
    "Verif.Contract.C127_tracer",
    "Verif.Contract.C127_vertical",
    "Verif.Contract.C127_unique",
    "Verif.Contract.C127_tracer_unique",
    "Verif.Contract.C127_waves_unique",
    "Verif.Contract.C127_below_half",
    "Verif.Contract.C127_forms",
    "Verif.Contract.C127_dirk23",
    "Verif.Contract.C127_dirk33",
    "Verif.Contract.C127_dirk33_uform",
    "Verif.Contract.C127_dirk33_violated",
    "Verif.Contract.C127_dirk43",
    "Verif.Contract.C127_dirkLSPUM2",
    "Verif.Contract.C127_dirkLPUM2",
    "Verif.Contract.C127_waves_dirk33",
    "Verif.Contract.C127_waves_dirk33_run",
    "Verif.Contract.C127_tracer_dirk33"
   ],
   "note": "Linear waves over constant depth, tracers, and vertical diffusion; CrankNicolson, BackwardEuler, DIRK22 and DIRK33 in both forms, DIRK43, DIRKLSPUM2, DIRKLPUM2, the trapezoidal rule, and algebraically stable tables (DIRK23, midpoint). The printed decimals of DIRK33 satisfy the order conditions only up to rounding: energy can grow, by at most one part in 10^10 per step (C127_dirk33_violated, C127_dirk33). Nonlinear drag is covered for Crank-Nicolson, DIRK22 and DIRK33 if it is linearised around the old solution. Not covered: momentum advection, varying depth."
  },
  {
   "property": "C128",
   "status": "partial",
   "theorems": [
    "Verif.Explicit.C128_ssprk33",
    "Verif.Explicit.C128_ssprk33_waves",
    "Verif.Explicit.C128_lspum2",
    "Verif.Explicit.C128_euler_budget",
    "Verif.Explicit.C128_euler",
    "Verif.Explicit.C128_midpoint",
    "Verif.Explicit.C128_two_stage",
    "Verif.Explicit.C128_lpum2",
    "Verif.Explicit.C128_limit_exists",
    "Verif.Explicit.C128_tracer",
    "Verif.Explicit.C128_tracer_exists",
    "Verif.Explicit.C128_waves",
    "Verif.Explicit.C128_waves_exists",
    "Verif.Explicit.C128_turn_ssprk33",
    "Verif.Explicit.C128_turn_lspum2",
    "Verif.Explicit.C128_turn_violated",
    "Verif.Explicit.C128_tendency",
    "Verif.Explicit.C128_step",
    "Verif.Explicit.C128_run",
    "Verif.Explicit.C128_limit_mono"
   ],
   "note": "SSPRK33 and ERKLSPUM2: proved for all linear equations that do not create energy, with the exact limits for equations that keep it; existence of the limit and of the steps. ForwardEuler, ERKMidpoint, SSPRK22ALE on a fixed mesh and ERKLPUM2 satisfy it only under a stronger condition (Damped): C128_turn_violated shows that they create energy with every time step already for inertial motion, which has no such limit."
  },
  {
   "property": "C129",
   "status": "partial",
   "theorems": [
    "Verif.Converge.C129_first",
    "Verif.Converge.C129_second",
    "Verif.Converge.C129_third",
    "Verif.Converge.C129_weak_first",
    "Verif.Converge.C129_weak_second",
    "Verif.Converge.C129_weak_third",
    "Verif.Converge.C129_nodes",
    "Verif.Converge.C129_tendency",
    "Verif.Converge.C129_dirk",
    "Verif.Converge.C129_backwardEuler",
    "Verif.Converge.C129_dirk22",
    "Verif.Converge.C129_dirk33",
    "Verif.Converge.C129_explicit",
    "Verif.Converge.C129_ssprk33",
    "Verif.Converge.C129_crank",
    "Verif.Converge.C129_euler",
    "Verif.Converge.C129_lagged",
    "Verif.Converge.C129_weak_lagged",
    "Verif.Converge.C129_crank_first",
    "Verif.Converge.C129_euler_first",
    "Verif.Converge.C129_uform_first",
    "Verif.Converge.C129_tendency_first",
    "Verif.Converge.C129_linear",
    "Verif.Converge.C129_tendency_exists",
    "Verif.Converge.C129_runs_exist",
    "Verif.Converge.C129_waves",
    "Verif.Converge.C129_tracer",
    "Verif.Converge.C129_boundary_total",
    "Verif.Converge.C129_boundary_violated",
    "Verif.Converge.C129_semi_violated"
   ],
   "note": "Proved for all integrators and equations at the order of the table where the residual does not read the linearization and, for CrankNicolson and ForwardEuler, boundary values are steady; first order in all other cases. The second order of CrankNicolson is violated for boundary values that change with time (C129_boundary_violated, an exact run of the tracer equation: both halves of the residual use the value at the end of the step) and with use_semi_implicit_linearization (C129_semi_violated, quadratic drag)."
  },
  {
   "property": "C130",
   "status": "partial",
   "theorems": [
    "Verif.Imex.C130_first",
    "Verif.Imex.C130_second",
    "Verif.Imex.C130_weak_first",
    "Verif.Imex.C130_weak_second",
    "Verif.Imex.C130_linear",
    "Verif.Imex.C130_step_exists",
    "Verif.Imex.C130_swe_split",
    "Verif.Imex.C130_waves",
    "Verif.Imex.C130_stream_first",
    "Verif.Imex.C130_drag_violated"
   ],
   "note": "First order is proved for all equations and tables, second order for all pairs that meet the coupling conditions when the coefficients of implicit terms do not depend on the solution, with existence of solution and steps for linear equations. Violated for quadratic drag, which is an implicit term of the shallow water equations: an exact run of SSPIMEX has an error of the order of the time step (C130_drag_violated), although its tables are of second order."
  },
  {
   "property": "C131",
   "status": "proved",
   "theorems": [
    "Verif.Ale.C131_step",
    "Verif.Ale.C131_two_stage",
    "Verif.Ale.C131_leap_step",
    "Verif.Ale.C131_leap_frog",
    "Verif.Ale.C131_mesh_ends"
   ],
   "note": "All solvers other than those of vertical velocity, mass matrix and vertical diffusion are arbitrary; those three are assumed to solve their equations exactly. Quadrature is assumed exact for the product of test function and mesh velocity, as for C86."
  },
  {
   "property": "C132",
   "status": "proved",
   "theorems": [
    "Verif.Ale.C132_step",
    "Verif.Ale.C132_two_stage",
    "Verif.Ale.C132_conserved",
    "Verif.Ale.C132_leap_step",
    "Verif.Ale.C132_leap_frog",
    "Verif.Ale.C132_leap_conserved"
   ],
   "note": "The linear solvers are exact, the limiter keeps the amount (C49_mean). The flow through the surface relative to the mesh is part of the inflow: it vanishes only where the vertical velocity agrees with the motion of the surface, which the 2D solver does not ensure in each stage."
  },
  {
   "property": "C133",
   "status": "partial",
   "theorems": [
    "Verif.Ale.C133_two_stage",
    "Verif.Ale.C133_leap_frog",
    "Verif.Ale.C133_uniform",
    "Verif.Ale.C133_two_stage_violated",
    "Verif.Ale.C133_leap_frog_violated"
   ],
   "note": "Does not hold: the surface of the mesh moves with the 2D mode over the whole step, the vertical velocity belongs to the velocity of one stage, and the difference is a flow through the surface that carries tracer. Two columns with exact solvers and exact volumes: 1 becomes 1.005 in one step of CoupledTwoStageRK (the first stage of ESDIRKTrapezoid moves nothing, the second moves the mesh twice as fast as the water), 1 becomes 7211/7200 for CoupledLeapFrogAM3 in an accelerating flow. Proved: the change is exactly the flow through the surface of the two stages, and nothing for a uniform tracer."
  },
  {
   "property": "C134",
   "status": "partial",
   "theorems": [
    "Verif.Leap.C134_two_stage",
    "Verif.Leap.C134_two_stage_fixed",
    "Verif.Leap.C134_leap_frog",
    "Verif.Leap.C134_leap_frog_second",
    "Verif.Leap.C134_forcing_violated"
   ],
   "note": "SSPRK22ALE: proved on moving meshes for the vector M u, on fixed meshes for u. LeapFrogAM3: proved on a fixed mesh with forcings that do not change, including the first step; with forcings that change the order is one, since advance evaluates them at t + dt for both the prediction and the correction (violated on u' = t: the error at time one is dt/2)."
  },
  {
   "property": "C135",
   "status": "proved",
   "theorems": [
    "Verif.Still.C135_two_stage",
    "Verif.Still.C135_leap_frog",
    "Verif.Still.C135_momentum",
    "Verif.Still.C135_advection",
    "Verif.Still.C135_tracer",
    "Verif.Still.C135_mode2d",
    "Verif.Still.C135_pressure",
    "Verif.Still.C135_forms"
   ],
   "note": "The 2D solver is assumed to keep an initial guess that already solves its equations, mass matrices to be invertible, and the quadrature to be exact for the divergence of test functions; the implicit solvers of vertical diffusion to leave zero velocity and uniform tracers. The baroclinic head must be continuous without horizontal gradient, as it is for uniform density."
  },
  {
   "property": "C136",
   "status": "proved",
   "theorems": [
    "Verif.Still.C136_two_stage",
    "Verif.Still.C136_leap_frog",
    "Verif.Still.C136_fixed_mesh",
    "Verif.Still.C136_mesh",
    "Verif.Still.C136_closed",
    "Verif.Still.C136_closed_leap",
    "Verif.Still.C136_open"
   ],
   "note": "Of the 2D solver it is assumed only that the residual of each stage, tested with the constant one, vanishes; the projection of the elevation is exact and the nodal basis functions add up to one."
  },
  {
   "property": "C137",
   "status": "proved",
   "theorems": [
    "Verif.Strong.C137_pressure",
    "Verif.Strong.C137_volume",
    "Verif.Strong.C137_advection",
    "Verif.Strong.C137_linear",
    "Verif.Strong.C137_viscosity",
    "Verif.Strong.C137_momentum",
    "Verif.Strong.C137_continuity",
    "Verif.Strong.C137_solution"
   ],
   "note": "Smooth means: one value on both sides of each facet, and quadrature exact for the products that are integrated by parts; the stress is a field of its own with the values nu (grad u + grad(u)^T). With a continuous velocity space the code closes the boundaries with the key un, so there the normal velocity has to vanish."
  },
  {
   "property": "C138",
   "status": "partial",
   "theorems": [
    "Verif.Strong.C138_advection",
    "Verif.Strong.C138_conservative",
    "Verif.Strong.C138_diffusion",
    "Verif.Strong.C138_boundary",
    "Verif.Strong.C138_documented_violated",
    "Verif.Strong.C138_advection_3d",
    "Verif.Strong.C138_tracer_3d"
   ],
   "note": "All forms agree with the documentation of their terms. Violated: the equation at the head of tracer_eq_2d.py, called non-conservative, has div(u T), the code has u·grad(T)."
  },
  {
   "property": "C139",
   "status": "proved",
   "theorems": [
    "Verif.Strong.C139_advection",
    "Verif.Strong.C139_vertical",
    "Verif.Strong.C139_horizontal",
    "Verif.Strong.C139_momentum",
    "Verif.Strong.C139_solution"
   ],
   "note": "Integration by parts is assumed to hold for the products of test function and flux (DivExact), as it does for exact quadrature. The time derivative is outside; solution_old equals the solution."
  },
  {
   "property": "C140",
   "status": "proved",
   "theorems": [
    "Verif.Frame.C140_pressure",
    "Verif.Frame.C140_transport",
    "Verif.Frame.C140_advection",
    "Verif.Frame.C140_viscosity",
    "Verif.Frame.C140_forces",
    "Verif.Frame.C140_momentum",
    "Verif.Frame.C140_continuity",
    "Verif.Frame.C140_tracer_advection",
    "Verif.Frame.C140_tracer_conservative",
    "Verif.Frame.C140_tracer_diffusion",
    "Verif.Frame.C140_tracer_sources",
    "Verif.Frame.C140_vertical_velocity",
    "Verif.Frame.C140_tracer3_horizontal",
    "Verif.Frame.C140_tracer3_vertical",
    "Verif.Frame.C140_tracer3_diffusion",
    "Verif.Frame.C140_tracer3",
    "Verif.Frame.C140_momentum3_forces",
    "Verif.Frame.C140_momentum3_coriolis",
    "Verif.Frame.C140_momentum3_horizontal",
    "Verif.Frame.C140_momentum3_vertical",
    "Verif.Frame.C140_momentum3_viscosity",
    "Verif.Frame.C140_momentum3",
    "Verif.Frame.C140_internal_pressure",
    "Verif.Frame.C140_same_solutions",
    "Verif.Frame.C140_same_solutions3",
    "Verif.Frame.C140_settled_needed"
   ],
   "note": "The thrust coefficient of turbines is assumed to depend on the speed only. For depth-averaged tracers: sign(0) is 0, or the normal velocity vanishes on both sides of facets where its mean does; C140_settled_needed shows that this is needed. For 3D tracers: sign(0) is 0 or the horizontal velocity has no vertical component. Element spaces and solvers are outside: the test functions are any set and its image."
  },
  {
   "property": "C141",
   "status": "proved",
   "theorems": [
    "Verif.Unit.C141_pressure",
    "Verif.Unit.C141_transport",
    "Verif.Unit.C141_advection",
    "Verif.Unit.C141_viscosity",
    "Verif.Unit.C141_forces",
    "Verif.Unit.C141_momentum",
    "Verif.Unit.C141_continuity",
    "Verif.Unit.C141_mass",
    "Verif.Unit.C141_drag_coefficient",
    "Verif.Unit.C141_tracer_advection",
    "Verif.Unit.C141_conservative_advection",
    "Verif.Unit.C141_tracer_diffusion",
    "Verif.Unit.C141_tracer_source",
    "Verif.Unit.C141_vertical_velocity",
    "Verif.Unit.C141_tracer3_horizontal",
    "Verif.Unit.C141_tracer3_vertical",
    "Verif.Unit.C141_tracer3_diffusion",
    "Verif.Unit.C141_tracer3",
    "Verif.Unit.C141_momentum3_horizontal",
    "Verif.Unit.C141_momentum3_vertical",
    "Verif.Unit.C141_momentum3_viscosity",
    "Verif.Unit.C141_momentum3_forces",
    "Verif.Unit.C141_momentum3",
    "Verif.Unit.C141_internal_pressure",
    "Verif.Unit.C141_same_step",
    "Verif.Unit.C141_same_step3",
    "Verif.Unit.C141_gravity_needed"
   ],
   "note": "Constants with a unit must be converted too: C141_gravity_needed shows it for gravity. The thrust area of a turbine is a function of velocity and depth that is converted like the other data. For the drag from Manning's coefficient the depth is not negative. Time steps: theta schemes with any test functions."
  },
  {
   "property": "C142",
   "status": "partial",
   "theorems": [
    "Verif.Space.C142_plane",
    "Verif.Space.C142_extruded",
    "Verif.Space.C142_solver2d",
    "Verif.Space.C142_solver3d",
    "Verif.Space.C142_diffusion",
    "Verif.Space.C142_conservative",
    "Verif.Space.C142_advection",
    "Verif.Space.C142_continuity",
    "Verif.Space.C142_advection_violated"
   ],
   "note": "Violated for continuous tracers in the non-conservative form with discontinuous velocities (dg-dg and dg-cg), which the solver accepts: the facet term left out is the tracer times the jump of the normal velocity, and a uniform tracer does not stay uniform (C142_advection_violated, C72_continuous_residual). All other terms hold."
  },
  {
   "property": "C143",
   "status": "partial",
   "theorems": [
    "Verif.Linear.C143_advection",
    "Verif.Linear.C143_conservative",
    "Verif.Linear.C143_diffusion",
    "Verif.Linear.C143_source",
    "Verif.Linear.C143_tracer3",
    "Verif.Linear.C143_momentum",
    "Verif.Linear.C143_continuity",
    "Verif.Linear.C143_mass",
    "Verif.Linear.C143_theta",
    "Verif.Linear.C143_dirk",
    "Verif.Linear.C143_dirk_u",
    "Verif.Linear.C143_erk",
    "Verif.Linear.C143_shuosher",
    "Verif.Linear.C143_ssprk33",
    "Verif.Linear.C143_euler",
    "Verif.Linear.C143_ssprk22",
    "Verif.Linear.C143_run",
    "Verif.Linear.C143_tracer2",
    "Verif.Linear.C143_tracer3_eqn",
    "Verif.Linear.C143_swe",
    "Verif.Linear.C143_mode",
    "Verif.Linear.C143_limiter_violated",
    "Verif.Linear.C143_wetdry_violated"
   ],
   "note": "Proved for the equations and integrators. Violated with the slope limiter for tracers, which is not linear (C143_limiter_violated), and with wetting and drying in the linear equations, where the mass term keeps the displacement of the bed (C143_wetdry_violated)."
  },
  {
   "property": "C144",
   "status": "proved",
   "theorems": [
    "Verif.Local.C144_advection",
    "Verif.Local.C144_conservative",
    "Verif.Local.C144_diffusion",
    "Verif.Local.C144_pressure",
    "Verif.Local.C144_divergence",
    "Verif.Local.C144_momentum_advection",
    "Verif.Local.C144_viscosity",
    "Verif.Local.C144_momentum",
    "Verif.Local.C144_tendency",
    "Verif.Local.C144_erk",
    "Verif.Local.C144_shuosher",
    "Verif.Local.C144_euler",
    "Verif.Local.C144_run",
    "Verif.Local.C144_tracer2",
    "Verif.Local.C144_swe",
    "Verif.Local.C144_limiter"
   ],
   "note": "Term by term for test functions of one cell, then through the stages by induction."
  },
  {
   "property": "C145",
   "status": "proved",
   "theorems": [
    "Verif.Solve.C145_tendency",
    "Verif.Solve.C145_erk",
    "Verif.Solve.C145_shuosher",
    "Verif.Solve.C145_ssprk33",
    "Verif.Solve.C145_euler",
    "Verif.Solve.C145_ssprk22",
    "Verif.Solve.C145_theta",
    "Verif.Solve.C145_dirk",
    "Verif.Solve.C145_dirk_u",
    "Verif.Solve.C145_passive",
    "Verif.Solve.C145_theta_finite",
    "Verif.Solve.C145_dirk_finite",
    "Verif.Solve.C145_dirk_u_finite",
    "Verif.Solve.C145_small",
    "Verif.Solve.C145_weak_tracer2",
    "Verif.Solve.C145_weak_tracer3",
    "Verif.Solve.C145_weak_swe",
    "Verif.Solve.C145_affine_tracer2",
    "Verif.Solve.C145_affine_tracer3",
    "Verif.Solve.C145_affine_swe",
    "Verif.Solve.C145_runs",
    "Verif.Solve.C145_tracer2",
    "Verif.Solve.C145_tracer3",
    "Verif.Solve.C145_tracer_all",
    "Verif.Solve.C145_swe_explicit",
    "Verif.Solve.C145_swe_implicit",
    "Verif.Solve.C145_waves_all",
    "Verif.Solve.C145_singular",
    "Verif.Solve.C145_two"
   ],
   "note": "Forms are linear in the test function and affine in the unknown, term by term; regular matrices by definiteness, or for all but finitely many time steps by eigenvalues. C145_singular and C145_two show that the exceptions exist."
  },
  {
   "property": "C146",
   "status": "partial",
   "theorems": [
    "Verif.Surface.C146_split",
    "Verif.Surface.C146_parts",
    "Verif.Surface.C146_volume",
    "Verif.Surface.C146_conserved",
    "Verif.Surface.C146_stages",
    "Verif.Surface.C146_run",
    "Verif.Surface.C146_same",
    "Verif.Surface.C146_unique",
    "Verif.Surface.C146_unique_closed",
    "Verif.Surface.C146_hydrostatic_partial",
    "Verif.Surface.C146_open_violated"
   ],
   "note": "Splitting, volume and uniqueness proved. The hydrostatic limit holds without linearisation, in closed basins, for linear equations and for continuous velocities; with use_semi_implicit_linearization and an open boundary with a velocity it fails (C146_open_violated), since the free surface equation is given the new velocity in place of the old one."
  },
  {
   "property": "C147",
   "status": "partial",
   "theorems": [
    "Verif.Strong.C147_bedload",
    "Verif.Strong.C147_slide",
    "Verif.Strong.C147_slide_flux",
    "Verif.Strong.C147_exchange",
    "Verif.Strong.C147_suspended",
    "Verif.Strong.C147_exner",
    "Verif.Strong.C147_solution",
    "Verif.Strong.C147_sediment",
    "Verif.Strong.C147_documented",
    "Verif.Strong.C147_documented_violated",
    "Verif.Strong.C147_slide_violated"
   ],
   "note": "Proved for both equations. The documented right-hand side of the Exner equation has a factor of the depth too many for depth-integrated sediment (C147_documented_violated), and the slide, documented as a component of the bedload, is not multiplied by morfac/(1-porosity) (C147_slide_violated)."
  },
  {
   "property": "C148",
   "status": "proved",
   "theorems": [
    "Verif.Accum.C148_theta",
    "Verif.Accum.C148_apart",
    "Verif.Accum.C148_theta_run",
    "Verif.Accum.C148_forcing",
    "Verif.Accum.C148_run",
    "Verif.Accum.C148_ssprk33",
    "Verif.Accum.C148_waves",
    "Verif.Accum.C148_waves_apart",
    "Verif.Accum.C148_sources",
    "Verif.Accum.C148_waves_ssprk33",
    "Verif.Accum.C148_tracer",
    "Verif.Accum.C148_tracer_source"
   ],
   "note": "The linear equations only; friction is linear, the basin closed and of constant depth, the flow that carries a tracer steady. Residuals are measured as functionals against the energy."
  },
  {
   "property": "C149",
   "status": "proved",
   "theorems": [
    "Verif.Accum.C149_theta",
    "Verif.Accum.C149_flow",
    "Verif.Accum.C149_linear",
    "Verif.Accum.C149_waves",
    "Verif.Accum.C149_tracer"
   ],
   "note": "Errors in time of the equations discrete in space. Linear equations, closed basin of constant depth, steady flow; boundary values that do not change in time (C129 shows the loss of order otherwise)."
  },
  {
   "property": "C150",
   "status": "partial",
   "theorems": [
    "Verif.Reader.C150_records_partial",
    "Verif.Reader.C150_history",
    "Verif.Reader.C150_refused",
    "Verif.Reader.C150_other_file_violated"
   ],
   "note": "Holds when all files store the variables with the dimensions in one order. Violated for a later file with another order: the position of the time dimension is taken from the first file only, and values of one place at all times are returned without an error."
  },
  {
   "property": "C151",
   "status": "proved",
   "theorems": [
    "Verif.Project.C151_exists_unique",
    "Verif.Project.C151_adds",
    "Verif.Project.C151_total",
    "Verif.Project.C151_bound",
    "Verif.Project.C151_restriction",
    "Verif.Project.C151_whole"
   ],
   "note": "The linear solver is taken to solve the equation; the mesh does not move between projections."
  },
  {
   "property": "C152",
   "status": "proved",
   "theorems": [
    "Verif.Vert.C152_semi",
    "Verif.Vert.C152_unique",
    "Verif.Vert.C152_budget",
    "Verif.Vert.C152_energy",
    "Verif.Vert.C152_run",
    "Verif.Vert.C152_columns",
    "Verif.Vert.C152_difference",
    "Verif.Vert.C152_uniform",
    "Verif.Vert.C152_split",
    "Verif.Vert.C152_quadratic",
    "Verif.Vert.C152_rough"
   ],
   "note": "Penalty above the bound of the trace inequality as in C88; the linear solver is taken to solve the system."
  },
  {
   "property": "C153",
   "status": "partial",
   "theorems": [
    "Verif.Daily.C153_date",
    "Verif.Daily.C153_found",
    "Verif.Daily.C153_injective",
    "Verif.Daily.C153_only_partial",
    "Verif.Daily.C153_sorted",
    "Verif.Daily.C153_refused",
    "Verif.Daily.C153_other_violated",
    "Verif.Daily.C153_chronological",
    "Verif.Daily.C153_listed"
   ],
   "note": "Names after the pattern get their date for all patterns and dates. Violated for other names: the regular expression may match a part of the name, so that a file of another kind in the same directory is dated (2006010112.nc as the year 601 with the pattern {year:04d}{month:02d}{day:02d}.nc) without an error; for names of the right length this cannot happen."
  },
  {
   "property": "C154",
   "status": "partial",
   "theorems": [
    "Verif.FieldDict.C154_agree",
    "Verif.FieldDict.C154_ways",
    "Verif.FieldDict.C154_refused",
    "Verif.FieldDict.C154_refuses",
    "Verif.FieldDict.C154_checked_partial",
    "Verif.FieldDict.C154_named_partial",
    "Verif.FieldDict.C154_named_violated",
    "Verif.FieldDict.C154_update_violated",
    "Verif.FieldDict.C154_deleted",
    "Verif.FieldDict.C154_addable",
    "Verif.FieldDict.C154_added",
    "Verif.FieldDict.C154_notAdded",
    "Verif.FieldDict.C154_noFunction",
    "Verif.FieldDict.C154_once",
    "Verif.FieldDict.C154_adding"
   ],
   "note": "Access, the effect of both ways of assignment and refusal hold for all states. Checks hold for assignments and deletions only: update (as setdefault and the constructor) stores without checks. Names hold if no Function is assigned to two keys: otherwise two fields can have one name."
  },
  {
   "property": "C155",
   "status": "partial",
   "theorems": [
    "Verif.Setdt.C155_accepts",
    "Verif.Setdt.C155_fraction_violated",
    "Verif.Setdt.C155_reach",
    "Verif.Setdt.C155_option_violated",
    "Verif.Setdt.C155_ratio",
    "Verif.Setdt.C155_split_violated"
   ],
   "note": "All integrators get the step of the solver for all requests. Violated for the 2D mode: set_dt refuses every integer fraction but the whole, and timestep_2d has no effect since the mode is fixed to 3d."
  },
  {
   "property": "C156",
   "status": "partial",
   "theorems": [
    "Verif.Twin.C156_twin_partial",
    "Verif.Twin.C156_lengths",
    "Verif.Twin.C156_missing",
    "Verif.Twin.C156_space_violated",
    "Verif.Twin.C156_several_violated",
    "Verif.Twin.C156_mixed_violated",
    "Verif.Twin.C156_stopped",
    "Verif.Twin.C156_misfit",
    "Verif.Twin.C156_zero_partial",
    "Verif.Twin.C156_projected_violated"
   ],
   "note": "Holds for callbacks with one field each, no spaces in names and no dashes in fields, for all runs. Violated for stations with spaces (the file is written under another name, and mixed with that of a station with an underscore instead) and for callbacks with several fields (none can be read). Restricted to scalar fields and exports without index. The misfit with the true controls is zero if the projection onto continuous linear elements keeps the field at the stations, and positive otherwise (callbacks evaluate the field, the cost function its projection); the projection and the interpolation in time are parameters."
  },
  {
   "property": "C157",
   "status": "partial",
   "theorems": [
    "Verif.FieldOpt.C157_assignment",
    "Verif.FieldOpt.C157_history_partial",
    "Verif.FieldOpt.C157_update",
    "Verif.FieldOpt.C157_either",
    "Verif.FieldOpt.C157_number",
    "Verif.FieldOpt.C157_naive",
    "Verif.FieldOpt.C157_constant_violated",
    "Verif.FieldOpt.C157_function_violated",
    "Verif.FieldOpt.C157_vector_violated",
    "Verif.FieldOpt.C157_indices_violated",
    "Verif.FieldOpt.C157_last"
   ],
   "note": "Proved for all histories: scalar options hold expressions of empty shape, vector options expressions of nonempty shape, dates have a time zone, refused values change nothing, updates stop at the first refused item. Violated: vector options take any length and rank, constants and coefficients any shape, scalar options expressions with free indices."
  },
  {
   "property": "C158",
   "status": "partial",
   "theorems": [
    "Verif.Directory.C158_before",
    "Verif.Directory.C158_kept",
    "Verif.Directory.C158_ends",
    "Verif.Directory.C158_all_partial",
    "Verif.Directory.C158_hang_violated",
    "Verif.Directory.C158_race_violated",
    "Verif.Directory.C158_together",
    "Verif.Directory.C158_parents",
    "Verif.Directory.C158_world_violated"
   ],
   "note": "Proved for all schedules: the directory exists once one process has returned (also with other programs that create files), nothing is lost, at most 2n+3 steps, all return if nothing is in the way. Violated: if there is a file at the path or among its parents, process 0 raises and the others wait at the barrier for ever; if another program creates the directory between the test and makedirs, process 0 raises although the directory is there. Most callers leave out the communicator, so that solvers on a part of the processes wait for the others."
  },
  {
   "property": "C159",
   "status": "partial",
   "theorems": [
    "Verif.GradTest.C159_right_partial",
    "Verif.GradTest.C159_wrong_partial",
    "Verif.GradTest.C159_blind_violated",
    "Verif.GradTest.C159_zero_violated",
    "Verif.GradTest.C159_linear_violated",
    "Verif.GradTest.C159_consistency_partial",
    "Verif.GradTest.C159_small_violated",
    "Verif.GradTest.C159_slow",
    "Verif.GradTest.C159_points"
   ],
   "note": "Proved for functionals that are quadratic in the direction of the controls: right gradients pass, gradients that are clearly wrong in that direction fail; values recomputed as they were pass, changes above the tolerances fail. Violated: gradients are tested in the direction of the controls only, nothing is tested for controls that are zero or functionals that are linear in that direction, and the consistency test passes for all functionals with values below 5e-9."
  }
 ]
}