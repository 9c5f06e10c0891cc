{
 "claims": [
  {
   "property": "C01",
   "status": "proved",
   "theorems": [
    "Mrx.Props.C01_clamped_is_cox_de_boor",
    "Mrx.Props.C01_clamped_partition_of_unity",
    "Mrx.Props.C01_fails_for_n_eq_p_eq_one",
    "Mrx.Props.C01_fails_for_huge_n"
   ],
   "note": "Holds for n>p with at most 99900 elements; negations for n=p=1 and for a too fine knot vector (isclose tolerance)."
  },
  {
   "property": "C02",
   "status": "proved",
   "theorems": [
    "Mrx.Props.C02_periodic_partition_of_unity",
    "Mrx.Props.C02_periodic_degree_zero"
   ],
   "note": "p>=1: on [0,1]; p=0: on [0,1)."
  },
  {
   "property": "C03",
   "status": "proved",
   "theorems": [
    "Mrx.Props.C03_clamped_bounds",
    "Mrx.Props.C03_periodic_bounds"
   ],
   "note": ""
  },
  {
   "property": "C04",
   "status": "proved",
   "theorems": [
    "Mrx.Props.C04_clamped_support",
    "Mrx.Props.C04_clamped_at_most_p_plus_one",
    "Mrx.Props.C04_periodic_at_most_p_plus_one"
   ],
   "note": ""
  },
  {
   "property": "C05",
   "status": "proved",
   "theorems": [
    "Mrx.Props.C05_clamped_endpoints"
   ],
   "note": ""
  },
  {
   "property": "C06",
   "status": "proved",
   "theorems": [
    "Mrx.Props.C06_periodic_seam"
   ],
   "note": ""
  },
  {
   "property": "C07",
   "status": "proved",
   "theorems": [
    "Mrx.Props.C07_clamped_derivative",
    "Mrx.Props.C07_periodic_derivative"
   ],
   "note": ""
  },
  {
   "property": "C08",
   "status": "proved",
   "theorems": [
    "Mrx.Props.C08_right_end_iff",
    "Mrx.Props.C08_clamped_derivative_values",
    "Mrx.Props.C08_last_derivative_wrong_at_one",
    "Mrx.Props.C08_second_last_derivative_wrong_at_one"
   ],
   "note": "Exact domain: C08_right_end_iff. The unrestricted claim (right at x=1 for all i) is false of the code."
  },
  {
   "property": "C09",
   "status": "proved",
   "theorems": [
    "Mrx.Props.C09_form_accepts_iff",
    "Mrx.Props.C09_constructor_accepts_iff",
    "Mrx.Props.C09_knot_count",
    "Mrx.Props.C09_constant_evaluates_to_one"
   ],
   "note": ""
  },
  {
   "property": "C10",
   "status": "proved",
   "theorems": [
    "Mrx.Props.C10_tensor_requires_three",
    "Mrx.Props.C10_tensor_evaluate",
    "Mrx.Props.C10_tensor_index_unique",
    "Mrx.Props.C10_tensor_partition_of_unity"
   ],
   "note": ""
  },
  {
   "property": "C11",
   "status": "proved",
   "theorems": [
    "Mrx.Props.C11_composite_counts",
    "Mrx.Props.C11_composite_points_inside",
    "Mrx.Props.C11_total_weight",
    "Mrx.Props.C11_select_rule"
   ],
   "note": ""
  },
  {
   "property": "C12",
   "status": "proved",
   "theorems": [
    "Mrx.Props.C12_composite_exact",
    "Mrx.Props.C12_degree_sharp"
   ],
   "note": "Error bound 3e-16-type from rounded decimal tables made explicit."
  },
  {
   "property": "C13",
   "status": "proved",
   "theorems": [
    "Mrx.Props.C13_trapezoid"
   ],
   "note": ""
  },
  {
   "property": "C14",
   "status": "proved",
   "theorems": [
    "Mrx.Props.C14_tensor_rule_order",
    "Mrx.Props.C14_tensor_fubini",
    "Mrx.Props.C14_tensor_product_rule"
   ],
   "note": ""
  },
  {
   "property": "C15",
   "status": "proved",
   "theorems": [
    "Mrx.Props.C15_requested_rule_iff",
    "Mrx.Props.C15_spectral_rejects",
    "Mrx.Props.C15_unsupported_order_silently_ten",
    "Mrx.Props.C15_degree_zero_rule_is_empty"
   ],
   "note": "Exact domain: C15_requested_rule_iff; the stronger expectation (unsupported requests are rejected) is false of the code: C15_unsupported_order_silently_ten, C15_degree_zero_rule_is_empty."
  },
  {
   "property": "C16",
   "status": "proved",
   "theorems": [
    "Mrx.Props.C16_unravel_ravel",
    "Mrx.Props.C16_ravel_unravel",
    "Mrx.Props.C16_covered_once"
   ],
   "note": ""
  },
  {
   "property": "C17",
   "status": "proved",
   "theorems": [
    "Mrx.Props.C17_euler_characteristic",
    "Mrx.Props.C17_euler_zero_if_periodic",
    "Mrx.Props.C17_bad_degree_rejected"
   ],
   "note": ""
  },
  {
   "property": "C18",
   "status": "proved",
   "theorems": [
    "Mrx.Props.C18_single_component",
    "Mrx.Props.C18_component_count",
    "Mrx.Props.C18_discrete_function_linear",
    "Mrx.Props.C18_discrete_function_value",
    "Mrx.Props.C18_discrete_function_unit"
   ],
   "note": ""
  },
  {
   "property": "C19",
   "status": "proved",
   "theorems": [
    "Mrx.Props.C19_getters_agree"
   ],
   "note": ""
  },
  {
   "property": "C20",
   "status": "proved",
   "theorems": [
    "Mrx.Props.C20_gradient_iff",
    "Mrx.Props.C20_curl_iff",
    "Mrx.Props.C20_divergence_iff",
    "Mrx.Props.C20_tables_iff",
    "Mrx.Props.C20_last_radial_gradient_tabulated_as_zero",
    "Mrx.Props.C20_last_axial_gradient_tabulated_as_zero",
    "Mrx.Props.C20_gradient_wrong_when_nr_ne_nt"
   ],
   "note": "Exact domain: for every basis function and resolution (C20_gradient_iff, C20_curl_iff, C20_divergence_iff) and for whole tables (C20_tables_iff). The unrestricted claim (all sizes) is false: C20_last_radial_gradient_tabulated_as_zero, C20_last_axial_gradient_tabulated_as_zero, C20_gradient_wrong_when_nr_ne_nt, FormsDerivNeg."
  },
  {
   "property": "C21",
   "status": "proved",
   "theorems": [
    "Mrx.Props.C21_inv33_is_inverse",
    "Mrx.Props.C21_inv33_zero_below_threshold",
    "Mrx.Props.C21_inv33_transpose"
   ],
   "note": ""
  },
  {
   "property": "C22",
   "status": "proved",
   "theorems": [
    "Mrx.Props.C22_pullback_pushforward_scalar",
    "Mrx.Props.C22_pullback_pushforward_vector",
    "Mrx.Props.C22_pushforward_pullback_scalar",
    "Mrx.Props.C22_pushforward_pullback_vector",
    "Mrx.Props.C22_unknown_degree_returns_nothing"
   ],
   "note": ""
  },
  {
   "property": "C23",
   "status": "proved",
   "theorems": [
    "Mrx.Props.C23_pairing_one_two",
    "Mrx.Props.C23_pairing_zero_three",
    "Mrx.Props.C23_cross_of_one_forms"
   ],
   "note": ""
  },
  {
   "property": "C24",
   "status": "proved",
   "theorems": [
    "Mrx.Props.C24_curl_grad",
    "Mrx.Props.C24_div_curl"
   ],
   "note": ""
  },
  {
   "property": "C25",
   "status": "proved",
   "theorems": [
    "Mrx.Props.C25_inverse_metric_iff",
    "Mrx.Props.C25_metric_determinant",
    "Mrx.Props.C25_inverse_metric",
    "Mrx.Props.C25_inverse_metric_zero_for_small_jacobian",
    "Mrx.Props.C25_small_domain_breaks_inverse"
   ],
   "note": "Exact domain: C25_inverse_metric_iff; the unrestricted claim is false of the code: C25_small_domain_breaks_inverse."
  },
  {
   "property": "C26",
   "status": "proved",
   "theorems": [
    "Mrx.Props.C26_rows_select_kept_dofs",
    "Mrx.Props.C26_orthonormal_rows",
    "Mrx.Props.C26_projection",
    "Mrx.Props.C26_vanishing_trace",
    "Mrx.Props.C26_sequence_dirichlet",
    "Mrx.Props.C26_sequence_exact"
   ],
   "note": ""
  },
  {
   "property": "C27",
   "status": "proved",
   "theorems": [
    "Mrx.Props.C27_vector_selection",
    "Mrx.Props.C27_dirichlet_vector_wrong",
    "Mrx.Props.C27_vector_selection_iff"
   ],
   "note": "Exact domain: C27_vector_selection_iff; the unrestricted claim is false: C27_dirichlet_vector_wrong."
  },
  {
   "property": "C28",
   "status": "proved",
   "theorems": [
    "Mrx.Props.C28_range_is_polar_forms",
    "Mrx.Props.C28_single_valued_on_axis",
    "Mrx.Props.C28_partition_of_unity",
    "Mrx.Props.C28_dirichlet_trace"
   ],
   "note": ""
  },
  {
   "property": "C29",
   "status": "proved",
   "theorems": [
    "Mrx.Props.C29_rows_independent_iff",
    "Mrx.Props.C29_rows_independent",
    "Mrx.Props.C29_threeform_clamped_zero_row",
    "Mrx.Props.C29_twoform_clamped_duplicate_rows"
   ],
   "note": "Exact domain: C29_rows_independent_iff; the claim for a clamped axial basis is false: C29_threeform_clamped_zero_row, C29_twoform_clamped_duplicate_rows."
  },
  {
   "property": "C30",
   "status": "proved",
   "theorems": [
    "Mrx.Props.C30_polar_complex",
    "Mrx.Props.C30_boundary_complex"
   ],
   "note": ""
  },
  {
   "property": "C31",
   "status": "proved",
   "theorems": [
    "Mrx.Props.C31_assembled_semidefinite",
    "Mrx.Props.C31_assembled_definite_iff",
    "Mrx.Props.C31_mass_matrices_definite",
    "Mrx.Props.C31_mass_is_l2_product",
    "Mrx.Props.C31_too_few_points",
    "Mrx.Props.C31_linear_one_point",
    "Mrx.Props.C31_even_one_point"
   ],
   "note": ""
  },
  {
   "property": "C32",
   "status": "proved",
   "theorems": [
    "Mrx.Props.C32_adjoint_operators",
    "Mrx.Props.C32_adjoint_fields"
   ],
   "note": ""
  },
  {
   "property": "C33",
   "status": "proved",
   "theorems": [
    "Mrx.Props.C33_exactness"
   ],
   "note": ""
  },
  {
   "property": "C34",
   "status": "proved",
   "theorems": [
    "Mrx.Props.C34_laplacians_semidefinite",
    "Mrx.Props.C34_energy_identities",
    "Mrx.Props.C34_energy_identity_3",
    "Mrx.Props.C34_kernels_are_harmonic",
    "Mrx.Props.C34_laplacians_are_hodge",
    "Mrx.Props.C34_laplacians_commute"
   ],
   "note": ""
  },
  {
   "property": "C35",
   "status": "proved",
   "theorems": [
    "Mrx.Props.C35_leray_projects",
    "Mrx.Props.C35_leray_residual_orthogonal"
   ],
   "note": ""
  },
  {
   "property": "C36",
   "status": "proved",
   "theorems": [
    "Mrx.Props.C36_projectors_are_load_vectors",
    "Mrx.Props.C36_projection_reproduces",
    "Mrx.Props.C36_projection_error_orthogonal",
    "Mrx.Props.C36_best_approximation"
   ],
   "note": ""
  },
  {
   "property": "C37",
   "status": "proved",
   "theorems": [
    "Mrx.Props.C37_lazy_derivative_iff",
    "Mrx.Props.C37_lazy_mass_regular",
    "Mrx.Props.C37_lazy_projection",
    "Mrx.Props.C37_lazy_vector",
    "Mrx.Props.C37_lazy_derivative_regular",
    "Mrx.Props.C37_lazy_laplacians",
    "Mrx.Props.C37_lazy_mass_differs",
    "Mrx.Props.C37_derivative_matrix",
    "Mrx.Props.C37_derivative_matrix_plain",
    "Mrx.Props.C37_derivative_threeform",
    "Mrx.Props.C37_derivative_vector",
    "Mrx.Props.C37_lazy_mass",
    "Mrx.Props.C37_lazy_derivative"
   ],
   "note": "Exact domain: C37_lazy_mass, C37_lazy_derivative (positive Jacobian), C37_lazy_derivative_iff (resolutions). Finding C37_lazy_mass_differs: map x/100, assembled M1 = 0, lazy M1 positive definite."
  },
  {
   "property": "C38",
   "status": "proved",
   "theorems": [
    "Mrx.Props.C38_cross_product_integrals",
    "Mrx.Props.C38_antisymmetric",
    "Mrx.Props.C38_orthogonal_to_arguments",
    "Mrx.Props.C38_cyclic",
    "Mrx.Props.C38_linear_first",
    "Mrx.Props.C38_linear_second",
    "Mrx.Props.C38_degrees_checked",
    "Mrx.Props.C38_unsupported_raises"
   ],
   "note": ""
  },
  {
   "property": "C39",
   "status": "proved",
   "theorems": [
    "Mrx.Props.C39_evaluate_integrate_adjoint",
    "Mrx.Props.C39_evaluate_is_discrete_function"
   ],
   "note": ""
  },
  {
   "property": "C40",
   "status": "proved",
   "theorems": [
    "Mrx.Props.C40_nan_start",
    "Mrx.Props.C40_picard_terminates"
   ],
   "note": ""
  },
  {
   "property": "C41",
   "status": "proved",
   "theorems": [
    "Mrx.Props.C41_flag",
    "Mrx.Props.C41_truthful_iff",
    "Mrx.Props.C41_any_tolerance",
    "Mrx.Props.C41_nan_tolerance",
    "Mrx.Props.C41_nan_is_final",
    "Mrx.Props.C41_residual_of_returned",
    "Mrx.Props.C41_converged",
    "Mrx.Props.C41_no_iteration",
    "Mrx.Props.C41_converged_nonexpansive",
    "Mrx.Props.C41_false_convergence"
   ],
   "note": "Two-case description of the flag (C41_flag) and exact domain (C41_truthful_iff); finding C41_false_convergence."
  },
  {
   "property": "C42",
   "status": "proved",
   "theorems": [
    "Mrx.Props.C42_convex_invariant",
    "Mrx.Props.C42_linear_constraint"
   ],
   "note": ""
  },
  {
   "property": "C43",
   "status": "proved",
   "theorems": [
    "Mrx.Props.C43_newton_affine",
    "Mrx.Props.C43_newton_at_root",
    "Mrx.Props.C43_residual_is_newton_step",
    "Mrx.Props.C43_zero_residual_is_root",
    "Mrx.Props.C43_reported_residual_differs"
   ],
   "note": ""
  },
  {
   "property": "C44",
   "status": "proved",
   "theorems": [
    "Mrx.Props.C44_invert_terminates",
    "Mrx.Props.C44_invert_iterates",
    "Mrx.Props.C44_stop_reason",
    "Mrx.Props.C44_invert_affine",
    "Mrx.Props.C44_returned_point_unchecked"
   ],
   "note": ""
  },
  {
   "property": "C45",
   "status": "proved",
   "theorems": [
    "Mrx.Props.C45_update",
    "Mrx.Props.C45_perturbation",
    "Mrx.Props.C45_divergence_free",
    "Mrx.Props.C45_recorded_divergence"
   ],
   "note": ""
  },
  {
   "property": "C46",
   "status": "proved",
   "theorems": [
    "Mrx.Props.C46_energy_balance",
    "Mrx.Props.C46_energy_dissipation",
    "Mrx.Props.C46_energy_inexact",
    "Mrx.Props.C46_energy_bound",
    "Mrx.Props.C46_energy_decreases",
    "Mrx.Props.C46_newton_energy",
    "Mrx.Props.C46_loop"
   ],
   "note": ""
  },
  {
   "property": "C47",
   "status": "proved",
   "theorems": [
    "Mrx.Props.C47_integration_by_parts",
    "Mrx.Props.C47_helicity_drift",
    "Mrx.Props.C47_converged_ideal_step",
    "Mrx.Props.C47_linear_splines_exact",
    "Mrx.Props.C47_loop",
    "Mrx.Props.C47_potential_polar",
    "Mrx.Props.C47_wellposed_iff",
    "Mrx.Props.C47_wellposed_false",
    "Mrx.Props.C47_potential_of_invertible",
    "Mrx.Props.C47_helicity_exact_quadrature"
   ],
   "note": "C47_wellposed_iff is the exact domain of the helicity; unconditional drift bound for polar Dirichlet sequences; C47_helicity_exact_quadrature is the exact identity under exact quadrature."
  },
  {
   "property": "C48",
   "status": "proved",
   "theorems": [
    "Mrx.Props.C48_picard_terminates",
    "Mrx.Props.C48_result",
    "Mrx.Props.C48_first",
    "Mrx.Props.C48_frame",
    "Mrx.Props.C48_last",
    "Mrx.Props.C48_tol_ge_one"
   ],
   "note": ""
  },
  {
   "property": "C49",
   "status": "proved",
   "theorems": [
    "Mrx.Props.C49_accepted_iff",
    "Mrx.Props.C49_rejected_step",
    "Mrx.Props.C49_reported_step",
    "Mrx.Props.C49_hessian",
    "Mrx.Props.C49_dt_decreases",
    "Mrx.Props.C49_accepted_step",
    "Mrx.Props.C49_dt_positive",
    "Mrx.Props.C49_dt_formula",
    "Mrx.Props.C49_all_rejected",
    "Mrx.Props.C49_stopped"
   ],
   "note": ""
  },
  {
   "property": "C50",
   "status": "proved",
   "theorems": [
    "Mrx.Props.C50_recorded_quantities",
    "Mrx.Props.C50_trace",
    "Mrx.Props.C50_aligned",
    "Mrx.Props.C50_schedule"
   ],
   "note": ""
  },
  {
   "property": "C51",
   "status": "proved",
   "theorems": [
    "Mrx.Props.C51_perturbation",
    "Mrx.Props.C51_perturbation_lost",
    "Mrx.Props.C51_force_stop_every",
    "Mrx.Props.C51_force_stop_saved",
    "Mrx.Props.C51_not_applied_once",
    "Mrx.Props.C51_force_stale"
   ],
   "note": "C51_perturbation / C51_perturbation_lost cover the two cases; findings C51_not_applied_once, C51_force_stale."
  },
  {
   "property": "C52",
   "status": "proved",
   "theorems": [
    "Mrx.Props.C52_caller_iff",
    "Mrx.Props.C52_last_saved",
    "Mrx.Props.C52_relaxed_in_trace",
    "Mrx.Props.C52_caller_state_unchanged",
    "Mrx.Props.C52_caller_not_relaxed",
    "Mrx.Props.C52_relaxed_in_trace_last"
   ],
   "note": "C52_caller_iff: the exact domain; C52_last_saved: what is in the trace instead."
  },
  {
   "property": "C53",
   "status": "proved",
   "theorems": [
    "Mrx.Props.C53_symmetric",
    "Mrx.Props.C53_bilinear",
    "Mrx.Props.C53_quadratic_form",
    "Mrx.Props.C53_quadratic_form_weak",
    "Mrx.Props.C53_weak_fields"
   ],
   "note": ""
  },
  {
   "property": "C54",
   "status": "proved",
   "theorems": [
    "Mrx.Props.C54_copy_never_independent",
    "Mrx.Props.C54_defaults_overwritten",
    "Mrx.Props.C54_run_appends",
    "Mrx.Props.C54_runs_share_trace",
    "Mrx.Props.C54_deepcopy",
    "Mrx.Props.C54_default_start_time_raises"
   ],
   "note": "C54_copy_never_independent; deep copies are separate (C54_deepcopy). Finding: scripts use .copy()."
  },
  {
   "property": "C55",
   "status": "proved",
   "theorems": [
    "Mrx.Props.C55_raises_iff",
    "Mrx.Props.C55_split",
    "Mrx.Props.C55_last_value",
    "Mrx.Props.C55_fails_iff",
    "Mrx.Props.C55_integer",
    "Mrx.Props.C55_boolean",
    "Mrx.Props.C55_float_or_string",
    "Mrx.Props.C55_negative_integer_is_float",
    "Mrx.Props.C55_superscript_raises",
    "Mrx.Props.C55_never_raises"
   ],
   "note": "C55_raises_iff is the exact domain; negative integers become floats (finding)."
  },
  {
   "property": "C56",
   "status": "proved",
   "theorems": [
    "Mrx.Props.C56_precedence",
    "Mrx.Props.C56_raises_iff",
    "Mrx.Props.C56_preset_keeps_boundary",
    "Mrx.Props.C56_device_values",
    "Mrx.Props.C56_default_values"
   ],
   "note": ""
  },
  {
   "property": "C57",
   "status": "proved",
   "theorems": [
    "Mrx.Props.C57_result",
    "Mrx.Props.C57_membership",
    "Mrx.Props.C57_agreement_same_keys",
    "Mrx.Props.C57_missing_key_accepted",
    "Mrx.Props.C57_extra_key_rejected",
    "Mrx.Props.C57_array_raises",
    "Mrx.Props.C57_iterations"
   ],
   "note": "C57_result/C57_membership characterise the result; findings: missing keys accepted, extra keys rejected, arrays raise."
  },
  {
   "property": "C58",
   "status": "proved",
   "theorems": [
    "Mrx.Props.C58_datasets_aligned",
    "Mrx.Props.C58_dataset_contents",
    "Mrx.Props.C58_sweep_axis_too_short",
    "Mrx.Props.C58_sweep_axis_bound",
    "Mrx.Props.C58_double_extension"
   ],
   "note": ""
  },
  {
   "property": "C59",
   "status": "proved",
   "theorems": [
    "Mrx.Props.C59_closed_form",
    "Mrx.Props.C59_periodic",
    "Mrx.Props.C59_jacobian",
    "Mrx.Props.C59_jacobian_pos",
    "Mrx.Props.C59_degenerate_iff",
    "Mrx.Props.C59_axis"
   ],
   "note": ""
  },
  {
   "property": "C60",
   "status": "proved",
   "theorems": [
    "Mrx.Props.C60_left_inverse",
    "Mrx.Props.C60_right_inverse",
    "Mrx.Props.C60_injective",
    "Mrx.Props.C60_elongated"
   ],
   "note": ""
  },
  {
   "property": "C61",
   "status": "proved",
   "theorems": [
    "Mrx.Props.C61_closed_form_abs",
    "Mrx.Props.C61_closed_form",
    "Mrx.Props.C61_periodic",
    "Mrx.Props.C61_axis",
    "Mrx.Props.C61_no_phase",
    "Mrx.Props.C61_jacobian",
    "Mrx.Props.C61_jacobian_pos"
   ],
   "note": ""
  },
  {
   "property": "C62",
   "status": "proved",
   "theorems": [
    "Mrx.Props.C62_raises",
    "Mrx.Props.C62_closed_form",
    "Mrx.Props.C62_periodic",
    "Mrx.Props.C62_field_period",
    "Mrx.Props.C62_full_turn",
    "Mrx.Props.C62_jacobian",
    "Mrx.Props.C62_jacobian_pos",
    "Mrx.Props.C62_degenerate"
   ],
   "note": ""
  },
  {
   "property": "C63",
   "status": "proved",
   "theorems": [
    "Mrx.Props.C63_drumshape_jacobian",
    "Mrx.Props.C63_polar_jacobian",
    "Mrx.Props.C63_cylinder_jacobian",
    "Mrx.Props.C63_drumshape_modified_jacobian",
    "Mrx.Props.C63_periodic",
    "Mrx.Props.C63_cross_section",
    "Mrx.Props.C63_helical_frame_not_orthogonal",
    "Mrx.Props.C63_helical_frame",
    "Mrx.Props.C63_helical_periodic"
   ],
   "note": "Helical frame: iff of C63_helical_frame_not_orthogonal (finding)."
  },
  {
   "property": "C64",
   "status": "proved",
   "theorems": [
    "Mrx.Props.C64_grid_point_iff",
    "Mrx.Props.C64_grid_point",
    "Mrx.Props.C64_position_lost",
    "Mrx.Props.C64_grid_point_radius",
    "Mrx.Props.C64_half_period",
    "Mrx.Props.C64_logical_points"
   ],
   "note": "Exact domain: C64_grid_point_iff; the unrestricted claim is false: C64_position_lost."
  },
  {
   "property": "C65",
   "status": "proved",
   "theorems": [
    "Mrx.Props.C65_cut2_aligned_iff",
    "Mrx.Props.C65_cut2_transposed_iff",
    "Mrx.Props.C65_3d_transposed_iff",
    "Mrx.Props.C65_points_and_images",
    "Mrx.Props.C65_all_points",
    "Mrx.Props.C65_sizes",
    "Mrx.Props.C65_1d_aligned",
    "Mrx.Props.C65_2d_aligned",
    "Mrx.Props.C65_cut2_entries",
    "Mrx.Props.C65_cut2_square",
    "Mrx.Props.C65_cut2_misaligned",
    "Mrx.Props.C65_3d_square",
    "Mrx.Props.C65_3d_misaligned",
    "Mrx.Props.C65_linspace",
    "Mrx.Props.C65_2d_axes"
   ],
   "note": "Exact domain: C65_cut2_aligned_iff, C65_cut2_transposed_iff, C65_3d_transposed_iff; misalignment: C65_cut2_misaligned, C65_3d_misaligned."
  },
  {
   "property": "C66",
   "status": "proved",
   "theorems": [
    "Mrx.Props.C66_jit_mask_iff",
    "Mrx.Props.C66_jit_point_iff",
    "Mrx.Props.C66_list_iff",
    "Mrx.Props.C66_interp_plane_iff",
    "Mrx.Props.C66_jit_sound",
    "Mrx.Props.C66_jit_mask",
    "Mrx.Props.C66_jit_complete",
    "Mrx.Props.C66_jit_in_plane",
    "Mrx.Props.C66_jit_plane_zero",
    "Mrx.Props.C66_jit_zero_crossing_missed",
    "Mrx.Props.C66_jit_entries",
    "Mrx.Props.C66_list_sound",
    "Mrx.Props.C66_list_complete",
    "Mrx.Props.C66_list_scaling",
    "Mrx.Props.C66_interp_sound",
    "Mrx.Props.C66_interp_wrong_plane",
    "Mrx.Props.C66_interp_linear",
    "Mrx.Props.C66_interp_indices",
    "Mrx.Props.C66_interp_vertex_missed",
    "Mrx.Props.C66_interp_result",
    "Mrx.Props.C66_interp_quadratic_wrong_crossing"
   ],
   "note": "Exact domains C66_jit_mask_iff, C66_jit_point_iff, C66_list_iff, C66_interp_plane_iff; findings: plane value 0, scaling of the normal, vertex missed, quadratic interpolation."
  },
  {
   "property": "C67",
   "status": "proved",
   "theorems": [
    "Mrx.Props.C67_unique_id",
    "Mrx.Props.C67_every_id_possible",
    "Mrx.Props.C67_alphabet_size"
   ],
   "note": ""
  },
  {
   "property": "C68",
   "status": "proved",
   "theorems": [
    "Mrx.Props.C68_epoch_time",
    "Mrx.Props.C68_monotone"
   ],
   "note": ""
  },
  {
   "property": "C69",
   "status": "proved",
   "theorems": [
    "Mrx.Props.C69_loss",
    "Mrx.Props.C69_flux",
    "Mrx.Props.C69_boundary"
   ],
   "note": ""
  },
  {
   "property": "C70",
   "status": "proved",
   "theorems": [
    "Mrx.Props.C70_valid_points_iff",
    "Mrx.Props.C70_tolerance_ignored",
    "Mrx.Props.C70_valid_points",
    "Mrx.Props.C70_wrong_points"
   ],
   "note": "Exact domain: C70_valid_points_iff; the documented claim (for every tolerance) is false: C70_wrong_points."
  },
  {
   "property": "C71",
   "status": "proved",
   "theorems": [
    "Mrx.Props.C71_entries",
    "Mrx.Props.C71_no_wrap",
    "Mrx.Props.C71_invented_iff",
    "Mrx.Props.C71_missed_iff",
    "Mrx.Props.C71_point_iff",
    "Mrx.Props.C71_spurious",
    "Mrx.Props.C71_true_crossings"
   ],
   "note": "Exact: C71_no_wrap, C71_point_iff, C71_invented_iff, C71_missed_iff; finding C71_spurious (invented crossings)."
  },
  {
   "property": "C72",
   "status": "proved",
   "theorems": [
    "Mrx.Props.C72_axes_equal"
   ],
   "note": ""
  },
  {
   "property": "C73",
   "status": "proved",
   "theorems": [
    "Mrx.Props.C73_hodge_decomposition",
    "Mrx.Props.C73_harmonic_dimensions",
    "Mrx.Props.C73_topology_iff",
    "Mrx.Props.C73_laplacians_invertible_iff",
    "Mrx.Props.C73_potentials_iff",
    "Mrx.Props.C73_magnetic_decomposition",
    "Mrx.Props.C73_scalar_harmonics",
    "Mrx.Props.C73_polar_dirichlet_singular",
    "Mrx.Props.C73_false"
   ],
   "note": "Proved for every resolution. C73_topology_iff gives the exact sizes for which the numbers of harmonic fields are topological; C73_false and C73_polar_dirichlet_singular are the findings for the others (index bug C20)."
  },
  {
   "property": "C74",
   "status": "proved",
   "theorems": [
    "Mrx.Props.C74_norms",
    "Mrx.Props.C74_definite",
    "Mrx.Props.C74_norm_is_norm",
    "Mrx.Props.C74_hodge_projections",
    "Mrx.Props.C74_helicity_integral",
    "Mrx.Props.C74_helicity_characterised",
    "Mrx.Props.C74_quadratic"
   ],
   "note": "Proved; helicity_characterised covers exactly the sequences on which the linear system of helicity is non-singular."
  },
  {
   "property": "C75",
   "status": "proved",
   "theorems": [
    "Mrx.Props.C75_lorentz_force",
    "Mrx.Props.C75_pressure_poisson",
    "Mrx.Props.C75_pressure_wellposed_iff",
    "Mrx.Props.C75_pressure_zero_iff",
    "Mrx.Props.C75_wellposed_false",
    "Mrx.Props.C75_force_free_projection",
    "Mrx.Props.C75_force_free_nan",
    "Mrx.Props.C75_force_free_false"
   ],
   "note": "C75_pressure_wellposed_iff is the exact domain; the force-free pressure is NaN exactly at zeros of B."
  },
  {
   "property": "C76",
   "status": "proved",
   "theorems": [
    "Mrx.Props.C76_gradient_of_constants",
    "Mrx.Props.C76_constants_false",
    "Mrx.Props.C76_gradient_iff",
    "Mrx.Props.C76_curl_iff",
    "Mrx.Props.C76_div_iff",
    "Mrx.Props.C76_operators_are_incidence_iff",
    "Mrx.Props.C76_operators_are_incidence",
    "Mrx.Props.C76_grad_is_exact",
    "Mrx.Props.C76_curl_is_exact",
    "Mrx.Props.C76_div_is_exact"
   ],
   "note": "Exact domain of sizes for gradient, curl, divergence (C76_gradient_iff, C76_curl_iff, C76_div_iff, C76_operators_are_incidence_iff) and for constants (C76_gradient_of_constants); the unrestricted claim is false."
  },
  {
   "property": "C77",
   "status": "proved",
   "theorems": [
    "Mrx.Props.C77_projection",
    "Mrx.Props.C77_best_approximation",
    "Mrx.Props.C77_projected_start",
    "Mrx.Props.C77_harmonic_start",
    "Mrx.Props.C77_harmonic_diagnostics",
    "Mrx.Props.C77_projected_run",
    "Mrx.Props.C77_stationary",
    "Mrx.Props.C77_harmonic_run_report",
    "Mrx.Props.C77_report_raises_iff"
   ],
   "note": "Everything about the fields is proved for every resolution (uniqueness of the harmonic start is an iff); exact condition for the report: C77_report_raises_iff (finding: ZeroDivisionError for the harmonic start)."
  },
  {
   "property": "C78",
   "status": "proved",
   "theorems": [
    "Mrx.Props.C78_poisson_weak_form",
    "Mrx.Props.C78_poisson_minimises",
    "Mrx.Props.C78_poisson_linear",
    "Mrx.Props.C78_poisson_wellposed_iff",
    "Mrx.Props.C78_mixed_poisson",
    "Mrx.Props.C78_relative_error",
    "Mrx.Props.C78_eigh_residual",
    "Mrx.Props.C78_eigh_pinv_iff",
    "Mrx.Props.C78_vector_poisson"
   ],
   "note": "Proved; C78_poisson_wellposed_iff is the exact domain of the two linear systems."
  },
  {
   "property": "C79",
   "status": "proved",
   "theorems": [
    "Mrx.Props.C79_generalised_spectrum",
    "Mrx.Props.C79_plain_spectrum",
    "Mrx.Props.C79_zero_modes_topological_iff",
    "Mrx.Props.C79_hollow_toroid",
    "Mrx.Props.C79_double_curl",
    "Mrx.Props.C79_eigenvalues_real",
    "Mrx.Props.C79_modes",
    "Mrx.Props.C79_modes_converse",
    "Mrx.Props.C79_double_curl_kernel",
    "Mrx.Props.C79_spectral_chain"
   ],
   "note": "Proved for every resolution; C79_zero_modes_topological_iff says when the zero modes are topological."
  },
  {
   "property": "C80",
   "status": "proved",
   "theorems": [
    "Mrx.Props.C80_values",
    "Mrx.Props.C80_calls",
    "Mrx.Props.C80_well_ordered",
    "Mrx.Props.C80_assemble_all",
    "Mrx.Props.C80_without_tables",
    "Mrx.Props.C80_unfinished_call"
   ],
   "note": ""
  },
  {
   "property": "C81",
   "status": "proved",
   "theorems": [
    "Mrx.Props.C81_lstsq_exists",
    "Mrx.Props.C81_map_usable_iff",
    "Mrx.Props.C81_map_best_fit",
    "Mrx.Props.C81_map_reproduces",
    "Mrx.Props.C81_B_best_fit",
    "Mrx.Props.C81_B_reproduces"
   ],
   "note": "C81_map_usable_iff is the exact domain of the map; the B theorems hold for every sequence."
  },
  {
   "property": "C82",
   "status": "proved",
   "theorems": [
    "Mrx.Props.C82_picard_converges",
    "Mrx.Props.C82_picard_converges_euclid",
    "Mrx.Props.C82_first_step",
    "Mrx.Props.C82_damped_step"
   ],
   "note": ""
  },
  {
   "property": "C83",
   "status": "proved",
   "theorems": [
    "Mrx.Props.C83_assemble",
    "Mrx.Props.C83_assemble_matrix",
    "Mrx.Props.C83_evaluate",
    "Mrx.Props.C83_evaluate_model",
    "Mrx.Props.C83_integrate",
    "Mrx.Props.C83_integrate_model",
    "Mrx.Props.C83_adjoint",
    "Mrx.Props.C83_matvec",
    "Mrx.Props.C83_transpose"
   ],
   "note": ""
  },
  {
   "property": "C84",
   "status": "proved",
   "theorems": [
    "Mrx.Props.C84_polar",
    "Mrx.Props.C84_mixed",
    "Mrx.Props.C84_toroid",
    "Mrx.Props.C84_toroid_interactive",
    "Mrx.Props.C84_vector_azimuthal",
    "Mrx.Props.C84_vector_cartesian_wrong"
   ],
   "note": "Scalar problems proved; vector problem: azimuthal reading proved, Cartesian reading refuted (finding)."
  },
  {
   "property": "C85",
   "status": "proved",
   "theorems": [
    "Mrx.Props.C85_solovev_equilibrium",
    "Mrx.Props.C85_axis_safety_factor",
    "Mrx.Props.C85_boundary_is_not_a_flux_surface",
    "Mrx.Props.C85_hopf"
   ],
   "note": ""
  },
  {
   "property": "C86",
   "status": "proved",
   "theorems": [
    "Mrx.Props.C86_marsden",
    "Mrx.Props.C86_greville",
    "Mrx.Props.C86_polynomials",
    "Mrx.Props.C86_clamped_space",
    "Mrx.Props.C86_periodic_space",
    "Mrx.Props.C86_clamped_derivative_space",
    "Mrx.Props.C86_periodic_derivative_space"
   ],
   "note": ""
  },
  {
   "property": "C87",
   "status": "proved",
   "theorems": [
    "Mrx.Props.C87_clamped_refinement",
    "Mrx.Props.C87_periodic_refinement",
    "Mrx.Props.C87_not_nested"
   ],
   "note": ""
  },
  {
   "property": "C88",
   "status": "proved",
   "theorems": [
    "Mrx.Props.C88_clamped_range",
    "Mrx.Props.C88_periodic_range",
    "Mrx.Props.C88_clamped_local_range",
    "Mrx.Props.C88_polar_zeroform_nonneg",
    "Mrx.Props.C88_boundary_zeroform_nonneg",
    "Mrx.Props.C88_polar_threeform_nonneg",
    "Mrx.Props.C88_polar_zeroform_range"
   ],
   "note": ""
  },
  {
   "property": "C89",
   "status": "proved",
   "theorems": [
    "Mrx.Props.C89_tensor_splines",
    "Mrx.Props.C89_polynomials",
    "Mrx.Props.C89_polar_constant"
   ],
   "note": ""
  },
  {
   "property": "C90",
   "status": "proved",
   "theorems": [
    "Mrx.Props.C90_solver_exists",
    "Mrx.Props.C90_generalized_eigh",
    "Mrx.Props.C90_regularised_spectrum",
    "Mrx.Props.C90_loss",
    "Mrx.Props.C90_same_as_sequence",
    "Mrx.Props.C90_spectrum",
    "Mrx.Props.C90_frequencies_positive_iff",
    "Mrx.Props.C90_scaling_above_cutoff",
    "Mrx.Props.C90_sign",
    "Mrx.Props.C90_small_drums_silent",
    "Mrx.Props.C90_scaling"
   ],
   "note": "C90_scaling is the exact condition for the scaling law; C90_frequencies_positive_iff the exact condition for positive frequencies; finding C90_small_drums_silent."
  },
  {
   "property": "C91",
   "status": "proved",
   "theorems": [
    "Mrx.Props.C91_toroidal_turns",
    "Mrx.Props.C91_poloidal_turns",
    "Mrx.Props.C91_turns_mod_one",
    "Mrx.Props.C91_aliasing",
    "Mrx.Props.C91_reverse",
    "Mrx.Props.C91_unit_speed",
    "Mrx.Props.C91_other_fields",
    "Mrx.Props.C91_cylindrical",
    "Mrx.Props.C91_turns_of_curve",
    "Mrx.Props.C91_iota",
    "Mrx.Props.C91_iota_star",
    "Mrx.Props.C91_iota_torus",
    "Mrx.Props.C91_iota_uniform",
    "Mrx.Props.C91_iota_limit",
    "Mrx.Props.C91_crossing_plane",
    "Mrx.Props.C91_signed_radius",
    "Mrx.Props.C91_helical_axis_counted"
   ],
   "note": "Turn counting, error bounds and tracing right-hand sides proved. The ODE solver itself is not modelled. C91_aliasing and C91_helical_axis_counted delimit what the reported value means."
  },
  {
   "property": "C92",
   "status": "proved",
   "theorems": [
    "Mrx.Props.C92_domain_iff",
    "Mrx.Props.C92_labels_iff",
    "Mrx.Props.C92_domain",
    "Mrx.Props.C92_wrong_domain",
    "Mrx.Props.C92_major_radius",
    "Mrx.Props.C92_label_le",
    "Mrx.Props.C92_label",
    "Mrx.Props.C92_label_shifted",
    "Mrx.Props.C92_poincare_never_drawn",
    "Mrx.Props.C92_seeds",
    "Mrx.Props.C92_seeds_of_the_code"
   ],
   "note": "C92_domain_iff, C92_labels_iff are the exact domains; findings C92_wrong_domain, C92_major_radius, C92_label_shifted, C92_poincare_never_drawn, C92_seeds."
  },
  {
   "property": "C93",
   "status": "proved",
   "theorems": [
    "Mrx.Props.C93_radial",
    "Mrx.Props.C93_periodic",
    "Mrx.Props.C93_mode_numbers",
    "Mrx.Props.C93_zero_mode",
    "Mrx.Props.C93_axisymmetric_lost",
    "Mrx.Props.C93_applied",
    "Mrx.Props.C93_initial"
   ],
   "note": ""
  },
  {
   "property": "C94",
   "status": "proved",
   "theorems": [
    "Mrx.Props.C94_table",
    "Mrx.Props.C94_complete_below",
    "Mrx.Props.C94_rejects",
    "Mrx.Props.C94_raises_iff",
    "Mrx.Props.C94_radial_zero_accepted",
    "Mrx.Props.C94_check",
    "Mrx.Props.C94_saddle_point",
    "Mrx.Props.C94_modes",
    "Mrx.Props.C94_singular_pencil",
    "Mrx.Props.C94_eigenvalues_real",
    "Mrx.Props.C94_cavity_spectrum",
    "Mrx.Props.C94_cavity_singular"
   ],
   "note": ""
  },
  {
   "property": "C95",
   "status": "proved",
   "theorems": [
    "Mrx.Props.C95_ellipse",
    "Mrx.Props.C95_eccentricity",
    "Mrx.Props.C95_best_fit",
    "Mrx.Props.C95_circle_and_mean",
    "Mrx.Props.C95_history",
    "Mrx.Props.C95_final_loss_stale"
   ],
   "note": ""
  },
  {
   "property": "C96",
   "status": "proved",
   "theorems": [
    "Mrx.Props.C96_raises_nothing_iff",
    "Mrx.Props.C96_after_setup",
    "Mrx.Props.C96_relaxation_scripts",
    "Mrx.Props.C96_other_scripts",
    "Mrx.Props.C96_hopf",
    "Mrx.Props.C96_hopf_names",
    "Mrx.Props.C96_attributes"
   ],
   "note": ""
  },
  {
   "property": "C97",
   "status": "proved",
   "theorems": [
    "Mrx.Props.C97_metric",
    "Mrx.Props.C97_built",
    "Mrx.Props.C97_rigid",
    "Mrx.Props.C97_regular_iff",
    "Mrx.Props.C97_mass",
    "Mrx.Props.C97_strong",
    "Mrx.Props.C97_weak",
    "Mrx.Props.C97_hodge_leray",
    "Mrx.Props.C97_diagnostics",
    "Mrx.Props.C97_spectrum",
    "Mrx.Props.C97_hessian",
    "Mrx.Props.C97_regularisation",
    "Mrx.Props.C97_small_units",
    "Mrx.Props.C97_projectors",
    "Mrx.Props.C97_projections",
    "Mrx.Props.C97_relaxation",
    "Mrx.Props.C97_rigid_run",
    "Mrx.Props.C97_update"
   ],
   "note": ""
  },
  {
   "property": "C98",
   "status": "proved",
   "theorems": [
    "Mrx.Props.C98_axisymmetric_maps",
    "Mrx.Props.C98_straight_maps",
    "Mrx.Props.C98_helical",
    "Mrx.Props.C98_helical_open",
    "Mrx.Props.C98_ellipse",
    "Mrx.Props.C98_gvec",
    "Mrx.Props.C98_initial_fields",
    "Mrx.Props.C98_island",
    "Mrx.Props.C98_example",
    "Mrx.Props.C98_operators",
    "Mrx.Props.C98_nonlinear",
    "Mrx.Props.C98_pressure",
    "Mrx.Props.C98_projected",
    "Mrx.Props.C98_start",
    "Mrx.Props.C98_fields",
    "Mrx.Props.C98_run",
    "Mrx.Props.C98_stays_symmetric",
    "Mrx.Props.C98_script",
    "Mrx.Props.C98_domain_iff",
    "Mrx.Props.C98_symmetric_iff"
   ],
   "note": ""
  },
  {
   "property": "C99",
   "status": "proved",
   "theorems": [
    "Mrx.Props.C99_small_step",
    "Mrx.Props.C99_rejections_end",
    "Mrx.Props.C99_never_stuck",
    "Mrx.Props.C99_stuck",
    "Mrx.Props.C99_norm_growth",
    "Mrx.Props.C99_dissipation",
    "Mrx.Props.C99_rate_bound",
    "Mrx.Props.C99_picard_accepts",
    "Mrx.Props.C99_dt_bound",
    "Mrx.Props.C99_accepted_share",
    "Mrx.Props.C99_small_critit",
    "Mrx.Props.C99_force_tolerance_reached",
    "Mrx.Props.C99_force_tolerance_reached_fixed_limits",
    "Mrx.Props.C99_helicity_energy"
   ],
   "note": ""
  },
  {
   "property": "C100",
   "status": "proved",
   "theorems": [
    "Mrx.Props.C100_clamped_first_order",
    "Mrx.Props.C100_clamped_second_order",
    "Mrx.Props.C100_periodic_first_order",
    "Mrx.Props.C100_clamped_lipschitz",
    "Mrx.Props.C100_zeroform",
    "Mrx.Props.C100_zeroform_projection",
    "Mrx.Props.C100_components",
    "Mrx.Props.C100_oneform_projection",
    "Mrx.Props.C100_twoform_projection",
    "Mrx.Props.C100_threeform_projection"
   ],
   "note": ""
  },
  {
   "property": "C101",
   "status": "proved",
   "theorems": [
    "Mrx.Props.C101_gradient_approx",
    "Mrx.Props.C101_poisson_error",
    "Mrx.Props.C101_poisson_error_identity",
    "Mrx.Props.C101_poisson_best",
    "Mrx.Props.C101_poisson_quasi_best",
    "Mrx.Props.C101_consistency_error",
    "Mrx.Props.C101_poincare",
    "Mrx.Props.C101_poisson_stable",
    "Mrx.Props.C101_poisson_l2_error",
    "Mrx.Props.C101_mixed_flux_best"
   ],
   "note": ""
  },
  {
   "property": "C102",
   "status": "proved",
   "theorems": [
    "Mrx.Props.C102_returns_iff",
    "Mrx.Props.C102_same_directory_iff",
    "Mrx.Props.C102_run_figures",
    "Mrx.Props.C102_divergence_curve_iff",
    "Mrx.Props.C102_energy_curve",
    "Mrx.Props.C102_helicity_curve"
   ],
   "note": ""
  },
  {
   "property": "C103",
   "status": "proved",
   "theorems": [
    "Mrx.Props.C103_torus_colours",
    "Mrx.Props.C103_crossection_colours",
    "Mrx.Props.C103_comparable_iff",
    "Mrx.Props.C103_vertex_value",
    "Mrx.Props.C103_sections_return_iff",
    "Mrx.Props.C103_sections",
    "Mrx.Props.C103_pressure_entries",
    "Mrx.Props.C103_pressure_grid_iff",
    "Mrx.Props.C103_outline_iff",
    "Mrx.Props.C103_outline",
    "Mrx.Props.C103_plane_names",
    "Mrx.Props.C103_panels",
    "Mrx.Props.C103_twin_axis",
    "Mrx.Props.C103_style",
    "Mrx.Props.C103_converge"
   ],
   "note": ""
  },
  {
   "property": "C104",
   "status": "proved",
   "theorems": [
    "Mrx.Props.C104_right_iff",
    "Mrx.Props.C104_energy",
    "Mrx.Props.C104_kernel",
    "Mrx.Props.C104_units_iff",
    "Mrx.Props.C104_one_size",
    "Mrx.Props.C104_solvable_iff",
    "Mrx.Props.C104_script",
    "Mrx.Props.C104_error"
   ],
   "note": ""
  },
  {
   "property": "C105",
   "status": "proved",
   "theorems": [
    "Mrx.Props.C105_innermost",
    "Mrx.Props.C105_admissible_iff",
    "Mrx.Props.C105_polar_map_iff",
    "Mrx.Props.C105_cylinder_map_iff",
    "Mrx.Props.C105_toroid_map",
    "Mrx.Props.C105_cerfon_map",
    "Mrx.Props.C105_rotating_ellipse_map",
    "Mrx.Props.C105_8000_elements",
    "Mrx.Props.C105_too_fine",
    "Mrx.Props.C105_runs"
   ],
   "note": ""
  },
  {
   "property": "C106",
   "status": "proved",
   "theorems": [
    "Mrx.Props.C106_solovev_inputs",
    "Mrx.Props.C106_iter_inputs",
    "Mrx.Props.C106_stell_inputs",
    "Mrx.Props.C106_solovev_default",
    "Mrx.Props.C106_solovev_actions",
    "Mrx.Props.C106_solovev_tokamak",
    "Mrx.Props.C106_solovev_device",
    "Mrx.Props.C106_nstx",
    "Mrx.Props.C106_unknown_boundary",
    "Mrx.Props.C106_iter_default",
    "Mrx.Props.C106_stell_default",
    "Mrx.Props.C106_stell_nfp",
    "Mrx.Props.C106_rot_ell"
   ],
   "note": ""
  },
  {
   "property": "C107",
   "status": "proved",
   "theorems": [
    "Mrx.Props.C107_frame_defined_iff",
    "Mrx.Props.C107_jacobian",
    "Mrx.Props.C107_thin_tubes",
    "Mrx.Props.C107_admissible",
    "Mrx.Props.C107_no_height",
    "Mrx.Props.C107_no_height_jacobian",
    "Mrx.Props.C107_no_height_admissible",
    "Mrx.Props.C107_helix_run"
   ],
   "note": ""
  },
  {
   "property": "C108",
   "status": "proved",
   "theorems": [
    "Mrx.Props.C108_solovev_final",
    "Mrx.Props.C108_iter_final",
    "Mrx.Props.C108_stell_final",
    "Mrx.Props.C108_solovev_inputs",
    "Mrx.Props.C108_iter_inputs",
    "Mrx.Props.C108_stell_inputs",
    "Mrx.Props.C108_name",
    "Mrx.Props.C108_numeric_name",
    "Mrx.Props.C108_saved_fields",
    "Mrx.Props.C108_recorded",
    "Mrx.Props.C108_solovev_outcome",
    "Mrx.Props.C108_solovev_command",
    "Mrx.Props.C108_solovev_no_parameters",
    "Mrx.Props.C108_iter_divergence_free",
    "Mrx.Props.C108_stell_divergence_free",
    "Mrx.Props.C108_iter_outcome",
    "Mrx.Props.C108_stell_outcome"
   ],
   "note": ""
  },
  {
   "property": "C109",
   "status": "proved",
   "theorems": [
    "Mrx.Props.C109_helicity_drift",
    "Mrx.Props.C109_recorded_helicity",
    "Mrx.Props.C109_energy_floor",
    "Mrx.Props.C109_relaxes_keeping_helicity",
    "Mrx.Props.C109_linear_splines"
   ],
   "note": ""
  },
  {
   "property": "C110",
   "status": "proved",
   "theorems": [
    "Mrx.Props.C110_table",
    "Mrx.Props.C110_completes_iff",
    "Mrx.Props.C110_raises_iff",
    "Mrx.Props.C110_times",
    "Mrx.Props.C110_deterministic",
    "Mrx.Props.C110_polar",
    "Mrx.Props.C110_mixed",
    "Mrx.Props.C110_toroid",
    "Mrx.Props.C110_degree_too_high",
    "Mrx.Props.C110_studies_iff",
    "Mrx.Props.C110_mains",
    "Mrx.Props.C110_curves",
    "Mrx.Props.C110_references"
   ],
   "note": ""
  },
  {
   "property": "C111",
   "status": "proved",
   "theorems": [
    "Mrx.Props.C111_writes",
    "Mrx.Props.C111_other_ends",
    "Mrx.Props.C111_path_injective",
    "Mrx.Props.C111_runs",
    "Mrx.Props.C111_order",
    "Mrx.Props.C111_sparsity",
    "Mrx.Props.C111_numbers",
    "Mrx.Props.C111_outside",
    "Mrx.Props.C111_ci"
   ],
   "note": ""
  },
  {
   "property": "C112",
   "status": "proved",
   "theorems": [
    "Mrx.Props.C112_iter_name",
    "Mrx.Props.C112_stell_name",
    "Mrx.Props.C112_never_found",
    "Mrx.Props.C112_no_file",
    "Mrx.Props.C112_type",
    "Mrx.Props.C112_iter_no_device",
    "Mrx.Props.C112_iter_tokamak",
    "Mrx.Props.C112_iter_helix",
    "Mrx.Props.C112_iter_ellipse",
    "Mrx.Props.C112_iter_other",
    "Mrx.Props.C112_iter_domain_iff",
    "Mrx.Props.C112_stell",
    "Mrx.Props.C112_no_name",
    "Mrx.Props.C112_step_files",
    "Mrx.Props.C112_step_path"
   ],
   "note": ""
  },
  {
   "property": "C113",
   "status": "proved",
   "theorems": [
    "Mrx.Props.C113_figure",
    "Mrx.Props.C113_raises",
    "Mrx.Props.C113_limits",
    "Mrx.Props.C113_inner_edges",
    "Mrx.Props.C113_colours",
    "Mrx.Props.C113_colour_maps",
    "Mrx.Props.C113_reverse",
    "Mrx.Props.C113_iota_bar",
    "Mrx.Props.C113_styles",
    "Mrx.Props.C113_percentiles",
    "Mrx.Props.C113_stell_bar",
    "Mrx.Props.C113_order",
    "Mrx.Props.C113_plane",
    "Mrx.Props.C113_edge_pressure",
    "Mrx.Props.C113_crossings",
    "Mrx.Props.C113_seeds",
    "Mrx.Props.C113_plans",
    "Mrx.Props.C113_not_sorted"
   ],
   "note": ""
  },
  {
   "property": "C114",
   "status": "proved",
   "theorems": [
    "Mrx.Props.C114_domain",
    "Mrx.Props.C114_curves",
    "Mrx.Props.C114_legend",
    "Mrx.Props.C114_distinguished_iff",
    "Mrx.Props.C114_parameters",
    "Mrx.Props.C114_one_parameter",
    "Mrx.Props.C114_script_iff",
    "Mrx.Props.C114_script_all",
    "Mrx.Props.C114_file_names",
    "Mrx.Props.C114_script_curves",
    "Mrx.Props.C114_helicity",
    "Mrx.Props.C114_helicity_first",
    "Mrx.Props.C114_runs",
    "Mrx.Props.C114_energy",
    "Mrx.Props.C114_iterations_iff",
    "Mrx.Props.C114_values",
    "Mrx.Props.C114_ordinates"
   ],
   "note": ""
  },
  {
   "property": "C115",
   "status": "proved",
   "theorems": [
    "Mrx.Props.C115_never_draws",
    "Mrx.Props.C115_datasets",
    "Mrx.Props.C115_no_helix",
    "Mrx.Props.C115_figure",
    "Mrx.Props.C115_divergence_iff",
    "Mrx.Props.C115_visible",
    "Mrx.Props.C115_ticks",
    "Mrx.Props.C115_unsaved",
    "Mrx.Props.C115_numbers",
    "Mrx.Props.C115_mean_pressure",
    "Mrx.Props.C115_beta_iff"
   ],
   "note": ""
  },
  {
   "property": "C116",
   "status": "proved",
   "theorems": [
    "Mrx.Props.C116_periodic_sum_iff",
    "Mrx.Props.C116_periodic_far",
    "Mrx.Props.C116_constant_iff",
    "Mrx.Props.C116_fit_best",
    "Mrx.Props.C116_fit_constant_iff",
    "Mrx.Props.C116_fit_far"
   ],
   "note": ""
  },
  {
   "property": "C117",
   "status": "proved",
   "theorems": [
    "Mrx.Props.C117_error",
    "Mrx.Props.C117_tokamak_converges",
    "Mrx.Props.C117_stellarator_converges",
    "Mrx.Props.C117_rate_iff",
    "Mrx.Props.C117_rates_pass",
    "Mrx.Props.C117_rates_power",
    "Mrx.Props.C117_rates_mean",
    "Mrx.Props.C117_reference",
    "Mrx.Props.C117_spectra_iff",
    "Mrx.Props.C117_exactness",
    "Mrx.Props.C117_curves"
   ],
   "note": ""
  },
  {
   "property": "C118",
   "status": "proved",
   "theorems": [
    "Mrx.Props.C118_clamped",
    "Mrx.Props.C118_periodic",
    "Mrx.Props.C118_zeroform",
    "Mrx.Props.C118_projection",
    "Mrx.Props.C118_tokamak",
    "Mrx.Props.C118_stellarator"
   ],
   "note": ""
  },
  {
   "property": "C119",
   "status": "proved",
   "theorems": [
    "Mrx.Props.C119_direction",
    "Mrx.Props.C119_gradient",
    "Mrx.Props.C119_poisson",
    "Mrx.Props.C119_toroid"
   ],
   "note": ""
  },
  {
   "property": "C120",
   "status": "proved",
   "theorems": [
    "Mrx.Props.C120_selection",
    "Mrx.Props.C120_spectrum_points",
    "Mrx.Props.C120_grid_exists_iff",
    "Mrx.Props.C120_panel",
    "Mrx.Props.C120_sections",
    "Mrx.Props.C120_grid_invariant",
    "Mrx.Props.C120_arrows",
    "Mrx.Props.C120_reconstruction_iff",
    "Mrx.Props.C120_reconstruction",
    "Mrx.Props.C120_differences_loss",
    "Mrx.Props.C120_loss_panel",
    "Mrx.Props.C120_sign",
    "Mrx.Props.C120_picture_unique"
   ],
   "note": ""
  },
  {
   "property": "C121",
   "status": "proved",
   "theorems": [
    "Mrx.Props.C121_constants",
    "Mrx.Props.C121_integrals",
    "Mrx.Props.C121_projection_conserves",
    "Mrx.Props.C121_projection_loss",
    "Mrx.Props.C121_dirichlet_loses",
    "Mrx.Props.C121_entries",
    "Mrx.Props.C121_lumping",
    "Mrx.Props.C121_lumped_masses",
    "Mrx.Props.C121_conservation_iff",
    "Mrx.Props.C121_conservation_false"
   ],
   "note": ""
  },
  {
   "property": "C122",
   "status": "proved",
   "theorems": [
    "Mrx.Props.C122_same_loops",
    "Mrx.Props.C122_iteration",
    "Mrx.Props.C122_tokamak",
    "Mrx.Props.C122_gvec",
    "Mrx.Props.C122_time_step",
    "Mrx.Props.C122_library",
    "Mrx.Props.C122_force_false",
    "Mrx.Props.C122_divergence_free",
    "Mrx.Props.C122_energy",
    "Mrx.Props.C122_average_pressure",
    "Mrx.Props.C122_beta_iff",
    "Mrx.Props.C122_beta_false",
    "Mrx.Props.C122_shift",
    "Mrx.Props.C122_shown_pressure",
    "Mrx.Props.C122_geometry",
    "Mrx.Props.C122_initial_field",
    "Mrx.Props.C122_run"
   ],
   "note": ""
  },
  {
   "property": "C123",
   "status": "proved",
   "theorems": [
    "Mrx.Props.C123_all_run",
    "Mrx.Props.C123_stops",
    "Mrx.Props.C123_failure_false",
    "Mrx.Props.C123_codes",
    "Mrx.Props.C123_text",
    "Mrx.Props.C123_no_tutorials",
    "Mrx.Props.C123_no_interactive",
    "Mrx.Props.C123_exit"
   ],
   "note": ""
  },
  {
   "property": "C124",
   "status": "proved",
   "theorems": [
    "Mrx.Props.C124_name",
    "Mrx.Props.C124_other_scripts",
    "Mrx.Props.C124_figures",
    "Mrx.Props.C124_tokamak",
    "Mrx.Props.C124_wrong_domain",
    "Mrx.Props.C124_exceptions"
   ],
   "note": ""
  }
 ]
}