{
 "C01": {
  "note": "Holds for n>p with at most 99900 elements; negations for n=p=1 and for a too fine knot vector (isclose tolerance)."
 },
 "C02": {
  "note": "p>=1: on [0,1]; p=0: on [0,1)."
 },
 "C08": {
  "note": "Exact domain: C08_right_end_iff. The unrestricted claim (right at x=1 for all i) is false of the code."
 },
 "C12": {
  "note": "Error bound 3e-16-type from rounded decimal tables made explicit."
 },
 "C15": {
  "note": "Exact domain: C15_requested_rule_iff; the stronger expectation (unsupported requests are rejected) is false of the code: C15_unsupported_order_silently_ten, C15_degree_zero_rule_is_empty."
 },
 "C20": {
  "note": "Exact domain: for every basis function and resolution (C20_gradient_iff, C20_curl_iff, C20_divergence_iff) and for whole tables (C20_tables_iff). The unrestricted claim (all sizes) is false: C20_last_radial_gradient_tabulated_as_zero, C20_last_axial_gradient_tabulated_as_zero, C20_gradient_wrong_when_nr_ne_nt, FormsDerivNeg."
 },
 "C25": {
  "note": "Exact domain: C25_inverse_metric_iff; the unrestricted claim is false of the code: C25_small_domain_breaks_inverse."
 },
 "C27": {
  "note": "Exact domain: C27_vector_selection_iff; the unrestricted claim is false: C27_dirichlet_vector_wrong."
 },
 "C29": {
  "note": "Exact domain: C29_rows_independent_iff; the claim for a clamped axial basis is false: C29_threeform_clamped_zero_row, C29_twoform_clamped_duplicate_rows."
 },
 "C37": {
  "note": "Exact domain: C37_lazy_mass, C37_lazy_derivative (positive Jacobian), C37_lazy_derivative_iff (resolutions). Finding C37_lazy_mass_differs: map x/100, assembled M1 = 0, lazy M1 positive definite."
 },
 "C41": {
  "note": "Two-case description of the flag (C41_flag) and exact domain (C41_truthful_iff); finding C41_false_convergence."
 },
 "C47": {
  "note": "C47_wellposed_iff is the exact domain of the helicity; unconditional drift bound for polar Dirichlet sequences; C47_helicity_exact_quadrature is the exact identity under exact quadrature."
 },
 "C51": {
  "note": "C51_perturbation / C51_perturbation_lost cover the two cases; findings C51_not_applied_once, C51_force_stale."
 },
 "C52": {
  "note": "C52_caller_iff: the exact domain; C52_last_saved: what is in the trace instead."
 },
 "C54": {
  "note": "C54_copy_never_independent; deep copies are separate (C54_deepcopy). Finding: scripts use .copy()."
 },
 "C55": {
  "note": "C55_raises_iff is the exact domain; negative integers become floats (finding)."
 },
 "C57": {
  "note": "C57_result/C57_membership characterise the result; findings: missing keys accepted, extra keys rejected, arrays raise."
 },
 "C63": {
  "note": "Helical frame: iff of C63_helical_frame_not_orthogonal (finding)."
 },
 "C64": {
  "note": "Exact domain: C64_grid_point_iff; the unrestricted claim is false: C64_position_lost."
 },
 "C65": {
  "note": "Exact domain: C65_cut2_aligned_iff, C65_cut2_transposed_iff, C65_3d_transposed_iff; misalignment: C65_cut2_misaligned, C65_3d_misaligned."
 },
 "C66": {
  "note": "Exact domains C66_jit_mask_iff, C66_jit_point_iff, C66_list_iff, C66_interp_plane_iff; findings: plane value 0, scaling of the normal, vertex missed, quadratic interpolation."
 },
 "C70": {
  "note": "Exact domain: C70_valid_points_iff; the documented claim (for every tolerance) is false: C70_wrong_points."
 },
 "C71": {
  "note": "Exact: C71_no_wrap, C71_point_iff, C71_invented_iff, C71_missed_iff; finding C71_spurious (invented crossings)."
 },
 "C73": {
  "note": "Proved for every resolution. C73_topology_iff gives the exact sizes for which the numbers of harmonic fields are topological; C73_false and C73_polar_dirichlet_singular are the findings for the others (index bug C20)."
 },
 "C74": {
  "note": "Proved; helicity_characterised covers exactly the sequences on which the linear system of helicity is non-singular."
 },
 "C75": {
  "note": "C75_pressure_wellposed_iff is the exact domain; the force-free pressure is NaN exactly at zeros of B."
 },
 "C76": {
  "note": "Exact domain of sizes for gradient, curl, divergence (C76_gradient_iff, C76_curl_iff, C76_div_iff, C76_operators_are_incidence_iff) and for constants (C76_gradient_of_constants); the unrestricted claim is false."
 },
 "C77": {
  "note": "Everything about the fields is proved for every resolution (uniqueness of the harmonic start is an iff); exact condition for the report: C77_report_raises_iff (finding: ZeroDivisionError for the harmonic start)."
 },
 "C78": {
  "note": "Proved; C78_poisson_wellposed_iff is the exact domain of the two linear systems."
 },
 "C79": {
  "note": "Proved for every resolution; C79_zero_modes_topological_iff says when the zero modes are topological."
 },
 "C81": {
  "note": "C81_map_usable_iff is the exact domain of the map; the B theorems hold for every sequence."
 },
 "C84": {
  "note": "Scalar problems proved; vector problem: azimuthal reading proved, Cartesian reading refuted (finding)."
 },
 "C90": {
  "note": "C90_scaling is the exact condition for the scaling law; C90_frequencies_positive_iff the exact condition for positive frequencies; finding C90_small_drums_silent."
 },
 "C91": {
  "status": "proved",
  "note": "Turn counting, error bounds and tracing right-hand sides proved. The ODE solver itself is not modelled. C91_aliasing and C91_helical_axis_counted delimit what the reported value means."
 },
 "C92": {
  "note": "C92_domain_iff, C92_labels_iff are the exact domains; findings C92_wrong_domain, C92_major_radius, C92_label_shifted, C92_poincare_never_drawn, C92_seeds."
 }
}