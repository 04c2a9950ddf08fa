{
 "claims": [
  {
   "property": "C01",
   "status": "proved",
   "theorems": [
    "Verif.CM.C01_cm_solution_iff",
    "Verif.CM.C01_cm_exp_solution_iff"
   ],
   "note": "Equivalence (zero gradient iff all expected degrees equal the observed ones), for every reduced problem and every expansion; reals, not floats."
  },
  {
   "property": "C02",
   "status": "proved",
   "theorems": [
    "Verif.DCM.C02_dcm_solution_iff",
    "Verif.DCM.C02_dcm_exp_solution_iff"
   ],
   "note": "As C01, for out- and in-degrees, including nodes with zero out- or in-degree (left out of the equations by the code's index lists)."
  },
  {
   "property": "C03",
   "status": "proved",
   "theorems": [
    "Verif.ECM.C03_ecm_residual",
    "Verif.ECM.C03_ecm_exp_residual",
    "Verif.ECM.C03_ecm_solution_iff",
    "Verif.ECM.C03_ecm_exp_solution_iff"
   ],
   "note": "Equivalence on the open domain y_i y_j < 1."
  },
  {
   "property": "C04",
   "status": "proved",
   "theorems": [
    "Verif.DECM.C04_decm_residual",
    "Verif.DECM.C04_decm_exp_residual",
    "Verif.DECM.C04_decm_solution_iff",
    "Verif.DECM.C04_decm_solution",
    "Verif.DECM.C04_decm_exp_solution_iff"
   ],
   "note": "Equivalence on the open domain b_out_i b_in_j < 1, including the zero-parameter branches of the plain gradient."
  },
  {
   "property": "C05",
   "status": "proved",
   "theorems": [
    "Verif.CReMa.C05_crema_solution_iff",
    "Verif.CReMa.C05_crema_expected_meaning",
    "Verif.CReMa.C05_crema_sparse_solution_iff",
    "Verif.DCReMa.C05_dcrema_solution_iff",
    "Verif.DCReMa.C05_dcrema_expected_meaning",
    "Verif.DCReMa.C05_dcrema_sparse_solution_iff"
   ],
   "note": "Dense and sparse, undirected and directed."
  },
  {
   "property": "C06",
   "status": "proved",
   "theorems": [
    "Verif.CM.C06_cm_gradient",
    "Verif.CM.C06_cm_exp_gradient",
    "Verif.CReMa.C06_crema_gradient",
    "Verif.DCM.C06_dcm_gradient",
    "Verif.DCM.C06_dcm_exp_gradient",
    "Verif.DCReMa.C06_dcrema_gradient",
    "Verif.DECM.C06_decm_gradient",
    "Verif.DECM.C06_decm_exp_gradient",
    "Verif.ECM.C06_ecm_gradient",
    "Verif.ECM.C06_ecm_exp_gradient"
   ],
   "note": "HasDerivAt in every coordinate, all ten models."
  },
  {
   "property": "C07",
   "status": "partial",
   "theorems": [
    "Verif.CM.C07_cm_hessian_offdiag_iff",
    "Verif.CM.C07_cm_hessian_diag_iff",
    "Verif.CM.C07_cm_hessian_not_jacobian",
    "Verif.CM.C07_cm_hessian_partial",
    "Verif.CM.C07_cm_exp_hessian_offdiag",
    "Verif.CM.C07_cm_exp_hessian_diag_iff",
    "Verif.CM.C07_cm_exp_hessian_not_jacobian",
    "Verif.CM.C07_cm_exp_hessian_partial",
    "Verif.CReMa.C07_crema_hessian",
    "Verif.CReMa.C07_crema_hessian_loop_wrong",
    "Verif.DCM.C07_dcm_hessian",
    "Verif.DCM.C07_dcm_exp_hessian",
    "Verif.DCReMa.C07_dcrema_hessian",
    "Verif.DECM.C07_decm_hessian",
    "Verif.DECM.C07_decm_exp_hessian",
    "Verif.ECM.C07_ecm_hessian",
    "Verif.ECM.C07_ecm_exp_hessian"
   ],
   "note": "False as stated. Proved for ecm, ecm_exp, dcm, dcm_exp, decm, decm_exp, directed crema, and undirected crema without self-loops; for cm and cm_exp the exact region of validity is proved (\u2026_iff) and the negation with a witness (\u2026_not_jacobian); with self-loops the undirected crema Hessian is wrong (C07_crema_hessian_loop_wrong)."
  },
  {
   "property": "C08",
   "status": "partial",
   "theorems": [
    "Verif.CM.C08_cm_hessian_diag",
    "Verif.CM.C08_cm_exp_hessian_diag_wrong",
    "Verif.CM.C08_cm_exp_hessian_diag_bound_partial",
    "Verif.CM.C08_cm_exp_hessian_diag_partial",
    "Verif.CReMa.C08_crema_hessian_diag",
    "Verif.DCM.C08_dcm_exp_hessian_diag",
    "Verif.DCM.C08_dcm_hessian_diag_iff",
    "Verif.DCM.C08_dcm_hessian_diag_wrong",
    "Verif.DCM.C08_dcm_hessian_diag_partial",
    "Verif.DCReMa.C08_dcrema_hessian_diag",
    "Verif.DECM.C08_decm_hessian_diag_partial",
    "Verif.DECM.C08_decm_hessian_diag_sign",
    "Verif.DECM.C08_decm_hessian_diag_wrong",
    "Verif.DECM.C08_decm_exp_hessian_diag",
    "Verif.ECM.C08_ecm_hessian_diag",
    "Verif.ECM.C08_ecm_exp_hessian_diag"
   ],
   "note": "False as stated. Proved for cm, ecm, ecm_exp, dcm_exp, decm_exp, crema; refuted with witnesses for cm_exp, dcm (multiplicity missing), decm (sign when an in-strength is zero); the _partial theorems give the cases in which they are right."
  },
  {
   "property": "C09",
   "status": "partial",
   "theorems": [
    "Verif.CM.C09_cm_reparametrisation",
    "Verif.CM.C09_cm_gradients",
    "Verif.DCM.C09_dcm_reparametrisation",
    "Verif.DCM.C09_dcm_gradients",
    "Verif.DECM.C09_decm_reparametrisation",
    "Verif.DECM.C09_decm_gradients",
    "Verif.ECM.C09_ecm_reparametrisation",
    "Verif.ECM.C09_ecm_gradients",
    "Verif.DCM.C09_dcm_exp_expected_in",
    "Verif.DCM.C09_dcm_exp_expected_out_partial",
    "Verif.DCM.C09_dcm_exp_expected_out_wrong"
   ],
   "note": "Proved for every likelihood, gradient, Hessian, fixed-point map and expectation solve_tool uses; refuted for the unused expected_out_degree_dcm_exp."
  },
  {
   "property": "C10",
   "status": "proved",
   "theorems": [
    "Verif.CM.C10_cm_reduction_likelihood",
    "Verif.CM.C10_cm_reduction_gradient",
    "Verif.DCM.C10_dcm_reduction_likelihood",
    "Verif.DCM.C10_dcm_reduction_gradient"
   ],
   "note": "For every class map produced by the reduction; reduction itself modelled from np.unique's contract."
  },
  {
   "property": "C11",
   "status": "proved",
   "theorems": [
    "Verif.CReMa.C11_crema_tangent",
    "Verif.CReMa.C11_crema_global_max",
    "Verif.CReMa.C11_crema_unique_rates",
    "Verif.CM.C11_cm_exp_tangent",
    "Verif.CM.C11_cm_exp_global_max",
    "Verif.CM.C11_cm_exp_unique",
    "Verif.DCM.C11_dcm_exp_tangent",
    "Verif.DCM.C11_dcm_exp_global_max",
    "Verif.DCM.C11_dcm_exp_unique",
    "Verif.ECM.C11_ecm_exp_tangent",
    "Verif.ECM.C11_ecm_exp_global_max",
    "Verif.ECM.C11_ecm_exp_unique",
    "Verif.DECM.C11_decm_exp_tangent",
    "Verif.DECM.C11_decm_exp_global_max",
    "Verif.DECM.C11_decm_exp_unique",
    "Verif.DCReMa.C11_dcrema_tangent",
    "Verif.DCReMa.C11_dcrema_global_max",
    "Verif.DCReMa.C11_dcrema_unique_rates"
   ],
   "note": "Tangent inequality, global maximality and uniqueness of link probabilities/rates; also proved for ecm_exp, decm_exp."
  },
  {
   "property": "C12",
   "status": "partial",
   "theorems": [
    "Verif.CM.C12_cm_fixed_point_iff",
    "Verif.CM.C12_cm_exp_fixed_point_iff",
    "Verif.CReMa.C12_crema_fixed_point_iff",
    "Verif.DCM.C12_dcm_fixed_point_iff",
    "Verif.DCM.C12_dcm_exp_conjugate",
    "Verif.DCM.C12_dcm_exp_fixed_point_iff",
    "Verif.DCReMa.C12_dcrema_fixed_point_iff",
    "Verif.DECM.C12_decm_fixed_point_solution",
    "Verif.DECM.C12_decm_fixed_point_iff",
    "Verif.DECM.C12_decm_exp_fixed_point_partial",
    "Verif.DECM.C12_decm_exp_fixed_point_wrong",
    "Verif.ECM.C12_ecm_fixed_point_iff",
    "Verif.ECM.C12_ecm_exp_fixed_point_iff",
    "Verif.DCM.C12_dcm_exp_2_fixed_point_iff_partial",
    "Verif.DCM.C12_dcm_exp_2_nan",
    "Verif.DECM.C12_decm_exp_2_fixed_point_partial",
    "Verif.DECM.C12_decm_exp_2_fixed_point_wrong"
   ],
   "note": "False as stated for decm_exp (C12_decm_exp_fixed_point_wrong; the _partial theorem says what its fixed points do satisfy) and for the unused iterative_decm_exp_2 and iterative_dcm_exp_2 (the latter only at zero degrees). Equivalences proved for every other map."
  },
  {
   "property": "C13",
   "status": "partial",
   "theorems": [
    "Verif.Solve.C13_dcm_named",
    "Verif.Solve.C13_cm_named",
    "Verif.Solve.C13_ecm_exp_named",
    "Verif.Solve.C13_ecm_named_partial",
    "Verif.Solve.C13_decm_named_partial",
    "Verif.Solve.C13_decm_exp_named",
    "Verif.Solve.C13_dcm_exp",
    "Verif.Solve.C13_dcm",
    "Verif.Solve.C13_decm",
    "Verif.Solve.C13_decm_exp",
    "Verif.Solve.C13_dcrema_matrix",
    "Verif.Solve.C13_dcrema",
    "Verif.Solve.C13_dcrema_sparse",
    "Verif.Solve.C13_cm_exp",
    "Verif.Solve.C13_cm",
    "Verif.Solve.C13_ecm_exp",
    "Verif.Solve.C13_ecm",
    "Verif.Solve.C13_crema_matrix",
    "Verif.Solve.C13_crema",
    "Verif.Solve.C13_crema_sparse",
    "Verif.Solver.C13_solver_residual",
    "Verif.Solver.C13_solver_component",
    "Verif.Solve.C13_decm_sides_partial"
   ],
   "note": "Proved for every model and every call of solve_tool with newton/quasinewton, under the domain hypothesis on the returned point; the hypothesis is discharged for all named guesses with the line search on (\u2026_named) for cm, dcm, ecm_exp, decm_exp, and for ecm and decm only if all recorded step lengths exceed 2^-50 (\u2026_named_partial: after 50 halvings the code accepts a step it has not checked; for decm also on networks whose nodes have empty sides, C13_decm_sides_partial)."
  },
  {
   "property": "C14",
   "status": "partial",
   "theorems": [
    "Verif.Solver.C14_solver_displacement_partial",
    "Verif.Solve.C14_fixed_point_false"
   ],
   "note": "False as stated: C14_fixed_point_false gives a network (the hexagon) on which solve_tool stops at once at the guess with a wrong expected degree. C14_solver_displacement_partial says what the stopping test does guarantee."
  },
  {
   "property": "C15",
   "status": "proved",
   "theorems": [
    "Verif.Solve.C15_fixed_point_total",
    "Verif.Solve.C15_dcm_fixed_point_returns",
    "Verif.Solve.C15_cm_fixed_point_returns",
    "Verif.Solve.C15_decm_exp_fixed_point_returns",
    "Verif.Solver.C15_solver_history",
    "Verif.Solver.C15_solver_trace",
    "Verif.Solver.C15_solver_no_step"
   ],
   "note": "For every callbacks, options and start; fixed-point runs always return when the line search ends."
  },
  {
   "property": "C16",
   "status": "partial",
   "theorems": [
    "Verif.Solver.C16_linsearch_free",
    "Verif.Solver.C16_linsearch_free_fixed",
    "Verif.Solver.C16_linsearch_cm_partial",
    "Verif.Solver.C16_linsearch_cm_fixed_partial",
    "Verif.Solver.C16_linsearch_cm_zero_stalls",
    "Verif.Solver.C16_linsearch_dcm",
    "Verif.Solver.C16_linsearch_dcm_fixed",
    "Verif.Solver.C16_linsearch_dcm_zero_leaves",
    "Verif.Solver.C16_linsearch_ecm",
    "Verif.Solver.C16_linsearch_ecm_domain",
    "Verif.Solver.C16_linsearch_ecm_hangs",
    "Verif.Solver.C16_linsearch_ecm_exp",
    "Verif.Solver.C16_linsearch_decm",
    "Verif.Solver.C16_linsearch_decm_hangs",
    "Verif.Solver.C16_linsearch_decm_exp",
    "Verif.Solver.C16_linsearch_decm_exp_fixed",
    "Verif.Solver.C16_linsearch_ecm_exp_fixed",
    "Verif.Solver.C16_linsearch_ecm_fixed",
    "Verif.Solver.C16_linsearch_decm_fixed",
    "Verif.Solve.C16_dcm_run",
    "Verif.Solve.C16_cm_run",
    "Verif.Solve.C16_ecm_exp_run",
    "Verif.Solve.C16_ecm_run_partial",
    "Verif.Solve.C16_decm_run_partial",
    "Verif.Solve.C16_decm_exp_run",
    "Verif.Solve.C16_decm_exp_no_hang",
    "Verif.Solve.C16_ecm_exp_no_hang_partial",
    "Verif.Solve.C16_decm_sides_partial"
   ],
   "note": "Proved on the domain (positive parameters for cm; any for dcm; pair products below 1 for ecm, decm), and along whole runs (decm also on networks whose nodes have empty sides, C16_decm_sides_partial). Refuted outside: step length 0 for cm at x_i=0 (C16_linsearch_cm_zero_stalls), leaving the domain for dcm at x_i=0 (C16_linsearch_dcm_zero_leaves), endless loop for ecm/decm (\u2026_hangs)."
  },
  {
   "property": "C17",
   "status": "partial",
   "theorems": [
    "Verif.Solve.C17_cm_direction",
    "Verif.Solve.C17_ecm_direction",
    "Verif.Solve.C17_dcm_direction",
    "Verif.Solve.C17_decm_direction",
    "Verif.Solve.C17_crema_direction",
    "Verif.Solve.C17_dcrema_direction",
    "Verif.Psd.C17_cm_exp_hessian_psd",
    "Verif.Psd.C17_dcm_exp_hessian_psd",
    "Verif.Psd.C17_dcrema_hessian_psd",
    "Verif.Psd.C17_crema_hessian_psd",
    "Verif.Psd.C17_ecm_exp_hessian_psd",
    "Verif.Psd.C17_decm_exp_hessian_psd",
    "Verif.Solver.C17_regulariser_identity_form",
    "Verif.Solver.C17_regulariser_identity_posdef_partial",
    "Verif.Solver.C17_regulariser_identity_not_posdef",
    "Verif.Solver.C17_regulariser_eigen_posdef",
    "Verif.Solver.C17_regulariser_eigen_fixed",
    "Verif.Solver.C17_newton_descent",
    "Verif.Solver.C17_quasinewton_descent",
    "Verif.Solver.C17_newton_identity_descent",
    "Verif.Solver.C17_newton_eigen_descent"
   ],
   "note": "Proved for the eigenvalue-based regulariser. The 'identity' regulariser only shifts by eps: positive definite iff the symmetrised matrix exceeds -eps (\u2026_identity_posdef_partial), refuted in general (\u2026_identity_not_posdef). Psd.C17_*_hessian_psd: in the exp parametrisations and for crema minus the Hessian is positive semidefinite on the whole domain, so the identity regulariser is enough there; Solve.C17_*_direction: newton and quasinewton directions of all ten problems are descent directions."
  },
  {
   "property": "C18",
   "status": "proved",
   "theorems": [
    "Verif.CM.C18_pmatrix_cm_range",
    "Verif.CM.C18_pmatrix_cm_symm",
    "Verif.CM.C18_pmatrix_cm_rowsum",
    "Verif.DCM.C18_pmatrix_dcm_range",
    "Verif.DCM.C18_pmatrix_dcm_sums"
   ],
   "note": "cm and dcm probability matrices."
  },
  {
   "property": "C19",
   "status": "proved",
   "theorems": [
    "Verif.Sampler.C19_edges",
    "Verif.Sampler.C19_files"
   ],
   "note": "For every generator, seed and interleaving of the workers."
  },
  {
   "property": "C20",
   "status": "proved",
   "theorems": [
    "Verif.Sampler.C20_arcs",
    "Verif.Sampler.C20_files"
   ],
   "note": "For every generator, seed and interleaving of the workers."
  },
  {
   "property": "C21",
   "status": "partial",
   "theorems": [
    "Verif.Sampler.C21_ecm",
    "Verif.Sampler.C21_decm",
    "Verif.Sampler.C21_ecm_outside_domain_raises",
    "Verif.Sampler.C21_crema_det",
    "Verif.Sampler.C21_crema_prob",
    "Verif.Sampler.C21_crema_sparse_directed",
    "Verif.Sampler.C21_crema_sparse_undirected_repeats",
    "Verif.Sampler.C21_ecm_files",
    "Verif.Sampler.C21_decm_files"
   ],
   "note": "Proved except for the sparse undirected probabilistic crema sampler, which lists pairs twice (C21_crema_sparse_undirected_repeats), and outside the domain y_i y_j < 1, where the sampler raises (C21_ecm_outside_domain_raises)."
  },
  {
   "property": "C22",
   "status": "proved",
   "theorems": [
    "Verif.Sampler.C22_undirected",
    "Verif.Sampler.C22_directed",
    "Verif.Sampler.C22_undirected_files",
    "Verif.Sampler.C22_directed_files",
    "Verif.Sampler.C22_writes_nothing",
    "Verif.Sampler.C22_unsolved_raises"
   ],
   "note": "For every complete interleaving of the workers."
  },
  {
   "property": "C23",
   "status": "proved",
   "theorems": [
    "Verif.Sampler.C23_cm_link_probability",
    "Verif.Sampler.C23_cm_mean_degree",
    "Verif.Sampler.C23_cm_mean_degree_observed",
    "Verif.Sampler.C23_dcm_link_probability",
    "Verif.Sampler.C23_dcm_mean_degrees",
    "Verif.Sampler.C23_cm_graph_law",
    "Verif.Sampler.C23_dcm_graph_law",
    "Verif.Sampler.C23_cm_large_networks_dependent",
    "Verif.Sampler.C23_ecm_weight_law",
    "Verif.Sampler.C23_decm_weight_law",
    "Verif.Sampler.C23_ecm_means",
    "Verif.Sampler.C23_decm_means"
   ],
   "note": "Exact law of each link, of the whole graph when the per-pair seeds differ, and means; C23_cm_large_networks_dependent: from 1415 nodes on some pairs necessarily share a seed, so links are then dependent (means are unaffected)."
  },
  {
   "property": "C24",
   "status": "proved",
   "theorems": [
    "Verif.Sampler.C24_parse",
    "Verif.Sampler.C24_parse_integer_weights",
    "Verif.Sampler.C24_parse_real_weights",
    "Verif.Sampler.C24_undirected_roundtrip",
    "Verif.Sampler.C24_directed_roundtrip",
    "Verif.Sampler.C24_isolated_node_lost"
   ],
   "note": "The stated exception (isolated nodes) is proved."
  },
  {
   "property": "C25",
   "status": "proved",
   "theorems": [
    "Verif.Net.C25_binary",
    "Verif.Net.C25_weighted",
    "Verif.Net.C25_weighted_stored",
    "Verif.Net.C25_symmetric",
    "Verif.Net.C25_order_irrelevant",
    "Verif.Net.C25_succeeds_iff",
    "Verif.Net.C25_sparse_always_raises",
    "Verif.Net.C25_not_array"
   ],
   "note": "Including the stated exception of the sparse builders."
  },
  {
   "property": "C26",
   "status": "proved",
   "theorems": [
    "Verif.Net.C26_degrees_count",
    "Verif.Net.C26_totals",
    "Verif.Net.C26_symmetric",
    "Verif.Net.C26_bounds",
    "Verif.Net.C26_strengths",
    "Verif.Net.C26_relabel"
   ],
   "note": ""
  },
  {
   "property": "C27",
   "status": "proved",
   "theorems": [
    "Verif.Net.C27_undirected",
    "Verif.Net.C27_empty_raises",
    "Verif.Net.C27_undirected_weighted",
    "Verif.Net.C27_directed",
    "Verif.Net.C27_directed_weighted",
    "Verif.Net.C27_relabelled_builds"
   ],
   "note": ""
  },
  {
   "property": "C28",
   "status": "proved",
   "theorems": [
    "Verif.Motif.C28_mutual",
    "Verif.Motif.C28_single",
    "Verif.Motif.C28_null",
    "Verif.Motif.C28_census",
    "Verif.Motif.C28_self_loop_breaks_census"
   ],
   "note": ""
  },
  {
   "property": "C29",
   "status": "proved",
   "theorems": [
    "Verif.Motif.C29_api",
    "Verif.Motif.C29_api_sparse",
    "Verif.Motif.C29_triads_are_induced",
    "Verif.Motif.C29_relabel",
    "Verif.Motif.C29_exactly_one",
    "Verif.Motif.C29_only_connected",
    "Verif.Motif.C29_census",
    "Verif.Motif.C29_sparse_agrees_small",
    "Verif.Motif.C29_sparse_agrees_most",
    "Verif.Motif.C29_sparse_differs"
   ],
   "note": "Including the stated exception for more than 257 nodes."
  },
  {
   "property": "C30",
   "status": "proved",
   "theorems": [
    "Verif.Ens.C30_expected_mutual",
    "Verif.Ens.C30_expected_single",
    "Verif.Ens.C30_expected_null",
    "Verif.Ens.C30_std_mutual",
    "Verif.Ens.C30_std_single",
    "Verif.Ens.C30_std_null"
   ],
   "note": ""
  },
  {
   "property": "C31",
   "status": "proved",
   "theorems": [
    "Verif.Ens.C31_expected_triads",
    "Verif.Ens.C31_api"
   ],
   "note": ""
  },
  {
   "property": "C32",
   "status": "proved",
   "theorems": [
    "Verif.Ens.C32_std_delta_method",
    "Verif.Ens.C32_api"
   ],
   "note": ""
  },
  {
   "property": "C33",
   "status": "partial",
   "theorems": [
    "Verif.CReMa.C33_crema_likelihood",
    "Verif.CReMa.C33_crema_gradient",
    "Verif.CReMa.C33_crema_hessian_diag",
    "Verif.CReMa.C33_crema_expected",
    "Verif.CReMa.C33_crema_iterative",
    "Verif.DCReMa.C33_dcrema_likelihood",
    "Verif.DCReMa.C33_dcrema_gradient",
    "Verif.DCReMa.C33_dcrema_expected",
    "Verif.DCReMa.C33_dcrema_hessian_diag",
    "Verif.DCReMa.C33_dcrema_iterative_serial_partial",
    "Verif.DCReMa.C33_dcrema_iterative_parallel_wrong"
   ],
   "note": "Proved except for iterative_crema_directed_sparse (C33_dcrema_iterative_parallel_wrong; the sequential map with the intended index is proved right in \u2026_serial_partial)."
  },
  {
   "property": "C34",
   "status": "partial",
   "theorems": [
    "Verif.Graph.C34_undirected_setter_noop",
    "Verif.Graph.C34_undirected_history",
    "Verif.Graph.C34_undirected_setter_equals_constructor",
    "Verif.Graph.C34_undirected_clean_keeps_strengths",
    "Verif.Graph.C34_undirected_stale_strengths",
    "Verif.Graph.C34_directed_setter_noop",
    "Verif.Graph.C34_directed_history",
    "Verif.Graph.C34_directed_setter_equals_constructor",
    "Verif.Graph.C34_directed_weighted_edgelist_not_flagged",
    "Verif.Graph.C34_directed_clean_keeps_strengths",
    "Verif.Graph.C34_directed_stale_strengths",
    "Verif.Graph.C34_directed_index_sets",
    "Verif.Graph.C34_undirected_index_set",
    "Verif.Graph.C34_undirected_sparse_flag",
    "Verif.Graph.C34_undirected_sparse_flag_stale",
    "Verif.Graph.C34_directed_sparse_flag",
    "Verif.Graph.C34_directed_sparse_flag_stale"
   ],
   "note": "Setter/no-op/history part proved for every sequence of calls; 'describes only the new topology after clean_edges' is refuted (\u2026_stale_strengths)."
  },
  {
   "property": "C35",
   "status": "partial",
   "theorems": [
    "Verif.Graph.C35_undirected_raises_iff",
    "Verif.Graph.C35_undirected_succeeds_iff",
    "Verif.Graph.C35_undirected_builds",
    "Verif.Graph.C35_undirected_documented",
    "Verif.Graph.C35_undirected_lists_raise",
    "Verif.Graph.C35_undirected_failed_setter",
    "Verif.Graph.C35_directed_raises_iff",
    "Verif.Graph.C35_directed_succeeds_iff",
    "Verif.Graph.C35_directed_builds",
    "Verif.Graph.C35_directed_documented",
    "Verif.Graph.C35_directed_length_mismatch_accepted",
    "Verif.Graph.C35_directed_failed_setter"
   ],
   "note": "Exact characterisation of which inputs raise which exception proved; documented list inputs raise AttributeError (C35_undirected_lists_raise) and sequences of different lengths are accepted (C35_directed_length_mismatch_accepted)."
  },
  {
   "property": "C36",
   "status": "partial",
   "theorems": [
    "Verif.Solve.C36_dcm",
    "Verif.Solve.C36_dcm_exp",
    "Verif.Solve.C36_decm",
    "Verif.Solve.C36_decm_exp",
    "Verif.Solve.C36_dcrema_matrix",
    "Verif.Solve.C36_dcrema",
    "Verif.Solve.C36_dcrema_default_adjacency",
    "Verif.Solve.C36_directed_unknown_method",
    "Verif.Solve.C36_directed_unknown_model",
    "Verif.Solve.C36_dcrema_edgelist_fails",
    "Verif.Solve.C36_dcrema_sparse",
    "Verif.Solve.C36_dcrema_sparse_newton_fails",
    "Verif.Solve.C36_cm",
    "Verif.Solve.C36_cm_exp",
    "Verif.Solve.C36_ecm",
    "Verif.Solve.C36_ecm_exp",
    "Verif.Solve.C36_crema_matrix",
    "Verif.Solve.C36_crema",
    "Verif.Solve.C36_crema_sparse",
    "Verif.Solve.C36_unknown_method_binary",
    "Verif.Solve.C36_unknown_method_ecm_partial",
    "Verif.Solve.C36_unknown_method_ecm_overwrites",
    "Verif.Solve.C36_unknown_method_crema_partial",
    "Verif.Solve.C36_unknown_model_silent",
    "Verif.Solve.C36_key_clash",
    "Verif.Solve.C36_crema_sparse_newton_fails",
    "Verif.Solve.C36_sparse_given_links",
    "Verif.Solve.C36_sparse_given_never",
    "Verif.Solve.C36_dsparse_given_links",
    "Verif.Solve.C36_dsparse_given_never",
    "Verif.Solve.C36_sparse_given_problem",
    "Verif.Solve.C36_dsparse_given_problem"
   ],
   "note": "Dispatch proved for every pair of both classes, dense and sparse. Refuted: unknown models are ignored silently, unknown methods with ecm/crema change the stored parameters before raising, ('crema','sparse-newton') names two problems, crema-sparse newton on a named binary model always fails, directed crema on edge-list graphs always fails, crema-sparse on a given matrix takes node numbers for fitnesses (it raises unless there are as many links as nodes, and otherwise newton and quasinewton never come below the strength of the first node)."
  },
  {
   "property": "C37",
   "status": "partial",
   "theorems": [
    "Verif.Solve.C37_crema_all",
    "Verif.Solve.C37_dcrema_all",
    "Verif.Solve.C37_dcm_partial",
    "Verif.Solve.C37_decm",
    "Verif.Solve.C37_dcrema_matrix",
    "Verif.Solve.C37_dcrema",
    "Verif.Solve.C37_dcm_after_decm",
    "Verif.Solve.C37_directed_stale_rates",
    "Verif.Solve.C37_dcrema_sparse",
    "Verif.Solve.C37_ecm",
    "Verif.Solve.C37_cm_partial",
    "Verif.Solve.C37_crema_matrix",
    "Verif.Solve.C37_crema",
    "Verif.Solve.C37_stale_rates",
    "Verif.Solve.C37_crema_sparse"
   ],
   "note": "Proved for every model on an object without left-over rates; refuted after crema then cm/dcm (C37_stale_rates) and after decm then dcm (always raises). C37_crema_all and C37_dcrema_all: crema and crema-sparse with a binary adjacency model named, every method, both classes."
  },
  {
   "property": "C38",
   "status": "partial",
   "theorems": [
    "Verif.Solve.C38_dcm",
    "Verif.Solve.C38_dcm_exp",
    "Verif.Solve.C38_decm_partial",
    "Verif.Solve.C38_decm_exp_partial",
    "Verif.Solve.C38_decm_single_link",
    "Verif.Solve.C38_dcrema",
    "Verif.Solve.C38_cm_partial",
    "Verif.Solve.C38_cm_isolated",
    "Verif.Solve.C38_cm_exp",
    "Verif.Solve.C38_ecm",
    "Verif.Solve.C38_ecm_exp_partial",
    "Verif.Solve.C38_ecm_exp_false",
    "Verif.Solve.C38_crema_partial",
    "Verif.Solve.C38_crema_false"
   ],
   "note": "Proved for every named guess of every model under positivity hypotheses on the sequences; refuted without them (C38_cm_isolated, C38_ecm_exp_false, C38_crema_false, C38_decm_single_link)."
  },
  {
   "property": "C39",
   "status": "partial",
   "theorems": [
    "Verif.Matgen.C39_binary_dense",
    "Verif.Matgen.C39_binary_custom_density",
    "Verif.Matgen.C39_weighted_dense",
    "Verif.Matgen.C39_weighted_uniform",
    "Verif.Matgen.C39_weighted_gaussian",
    "Verif.Matgen.C39_gaussian_intweights",
    "Verif.Matgen.C39_one_node_hangs",
    "Verif.Matgen.C39_binary_dense_returns",
    "Verif.Matgen.C39_binary_custom_density_returns",
    "Verif.Matgen.C39_weighted_dense_returns",
    "Verif.Matgen.C39_weighted_uniform_returns",
    "Verif.Matgen.C39_weighted_gaussian_returns",
    "Verif.Matgen.C39_density_one",
    "Verif.Matgen.C39_gaussian_negative_weights",
    "Verif.Matgen.C39_gaussian_integer_weights_isolate",
    "Verif.Matgen.C39_sparse_binary",
    "Verif.Matgen.C39_sparse_empty",
    "Verif.Matgen.C39_sparse_uniform",
    "Verif.Matgen.C39_sparse_gaussian",
    "Verif.Matgen.C39_random_graph_nx",
    "Verif.Matgen.C39_barabasi_albert_graph_nx_refuses",
    "Verif.Matgen.C39_barabasi_albert_graph_nx",
    "Verif.Matgen.C39_random_graph_nx_uniform_loses_links"
   ],
   "note": "Structure, connectivity of every node and termination proved for the dense generators with at least two nodes; refuted: n=1 loops for ever, gaussian weights may be negative or rounded to 0, sparse generators may return an isolated node, networkx uniform weights may be 0."
  },
  {
   "property": "C40",
   "status": "partial",
   "theorems": [
    "Verif.Solve.C40_dcm_negated",
    "Verif.Solve.C40_dcm_exp_wrong",
    "Verif.Solve.C40_decm_negated",
    "Verif.Solve.C40_decm_exp_wrong",
    "Verif.Solve.C40_dcrema_negated",
    "Verif.Solve.C40_cm_negated",
    "Verif.Solve.C40_ecm_negated",
    "Verif.Solve.C40_crema_negated"
   ],
   "note": "False as stated: the sign is wrong for every model, and the argument is wrong for dcm_exp and decm_exp; what is returned is characterised exactly."
  },
  {
   "property": "C41",
   "status": "partial",
   "theorems": [
    "Verif.CM.C41_cm_zero_node",
    "Verif.DCM.C41_dcm_zero_node",
    "Verif.Solve.C41_dcm",
    "Verif.Solve.C41_dcm_exp_partial",
    "Verif.Solve.C41_cm_fixed_point_partial",
    "Verif.Solve.C41_cm_exp_positive",
    "Verif.Solve.C41_sample_cm",
    "Verif.Solve.C41_sample_dcm",
    "Verif.Solve.C41_dcm_solve_then_sample",
    "Verif.Solve.C41_decm",
    "Verif.Solve.C41_ecm_fixed_point_partial"
   ],
   "note": "Proved for dcm (all methods, end to end with the sampler), decm (all methods and guesses, on networks where each side has links exactly if it has weight), ecm with fixed-point (newton/quasinewton raise, C79), cm with fixed-point, dcm_exp with newton/quasinewton (fitness exp(-1000), which underflows to 0 in floats but is not 0 in the reals); refuted for cm_exp with newton/quasinewton (every fitness is positive); cm_exp and dcm_exp with fixed-point: C78. cm with newton/quasinewton divides by 0 in numba at isolated nodes: C79."
  },
  {
   "property": "C42",
   "status": "proved",
   "theorems": [
    "Verif.CM.C42_cm_iterative_nonneg",
    "Verif.CM.C42_cm_iterative_pos",
    "Verif.CReMa.C42_crema_iterative",
    "Verif.DCM.C42_dcm_iterative",
    "Verif.DCReMa.C42_dcrema_iterative",
    "Verif.DECM.C42_decm_iterative",
    "Verif.ECM.C42_ecm_iterative_pos"
   ],
   "note": "Plain maps; the exponential maps are -log of them (C12)."
  },
  {
   "property": "C43",
   "status": "proved",
   "theorems": [
    "Verif.Ens.C43_dyads_vanish_iff",
    "Verif.Ens.C43_triads_vanish_iff",
    "Verif.Ens.C43_dyads_standardised",
    "Verif.Ens.C43_triads_centred",
    "Verif.Ens.C43_dyads_relabel",
    "Verif.Ens.C43_triads_relabel",
    "Verif.Ens.C43_api"
   ],
   "note": ""
  },
  {
   "property": "C44",
   "status": "partial",
   "theorems": [
    "Verif.Parallel.C44_parallel_deterministic",
    "Verif.Parallel.C44_crema_sparse_fixed_point",
    "Verif.Parallel.C44_crema_sparse_gradient",
    "Verif.Parallel.C44_crema_sparse_hessian_diag",
    "Verif.Parallel.C44_dcrema_sparse_hessian_diag",
    "Verif.Parallel.C44_dcrema_sparse_gradient",
    "Verif.Parallel.C44_dcrema_sparse_fixed_point_out",
    "Verif.Parallel.C44_dcrema_sparse_fixed_point_in_partial",
    "Verif.Parallel.C44_directed_fixed_point_race"
   ],
   "note": "Proved for every interleaving for all parallel loops except iterative_crema_directed_sparse, which has a race (C44_directed_fixed_point_race)."
  },
  {
   "property": "C45",
   "status": "partial",
   "theorems": [
    "Verif.Graph.C45_undirected_flag",
    "Verif.Graph.C45_directed_flag",
    "Verif.Graph.C45_integer_weights_detected_partial",
    "Verif.Graph.C45_real_weights_missed"
   ],
   "note": "Proved for integer weights; refuted for real weights (C45_real_weights_missed). C45_*_flag characterise the flag exactly."
  },
  {
   "property": "C46",
   "status": "partial",
   "theorems": [
    "Verif.Solve.C46_dcm",
    "Verif.Solve.C46_decm_overwritten",
    "Verif.Solve.C46_decm_false",
    "Verif.Solve.C46_dcrema_overwritten",
    "Verif.Solve.C46_dcrema_refused",
    "Verif.Solve.C46_cm",
    "Verif.Solve.C46_ecm_overwritten",
    "Verif.Solve.C46_ecm_false",
    "Verif.Solve.C46_crema_overwritten",
    "Verif.Solve.C46_crema_refused"
   ],
   "note": "Proved for cm, cm_exp, dcm, dcm_exp; refuted for ecm, decm, crema (the array is overwritten when a constraint is zero; exact new contents proved)."
  },
  {
   "property": "C47",
   "status": "partial",
   "theorems": [
    "Verif.Solve.C47_cm",
    "Verif.Solve.C47_cm_degrees_minor_false",
    "Verif.Solve.C47_cm_chung_lu_false",
    "Verif.Solve.C47_ecm",
    "Verif.Solve.C47_crema",
    "Verif.Solve.C47_crema_strengths_false",
    "Verif.Solve.C47_dcm",
    "Verif.Solve.C47_dcm_degrees_minor_false",
    "Verif.Solve.C47_dcm_chung_lu_false",
    "Verif.Solve.C47_dcrema",
    "Verif.Solve.C47_decm"
   ],
   "note": "The exact starting point of every name is proved; the documented meaning is refuted for degrees_minor, chung_lu (both classes) and crema strengths."
  },
  {
   "property": "C48",
   "status": "partial",
   "theorems": [
    "Verif.Matgen.C48_dense_seeded",
    "Verif.Matgen.C48_networkx_seeded",
    "Verif.Matgen.C48_networkx_unseeded",
    "Verif.Matgen.C48_sparse_weights_unseeded",
    "Verif.Matgen.C48_sparse_links_seeded_partial"
   ],
   "note": "Proved for dense and networkx generators and for the links of the sparse ones; refuted for the weights of the sparse weighted generators."
  },
  {
   "property": "C49",
   "status": "proved",
   "theorems": [
    "Verif.Solve.C49_cm_log_probability",
    "Verif.Solve.C49_cm_exp_log_probability",
    "Verif.Solve.C49_dcm_log_probability",
    "Verif.Solve.C49_dcm_exp_log_probability",
    "Verif.Solve.C49_ecm_log_probability",
    "Verif.Solve.C49_ecm_exp_log_probability",
    "Verif.Solve.C49_decm_log_probability",
    "Verif.Solve.C49_decm_exp_log_probability",
    "Verif.Solve.C49_crema_log_density",
    "Verif.Solve.C49_dcrema_log_density",
    "Verif.Solve.C49_cm_reported",
    "Verif.Spec.C49_ubcm_total",
    "Verif.Spec.C49_dbcm_total",
    "Verif.Spec.C49_uecm_total",
    "Verif.Spec.C49_decm_total",
    "Verif.Solve.C49_cm_mean",
    "Verif.Solve.C49_dcm_mean",
    "Verif.Solve.C49_ecm_mean",
    "Verif.Solve.C49_decm_mean"
   ],
   "note": ""
  },
  {
   "property": "C50",
   "status": "proved",
   "theorems": [
    "Verif.Spec.C50_ubcm_dual",
    "Verif.Spec.C50_ubcm_max_entropy",
    "Verif.Spec.C50_dbcm_dual",
    "Verif.Spec.C50_dbcm_max_entropy",
    "Verif.Spec.C50_uecm_dual",
    "Verif.Spec.C50_uecm_max_entropy",
    "Verif.Spec.C50_decm_dual",
    "Verif.Spec.C50_decm_max_entropy",
    "Verif.Solve.C50_cm_stationary",
    "Verif.Solve.C50_cm_dual",
    "Verif.Solve.C50_dcm_stationary",
    "Verif.Solve.C50_ecm_stationary",
    "Verif.Solve.C50_decm_stationary",
    "Verif.Solve.C50_cm_run",
    "Verif.Solve.C50_cm_exp_run",
    "Verif.Solve.C50_dcm_run",
    "Verif.Solve.C50_dcm_exp_run",
    "Verif.Solve.C50_ecm_exp_run",
    "Verif.Solve.C50_decm_exp_run",
    "Verif.Spec.C50_ubcm_gap",
    "Verif.Spec.C50_dbcm_gap",
    "Verif.Spec.C50_uecm_gap",
    "Verif.Spec.C50_decm_gap"
   ],
   "note": ""
  },
  {
   "property": "C51",
   "status": "proved",
   "theorems": [
    "Verif.Solve.C51_cm_stationary",
    "Verif.Solve.C51_dcm_stationary",
    "Verif.Solve.C51_ecm_stationary",
    "Verif.Solve.C51_decm_stationary",
    "Verif.Spec.C51_ubcm_max_likelihood",
    "Verif.Spec.C51_dbcm_max_likelihood",
    "Verif.Spec.C51_uecm_max_likelihood",
    "Verif.Spec.C51_decm_max_likelihood"
   ],
   "note": ""
  },
  {
   "property": "C52",
   "status": "proved",
   "theorems": [
    "Verif.Solve.C52_degrees_read",
    "Verif.Solve.C52_strengths_read",
    "Verif.Solve.C52_directed_degrees_read",
    "Verif.Solve.C52_directed_strengths_read",
    "Verif.Solve.C52_readable",
    "Verif.Solve.C52_cm",
    "Verif.Solve.C52_cm_exp",
    "Verif.Solve.C52_ecm_exp",
    "Verif.Solve.C52_dcm",
    "Verif.Solve.C52_dcm_matrix",
    "Verif.Solve.C52_decm_exp"
   ],
   "note": "cm needs degrees that are non-zero (the code divides by the fitness of an isolated node); cm_exp and dcm allow isolated nodes."
  },
  {
   "property": "C53",
   "status": "partial",
   "theorems": [
    "Verif.Solve.C53_cm_start",
    "Verif.Solve.C53_cm_exp_start",
    "Verif.Solve.C53_ecm_start",
    "Verif.Solve.C53_ecm_exp_start",
    "Verif.Solve.C53_crema_start",
    "Verif.Solve.C53_dcm_start",
    "Verif.Solve.C53_dcm_exp_start",
    "Verif.Solve.C53_decm_start",
    "Verif.Solve.C53_decm_exp_start",
    "Verif.Solve.C53_dcrema_start",
    "Verif.Solve.C53_cm_restart",
    "Verif.Solve.C53_cm_exp_restart",
    "Verif.Solve.C53_ecm_restart",
    "Verif.Solve.C53_ecm_exp_restart",
    "Verif.Solve.C53_dcm_restart",
    "Verif.Solve.C53_dcm_exp_restart",
    "Verif.Solve.C53_decm_restart",
    "Verif.Solve.C53_decm_exp_restart",
    "Verif.Solve.C53_cm_kept",
    "Verif.Solve.C53_cm_exp_kept",
    "Verif.Solve.C53_ecm_kept",
    "Verif.Solve.C53_dcm_kept",
    "Verif.Solve.C53_decm_kept_partial",
    "Verif.Solve.C53_decm_hangs"
   ],
   "note": "_start: the starting point; _restart: a converged run fed back makes no step; _kept: exact solutions are returned by all three methods. decm fixed-point needs b_out_i*b_in_i < 1 also for the same node, because its line search tests the product of the maxima and would loop for ever otherwise."
  },
  {
   "property": "C54",
   "status": "partial",
   "theorems": [
    "Verif.Solve.C54_cm",
    "Verif.Solve.C54_ecm",
    "Verif.Solve.C54_crema_matrix_partial",
    "Verif.Solve.C54_crema_partial",
    "Verif.Solve.C54_crema_unset",
    "Verif.Solve.C54_dcm",
    "Verif.Solve.C54_dcrema_matrix_partial",
    "Verif.Solve.C54_dcrema_partial",
    "Verif.Solve.C54_decm",
    "Verif.Solve.C54_crema_all_partial",
    "Verif.Solve.C54_dcrema_all_partial"
   ],
   "note": "cm, cm_exp, ecm, ecm_exp, dcm, dcm_exp, decm, decm_exp in full. crema writes expected_stregth_seq (misspelt): expected_strength_seq keeps its old value or stays unset (C54_crema_unset); the errors are right, for crema and crema-sparse on every binary model with every method (C54_crema_all_partial, C54_dcrema_all_partial: partial only because of that name)."
  },
  {
   "property": "C55",
   "status": "proved",
   "theorems": [
    "Verif.Sampler.C55_cm_network_probability",
    "Verif.Sampler.C55_dcm_network_probability",
    "Verif.Sampler.C55_ecm_network_probability",
    "Verif.Sampler.C55_decm_network_probability",
    "Verif.Solve.C55_cm_reported",
    "Verif.Solve.C55_dcm_reported",
    "Verif.Solve.C55_ecm_reported",
    "Verif.Solve.C55_decm_reported"
   ],
   "note": "Whole-network law for cm, dcm, ecm, decm, and its link with the number model_loglikelihood returns. Needs different seeds for different pairs: from 1415 nodes on (C23) this never holds and the law of the whole network is then different."
  },
  {
   "property": "C56",
   "status": "proved",
   "theorems": [
    "Verif.Solve.C56_cm_relabel",
    "Verif.Solve.C56_cm_relabel_array",
    "Verif.Solve.C56_cm_relabel_array_wrong",
    "Verif.Solve.C56_dcm_relabel",
    "Verif.Solve.C56_dcm_relabel_array",
    "Verif.Solve.C56_ecm_relabel",
    "Verif.Solve.C56_crema_relabel",
    "Verif.Solve.C56_crema_binary_relabel",
    "Verif.Solve.C56_decm_relabel",
    "Verif.Solve.C56_dcrema_relabel",
    "Verif.Solve.C56_dcrema_binary_relabel"
   ],
   "note": "cm, cm_exp, dcm, dcm_exp: named guesses and class-constant arrays (C56_cm_relabel_array_wrong shows why other arrays are excluded). ecm, ecm_exp, decm, decm_exp and crema (undirected, directed; matrix or binary links): every guess but \"random\", whose draws go by position. Hypothesis on the environment: what numpy returns outside the domain of the likelihood does not depend on the order of the entries, and (ecm, decm) eigh returns a decomposition. crema-sparse is reached through C33 (same run as crema on the same links)."
  },
  {
   "property": "C57",
   "status": "proved",
   "theorems": [
    "Verif.Solve.C57_cm_exp",
    "Verif.Solve.C57_cm",
    "Verif.Solve.C57_ecm_exp",
    "Verif.Solve.C57_ecm",
    "Verif.Solve.C57_crema_matrix",
    "Verif.Solve.C57_dcm_exp",
    "Verif.Solve.C57_dcm",
    "Verif.Solve.C57_decm_exp",
    "Verif.Solve.C57_decm",
    "Verif.Solve.C57_dcrema_matrix"
   ],
   "note": "All ten dense models. Hypotheses: line search on, full_return (the step lengths are read from alfa_seq), no recorded step length below 2^-50 (after 50 halvings the code takes the step unchecked, see C16), named guesses on networks without zero degrees or strengths where the domain is not the whole space."
  },
  {
   "property": "C58",
   "status": "proved",
   "theorems": [
    "Verif.Solve.C58_cm",
    "Verif.Solve.C58_ecm",
    "Verif.Solve.C58_crema",
    "Verif.Solve.C58_crema_adjacency_wrong",
    "Verif.Solve.C58_dcm",
    "Verif.Solve.C58_decm",
    "Verif.Solve.C58_dcrema",
    "Verif.Solve.C58_dcrema_adjacency_wrong"
   ],
   "note": "All models of both classes, with the two exceptions named in the statement; C37_stale_rates and C58_crema_adjacency_wrong / C58_dcrema_adjacency_wrong show that the exceptions are real. Any two attribute states are compared, which contains all histories."
  },
  {
   "property": "C59",
   "status": "proved",
   "theorems": [
    "Verif.Solve.C59_cm",
    "Verif.Solve.C59_cm_named",
    "Verif.Solve.C59_ecm",
    "Verif.Solve.C59_dcm"
   ],
   "note": "cm and dcm: for non-negative parameters (discharged for cm with named guesses and the line search on by C59_cm_named); ecm: for parameters in the domain of the model."
  },
  {
   "property": "C60",
   "status": "proved",
   "theorems": [
    "Verif.Solve.C60_cm",
    "Verif.Solve.C60_cm_core",
    "Verif.Solve.C60_dcm",
    "Verif.Solve.C60_dcm_core"
   ],
   "note": "cm and dcm: for non-negative parameters; nothing is assumed for cm_exp and dcm_exp."
  },
  {
   "property": "C61",
   "status": "proved",
   "theorems": [
    "Verif.Solve.C61_cm",
    "Verif.Solve.C61_ecm",
    "Verif.Solve.C61_crema_matrix",
    "Verif.Solve.C61_dcm",
    "Verif.Solve.C61_decm",
    "Verif.Solve.C61_dcrema_matrix"
   ],
   "note": "For answers inside the domain of the model (non-negative parameters, weights with y_i y_j < 1, positive rates on the links) with the same zero pattern (cm and cm_exp treat isolated nodes differently, see C41); ecm on networks without zero degrees or strengths; crema on a given non-negative matrix."
  },
  {
   "property": "C62",
   "status": "proved",
   "theorems": [
    "Verif.Solve.C62_cm_exp",
    "Verif.Solve.C62_dcm_exp"
   ],
   "note": "Exact arithmetic, any regularisation option. tol in the range TolOK (n^2 sqrt n <= 3e12 tol: 61 nodes at the default tol 1e-8, 387 at 1e-6), eps <= tol^2/(3000 n^5) including 0; for an object on which no weighted model was solved before (the reset of the mixed model's attributes then runs, C58)."
  },
  {
   "property": "C63",
   "status": "proved",
   "theorems": [
    "Verif.Solve.C63_cm",
    "Verif.Solve.C63_cm_exp",
    "Verif.Solve.C63_dcm_no_division_by_zero",
    "Verif.Solve.C63_dcm",
    "Verif.Solve.C63_dcm_exp"
   ],
   "note": "Exact arithmetic. For the call with m steps having returned normally; exact solutions in the sense of Spec/FixedPoint (zero where the degree is zero). dcm on networks with at least one link (0/0 otherwise), cm_exp/dcm_exp on networks without zero degrees (the others get a meaningless fitness, C41)."
  },
  {
   "property": "C64",
   "status": "proved",
   "theorems": [
    "Verif.Solve.C64_cm",
    "Verif.Solve.C64_dcm"
   ],
   "note": "Exact arithmetic, linsearch=False (with it the step length is not bounded below in general; C63 still holds). T and the threshold depend on the network, the guess and the accuracy; no earlier weighted solution on the object."
  },
  {
   "property": "C65",
   "status": "partial",
   "theorems": [
    "Verif.Solve.C65_cm_exp_partial",
    "Verif.Solve.C65_dcm_exp_partial",
    "Verif.Solve.C65_cm_exp_stops_early"
   ],
   "note": "False for every tol >= 0 (C65_cm_exp_stops_early: the stopping rule compares the norm of the next iterate with tol); the _partial theorems prove convergence for tol < 0."
  },
  {
   "property": "C66",
   "status": "proved",
   "theorems": [
    "Verif.Solve.C66_ubcm_iff",
    "Verif.Solve.C66_dbcm_iff",
    "Verif.Solve.C66_ubcm_hub",
    "Verif.Solve.C66_dbcm_hub",
    "Verif.Solve.C66_cm_converges",
    "Verif.Solve.C66_dcm_converges"
   ],
   "note": "C66_ubcm_iff and C66_dbcm_iff characterise solvability (necessary and sufficient); C66_*_hub: a node linked to everything rules it out; C66_cm_converges and C66_dcm_converges: convergence of the fixed-point method on every network whose pairs can be switched."
  },
  {
   "property": "C67",
   "status": "proved",
   "theorems": [
    "Verif.Solve.C67_crema",
    "Verif.Solve.C67_dcrema"
   ],
   "note": "C67_crema, C67_dcrema: the step is a minorise-maximise step (Lemmas/EM), also when shortened by the line search; m = 0 gives the guess itself, so no run is worse than its guess. The directed statement is for graph objects that know their nonzero indices (initialised with weights)."
  },
  {
   "property": "C68",
   "status": "partial",
   "theorems": [
    "Verif.Solve.C68_crema",
    "Verif.Solve.C68_dcrema",
    "Verif.Solve.C68_fixed_point_misses_partial",
    "Verif.Solve.C68_fixed_point_misses_directed_partial"
   ],
   "note": "C68_crema and C68_dcrema prove existence and acceptance for newton and quasinewton; C68_fixed_point_misses_partial and C68_fixed_point_misses_directed_partial are the negation for fixed-point, whose runs keep the rates non-negative."
  },
  {
   "property": "C69",
   "status": "proved",
   "theorems": [
    "Verif.Solve.C69_crema_likelihood",
    "Verif.Solve.C69_crema_strengths",
    "Verif.Solve.C69_dcrema_likelihood",
    "Verif.Solve.C69_dcrema_strengths"
   ],
   "note": "C69_*_likelihood and C69_*_strengths, undirected and directed, without line search."
  },
  {
   "property": "C70",
   "status": "partial",
   "theorems": [
    "Verif.Sampler.C70_crema_given_weight_law",
    "Verif.Sampler.C70_crema_weight_law",
    "Verif.Sampler.C70_crema_sparse_weight_law",
    "Verif.Sampler.C70_crema_network_law",
    "Verif.Sampler.C70_crema_sparse_network_law",
    "Verif.Sampler.C70_crema_mean_strength",
    "Verif.Sampler.C70_crema_given_mean_strength_partial",
    "Verif.Sampler.C70_crema_sparse_undirected_doubles",
    "Verif.Sampler.C70_dcrema_mean_strengths",
    "Verif.Sampler.C70_dcrema_given_mean_strengths_partial",
    "Verif.Sampler.C70_dcrema_sparse_mean_strengths",
    "Verif.Solve.C70_crema_sampled_strength",
    "Verif.Solve.C70_crema_given_sampled_strength_partial",
    "Verif.Solve.C70_crema_given_probabilities_ignored",
    "Verif.Solve.C70_crema_sparse_sampled_strength_doubled",
    "Verif.Solve.C70_dcrema_sampled_strengths",
    "Verif.Solve.C70_dcrema_given_sampled_strengths_partial"
   ],
   "note": "Weights, independence and mean strengths: C70_crema_weight_law, C70_crema_network_law, C70_crema_mean_strength, C70_crema_sampled_strength, directed C70_dcrema_*; crema-sparse directed C70_dcrema_sparse_mean_strengths. The code violates the property in two cases, both proved: undirected crema-sparse samples every pair twice, so mean strengths are doubled (C70_crema_sparse_undirected_doubles, C70_crema_sparse_sampled_strength_doubled), and on a given matrix of link probabilities the sampler ignores the probabilities (C70_crema_given_probabilities_ignored); the _partial theorems assume a 0/1 matrix. Parameters are assumed in the domain of the model (b_i + b_j > 0 on the topology)."
  },
  {
   "property": "C71",
   "status": "proved",
   "theorems": [
    "Verif.Solve.C71_uecm_iff",
    "Verif.Solve.C71_decm_iff",
    "Verif.Solve.C71_uecm_switchable",
    "Verif.Solve.C71_decm_switchable",
    "Verif.Solve.C71_uecm_none",
    "Verif.Solve.C71_decm_none",
    "Verif.Solve.C71_ecm_exact",
    "Verif.Solve.C71_ecm_never",
    "Verif.Solve.C71_decm_exact",
    "Verif.Solve.C71_decm_never"
   ],
   "note": "C71_uecm_iff, C71_decm_iff (existence), C71_*_switchable, C71_*_none, and at the level of solve_tool C71_ecm_exact, C71_ecm_never, C71_decm_exact, C71_decm_never (no isolated nodes for the calls; the existence theorems cover them)."
  },
  {
   "property": "C72",
   "status": "proved",
   "theorems": [
    "Verif.Solve.C72_crema",
    "Verif.Solve.C72_dcrema",
    "Verif.Solve.C72_crema_network",
    "Verif.Solve.C72_dcrema_network",
    "Verif.Solve.C72_triangle"
   ],
   "note": "C72_crema_network, C72_dcrema_network (a network's own links, named guesses); C72_crema, C72_dcrema (general matrices and guesses, with the likelihood gap as a hypothesis: the line search halves at most 50 times, so some cap is needed by the argument); C72_triangle is a network the fixed-point method misses (C68). Hypothesis: outside its domain the log-likelihood is nan or -inf (Env.outside = none), so that the line search goes on halving. With line search off nothing is claimed."
  },
  {
   "property": "C73",
   "status": "partial",
   "theorems": [
    "Verif.Solve.C73_decm_reverse_partial",
    "Verif.Solve.C73_decm_symmetric_partial",
    "Verif.Solve.C73_decm_exp_fixed_point_fails",
    "Verif.Solve.C73_dcrema_reverse",
    "Verif.Solve.C73_dcm_reverse",
    "Verif.Solve.C73_dcm_reverse_array",
    "Verif.Solve.C73_dcrema_binary_reverse"
   ],
   "note": "C73_decm_reverse_partial (decm: all methods, quasinewton under: a node without strength has no links on that side; decm_exp: newton, quasinewton), C73_decm_symmetric_partial, C73_dcm_reverse, C73_dcm_reverse_array, C73_dcrema_reverse, C73_dcrema_binary_reverse. Partial because the property is false of the code for decm_exp by fixed point: C73_decm_exp_fixed_point_fails. The random guess draws by position and is left out. Hypothesis on the environment: what numpy returns outside the domain of the likelihood does not depend on the order of the entries."
  },
  {
   "property": "C74",
   "status": "partial",
   "theorems": [
    "Verif.Verbose.C74_verbose_same_partial",
    "Verif.Verbose.C74_verbose_log_partial",
    "Verif.Verbose.C74_verbose_newton_fails",
    "Verif.Verbose.C74_new_min_eig_pos",
    "Verif.Verbose.C74_condition_numbers",
    "Verif.Verbose.C74_verbose_solve_tool",
    "Verif.Verbose.C74_new_min_eig_models"
   ],
   "note": "C74_verbose_same_partial, C74_verbose_log_partial, C74_verbose_solve_tool (all calls of solve_tool), C74_new_min_eig_pos, C74_new_min_eig_models. Partial because the property is false of the code for newton with regularise=False (reachable only by calling the solver directly): C74_verbose_newton_fails. Of the timing lines only the labels are modelled."
  },
  {
   "property": "C75",
   "status": "proved",
   "theorems": [
    "Verif.Solve.C75_cm_dcm",
    "Verif.Solve.C75_ecm_decm",
    "Verif.Solve.C75_crema_dcrema"
   ],
   "note": "C75_cm_dcm, C75_ecm_decm, C75_crema_dcrema (crema on a given non-negative matrix)."
  },
  {
   "property": "C76",
   "status": "proved",
   "theorems": [
    "Verif.Solve.C76_crema_fixed_point",
    "Verif.Solve.C76_dcrema_fixed_point",
    "Verif.Solve.C76_dcrema",
    "Verif.Solve.C76_crema"
   ],
   "note": "C76_crema_fixed_point, C76_dcrema_fixed_point (step for step); C76_crema, C76_dcrema (every method, up to the reported errors)."
  },
  {
   "property": "C77",
   "status": "proved",
   "theorems": [
    "Verif.Solve.C77_cm",
    "Verif.Solve.C77_dcm"
   ],
   "note": "C77_cm, C77_dcm: simulation of the two runs."
  },
  {
   "property": "C78",
   "status": "proved",
   "theorems": [
    "Verif.Flt.C78_cm_exp_isolated",
    "Verif.Flt.C78_cm_exp_stuck",
    "Verif.Flt.C78_cm_exp_finite",
    "Verif.Flt.C78_dcm_exp_zero_degree",
    "Verif.Flt.C78_dcm_exp_half_steps",
    "Verif.Flt.C78_dcm_exp_finite"
   ],
   "note": "Special values of floats modelled, rounding and underflow not. The behaviour on zero degrees is a finding: the method does not converge there."
  },
  {
   "property": "C79",
   "status": "partial",
   "theorems": [
    "Verif.Checked.C79_where_cm",
    "Verif.Checked.C79_where_ecm",
    "Verif.Checked.C79_where_dcm",
    "Verif.Checked.C79_cm_isolated",
    "Verif.Checked.C79_cm_partial",
    "Verif.Checked.C79_cm_fixed_partial",
    "Verif.Checked.C79_ecm_zero",
    "Verif.Checked.C79_dcm",
    "Verif.Checked.C79_crema_links",
    "Verif.Checked.C79_crema_cm_exp",
    "Verif.Checked.C79_crema_fixed_partial",
    "Verif.Checked.C79_dcrema_links",
    "Verif.Checked.C79_dcrema_fixed_partial",
    "Verif.Checked.C79_crema_newton_partial",
    "Verif.Checked.C79_crema_network_partial",
    "Verif.Checked.C79_dcrema_network_partial",
    "Verif.Checked.C79_ecm_partial",
    "Verif.Checked.C79_where_decm",
    "Verif.Checked.C79_decm_single_link",
    "Verif.Checked.C79_decm_partial",
    "Verif.Checked.C79_cm_agrees",
    "Verif.Checked.C79_ecm_agrees",
    "Verif.Checked.C79_crema_agrees",
    "Verif.Checked.C79_cm_done",
    "Verif.Checked.C79_ecm_done",
    "Verif.Checked.C79_crema_done",
    "Verif.Checked.C79_dcm_agrees",
    "Verif.Checked.C79_decm_agrees",
    "Verif.Checked.C79_dcrema_agrees",
    "Verif.Checked.C79_dcm_done",
    "Verif.Checked.C79_decm_done",
    "Verif.Checked.C79_dcrema_done"
   ],
   "note": "False as stated. Exact divisions by zero of the cm, ecm and dcm functions characterised (C79_where_*). Refuted: cm newton/quasinewton with any isolated node (C79_cm_isolated), ecm newton/quasinewton with any zero degree or strength (C79_ecm_zero), crema with a link between two nodes of strength 0, in particular the default adjacency 'cm_exp' on every network with two such nodes (C79_crema_links, C79_crema_cm_exp), directed crema likewise (C79_dcrema_links). Proved: dcm with every method and all zero patterns, cm without isolated nodes (all methods, line search on), cm fixed-point always, crema fixed-point when links join nodes with strength, crema and directed crema with every method on a network's own links, ecm newton while the accepted step lengths stay above 2^-50; in these cases the checked run is the run of the other theorems. decm: exact divisions by zero of its gradient, Hessian, Hessian diagonal, fixed-point map and expectation (C79_where_decm; unlike ecm, a zero constraint guards its parameter); refuted when all the weight is on one link (C79_decm_single_link: every method from the guess 'strengths' ends with ZeroDivisionError); proved for newton/quasinewton on weighted networks with empty sides while the accepted step lengths stay above 2^-50 (C79_decm_partial). For every model, network, guess and option: a call that returns either divided by zero or is the checked run, value for value (C79_*_agrees), and a checked run that ends normally is a call that returns (C79_*_done). Not covered: ecm_exp/decm_exp (no scalar division by a parameter)."
  },
  {
   "property": "C80",
   "status": "partial",
   "theorems": [
    "Verif.Sampler.C80_cm",
    "Verif.Sampler.C80_ecm",
    "Verif.Sampler.C80_crema",
    "Verif.Sampler.C80_crema_given",
    "Verif.Sampler.C80_crema_sparse",
    "Verif.Sampler.C80_failed_cm_mixes",
    "Verif.Sampler.C80_failed_crema_guess",
    "Verif.Sampler.C80_never_solved",
    "Verif.Sampler.C80_first_refused",
    "Verif.Sampler.C80_first_refused_directed",
    "Verif.Sampler.C80_sparse_given_nothing",
    "Verif.Sampler.C80_crema_law",
    "Verif.Sampler.C80_dcrema_law",
    "Verif.Sampler.C80_dcrema_sparse_law",
    "Verif.Sampler.C80_crema_given_law",
    "Verif.Sampler.C80_dcrema_given_law",
    "Verif.Sampler.C80_dcm",
    "Verif.Sampler.C80_decm",
    "Verif.Sampler.C80_dcrema",
    "Verif.Sampler.C80_dcrema_given",
    "Verif.Sampler.C80_dcrema_sparse",
    "Verif.Sampler.C80_failed_dcm_mixes",
    "Verif.Sampler.C80_cm_law",
    "Verif.Sampler.C80_dcm_law",
    "Verif.Sampler.C80_ecm_law",
    "Verif.Sampler.C80_decm_law",
    "Verif.Sampler.C80_sparse_given_nothing_directed"
   ],
   "note": "Proved after every call that returned: all models, undirected and directed, whatever the history (C80_cm ... C80_dcrema_sparse), and with C55 the probability law of the file contents for cm, ecm, dcm, decm (C80_*_law), with C70 also for crema on a binary model or a given matrix and directed crema-sparse (C80_crema_law, C80_dcrema_law, C80_crema_given_law, C80_dcrema_given_law, C80_dcrema_sparse_law; weights and mean strengths of the file contents). Refuted after a call that raised: a refused cm call on an object solved for ecm leaves the ecm fitnesses with last_model 'cm', so the files are cm networks at ecm fitnesses (C80_failed_cm_mixes, C80_failed_dcm_mixes); a crema call refused for its method name leaves the initial guess as parameters, which are then sampled (C80_failed_crema_guess). crema-sparse with a given matrix writes nothing (C80_sparse_given_nothing; C22_writes_nothing). Objects never solved raise ValueError (C80_never_solved); after a refused first call every request for at least one copy raises (C80_first_refused, also directed)."
  },
  {
   "property": "C81",
   "status": "partial",
   "theorems": [
    "Verif.Flt.C81_crema_sparse_zero",
    "Verif.Flt.C81_where_crema_sparse",
    "Verif.Flt.C81_crema_sparse_fixed_partial",
    "Verif.Flt.C81_dcm_partial"
   ],
   "note": "Refuted: crema-sparse on an undirected network with a node of strength 0 has the value nan at every guess and with every method, so the run ends before its first step and the guess is returned as the solution (C81_crema_sparse_zero); dcm with fixed-point on an in-star or out-star likewise (first part of C81_dcm_partial). Proved: on every other network (degrees of a matrix without loops, placeable_network) a dcm fixed-point run from a positive guess with the line search on has no special value and is the run of Model/Solver (second part of C81_dcm_partial); a crema-sparse fixed-point run with positive strengths and fitnesses likewise (C81_crema_sparse_fixed_partial); exactly where the crema-sparse functions are undefined (C81_where_crema_sparse)."
  },
  {
   "property": "C82",
   "status": "partial",
   "theorems": [
    "Verif.Solve.C82_crema",
    "Verif.Solve.C82_dcrema",
    "Verif.Solve.C82_crema_sparse",
    "Verif.Solve.C82_unknown_adjacency",
    "Verif.Solve.C82_sparse_ecm_wrong",
    "Verif.Solve.C82_dcrema_sparse",
    "Verif.Solve.C82_unknown_adjacency_directed",
    "Verif.Solve.C82_dcrema_linsearch_ignored",
    "Verif.Solve.C82_sparse_decm_wrong"
   ],
   "note": "Proved for the binary models: C82_crema (cm, cm_exp), C82_dcrema (dcm, dcm_exp; with the line search on), C82_crema_sparse, C82_dcrema_sparse; unknown names raise ValueError and keep the parameters, though last_model becomes the unknown name (C82_unknown_adjacency, also directed). Refuted: crema-sparse with adjacency 'ecm' raises nothing and uses the cm probabilities of the ecm fitnesses x, on every network without isolated nodes (C82_sparse_ecm_wrong, directed 'decm': C82_sparse_decm_wrong; for the dense version C58_crema_adjacency_wrong: AttributeError or the wrong model, depending on the history); the directed class does not pass linsearch=False on to the binary problem (C82_dcrema_linsearch_ignored)."
  },
  {
   "property": "C83",
   "status": "proved",
   "theorems": [
    "Verif.Solve.C83_cm",
    "Verif.Solve.C83_cm_exp",
    "Verif.Solve.C83_ecm",
    "Verif.Solve.C83_ecm_exp",
    "Verif.Solve.C83_crema",
    "Verif.Solve.C83_dcm",
    "Verif.Solve.C83_decm",
    "Verif.Solve.C83_dcm_exp",
    "Verif.Solve.C83_decm_exp",
    "Verif.Solve.C83_dcrema",
    "Verif.Solve.C83_fixed_point_search"
   ],
   "note": "C83_cm, C83_cm_exp, C83_ecm, C83_ecm_exp, C83_crema, C83_dcm, C83_dcm_exp, C83_decm, C83_decm_exp, C83_dcrema: simulation of the two runs (solver_continue). C83_fixed_point_search: why the fixed-point method with the line search is not in the statement (one step and one more end at (1/5, 2/5), two at once at (7/45, 19/45))."
  },
  {
   "property": "C84",
   "status": "proved",
   "theorems": [
    "Verif.Solve.C84_cm",
    "Verif.Solve.C84_cm_exp",
    "Verif.Solve.C84_ecm",
    "Verif.Solve.C84_ecm_exp",
    "Verif.Solve.C84_crema",
    "Verif.Solve.C84_dcm",
    "Verif.Solve.C84_decm",
    "Verif.Solve.C84_dcm_exp",
    "Verif.Solve.C84_decm_exp",
    "Verif.Solve.C84_dcrema"
   ],
   "note": "C84_cm ... C84_dcrema, one per model: the stricter loop passes through the final state of the other (solver_stricter)."
  }
 ]
}