{
 "C01": {
  "note": "Equivalence (zero gradient iff all expected degrees equal the observed ones), for every reduced problem and every expansion; reals, not floats."
 },
 "C02": {
  "note": "As C01, for out- and in-degrees, including nodes with zero out- or in-degree (left out of the equations by the code's index lists)."
 },
 "C03": {
  "note": "Equivalence on the open domain y_i y_j < 1."
 },
 "C04": {
  "note": "Equivalence on the open domain b_out_i b_in_j < 1, including the zero-parameter branches of the plain gradient."
 },
 "C05": {
  "note": "Dense and sparse, undirected and directed."
 },
 "C06": {
  "note": "HasDerivAt in every coordinate, all ten models."
 },
 "C07": {
  "status": "partial",
  "note": "False as stated. Proved for ecm, ecm_exp, dcm, dcm_exp, decm, decm_exp, directed crema, and undirected crema without self-loops; for cm and cm_exp the exact region of validity is proved (…_iff) and the negation with a witness (…_not_jacobian); with self-loops the undirected crema Hessian is wrong (C07_crema_hessian_loop_wrong)."
 },
 "C08": {
  "status": "partial",
  "note": "False as stated. Proved for cm, ecm, ecm_exp, dcm_exp, decm_exp, crema; refuted with witnesses for cm_exp, dcm (multiplicity missing), decm (sign when an in-strength is zero); the _partial theorems give the cases in which they are right."
 },
 "C09": {
  "status": "partial",
  "note": "Proved for every likelihood, gradient, Hessian, fixed-point map and expectation solve_tool uses; refuted for the unused expected_out_degree_dcm_exp."
 },
 "C10": {
  "note": "For every class map produced by the reduction; reduction itself modelled from np.unique's contract."
 },
 "C11": {
  "note": "Tangent inequality, global maximality and uniqueness of link probabilities/rates; also proved for ecm_exp, decm_exp."
 },
 "C12": {
  "status": "partial",
  "note": "False as stated for decm_exp (C12_decm_exp_fixed_point_wrong; the _partial theorem says what its fixed points do satisfy) and for the unused iterative_decm_exp_2 and iterative_dcm_exp_2 (the latter only at zero degrees). Equivalences proved for every other map."
 },
 "C13": {
  "status": "partial",
  "note": "Proved for every model and every call of solve_tool with newton/quasinewton, under the domain hypothesis on the returned point; the hypothesis is discharged for all named guesses with the line search on (…_named) for cm, dcm, ecm_exp, decm_exp, and for ecm and decm only if all recorded step lengths exceed 2^-50 (…_named_partial: after 50 halvings the code accepts a step it has not checked; for decm also on networks whose nodes have empty sides, C13_decm_sides_partial)."
 },
 "C14": {
  "status": "partial",
  "note": "False as stated: C14_fixed_point_false gives a network (the hexagon) on which solve_tool stops at once at the guess with a wrong expected degree. C14_solver_displacement_partial says what the stopping test does guarantee."
 },
 "C15": {
  "note": "For every callbacks, options and start; fixed-point runs always return when the line search ends."
 },
 "C16": {
  "status": "partial",
  "note": "Proved on the domain (positive parameters for cm; any for dcm; pair products below 1 for ecm, decm), and along whole runs (decm also on networks whose nodes have empty sides, C16_decm_sides_partial). Refuted outside: step length 0 for cm at x_i=0 (C16_linsearch_cm_zero_stalls), leaving the domain for dcm at x_i=0 (C16_linsearch_dcm_zero_leaves), endless loop for ecm/decm (…_hangs)."
 },
 "C17": {
  "status": "partial",
  "note": "Proved for the eigenvalue-based regulariser. The 'identity' regulariser only shifts by eps: positive definite iff the symmetrised matrix exceeds -eps (…_identity_posdef_partial), refuted in general (…_identity_not_posdef). Psd.C17_*_hessian_psd: in the exp parametrisations and for crema minus the Hessian is positive semidefinite on the whole domain, so the identity regulariser is enough there; Solve.C17_*_direction: newton and quasinewton directions of all ten problems are descent directions."
 },
 "C18": {
  "note": "cm and dcm probability matrices."
 },
 "C19": {
  "note": "For every generator, seed and interleaving of the workers."
 },
 "C20": {
  "note": "For every generator, seed and interleaving of the workers."
 },
 "C21": {
  "status": "partial",
  "note": "Proved except for the sparse undirected probabilistic crema sampler, which lists pairs twice (C21_crema_sparse_undirected_repeats), and outside the domain y_i y_j < 1, where the sampler raises (C21_ecm_outside_domain_raises)."
 },
 "C22": {
  "note": "For every complete interleaving of the workers."
 },
 "C23": {
  "note": "Exact law of each link, of the whole graph when the per-pair seeds differ, and means; C23_cm_large_networks_dependent: from 1415 nodes on some pairs necessarily share a seed, so links are then dependent (means are unaffected)."
 },
 "C24": {
  "note": "The stated exception (isolated nodes) is proved."
 },
 "C25": {
  "note": "Including the stated exception of the sparse builders."
 },
 "C29": {
  "note": "Including the stated exception for more than 257 nodes."
 },
 "C33": {
  "status": "partial",
  "note": "Proved except for iterative_crema_directed_sparse (C33_dcrema_iterative_parallel_wrong; the sequential map with the intended index is proved right in …_serial_partial)."
 },
 "C34": {
  "status": "partial",
  "note": "Setter/no-op/history part proved for every sequence of calls; 'describes only the new topology after clean_edges' is refuted (…_stale_strengths)."
 },
 "C35": {
  "status": "partial",
  "note": "Exact characterisation of which inputs raise which exception proved; documented list inputs raise AttributeError (C35_undirected_lists_raise) and sequences of different lengths are accepted (C35_directed_length_mismatch_accepted)."
 },
 "C36": {
  "status": "partial",
  "note": "Dispatch proved for every pair of both classes, dense and sparse. Refuted: unknown models are ignored silently, unknown methods with ecm/crema change the stored parameters before raising, ('crema','sparse-newton') names two problems, crema-sparse newton on a named binary model always fails, directed crema on edge-list graphs always fails, crema-sparse on a given matrix takes node numbers for fitnesses (it raises unless there are as many links as nodes, and otherwise newton and quasinewton never come below the strength of the first node)."
 },
 "C37": {
  "status": "partial",
  "note": "Proved for every model on an object without left-over rates; refuted after crema then cm/dcm (C37_stale_rates) and after decm then dcm (always raises). C37_crema_all and C37_dcrema_all: crema and crema-sparse with a binary adjacency model named, every method, both classes."
 },
 "C38": {
  "status": "partial",
  "note": "Proved for every named guess of every model under positivity hypotheses on the sequences; refuted without them (C38_cm_isolated, C38_ecm_exp_false, C38_crema_false, C38_decm_single_link)."
 },
 "C39": {
  "status": "partial",
  "note": "Structure, connectivity of every node and termination proved for the dense generators with at least two nodes; refuted: n=1 loops for ever, gaussian weights may be negative or rounded to 0, sparse generators may return an isolated node, networkx uniform weights may be 0."
 },
 "C40": {
  "status": "partial",
  "note": "False as stated: the sign is wrong for every model, and the argument is wrong for dcm_exp and decm_exp; what is returned is characterised exactly."
 },
 "C41": {
  "status": "partial",
  "note": "Proved for dcm (all methods, end to end with the sampler), decm (all methods and guesses, on networks where each side has links exactly if it has weight), ecm with fixed-point (newton/quasinewton raise, C79), cm with fixed-point, dcm_exp with newton/quasinewton (fitness exp(-1000), which underflows to 0 in floats but is not 0 in the reals); refuted for cm_exp with newton/quasinewton (every fitness is positive); cm_exp and dcm_exp with fixed-point: C78. cm with newton/quasinewton divides by 0 in numba at isolated nodes: C79."
 },
 "C42": {
  "note": "Plain maps; the exponential maps are -log of them (C12)."
 },
 "C44": {
  "status": "partial",
  "note": "Proved for every interleaving for all parallel loops except iterative_crema_directed_sparse, which has a race (C44_directed_fixed_point_race)."
 },
 "C45": {
  "status": "partial",
  "note": "Proved for integer weights; refuted for real weights (C45_real_weights_missed). C45_*_flag characterise the flag exactly."
 },
 "C46": {
  "status": "partial",
  "note": "Proved for cm, cm_exp, dcm, dcm_exp; refuted for ecm, decm, crema (the array is overwritten when a constraint is zero; exact new contents proved)."
 },
 "C47": {
  "status": "partial",
  "note": "The exact starting point of every name is proved; the documented meaning is refuted for degrees_minor, chung_lu (both classes) and crema strengths."
 },
 "C48": {
  "status": "partial",
  "note": "Proved for dense and networkx generators and for the links of the sparse ones; refuted for the weights of the sparse weighted generators."
 },
 "C52": {
  "note": "cm needs degrees that are non-zero (the code divides by the fitness of an isolated node); cm_exp and dcm allow isolated nodes."
 },
 "C53": {
  "note": "_start: the starting point; _restart: a converged run fed back makes no step; _kept: exact solutions are returned by all three methods. decm fixed-point needs b_out_i*b_in_i < 1 also for the same node, because its line search tests the product of the maxima and would loop for ever otherwise."
 },
 "C54": {
  "status": "partial",
  "note": "cm, cm_exp, ecm, ecm_exp, dcm, dcm_exp, decm, decm_exp in full. crema writes expected_stregth_seq (misspelt): expected_strength_seq keeps its old value or stays unset (C54_crema_unset); the errors are right, for crema and crema-sparse on every binary model with every method (C54_crema_all_partial, C54_dcrema_all_partial: partial only because of that name)."
 },
 "C55": {
  "note": "Whole-network law for cm, dcm, ecm, decm, and its link with the number model_loglikelihood returns. Needs different seeds for different pairs: from 1415 nodes on (C23) this never holds and the law of the whole network is then different."
 },
 "C56": {
  "status": "proved",
  "note": "cm, cm_exp, dcm, dcm_exp: named guesses and class-constant arrays (C56_cm_relabel_array_wrong shows why other arrays are excluded). ecm, ecm_exp, decm, decm_exp and crema (undirected, directed; matrix or binary links): every guess but \"random\", whose draws go by position. Hypothesis on the environment: what numpy returns outside the domain of the likelihood does not depend on the order of the entries, and (ecm, decm) eigh returns a decomposition. crema-sparse is reached through C33 (same run as crema on the same links)."
 },
 "C57": {
  "status": "proved",
  "note": "All ten dense models. Hypotheses: line search on, full_return (the step lengths are read from alfa_seq), no recorded step length below 2^-50 (after 50 halvings the code takes the step unchecked, see C16), named guesses on networks without zero degrees or strengths where the domain is not the whole space."
 },
 "C58": {
  "status": "proved",
  "note": "All models of both classes, with the two exceptions named in the statement; C37_stale_rates and C58_crema_adjacency_wrong / C58_dcrema_adjacency_wrong show that the exceptions are real. Any two attribute states are compared, which contains all histories."
 },
 "C59": {
  "status": "proved",
  "note": "cm and dcm: for non-negative parameters (discharged for cm with named guesses and the line search on by C59_cm_named); ecm: for parameters in the domain of the model."
 },
 "C60": {
  "status": "proved",
  "note": "cm and dcm: for non-negative parameters; nothing is assumed for cm_exp and dcm_exp."
 },
 "C61": {
  "status": "proved",
  "note": "For answers inside the domain of the model (non-negative parameters, weights with y_i y_j < 1, positive rates on the links) with the same zero pattern (cm and cm_exp treat isolated nodes differently, see C41); ecm on networks without zero degrees or strengths; crema on a given non-negative matrix."
 },
 "C62": {
  "status": "proved",
  "note": "Exact arithmetic, any regularisation option. tol in the range TolOK (n^2 sqrt n <= 3e12 tol: 61 nodes at the default tol 1e-8, 387 at 1e-6), eps <= tol^2/(3000 n^5) including 0; for an object on which no weighted model was solved before (the reset of the mixed model's attributes then runs, C58)."
 },
 "C63": {
  "status": "proved",
  "note": "Exact arithmetic. For the call with m steps having returned normally; exact solutions in the sense of Spec/FixedPoint (zero where the degree is zero). dcm on networks with at least one link (0/0 otherwise), cm_exp/dcm_exp on networks without zero degrees (the others get a meaningless fitness, C41)."
 },
 "C64": {
  "status": "proved",
  "note": "Exact arithmetic, linsearch=False (with it the step length is not bounded below in general; C63 still holds). T and the threshold depend on the network, the guess and the accuracy; no earlier weighted solution on the object."
 },
 "C65": {
  "status": "partial",
  "note": "False for every tol >= 0 (C65_cm_exp_stops_early: the stopping rule compares the norm of the next iterate with tol); the _partial theorems prove convergence for tol < 0."
 },
 "C66": {
  "status": "proved",
  "note": "C66_ubcm_iff and C66_dbcm_iff characterise solvability (necessary and sufficient); C66_*_hub: a node linked to everything rules it out; C66_cm_converges and C66_dcm_converges: convergence of the fixed-point method on every network whose pairs can be switched."
 },
 "C67": {
  "status": "proved",
  "note": "C67_crema, C67_dcrema: the step is a minorise-maximise step (Lemmas/EM), also when shortened by the line search; m = 0 gives the guess itself, so no run is worse than its guess. The directed statement is for graph objects that know their nonzero indices (initialised with weights)."
 },
 "C68": {
  "status": "partial",
  "note": "C68_crema and C68_dcrema prove existence and acceptance for newton and quasinewton; C68_fixed_point_misses_partial and C68_fixed_point_misses_directed_partial are the negation for fixed-point, whose runs keep the rates non-negative."
 },
 "C69": {
  "status": "proved",
  "note": "C69_*_likelihood and C69_*_strengths, undirected and directed, without line search."
 },
 "C70": {
  "status": "partial",
  "note": "Weights, independence and mean strengths: C70_crema_weight_law, C70_crema_network_law, C70_crema_mean_strength, C70_crema_sampled_strength, directed C70_dcrema_*; crema-sparse directed C70_dcrema_sparse_mean_strengths. The code violates the property in two cases, both proved: undirected crema-sparse samples every pair twice, so mean strengths are doubled (C70_crema_sparse_undirected_doubles, C70_crema_sparse_sampled_strength_doubled), and on a given matrix of link probabilities the sampler ignores the probabilities (C70_crema_given_probabilities_ignored); the _partial theorems assume a 0/1 matrix. Parameters are assumed in the domain of the model (b_i + b_j > 0 on the topology)."
 },
 "C71": {
  "status": "proved",
  "note": "C71_uecm_iff, C71_decm_iff (existence), C71_*_switchable, C71_*_none, and at the level of solve_tool C71_ecm_exact, C71_ecm_never, C71_decm_exact, C71_decm_never (no isolated nodes for the calls; the existence theorems cover them)."
 },
 "C72": {
  "status": "proved",
  "note": "C72_crema_network, C72_dcrema_network (a network's own links, named guesses); C72_crema, C72_dcrema (general matrices and guesses, with the likelihood gap as a hypothesis: the line search halves at most 50 times, so some cap is needed by the argument); C72_triangle is a network the fixed-point method misses (C68). Hypothesis: outside its domain the log-likelihood is nan or -inf (Env.outside = none), so that the line search goes on halving. With line search off nothing is claimed."
 },
 "C73": {
  "status": "partial",
  "note": "C73_decm_reverse_partial (decm: all methods, quasinewton under: a node without strength has no links on that side; decm_exp: newton, quasinewton), C73_decm_symmetric_partial, C73_dcm_reverse, C73_dcm_reverse_array, C73_dcrema_reverse, C73_dcrema_binary_reverse. Partial because the property is false of the code for decm_exp by fixed point: C73_decm_exp_fixed_point_fails. The random guess draws by position and is left out. Hypothesis on the environment: what numpy returns outside the domain of the likelihood does not depend on the order of the entries."
 },
 "C74": {
  "status": "partial",
  "note": "C74_verbose_same_partial, C74_verbose_log_partial, C74_verbose_solve_tool (all calls of solve_tool), C74_new_min_eig_pos, C74_new_min_eig_models. Partial because the property is false of the code for newton with regularise=False (reachable only by calling the solver directly): C74_verbose_newton_fails. Of the timing lines only the labels are modelled."
 },
 "C75": {
  "status": "proved",
  "note": "C75_cm_dcm, C75_ecm_decm, C75_crema_dcrema (crema on a given non-negative matrix)."
 },
 "C76": {
  "status": "proved",
  "note": "C76_crema_fixed_point, C76_dcrema_fixed_point (step for step); C76_crema, C76_dcrema (every method, up to the reported errors)."
 },
 "C77": {
  "status": "proved",
  "note": "C77_cm, C77_dcm: simulation of the two runs."
 },
 "C78": {
  "status": "proved",
  "note": "Special values of floats modelled, rounding and underflow not. The behaviour on zero degrees is a finding: the method does not converge there."
 },
 "C79": {
  "status": "partial",
  "note": "False as stated. Exact divisions by zero of the cm, ecm and dcm functions characterised (C79_where_*). Refuted: cm newton/quasinewton with any isolated node (C79_cm_isolated), ecm newton/quasinewton with any zero degree or strength (C79_ecm_zero), crema with a link between two nodes of strength 0, in particular the default adjacency 'cm_exp' on every network with two such nodes (C79_crema_links, C79_crema_cm_exp), directed crema likewise (C79_dcrema_links). Proved: dcm with every method and all zero patterns, cm without isolated nodes (all methods, line search on), cm fixed-point always, crema fixed-point when links join nodes with strength, crema and directed crema with every method on a network's own links, ecm newton while the accepted step lengths stay above 2^-50; in these cases the checked run is the run of the other theorems. decm: exact divisions by zero of its gradient, Hessian, Hessian diagonal, fixed-point map and expectation (C79_where_decm; unlike ecm, a zero constraint guards its parameter); refuted when all the weight is on one link (C79_decm_single_link: every method from the guess 'strengths' ends with ZeroDivisionError); proved for newton/quasinewton on weighted networks with empty sides while the accepted step lengths stay above 2^-50 (C79_decm_partial). For every model, network, guess and option: a call that returns either divided by zero or is the checked run, value for value (C79_*_agrees), and a checked run that ends normally is a call that returns (C79_*_done). Not covered: ecm_exp/decm_exp (no scalar division by a parameter)."
 },
 "C80": {
  "status": "partial",
  "note": "Proved after every call that returned: all models, undirected and directed, whatever the history (C80_cm ... C80_dcrema_sparse), and with C55 the probability law of the file contents for cm, ecm, dcm, decm (C80_*_law), with C70 also for crema on a binary model or a given matrix and directed crema-sparse (C80_crema_law, C80_dcrema_law, C80_crema_given_law, C80_dcrema_given_law, C80_dcrema_sparse_law; weights and mean strengths of the file contents). Refuted after a call that raised: a refused cm call on an object solved for ecm leaves the ecm fitnesses with last_model 'cm', so the files are cm networks at ecm fitnesses (C80_failed_cm_mixes, C80_failed_dcm_mixes); a crema call refused for its method name leaves the initial guess as parameters, which are then sampled (C80_failed_crema_guess). crema-sparse with a given matrix writes nothing (C80_sparse_given_nothing; C22_writes_nothing). Objects never solved raise ValueError (C80_never_solved); after a refused first call every request for at least one copy raises (C80_first_refused, also directed)."
 },
 "C81": {
  "status": "partial",
  "note": "Refuted: crema-sparse on an undirected network with a node of strength 0 has the value nan at every guess and with every method, so the run ends before its first step and the guess is returned as the solution (C81_crema_sparse_zero); dcm with fixed-point on an in-star or out-star likewise (first part of C81_dcm_partial). Proved: on every other network (degrees of a matrix without loops, placeable_network) a dcm fixed-point run from a positive guess with the line search on has no special value and is the run of Model/Solver (second part of C81_dcm_partial); a crema-sparse fixed-point run with positive strengths and fitnesses likewise (C81_crema_sparse_fixed_partial); exactly where the crema-sparse functions are undefined (C81_where_crema_sparse)."
 },
 "C82": {
  "status": "partial",
  "note": "Proved for the binary models: C82_crema (cm, cm_exp), C82_dcrema (dcm, dcm_exp; with the line search on), C82_crema_sparse, C82_dcrema_sparse; unknown names raise ValueError and keep the parameters, though last_model becomes the unknown name (C82_unknown_adjacency, also directed). Refuted: crema-sparse with adjacency 'ecm' raises nothing and uses the cm probabilities of the ecm fitnesses x, on every network without isolated nodes (C82_sparse_ecm_wrong, directed 'decm': C82_sparse_decm_wrong; for the dense version C58_crema_adjacency_wrong: AttributeError or the wrong model, depending on the history); the directed class does not pass linsearch=False on to the binary problem (C82_dcrema_linsearch_ignored)."
 },
 "C83": {
  "status": "proved",
  "note": "C83_cm, C83_cm_exp, C83_ecm, C83_ecm_exp, C83_crema, C83_dcm, C83_dcm_exp, C83_decm, C83_decm_exp, C83_dcrema: simulation of the two runs (solver_continue). C83_fixed_point_search: why the fixed-point method with the line search is not in the statement (one step and one more end at (1/5, 2/5), two at once at (7/45, 19/45))."
 },
 "C84": {
  "status": "proved",
  "note": "C84_cm ... C84_dcrema, one per model: the stricter loop passes through the final state of the other (solver_stricter)."
 }
}