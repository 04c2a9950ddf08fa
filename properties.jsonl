{"id": "C01", "title": "UBCM solution reproduces the degrees", "statement": "If x (all entries positive) is a zero of the gradient that the 'cm' solver uses, then for every node the expected degree computed from the expanded solution (one parameter per node, obtained from the degree-reduced problem) equals the observed degree. The same holds for the 'cm_exp' parametrisation without any positivity assumption.", "quantifier": "every degree sequence, every degree reduction of it, every parameter vector", "why_tests_cant": "Only a few graphs can be solved numerically, and only up to a tolerance; the equivalence must hold at every stationary point of every degree sequence.", "anchors": ["src/NEMtropy/models_functions.py: loglikelihood_prime_cm", "src/NEMtropy/models_functions.py: loglikelihood_prime_cm_exp", "src/NEMtropy/models_functions.py: expected_degree_cm", "src/NEMtropy/graph_classes.py: UndirectedGraph.degree_reduction", "src/NEMtropy/graph_classes.py: UndirectedGraph._set_solved_problem_cm"]}
{"id": "C02", "title": "DBCM solution reproduces out- and in-degrees", "statement": "If the gradient used by the 'dcm' (positive parameters) or 'dcm_exp' solver vanishes, the expected out- and in-degree of every node equal the observed ones.", "quantifier": "every pair of out/in degree sequences, every multiplicity vector, every parameter vector", "why_tests_cant": "Tests sample a few random graphs and compare up to 1e-1.. 1e-5 tolerances.", "anchors": ["src/NEMtropy/models_functions.py: loglikelihood_prime_dcm", "src/NEMtropy/models_functions.py: loglikelihood_prime_dcm_exp", "src/NEMtropy/models_functions.py: expected_out_degree_dcm", "src/NEMtropy/models_functions.py: expected_in_degree_dcm"]}
{"id": "C03", "title": "UECM solution reproduces degrees and strengths", "statement": "If the gradient used by the 'ecm' or 'ecm_exp' solver vanishes at an admissible point, then expected degree and expected strength of every node equal the observed ones.", "quantifier": "every degree and strength sequence, every admissible parameter vector (x>0, 0<y, y_i*y_j<1)", "why_tests_cant": "Same as above; also the admissible region is unbounded near y_i*y_j=1.", "anchors": ["src/NEMtropy/models_functions.py: loglikelihood_prime_ecm", "src/NEMtropy/models_functions.py: loglikelihood_prime_ecm_exp", "src/NEMtropy/models_functions.py: expected_ecm"]}
{"id": "C04", "title": "DECM solution reproduces degrees and strengths", "statement": "If the gradient used by the 'decm' or 'decm_exp' solver vanishes at an admissible point, then expected out/in degrees and out/in strengths of every node equal the observed ones.", "quantifier": "every quadruple of sequences, every admissible parameter vector", "why_tests_cant": "Same as above.", "anchors": ["src/NEMtropy/models_functions.py: loglikelihood_prime_decm", "src/NEMtropy/models_functions.py: loglikelihood_prime_decm_exp", "src/NEMtropy/models_functions.py: expected_decm"]}
{"id": "C05", "title": "CReMa solution reproduces the strengths", "statement": "If the gradient used by the 'crema' solver (undirected or directed; adjacency given by weighted edge triples) vanishes, the expected strengths computed by the library equal the observed strengths.", "quantifier": "every list of weighted edges, every strength sequence, every parameter vector with positive pair sums", "why_tests_cant": "The edge list is arbitrary; tests use a handful of random graphs.", "anchors": ["src/NEMtropy/models_functions.py: loglikelihood_prime_crema_undirected", "src/NEMtropy/models_functions.py: expected_strength_crema_undirected", "src/NEMtropy/models_functions.py: loglikelihood_prime_crema_directed", "src/NEMtropy/models_functions.py: expected_out_strength_crema_directed", "src/NEMtropy/models_functions.py: expected_in_stregth_crema_directed"]}
{"id": "C06", "title": "Gradients are the derivatives of the likelihoods", "statement": "For every model (cm, cm_exp, ecm, ecm_exp, dcm, dcm_exp, decm, decm_exp, crema undirected and directed) each component of loglikelihood_prime_<model>(x, args) is the partial derivative of loglikelihood_<model>(., args) at x, at every admissible x.", "quantifier": "every number of nodes, every args (sequences, multiplicities, edge lists), every admissible x, every component", "why_tests_cant": "Finite-difference tests check a few points to a few digits and cannot see a term that vanishes on the samples (e.g. only wrong when multiplicity > 1).", "anchors": ["src/NEMtropy/models_functions.py: loglikelihood_*", "src/NEMtropy/models_functions.py: loglikelihood_prime_*"]}
{"id": "C07", "title": "Hessians are the Jacobians of the gradients", "statement": "For every model, loglikelihood_hessian_<model>(x, args)[i,j] is the partial derivative with respect to x_j of component i of loglikelihood_prime_<model>. (False in the code for cm and for cm_exp with multiplicities above one: the negation is proved with a witness and the exact validity region is proved.)", "quantifier": "every number of nodes, args and admissible x, every pair of components", "why_tests_cant": "Numerical tests only see sampled points; the code is right exactly on the sampled slice (multiplicity one).", "anchors": ["src/NEMtropy/models_functions.py: loglikelihood_hessian_*"]}
{"id": "C08", "title": "Diagonal Hessians are the diagonals of the Hessians", "statement": "loglikelihood_hessian_diag_<model>(x,args)[i], which the quasi-Newton method divides by, is the second derivative of the likelihood in x_i. (Violations are proved with witnesses: cm_exp when multiplicity>1, decm when an in-strength is zero.)", "quantifier": "every n, args, admissible x, component", "why_tests_cant": "As for the Hessians.", "anchors": ["src/NEMtropy/models_functions.py: loglikelihood_hessian_diag_*"]}
{"id": "C09", "title": "Exponential and plain parametrisations describe the same model", "statement": "For cm, ecm, dcm, decm: the likelihood in the *_exp parametrisation at theta equals the plain likelihood at exp(-theta), hence maximisers correspond through x=exp(-theta), the transformation the solution setter applies.", "quantifier": "every theta, every args", "why_tests_cant": "Floating point tests compare solutions of two solvers on a few graphs only.", "anchors": ["src/NEMtropy/models_functions.py: loglikelihood_cm", "src/NEMtropy/models_functions.py: loglikelihood_cm_exp", "src/NEMtropy/models_functions.py: loglikelihood_dcm", "src/NEMtropy/models_functions.py: loglikelihood_dcm_exp", "src/NEMtropy/models_functions.py: loglikelihood_ecm", "src/NEMtropy/models_functions.py: loglikelihood_ecm_exp", "src/NEMtropy/models_functions.py: loglikelihood_decm", "src/NEMtropy/models_functions.py: loglikelihood_decm_exp", "src/NEMtropy/graph_classes.py: UndirectedGraph._set_solved_problem_cm", "src/NEMtropy/graph_classes.py: DirectedGraph._set_solved_problem_dcm_exp"]}
{"id": "C10", "title": "Degree reduction is lossless", "statement": "Grouping nodes with equal degree (equal (out,in) pair for directed graphs) and solving with multiplicities gives the same likelihood as the full problem at the expanded parameter vector, and the reduced gradient vanishes iff the full gradient vanishes at the expansion.", "quantifier": "every degree sequence and every parameter vector of the reduced problem", "why_tests_cant": "Requires a statement over all partitions of nodes in degree classes.", "anchors": ["src/NEMtropy/graph_classes.py: UndirectedGraph.degree_reduction", "src/NEMtropy/graph_classes.py: DirectedGraph.degree_reduction", "src/NEMtropy/models_functions.py: loglikelihood_cm", "src/NEMtropy/models_functions.py: loglikelihood_dcm"]}
{"id": "C11", "title": "A stationary point is the global optimum", "statement": "The likelihoods cm_exp, dcm_exp and crema (and their reduced forms) are concave functions of the parameters; any zero of the gradient maximises the likelihood globally and all maximisers give the same link probabilities.", "quantifier": "every args, every pair of parameter vectors", "why_tests_cant": "Global optimality quantifies over all parameter vectors.", "anchors": ["src/NEMtropy/models_functions.py: loglikelihood_cm_exp", "src/NEMtropy/models_functions.py: loglikelihood_dcm_exp", "src/NEMtropy/models_functions.py: loglikelihood_crema_undirected", "src/NEMtropy/models_functions.py: loglikelihood_crema_directed"]}
{"id": "C12", "title": "Fixed points of the fixed-point iteration are solutions", "statement": "For every model, a vector with iterative_<model>(x) = x solves the model's equations (its gradient vanishes). (Violated by iterative_decm_exp; witness proved.)", "quantifier": "every args and every admissible x", "why_tests_cant": "Tests run the iteration from a few starting points; whether every fixed point is a solution is universally quantified.", "anchors": ["src/NEMtropy/models_functions.py: iterative_cm", "src/NEMtropy/models_functions.py: iterative_cm_exp", "src/NEMtropy/models_functions.py: iterative_ecm", "src/NEMtropy/models_functions.py: iterative_ecm_exp", "src/NEMtropy/models_functions.py: iterative_dcm", "src/NEMtropy/models_functions.py: iterative_dcm_exp", "src/NEMtropy/models_functions.py: iterative_decm", "src/NEMtropy/models_functions.py: iterative_decm_exp", "src/NEMtropy/models_functions.py: iterative_crema_undirected", "src/NEMtropy/models_functions.py: iterative_crema_directed"]}
{"id": "C13", "title": "The solver only claims convergence on a small residual", "statement": "If the iterative solver with method newton or quasinewton stops before max_steps and not because the step fell below eps, then the 2-norm of the gradient at the returned point is at most tol; consequently the error of the expected constraints is at most tol.", "quantifier": "every objective, gradient, Hessian, line search, regulariser, starting point, tol, eps, max_steps", "why_tests_cant": "Depends on all possible iteration histories.", "anchors": ["src/NEMtropy/solver_functions.py: solver", "src/NEMtropy/graph_classes.py: _solve_problem"]}
{"id": "C14", "title": "Fixed-point convergence means a fixed point", "statement": "If the solver with method fixed-point stops by its tolerance test, the returned point is (within tol) a fixed point of the iteration, i.e. a solution. (False: the test is on the norm of the image, not of the displacement; the negation is proved with a concrete graph on which solve_tool returns the initial guess unchanged with a wrong expected degree.)", "quantifier": "every iteration map and starting point", "why_tests_cant": "Whether a wrong stop can happen depends on the exact coincidence G(x)=0, which random tests do not hit.", "anchors": ["src/NEMtropy/solver_functions.py: solver", "src/NEMtropy/models_functions.py: iterative_cm_exp"]}
{"id": "C15", "title": "The solver performs at most max_steps steps and its trace is complete", "statement": "solver performs at most max_steps iterations for every input; with full_return the residual and step-difference traces have length (steps+1) and the step-size trace has length steps, and the last residual is the one of the returned point.", "quantifier": "every function tuple, starting point and parameters", "why_tests_cant": "All histories of the loop.", "anchors": ["src/NEMtropy/solver_functions.py: solver"]}
{"id": "C16", "title": "Line search returns a legal step", "statement": "For every model the backtracking line search returns a step length in (0,1], obtained from at most 50 halvings; for the positive-parameter models (cm, dcm, ecm, decm) the new point stays positive (at least 1% of the old one); if fewer than 50 halvings of the decrease stage were used, the sufficient decrease condition holds at the returned step.", "quantifier": "every objective, point, direction and gradient; initial step length 1", "why_tests_cant": "The objective is arbitrary; positivity and termination must hold for every direction, including huge ones.", "anchors": ["src/NEMtropy/models_functions.py: linsearch_fun_CM", "src/NEMtropy/models_functions.py: linsearch_fun_CM_exp", "src/NEMtropy/models_functions.py: linsearch_fun_DCM", "src/NEMtropy/models_functions.py: linsearch_fun_DCM_exp", "src/NEMtropy/models_functions.py: linsearch_fun_ECM", "src/NEMtropy/models_functions.py: linsearch_fun_DECM", "src/NEMtropy/models_functions.py: linsearch_fun_crema_undirected", "src/NEMtropy/models_functions.py: linsearch_fun_crema_directed", "src/NEMtropy/solver_functions.py: sufficient_decrease_condition"]}
{"id": "C17", "title": "Regularised Newton steps are descent directions", "statement": "matrix_regulariser applied to a symmetric matrix returns a symmetric positive definite matrix (smallest eigenvalue at least eps), hence the Newton direction computed from it decreases the objective to first order.", "quantifier": "every symmetric matrix, every eps>0, every non-zero gradient", "why_tests_cant": "All symmetric matrices of all sizes.", "anchors": ["src/NEMtropy/solver_functions.py: matrix_regulariser_function", "src/NEMtropy/solver_functions.py: matrix_regulariser_function_eigen_based"]}
{"id": "C18", "title": "Link probability matrices are valid", "statement": "The probability matrices produced for the binary models have all entries in [0,1), zero diagonal, are symmetric in the undirected case, and their row (column) sums are the expected (out/in) degrees.", "quantifier": "every non-negative parameter vector", "why_tests_cant": "All sizes and all parameter values.", "anchors": ["src/NEMtropy/models_functions.py: pmatrix_cm", "src/NEMtropy/models_functions.py: pmatrix_dcm", "src/NEMtropy/models_functions.py: expected_degree_cm", "src/NEMtropy/models_functions.py: expected_out_degree_dcm", "src/NEMtropy/models_functions.py: expected_in_degree_dcm"]}
{"id": "C19", "title": "Samples of the undirected binary ensemble are simple graphs", "statement": "Every file written by ensemble_sampler for cm lists edges i<j, with indices smaller than n, each pair at most once, in lexicographic order, whatever the random numbers.", "quantifier": "every parameter vector, every random stream, every number of workers", "why_tests_cant": "All random streams.", "anchors": ["src/NEMtropy/ensemble_generator.py: ensemble_sampler_cm_graph", "src/NEMtropy/ensemble_generator.py: is_a_link_cm"]}
{"id": "C20", "title": "Samples of the directed binary ensemble are simple digraphs", "statement": "Every file written by ensemble_sampler for dcm lists arcs (i,j) with i!=j, indices smaller than n, each ordered pair at most once.", "quantifier": "every parameter vector, random stream, number of workers", "why_tests_cant": "All random streams.", "anchors": ["src/NEMtropy/ensemble_generator.py: ensemble_sampler_dcm_graph", "src/NEMtropy/ensemble_generator.py: is_a_link_dcm"]}
{"id": "C21", "title": "Samples of the weighted ensembles have valid links and positive weights", "statement": "Samples of ecm/decm (integer weights >=1) and crema (positive real weights) are simple weighted graphs: each pair at most once, no self loops, positive weights; for crema with deterministic topology exactly the given edges appear. (The sparse undirected probabilistic crema sampler violates 'each pair at most once'; witness proved.)", "quantifier": "every parameter vector, random stream, topology", "why_tests_cant": "All random streams and topologies.", "anchors": ["src/NEMtropy/ensemble_generator.py: ensemble_sampler_ecm_graph", "src/NEMtropy/ensemble_generator.py: ensemble_sampler_decm_graph", "src/NEMtropy/ensemble_generator.py: ensemble_sampler_crema_ecm_det_graph", "src/NEMtropy/ensemble_generator.py: ensemble_sampler_crema_ecm_prob_graph", "src/NEMtropy/ensemble_generator.py: ensemble_sampler_crema_sparse_ecm_prob_graph", "src/NEMtropy/ensemble_generator.py: ensemble_sampler_crema_decm_det_graph", "src/NEMtropy/ensemble_generator.py: ensemble_sampler_crema_decm_prob_graph"]}
{"id": "C22", "title": "Sampling is reproducible and independent of the number of workers", "statement": "With a fixed seed, ensemble_sampler writes the same file contents whatever cpu_n is and in whatever order the worker processes execute the per-pair tasks; the n files written are output_dir+'0.txt' ... and file k depends only on seed and k.", "quantifier": "every schedule of workers, every seed, every n", "why_tests_cant": "Schedules cannot be enumerated by tests.", "anchors": ["src/NEMtropy/ensemble_generator.py: ensemble_sampler_cm_graph", "src/NEMtropy/graph_classes.py: UndirectedGraph.ensemble_sampler", "src/NEMtropy/graph_classes.py: DirectedGraph.ensemble_sampler"]}
{"id": "C23", "title": "Ensemble averages match the model", "statement": "Under independent uniform random numbers, each possible link of the sampled graph is present with exactly the model's link probability, so the mean degree over the ensemble equals expected_degree; at a solution it equals the observed degree.", "quantifier": "every parameter vector and n; expectation over all random outcomes", "why_tests_cant": "A test estimates the mean from a finite sample.", "anchors": ["src/NEMtropy/ensemble_generator.py: is_a_link_cm", "src/NEMtropy/ensemble_generator.py: is_a_link_dcm", "src/NEMtropy/models_functions.py: expected_degree_cm", "src/NEMtropy/models_functions.py: expected_out_degree_dcm", "src/NEMtropy/models_functions.py: expected_in_degree_dcm"]}
{"id": "C24", "title": "Sample files can be read back", "statement": "Parsing the lines of a sample file and building the adjacency matrix from the edge list gives back the sampled graph, when every node 0..n-1 has at least one link. (Without that hypothesis the builder indexes out of range or drops nodes; proved.)", "quantifier": "every sampled edge list", "why_tests_cant": "All graphs.", "anchors": ["src/NEMtropy/ensemble_generator.py: ensemble_sampler_cm_graph", "src/NEMtropy/network_functions.py: build_adjacency_from_edgelist", "src/NEMtropy/network_functions.py: build_adjacency_fast"]}
{"id": "C25", "title": "Adjacency from edge list is the graph of the edge list", "statement": "build_adjacency_from_edgelist (dense) returns a 0/1 matrix with entry (i,j) one iff (i,j) is listed (or (j,i), undirected); symmetric when undirected; independent of order and repetition of the edges; weighted variant keeps the last weight written; the sparse variants always raise.", "quantifier": "every edge list whose labels are 0..n-1", "why_tests_cant": "All edge lists.", "anchors": ["src/NEMtropy/network_functions.py: build_adjacency_from_edgelist", "src/NEMtropy/network_functions.py: build_adjacency_fast", "src/NEMtropy/network_functions.py: build_adjacency_sparse", "src/NEMtropy/network_functions.py: build_adjacency_fast_weighted", "src/NEMtropy/network_functions.py: build_adjacency_sparse_weighted"]}
{"id": "C26", "title": "Degree and strength sequences are consistent", "statement": "degree/out_degree/in_degree/strength computed from an adjacency matrix count positive entries / sum entries of rows or columns: for a symmetric matrix in=out, the sum of out-degrees equals the sum of in-degrees, and the degree of a node is at most n (n-1 without self loops).", "quantifier": "every matrix with non-negative entries", "why_tests_cant": "All matrices.", "anchors": ["src/NEMtropy/network_functions.py: degree", "src/NEMtropy/network_functions.py: out_degree", "src/NEMtropy/network_functions.py: in_degree", "src/NEMtropy/network_functions.py: strength", "src/NEMtropy/network_functions.py: out_strength", "src/NEMtropy/network_functions.py: in_strength"]}
{"id": "C27", "title": "Edge list initialisation relabels faithfully", "statement": "From an edge list with arbitrary labels, the library returns degrees = number of incident edge ends per distinct label (in sorted label order), a relabelled edge list with labels 0..n-1 and a dictionary that maps them back exactly; degree sum equals twice the number of edges (directed: out sum = in sum = number of edges).", "quantifier": "every edge list over any ordered labels", "why_tests_cant": "All edge lists.", "anchors": ["src/NEMtropy/network_functions.py: edgelist_from_edgelist_undirected", "src/NEMtropy/network_functions.py: edgelist_from_edgelist_directed"]}
{"id": "C28", "title": "Dyad counts form a census", "statement": "The 2-motif counts of a loop-free 0/1 matrix count mutual ordered pairs, single (unordered) arcs and empty ordered pairs; count_2motif_2 + 2*count_2motif_1 + count_2motif_0 = n(n-1) and count_2motif_2+count_2motif_1 = number of arcs.", "quantifier": "every loop-free directed graph", "why_tests_cant": "All graphs.", "anchors": ["src/NEMtropy/network_functions.py: count_2motif_2", "src/NEMtropy/network_functions.py: count_2motif_1", "src/NEMtropy/network_functions.py: count_2motif_0"]}
{"id": "C29", "title": "Triad counts are induced-subgraph counts", "statement": "count_3motif_m counts the ordered triples of distinct nodes inducing the m-th triad pattern; it is invariant under relabelling of nodes; the 13 patterns are pairwise non isomorphic and every connected induced triad is counted by exactly one m; the sparse implementation agrees with the dense one for up to 257 nodes and (CPython identity comparison) can differ beyond; witness proved.", "quantifier": "every directed graph, every permutation of nodes", "why_tests_cant": "All graphs of all sizes.", "anchors": ["src/NEMtropy/network_functions.py: count_3motif_1 ... count_3motif_13", "src/NEMtropy/network_functions.py: count_3motif_*_ndarray", "src/NEMtropy/network_functions.py: count_3motif_*_sparse"]}
{"id": "C30", "title": "Expected dyad counts and their standard deviation are exact", "statement": "expected_dcm_2motif_m is the exact expectation, and std_dcm_2motif_m squared the exact variance, of count_2motif_m over the DBCM ensemble of independent arcs.", "quantifier": "every parameter vector, n; expectation over all 2^(n(n-1)) graphs", "why_tests_cant": "Monte Carlo tests have sampling error.", "anchors": ["src/NEMtropy/ensemble_functions.py: expected_dcm_2motif_2", "src/NEMtropy/ensemble_functions.py: expected_dcm_2motif_1", "src/NEMtropy/ensemble_functions.py: expected_dcm_2motif_0", "src/NEMtropy/ensemble_functions.py: std_dcm_2motif_2", "src/NEMtropy/ensemble_functions.py: std_dcm_2motif_1", "src/NEMtropy/ensemble_functions.py: std_dcm_2motif_0"]}
{"id": "C31", "title": "Expected triad counts are exact", "statement": "expected_dcm_3motif_m is the exact expectation of count_3motif_m over the DBCM ensemble, for m = 1..13.", "quantifier": "every parameter vector, n, m", "why_tests_cant": "Monte Carlo tests have sampling error.", "anchors": ["src/NEMtropy/ensemble_functions.py: expected_dcm_3motif_1 ... expected_dcm_3motif_13"]}
{"id": "C32", "title": "Triad standard deviations implement the delta method", "statement": "std_dcm_3motif_m squared equals the sum over arcs of p(1-p)(dE/dp)^2, with E the expected count of the same motif, i.e. the first-order error propagation the z-scores are documented to use.", "quantifier": "every parameter vector, n, m", "why_tests_cant": "A wrong term changes the value by little; there is no exact oracle in tests.", "anchors": ["src/NEMtropy/ensemble_functions.py: std_dcm_3motif_1 ... std_dcm_3motif_13", "src/NEMtropy/ensemble_functions.py: zscore_dcm_3motif_*"]}
{"id": "C33", "title": "Sparse and dense CReMa functions agree", "statement": "The CReMa likelihood, gradient, diagonal Hessian, fixed-point map and expected strengths computed from the pair-probability product form (sparse) equal those computed from the explicit edge list of the same probabilities (dense). (iterative_crema_directed_sparse violates this when some parameter is zero; recorded.)", "quantifier": "every fitness vector, strength sequence and parameter vector", "why_tests_cant": "All inputs.", "anchors": ["src/NEMtropy/models_functions.py: *_crema_undirected", "src/NEMtropy/models_functions.py: *_crema_undirected_sparse", "src/NEMtropy/models_functions.py: *_crema_undirected_sparse_2", "src/NEMtropy/models_functions.py: *_crema_directed", "src/NEMtropy/models_functions.py: *_crema_directed_sparse", "src/NEMtropy/models_functions.py: *_crema_directed_sparse_2"]}
{"id": "C34", "title": "Graph object life cycle", "statement": "A graph object is initialised at most once: adjacency/edge list/degree setters print a message and change nothing on an initialised graph; after clean_edges a new topology can be set and the object then describes only the new topology. (The last part is false: strengths and the weighted flag are stale; witness proved.)", "quantifier": "every sequence of constructor, set_* and clean_edges calls", "why_tests_cant": "All call histories.", "anchors": ["src/NEMtropy/graph_classes.py: UndirectedGraph.__init__", "src/NEMtropy/graph_classes.py: UndirectedGraph._initialize_graph", "src/NEMtropy/graph_classes.py: UndirectedGraph.set_adjacency_matrix", "src/NEMtropy/graph_classes.py: UndirectedGraph.set_edgelist", "src/NEMtropy/graph_classes.py: UndirectedGraph.set_degree_sequences", "src/NEMtropy/graph_classes.py: UndirectedGraph.clean_edges"]}
{"id": "C35", "title": "Invalid constructor inputs are rejected", "statement": "Negative degrees, sequences of wrong shape or type raise the documented exceptions (TypeError/ValueError) before any state is used; valid inputs never raise. (Lists are documented as accepted but raise AttributeError; proved.)", "quantifier": "every constructor input in the modelled input space", "why_tests_cant": "All inputs.", "anchors": ["src/NEMtropy/graph_classes.py: UndirectedGraph._initialize_graph", "src/NEMtropy/graph_classes.py: DirectedGraph._initialize_graph"]}
{"id": "C36", "title": "solve_tool accepts exactly the documented model/method pairs", "statement": "solve_tool dispatches every documented (model, method) pair to the likelihood, gradient, Hessian and line search of that model, and any other pair raises an exception, before changing the stored solution.", "quantifier": "every model string and method string", "why_tests_cant": "Strings are infinitely many; the table must be coherent.", "anchors": ["src/NEMtropy/graph_classes.py: UndirectedGraph._initialize_problem", "src/NEMtropy/graph_classes.py: DirectedGraph._initialize_problem", "src/NEMtropy/graph_classes.py: UndirectedGraph.solve_tool", "src/NEMtropy/graph_classes.py: DirectedGraph.solve_tool"]}
{"id": "C37", "title": "Reported error is the worst constraint violation", "statement": "After solve_tool, the error attribute is the maximum absolute difference between expected and observed constraints of the solved model. (Violated after solving crema and then cm on the same object: stale parameters are still checked; witness proved.)", "quantifier": "every sequence of solve_tool calls", "why_tests_cant": "All call histories.", "anchors": ["src/NEMtropy/graph_classes.py: UndirectedGraph._solution_error", "src/NEMtropy/graph_classes.py: DirectedGraph._solution_error"]}
{"id": "C38", "title": "Initial guesses are admissible", "statement": "Every built-in initial guess lies in the domain of the model's likelihood (positive parameters; pair products below one for weighted models), so the first evaluation of the objective is finite, for every non-trivial degree/strength sequence.", "quantifier": "every degree and strength sequence, every guess name", "why_tests_cant": "All sequences, including zeros and extreme values.", "anchors": ["src/NEMtropy/graph_classes.py: UndirectedGraph._set_initial_guess_cm", "src/NEMtropy/graph_classes.py: UndirectedGraph._set_initial_guess_crema_undirected", "src/NEMtropy/graph_classes.py: UndirectedGraph._set_initial_guess_ecm", "src/NEMtropy/graph_classes.py: DirectedGraph._set_initial_guess_dcm", "src/NEMtropy/graph_classes.py: DirectedGraph._set_initial_guess_decm"]}
{"id": "C39", "title": "Random matrix generators produce usable networks", "statement": "The random matrix generators return a matrix with zero diagonal and non-negative entries, symmetric when sym=True, binary (or weighted as requested), and whenever they return every node has at least one link; they return for every number of nodes.", "quantifier": "every random stream, every n and density", "why_tests_cant": "All random streams; the repair loops run an unbounded number of times.", "anchors": ["src/NEMtropy/matrix_generator.py: all ten generators"]}
{"id": "C40", "title": "model_loglikelihood reports the log-likelihood of the solution", "statement": "After solving, model_loglikelihood returns the log-likelihood of the model at the stored solution. (False: it returns the opposite sign, and for dcm_exp/decm_exp it evaluates the theta-likelihood at exp(-theta); witnesses proved.)", "quantifier": "every model and solution", "why_tests_cant": "Sign and argument conventions are never compared with an independent value in tests.", "anchors": ["src/NEMtropy/graph_classes.py: UndirectedGraph.model_loglikelihood", "src/NEMtropy/graph_classes.py: DirectedGraph.model_loglikelihood"]}
{"id": "C41", "title": "Nodes with zero constraint get zero parameters and no links", "statement": "Nodes with degree zero receive parameter 0 (so they never get a link in any sample and contribute nothing to any expectation), and the solution vector of the reduced problem is expanded to every node of the original network.", "quantifier": "every degree sequence", "why_tests_cant": "All degree sequences.", "anchors": ["src/NEMtropy/graph_classes.py: UndirectedGraph._set_solved_problem_cm", "src/NEMtropy/graph_classes.py: DirectedGraph._set_solved_problem_dcm", "src/NEMtropy/models_functions.py: iterative_cm", "src/NEMtropy/ensemble_generator.py: is_a_link_cm"]}
{"id": "C42", "title": "Fixed-point maps preserve the domain", "statement": "For positive parameters (and admissible pair products for weighted models) the fixed-point maps return finite non-negative values, zero exactly for nodes with zero constraint, so the iteration never divides by zero.", "quantifier": "every args and admissible x", "why_tests_cant": "All inputs.", "anchors": ["src/NEMtropy/models_functions.py: iterative_cm", "src/NEMtropy/models_functions.py: iterative_dcm", "src/NEMtropy/models_functions.py: iterative_ecm", "src/NEMtropy/models_functions.py: iterative_decm"]}
{"id": "C43", "title": "z-scores are centred and scale-free", "statement": "The motif z-score is (count - expected)/std, so it vanishes iff the observed count equals the expectation and relabelling nodes of graph and solution consistently does not change it.", "quantifier": "every graph, parameter vector and node permutation", "why_tests_cant": "All permutations.", "anchors": ["src/NEMtropy/ensemble_functions.py: zscore_dcm_2motif_2", "src/NEMtropy/ensemble_functions.py: zscore_dcm_3motif_1", "src/NEMtropy/graph_classes.py: DirectedGraph.zscore_2motifs", "src/NEMtropy/graph_classes.py: DirectedGraph.zscore_3motifs"]}
{"id": "C44", "title": "Parallel sums do not depend on the schedule", "statement": "The functions compiled with parallel loops return, for every order and interleaving in which the worker threads run their iterations, the value the sequential loop returns: no two iterations write the same entry, and no iteration reads an entry another one writes.", "quantifier": "every interleaving of the iterations of the parallel loops, every input", "why_tests_cant": "The number of schedules is exponential and the scheduler is not under the control of a test.", "anchors": ["src/NEMtropy/models_functions.py: loglikelihood_prime_crema_undirected_sparse", "src/NEMtropy/models_functions.py: iterative_crema_directed_sparse"]}
{"id": "C45", "title": "Weighted adjacency matrices are recognised", "statement": "A graph built from an adjacency matrix is flagged as weighted, and its strengths are stored, exactly when some entry is neither 0 nor 1.", "quantifier": "every non-negative square matrix, dense or sparse", "why_tests_cant": "All matrices; the failing ones have weights averaging exactly one.", "anchors": ["src/NEMtropy/graph_classes.py: UndirectedGraph._initialize_graph", "src/NEMtropy/graph_classes.py: DirectedGraph._initialize_graph"]}
{"id": "C46", "title": "solve_tool leaves the caller's initial guess alone", "statement": "An array passed as initial_guess has the same contents after solve_tool as before.", "quantifier": "every model, graph and array", "why_tests_cant": "All graphs and arrays; an aliasing property visible only when some constraint is zero.", "anchors": ["src/NEMtropy/graph_classes.py: UndirectedGraph._set_initial_guess", "src/NEMtropy/graph_classes.py: DirectedGraph._set_initial_guess"]}
{"id": "C47", "title": "Named initial guesses are what the documentation says", "statement": "The starting point that solve_tool builds for a named initial guess is the documented one: 'degrees' and 'strengths' proportional to the observed sequence, 'degrees_minor' and 'strengths_minor' inversely proportional, 'chung_lu' the Chung-Lu formula, 'uniform' one constant in (0,1), 'random' in [0,1); each block of the vector is built from its own sequence.", "quantifier": "every degree and strength sequence, every random stream, every model of both classes", "why_tests_cant": "All sequences; a swapped block or a wrong normalisation still converges on the graphs of the test suite.", "anchors": ["src/NEMtropy/graph_classes.py: UndirectedGraph._set_initial_guess_cm", "src/NEMtropy/graph_classes.py: DirectedGraph._set_initial_guess_dcm", "src/NEMtropy/graph_classes.py: DirectedGraph._set_initial_guess_decm"]}
{"id": "C48", "title": "A seed makes the matrix generators reproducible", "statement": "Two calls of a random matrix generator with the same arguments, including the same seed, return the same matrix, whatever happened before (in particular whatever the state of the global random generators).", "quantifier": "every argument, every seed, every state of the global random generators", "why_tests_cant": "A test sees one state of the global generators; the claim is about all of them.", "anchors": ["src/NEMtropy/matrix_generator.py: seed parameter of all generators", "src/NEMtropy/matrix_generator.py: random_uniform_weighted_matrix_generator_custom_density_sparse"]}
{"id": "C49", "title": "The log-likelihood is the log-probability of the observed network", "statement": "For every network, the value of the log-likelihood function of a model (cm, cm_exp, dcm, dcm_exp, ecm, ecm_exp, decm, decm_exp, crema and directed crema), evaluated on the degrees and strengths of that network, is the logarithm of the probability (for crema: the density of the weights given the links) which the random-graph law of the model gives to that very network; these probabilities sum to 1 over all networks on n nodes, and the expected degrees and strengths which the library computes are the means of the degrees and strengths under this law. After solve_tool with cm or cm_exp, model_loglikelihood returns minus this logarithm.", "quantifier": "every number of nodes, every binary or integer-weighted simple (di)graph, every admissible parameter vector", "why_tests_cant": "The number of graphs grows as 2^(n(n-1)/2) and is infinite for weighted graphs; normalisation and means are sums over all of them.", "anchors": ["src/NEMtropy/models_functions.py: loglikelihood_cm, loglikelihood_cm_exp, loglikelihood_dcm, loglikelihood_dcm_exp, loglikelihood_ecm, loglikelihood_ecm_exp, loglikelihood_decm, loglikelihood_decm_exp, loglikelihood_crema_undirected, loglikelihood_crema_directed, expected_degree_cm, expected_out_degree_dcm, expected_in_degree_dcm, expected_ecm, expected_decm", "src/NEMtropy/graph_classes.py: model_loglikelihood"]}
{"id": "C50", "title": "The fitted law has maximum entropy", "statement": "Where the gradient of the log-likelihood vanishes, the fitted random-graph law (cm, dcm, ecm, decm) has Shannon entropy equal to minus the log-likelihood, every probability law on the networks with n nodes whose mean degrees (and strengths) are the observed ones has at most this entropy, and only the fitted law attains it. After a converged solve_tool run (newton or quasinewton; cm, cm_exp, dcm, dcm_exp, ecm_exp, decm_exp) the entropy of the returned law is within tol times a factor computed from the solution of the entropy of every such law.", "quantifier": "every observed sequence, every stationary parameter vector, every competing probability law, every converged run", "why_tests_cant": "The competing laws form an infinite-dimensional set.", "anchors": ["src/NEMtropy/models_functions.py: loglikelihood_prime_cm, loglikelihood_prime_dcm, loglikelihood_prime_ecm, loglikelihood_prime_decm", "src/NEMtropy/graph_classes.py: solve_tool"]}
{"id": "C51", "title": "The fitted parameters maximise the probability of the observed network", "statement": "Where the gradient of the log-likelihood vanishes, no other non-negative parameters of the model (also parameters that differ between nodes of equal degree, which the reduced solver never visits) give a larger probability to any network with the observed degrees (and strengths), and parameters with the same probability give the same law on all networks.", "quantifier": "every network, every stationary parameter vector, every competing parameter vector", "why_tests_cant": "Global optimality over a continuum of parameters cannot be sampled.", "anchors": ["src/NEMtropy/models_functions.py: loglikelihood_prime_cm, loglikelihood_prime_dcm, loglikelihood_prime_ecm, loglikelihood_prime_decm", "src/NEMtropy/graph_classes.py: solve_tool"]}
{"id": "C52", "title": "From the network to the ensemble", "statement": "Take a graph object made by its constructor and changed by any sequence of setter and clean_edges calls, run solve_tool (cm, cm_exp, ecm_exp, dcm, decm_exp; newton or quasinewton), and sample networks from the solved object. If the run converged, then for every node the expected degree (and strength) and the mean degree (and strength) over the sampled networks equal, up to tol (times the fitness in the non-exponential variants), the degree (strength) the node has in the network that was last put in.", "quantifier": "every network (cm, ecm_exp: no isolated node; decm_exp: no node carrying all the strength), every history of calls on the object, every converged run with line search and any named initial guess, every seed", "why_tests_cant": "It composes construction, history, the iteration and the law of the sampler; each ranges over an unbounded or continuous set.", "anchors": ["src/NEMtropy/graph_classes.py: UndirectedGraph, DirectedGraph, set_adjacency_matrix, set_edgelist, set_degree_sequences, clean_edges, solve_tool, ensemble_sampler", "src/NEMtropy/solver_functions.py: solver", "src/NEMtropy/ensemble_generator.py"]}
{"id": "C53", "title": "An array given as initial guess", "statement": "When initial_guess is an array, the run starts at that point: with max_steps=0 the solved parameters of a node of non-zero degree (strength) are the entries given for it (in the reduced models, for the first node of the same degree), read as fitnesses by cm, ecm, dcm, dcm_exp, decm, decm_exp and crema and as log-parameters by cm_exp and ecm_exp. Feeding the parameters of a converged newton or quasinewton run back as the guess makes no step and returns them, for any method of the first-order condition and any tolerance not smaller; a point that solves the equations of the model exactly is returned unchanged by every method.", "quantifier": "every array, every degree and strength sequence (restart and exact solutions: no zero entry, except dcm), every method, tolerance and option", "why_tests_cant": "Arrays and sequences are unbounded and continuous.", "anchors": ["src/NEMtropy/graph_classes.py: _set_initial_guess_cm, _set_initial_guess_dcm, _set_initial_guess_decm, solve_tool", "src/NEMtropy/solver_functions.py: solver"]}
{"id": "C54", "title": "Reported expectations and errors", "statement": "After a solve_tool call that raises nothing, expected_dseq and expected_strength_seq hold, node by node (out-values followed by in-values for directed graphs), the expected degrees and strengths at the parameters the object now carries, and error_degree, error_strength and relative_error_degree, relative_error_strength are the largest absolute and the largest relative difference between them and the constraints. (crema stores its expected strengths under a misspelt name, so expected_strength_seq stays as it was.)", "quantifier": "every degree and strength sequence, every model, method, guess and option, every earlier state of the object, every result of the iteration, converged or not (relative errors of ecm: no zero constraint; decm: parameters in the domain)", "why_tests_cant": "The report must be true of every point an iteration may stop at.", "anchors": ["src/NEMtropy/graph_classes.py: UndirectedGraph._solution_error, DirectedGraph._solution_error, solve_tool"]}
{"id": "C55", "title": "A sampled network has the probability the model gives it", "statement": "A network written by the ensemble sampler for the cm, dcm, ecm or decm model is any given graph with exactly the probability the maximum-entropy model gives to that graph, the product over pairs of the link (and geometric weight) probabilities at the parameters used. When the sampler is handed the parameters left by solve_tool and the graph has the degrees and strengths the object was given, this probability is exp(-L), where L is the number model_loglikelihood returns (minus the log-likelihood, see C40), so every network with the same constraints is equally likely.", "quantifier": "every graph (or weighted graph with integer weights) on any number of nodes, every parameter vector in the domain, every seed and generator state, for ideal random numbers (uniform, geometric, independent for different seeds) and different seeds drawn for different pairs", "why_tests_cant": "The law is over infinitely many networks and a continuous parameter space; a finite sample can only estimate it.", "anchors": ["src/NEMtropy/ensemble_generator.py: ensemble_sampler_cm_graph, ensemble_sampler_dcm_graph, ensemble_sampler_ecm_graph, ensemble_sampler_decm_graph", "src/NEMtropy/graph_classes.py: ensemble_sampler, model_loglikelihood", "src/NEMtropy/models_functions.py: loglikelihood_cm, loglikelihood_dcm, loglikelihood_ecm, loglikelihood_decm"]}
{"id": "C56", "title": "Node names do not matter", "statement": "Renaming the nodes of a graph renames the solution and changes nothing else: with the sequences (and, for crema, the given matrix; and, when the guess is an array, the guess) permuted, solve_tool on a fresh object raises the same exception or none, leaves the permuted parameters (x, y, beta, b_out, b_in) and the permuted expected degrees and strengths, the same errors, the same iteration traces and the same model_loglikelihood. This holds for cm, cm_exp, dcm and dcm_exp with the named guesses and with an array that gives equal values to nodes of equal degree (for another array it is false, because only the value of the first node of each degree class is read), and for ecm, ecm_exp, decm, decm_exp and crema - undirected and directed, on a given matrix and on the links of the binary model - with every guess except \"random\", which draws by position.", "quantifier": "every degree and strength sequence and loop-free matrix, every permutation of the nodes, every method, guess and option, the same random numbers", "why_tests_cant": "All permutations of all sequences and all iteration histories are involved; a test samples a few.", "anchors": ["src/NEMtropy/graph_classes.py: UndirectedGraph._set_initial_guess_cm, _set_initial_guess_ecm, _set_initial_guess_crema_undirected, _solve_problem, _solve_problem_crema_undirected, DirectedGraph._set_initial_guess_dcm, _set_initial_guess_decm, _set_initial_guess_crema_directed, _solve_problem, _solve_problem_crema_directed, solve_tool, _solution_error", "src/NEMtropy/solver_functions.py: solver", "src/NEMtropy/models_functions.py"]}
{"id": "C57", "title": "More steps never lower the likelihood", "statement": "With the line search on, raising max_steps never makes the answer of 'newton' or 'quasinewton' worse: if the same solve_tool call is made with a larger max_steps (on any earlier state of the object), the log-likelihood of the network under the returned parameters is at least as large, and strictly larger if more steps were taken. The recorded step lengths must show that no line search gave up after its 50 halvings (each entry of alfa_seq above 2^-50).", "quantifier": "every network, every named guess (every guess for cm_exp and dcm_exp), both methods, every pair max_steps <= max_steps', every tolerance, every earlier state of the object, for cm, cm_exp, ecm, ecm_exp, crema, dcm, dcm_exp, decm, decm_exp and directed crema", "why_tests_cant": "The claim is about every prefix of every iteration history from every start; a test sees one trajectory.", "anchors": ["src/NEMtropy/solver_functions.py: solver, sufficient_decrease_condition", "src/NEMtropy/models_functions.py: linsearch_fun_*, loglikelihood_*", "src/NEMtropy/graph_classes.py: solve_tool"]}
{"id": "C58", "title": "A solve_tool call forgets the past", "statement": "What an earlier call left on the object does not reach the result of a later one: the same solve_tool call made on two objects with the same network but different histories fails in the solver in the same way or not at all, treats the caller's initial guess alike and, when neither raises, leaves the same parameters, expected values, errors per constraint, log-likelihood and trace. Two exceptions, both shown to be real: rates left over by crema (or decm) enter the exception and the overall 'error' of a later cm/cm_exp/dcm/dcm_exp call, and crema on top of the binary problem 'ecm'/'decm' raises AttributeError on a new object but goes on with the link probabilities of another model on an object that has solved cm/dcm before.", "quantifier": "every network, every pair of earlier object states (hence every pair of call histories), every model, method, guess, adjacency argument and option, both graph classes", "why_tests_cant": "The claim ranges over all pairs of histories of an object with some thirty attributes; a test fixes two.", "anchors": ["src/NEMtropy/graph_classes.py: solve_tool, _solve_problem, _solve_problem_crema_undirected, _solve_problem_crema_directed, _solution_error, _set_solved_problem_*"]}
{"id": "C59", "title": "Parameters order the nodes as the degrees do", "statement": "If solve_tool raises nothing and reports a degree error below one half, the fitted fitnesses of cm and cm_exp order the nodes exactly as their degrees do (larger degree, larger x; equal degrees, equal x), so a node of larger degree is linked to any other node with at least the same probability. For dcm and dcm_exp a node with larger out- and in-degree has larger x and larger y, a larger out-degree alone gives a larger x or a smaller y, and equal degree pairs give equal parameters. For ecm and ecm_exp a degree or strength larger by more than twice the reported error gives a larger x or a larger y.", "quantifier": "every network, every earlier state of the object, every method, guess and option, every pair of nodes", "why_tests_cant": "It is a statement about every approximate solution of every network, including ones where the solver stopped early.", "anchors": ["src/NEMtropy/graph_classes.py: solve_tool, _set_solved_problem_cm, _set_solved_problem_dcm, _set_solved_problem_ecm, _solution_error", "src/NEMtropy/models_functions.py: expected_degree_cm, expected_out_degree_dcm, expected_in_degree_dcm, expected_ecm"]}
{"id": "C60", "title": "A node linked to all the others, or a full core with a periphery, is never fitted exactly", "statement": "If some node has degree n-1 (for dcm: out-degree or in-degree n-1), or more generally if a group S of nodes is linked to every node outside a group T whose nodes are linked to S only (a fully linked core with a periphery), every solve_tool call on cm, cm_exp, dcm or dcm_exp that raises nothing reports a degree error strictly above zero, for every tolerance and number of steps: the solution of the model lies at infinity.", "quantifier": "every network with such nodes, every earlier state of the object, every method, guess and option", "why_tests_cant": "A test sees one finite run; the claim excludes an exact answer for all runs, tolerances and starts.", "anchors": ["src/NEMtropy/graph_classes.py: solve_tool, _solution_error", "src/NEMtropy/models_functions.py: expected_degree_cm, expected_out_degree_dcm, expected_in_degree_dcm"]}
{"id": "C61", "title": "Two good answers describe the same ensemble", "statement": "The fitted ensemble does not depend on how it was found: for any two solve_tool calls on the same network that raise nothing (other method, guess, options, history of the object, or the plain instead of the exponential variant of the model), the link probabilities differ in the mean square by at most the sum of the two reported errors times the distance between the log-parameters; if both report zero error, the link probabilities (and for the weighted models the expected weights, for crema the rates on all links) are equal.", "quantifier": "every network, every pair of calls of cm/cm_exp, dcm/dcm_exp, ecm/ecm_exp, decm/decm_exp or crema on the same given matrix, every method, guess, option and earlier state", "why_tests_cant": "It compares all pairs of runs from all starting points on all networks; parameters themselves need not be unique.", "anchors": ["src/NEMtropy/graph_classes.py: solve_tool, _solution_error", "src/NEMtropy/models_functions.py: expected_*", "src/NEMtropy/models_functions.py: loglikelihood_prime_*"]}
{"id": "C62", "title": "Given enough steps the exponential binary models always converge", "statement": "For every undirected network (more generally every degree sequence some ensemble attains) and every accepted initial guess there is a number of steps T such that solve_tool with cm_exp, method newton or quasinewton and line search raises nothing and takes at most T steps whatever max_steps, eps and the earlier state are; and if max_steps exceeds T and eps is small enough, every expected degree is within tol of the given degree. The same for out- and in-degrees with dcm_exp.", "quantifier": "every network or attainable degree sequence, every accepted guess, every tol in the range stated, every max_steps, eps, regularisation option and earlier state of the object", "why_tests_cant": "Convergence from every starting point on every network, including networks whose likelihood has no maximum; a test sees one run of one network.", "anchors": ["src/NEMtropy/solver_functions.py: solver", "src/NEMtropy/models_functions.py: loglikelihood_cm_exp, loglikelihood_dcm_exp, loglikelihood_prime_*_exp, loglikelihood_hessian_*_exp, linsearch_fun_CM_exp, linsearch_fun_DCM_exp", "src/NEMtropy/graph_classes.py: solve_tool"]}
{"id": "C63", "title": "The fixed-point method never moves away from a solution", "statement": "Run solve_tool with method fixed-point on cm, dcm, cm_exp or dcm_exp, with or without line search. If after m steps every fitness is within a factor R of its value in some exact solution of the model, then it is within R of it for every larger number of steps; in particular the result is never further from any exact solution than the initial guess. (cm_exp and dcm_exp: every node has links; dcm: the network has a link. Near a solution no denominator of the recipe vanishes.)", "quantifier": "every network, every exact solution, every factor R, every guess, every pair of step numbers, every tol, eps, line-search option and earlier state of the object", "why_tests_cant": "An invariant of all runs of all lengths against all solutions; a test compares one final point with one known solution.", "anchors": ["src/NEMtropy/models_functions.py: iterative_cm, iterative_cm_exp, iterative_dcm, iterative_dcm_exp, linsearch_fun_CM_fixed, linsearch_fun_DCM_fixed, linsearch_fun_CM_exp_fixed, linsearch_fun_DCM_exp_fixed", "src/NEMtropy/solver_functions.py: solver", "src/NEMtropy/graph_classes.py: solve_tool"]}
{"id": "C64", "title": "The fixed-point method of cm and dcm converges", "statement": "If the network has a link and the model has an exact solution, then for every accuracy there are a number of steps T and a threshold such that solve_tool with cm or dcm, method fixed-point and no line search, from any documented guess or any array positive on the linked nodes, with max_steps at least T and tol and eps below the threshold, raises nothing and returns fitnesses whose expected degrees meet the observed ones up to that relative accuracy.", "quantifier": "every network with an exact solution, every documented or positive guess, every accuracy, every max_steps >= T, every tol and eps below the threshold, every earlier state without rates", "why_tests_cant": "Convergence from every starting point on every solvable network; a test sees finitely many runs.", "anchors": ["src/NEMtropy/models_functions.py: iterative_cm, iterative_dcm", "src/NEMtropy/solver_functions.py: solver", "src/NEMtropy/graph_classes.py: solve_tool, _set_initial_guess_*"]}
{"id": "C65", "title": "The fixed-point method of cm_exp and dcm_exp converges", "statement": "The same as C64 for cm_exp and dcm_exp on networks in which every node has links, from every accepted guess.", "quantifier": "every such network with an exact solution, every accepted guess, every accuracy, every max_steps >= T, every small tol and eps", "why_tests_cant": "As C64; moreover the runs that stop at a wrong point form a thin set of guesses that random tests do not hit.", "anchors": ["src/NEMtropy/models_functions.py: iterative_cm_exp, iterative_dcm_exp", "src/NEMtropy/solver_functions.py: solver", "src/NEMtropy/graph_classes.py: solve_tool"]}
{"id": "C66", "title": "Which networks the binary models fit exactly, and convergence on all of them", "statement": "Degrees have an exact solution of the UBCM (DBCM) if and only if they are the means of some ensemble in which every link that the degrees allow is possible but not certain; in particular whenever any two nodes with links can be linked and unlinked by other networks with the same degrees, and never when a node is linked to all other nodes with links. On every network of the former kind solve_tool(model='cm' or 'dcm', method='fixed-point', linsearch=False) reaches any prescribed accuracy from every positive guess once max_steps is large and tol, eps are small enough.", "quantifier": "every undirected and directed degree sequence of a network of any size, every positive guess, every accuracy", "why_tests_cant": "Existence of a solution and convergence to it are claims about all degree sequences and about limits; a failed run in a test does not tell whether a solution exists.", "anchors": ["src/NEMtropy/models_functions.py: iterative_cm, iterative_dcm, loglikelihood_prime_cm, loglikelihood_prime_dcm", "src/NEMtropy/graph_classes.py: UndirectedGraph.solve_tool, DirectedGraph.solve_tool"]}
{"id": "C67", "title": "The fixed-point method of crema never fails and never gets worse", "statement": "Given a matrix of links (or link probabilities) in which nodes without strength have no links, solve_tool with crema and method fixed-point, from any documented guess or any array that is positive at the nodes with strength, with or without line search and with any tolerances, raises nothing; the rates it returns are non-negative and give every link a finite mean weight; and a call with more steps never returns rates of lower likelihood.", "quantifier": "every undirected or directed network of every size, every such matrix, every such guess, every choice of linsearch, tol, eps, every pair max_steps <= max_steps', every earlier state of the graph object", "why_tests_cant": "The method has no safeguard in the code: that its step is a minorise-maximise step is a fact about all networks and all rates, not visible in runs.", "anchors": ["src/NEMtropy/models_functions.py: iterative_crema_undirected, iterative_crema_directed, loglikelihood_crema_undirected, loglikelihood_crema_directed", "src/NEMtropy/solver_functions.py: solver", "src/NEMtropy/graph_classes.py: UndirectedGraph.solve_tool, DirectedGraph.solve_tool"]}
{"id": "C68", "title": "Every weighted network can be fitted exactly by crema on its own links", "statement": "For every weighted network, given its own adjacency matrix, there are rates with finite mean weights that reproduce all strengths exactly, and solve_tool with crema handed these rates as initial guess returns them with a zero error, whatever the method. (True of newton and quasinewton; false of fixed-point, whose rates stay non-negative: on a triangle of weights 10, 10, 1 it misses a strength by more than 1 in every run.)", "quantifier": "every undirected or directed weighted network of every size, every matrix with the same links, every method, every tol >= 0, every number of steps", "why_tests_cant": "Existence of a solution for all networks is not observable by running the solver, and neither is the impossibility of fitting one of them by any run.", "anchors": ["src/NEMtropy/models_functions.py: loglikelihood_prime_crema_undirected, loglikelihood_prime_crema_directed, iterative_crema_undirected, iterative_crema_directed", "src/NEMtropy/graph_classes.py: UndirectedGraph.solve_tool, DirectedGraph.solve_tool"]}
{"id": "C69", "title": "The fixed-point method of crema converges", "statement": "If every node with strength has a link in the given matrix, then for every accuracy there are a number of steps T and a threshold such that solve_tool with crema, method fixed-point and no line search, with max_steps at least T and tol and eps below the threshold, returns rates whose likelihood is within that accuracy of the largest likelihood non-negative rates can have; and if some positive rates reproduce the strengths, the expected strengths of the result meet the observed ones up to that relative accuracy.", "quantifier": "every undirected or directed network, every matrix of links, every documented or positive guess, every accuracy, every max_steps >= T, every tol and eps below the threshold, every earlier state", "why_tests_cant": "Convergence from every starting point on every network; a test sees finitely many runs.", "anchors": ["src/NEMtropy/models_functions.py: iterative_crema_undirected, iterative_crema_directed", "src/NEMtropy/solver_functions.py: solver", "src/NEMtropy/graph_classes.py: solve_tool, _set_initial_guess_crema_undirected, _set_initial_guess_crema_directed"]}
{"id": "C70", "title": "Networks sampled after crema have exponential weights and reproduce the strengths on average", "statement": "With ideal random numbers, a network sampled after crema lists a pair of link probability p with a weight above t with probability p exp(-(b_i+b_j) t) (p = 1 on a given topology), all pairs independently of each other as long as the drawn task seeds differ, and the mean strength of every node over the samples is the expected strength of the model; hence after solve_tool has returned, it differs from the observed strength by at most the reported error_strength.", "quantifier": "every network, every fitted parameters in the domain of the model, every topology, every seed argument, every generator state, every number of workers and schedule, every pair, every weight threshold", "why_tests_cant": "A statement about probabilities and means; a test sees finitely many samples of finitely many networks.", "anchors": ["src/NEMtropy/ensemble_generator.py: ensemble_sampler_crema_ecm_det_graph, ensemble_sampler_crema_ecm_prob_graph, ensemble_sampler_crema_sparse_ecm_prob_graph, ensemble_sampler_crema_decm_det_graph, ensemble_sampler_crema_decm_prob_graph, ensemble_sampler_crema_sparse_decm_prob_graph", "src/NEMtropy/ensemble_generator.py: is_a_link_crema_ecm_det, is_a_link_crema_ecm_prob, is_a_link_crema_sparse_ecm_prob, is_a_link_crema_decm_det, is_a_link_crema_decm_prob, is_a_link_crema_sparse_decm_prob", "src/NEMtropy/graph_classes.py: solve_tool, ensemble_sampler, _solve_problem_crema_undirected, _solve_problem_crema_directed"]}
{"id": "C71", "title": "Which weighted networks the enhanced models fit exactly", "statement": "The degrees and strengths of a network have an exact solution in the enhanced model (ecm, ecm_exp, decm, decm_exp) if and only if they are the means of some ensemble of weighted networks in which every link between two nodes of non-zero degree is possible, not certain, and not always of weight one. In particular an exact solution exists whenever any two such nodes can be linked with weight two or more, and can be not linked, without changing degrees and strengths; and none exists when a node has only links of weight one or is linked to every other node. On the networks that have a solution there are parameters which every call of solve_tool with ecm (decm: newton and quasinewton, and fixed-point when b_out_i b_in_i < 1) returns unchanged with both reported errors zero; on the others no call returns admissible parameters with both reported errors zero.", "quantifier": "every number of nodes, every degrees and strengths (undirected and directed), every method, option, guess and earlier state of the object", "why_tests_cant": "Existence and non-existence of real solutions for every degree and strength sequence; a test can neither enumerate networks nor conclude from a failed search that no solution exists.", "anchors": ["src/NEMtropy/models_functions.py: iterative_ecm, expected_ecm, iterative_decm, expected_decm", "src/NEMtropy/graph_classes.py: solve_tool, _solution_error, _set_initial_guess_ecm, _set_initial_guess_decm", "src/NEMtropy/solver_functions.py: solver"]}
{"id": "C72", "title": "Newton and quasinewton of crema converge to the strengths", "statement": "On the links of a weighted network (or on any matrix of link probabilities for which rates exist that reproduce the strengths exactly) the newton and the quasinewton method of crema, called with line search, always succeed, never lower the likelihood of the starting rates, and return rates for which every link has a finite mean weight; and for every tolerance there are a number of steps and a threshold for eps beyond which every call returns rates whose mean strengths are within the tolerance of the given strengths. This includes networks whose strengths the fixed-point method cannot reach.", "quantifier": "every network of at most 100000 nodes whose total strength is at most 10^400 times its smallest weight (undirected and directed) and both named guesses 'strengths' and 'strengths_minor'; every matrix of link probabilities, every positive initial guess and every exact solution with a log-likelihood at most 10^13 times the smallest probability above that of the guess; every tolerance, option and earlier state of the object", "why_tests_cant": "A global convergence statement about an iteration over the reals for every network and tolerance; a test runs one network for finitely many steps and cannot distinguish slow convergence from stalling.", "anchors": ["src/NEMtropy/solver_functions.py: solver, sufficient_decrease_condition, matrix_regulariser_function", "src/NEMtropy/models_functions.py: loglikelihood_prime_crema_undirected, loglikelihood_hessian_crema_undirected, loglikelihood_hessian_diag_crema_undirected, linsearch_fun_crema_undirected, loglikelihood_prime_crema_directed, loglikelihood_hessian_crema_directed, linsearch_fun_crema_directed", "src/NEMtropy/graph_classes.py: solve_tool, _set_initial_guess_crema_undirected, _set_initial_guess_crema_directed"]}
{"id": "C73", "title": "Reversing every arc exchanges the two sides of the answer", "statement": "On a directed network, exchanging the two degree sequences and the two strength sequences (transposing the matrix given to crema, exchanging the halves of an array guess) changes nothing in what solve_tool does except that the outgoing and incoming parameters are exchanged (x with y, b_out with b_in), and so are the two halves of the expected sequences: same exception or success, same errors, same number of steps and iteration traces, same model_loglikelihood. In particular a network whose incoming and outgoing sequences agree gets equal outgoing and incoming parameters from decm and decm_exp. This fails for the fixed-point method of decm_exp, whose incoming update uses the wrong parameter.", "quantifier": "every pair of degree sequences with equal totals and every pair of strength sequences, every matrix, the models dcm, dcm_exp, decm, decm_exp and crema (on a given matrix and on the links of dcm or dcm_exp), every method, every guess but the random one (for dcm, dcm_exp arrays: constant on degree classes), every option", "why_tests_cant": "A relation between two whole runs of an iteration for every network; one asymmetric index in one branch of one callback breaks it only on inputs that reach this branch with unequal sides.", "anchors": ["src/NEMtropy/graph_classes.py: DirectedGraph.solve_tool, _set_initial_guess_dcm, _set_initial_guess_decm, _set_initial_guess_crema_directed, _solve_problem, _solve_problem_crema_directed, _solution_error", "src/NEMtropy/solver_functions.py: solver", "src/NEMtropy/models_functions.py: iterative_decm_exp, loglikelihood_prime_dcm, loglikelihood_prime_decm, loglikelihood_hessian_decm, loglikelihood_hessian_crema_directed"]}
{"id": "C74", "title": "verbose=True only prints, and prints what happened", "statement": "Calling the solver (and so solve_tool) with verbose=True returns the same point and the same sequences, or raises the same exception, as with verbose=False. What a successful verbose call prints is what it did: the printed residual norms are the norm sequence of full_return, the printed differences its difference sequence, the printed alphas the step lengths (1 without line search), the steps are numbered from 1, the final count is the number of steps, newton and quasinewton print one value of the objective per step, the last one at the point returned; and for newton every printed 'new mim eig' is positive for cm, cm_exp, ecm, dcm, dcm_exp and decm. The first sentence fails for the solver called directly with newton and regularise=False, which raises UnboundLocalError after the first step.", "quantifier": "every set of functions handed to the solver, every method, option, tolerance, step bound and initial point", "why_tests_cant": "The printing code runs inside every iteration of every history; a test compares a few runs.", "anchors": ["src/NEMtropy/solver_functions.py: solver", "src/NEMtropy/graph_classes.py: UndirectedGraph._solve_problem, DirectedGraph._solve_problem"]}
{"id": "C75", "title": "A symmetric directed network is fitted as the undirected one", "statement": "If a network is given once as an undirected graph and once as a directed graph with every link in both directions, the undirected and the directed model describe the same ensemble: for any two solve_tool calls that raise nothing (any method, guess, option, history, plain or exponential variant), the link probabilities of cm and dcm, and of ecm and decm, differ in the mean square by at most the sum of the reported errors times the distance of the log-parameters, and the rates of the links of undirected and directed crema likewise; if the errors vanish, link probabilities, expected weights and rates are equal.", "quantifier": "every degree and strength sequence, every symmetric matrix without self-loops, every pair of successful calls whose parameters lie in the domain of the model (same zero pattern; for ecm no zero degrees or strengths)", "why_tests_cant": "Relates the results of two different code paths (two classes, two sets of callbacks) for every network and every pair of iteration histories.", "anchors": ["src/NEMtropy/graph_classes.py: UndirectedGraph.solve_tool, DirectedGraph.solve_tool, _solution_error", "src/NEMtropy/models_functions.py: expected_degree_cm, expected_out_degree_dcm, expected_in_degree_dcm, expected_ecm, expected_decm, expected_strength_crema_undirected, expected_out_strength_crema_directed"]}
{"id": "C76", "title": "The unit of the weights does not matter to CReMa", "statement": "If all strengths of a network are multiplied by u > 0 (the weights are measured in another unit), crema on a given matrix fits the same ensemble in the other unit. Fixed point: with guess and tolerances (which are rates) divided by u, or the guess \"strengths\", both calls succeed and run step for step alike - same number of steps and step lengths, rates divided by u, expected strengths and error_strength multiplied by u. Any method, guess and option: for two calls that raise nothing, the rates of the links, brought to one unit, differ by at most the two reported errors times the distance of the parameters, and agree if both errors vanish.", "quantifier": "every u > 0, network, matrix, guess, option set and history of the objects; in the step-for-step part a node with links has non-zero strength and eps is not between 1 and u", "why_tests_cant": "Compares two complete runs of an iterative solver for every network, unit and starting point.", "anchors": ["src/NEMtropy/graph_classes.py: UndirectedGraph.solve_tool, DirectedGraph.solve_tool, _set_initial_guess_crema_undirected, _set_initial_guess_crema_directed", "src/NEMtropy/models_functions.py: iterative_crema_undirected, iterative_crema_directed, expected_strength_crema_undirected", "src/NEMtropy/solver_functions.py: solver"]}
{"id": "C77", "title": "Isolated nodes do not matter to the fixed-point method", "statement": "Solving cm or dcm by the fixed-point method on a network and on the same network with further nodes without links, from the same named guess (not \"random\") or from arrays that agree on the common nodes, raises the same exception or none; if none, both runs take the same steps with the same norms, the common nodes get the same x (and y) and the same expected degrees, the isolated nodes get parameter 0 and expected degree 0, and both reported degree errors are equal.", "quantifier": "every degree sequence, every set of added isolated nodes and their positions, every guess other than \"random\" and every option set; freshly created objects; cm and dcm (it is false of cm_exp/dcm_exp, whose runs get stuck on isolated nodes, see C78)", "why_tests_cant": "Compares two complete runs of an iterative solver on networks of different size, for every network and starting point.", "anchors": ["src/NEMtropy/graph_classes.py: UndirectedGraph.solve_tool, DirectedGraph.solve_tool, _set_initial_guess_cm, _set_initial_guess_dcm", "src/NEMtropy/models_functions.py: iterative_cm, iterative_dcm, linsearch_fun_CM_fixed, linsearch_fun_DCM_fixed", "src/NEMtropy/solver_functions.py: solver"]}
{"id": "C78", "title": "Exponential fixed point on networks with zero degrees", "statement": "Solving cm_exp or dcm_exp by the fixed-point method when every degree is positive never produces an infinite or undefined value. When some degree is 0: the nodes without (outgoing, incoming) links get fitness exactly 0 and all others a positive finite fitness; but the reported norm is infinite and the call uses exactly max_steps steps whatever the tolerances (eps < 1); with the line search on, every step of cm_exp after the first multiplies the fitness of each node by (observed / expected degree)^(2^-50), so that the answer never approaches the solution, and every step length of dcm_exp after the first is at most 1/2.", "quantifier": "every degree sequence (dcm_exp: every node has a possible partner in both directions), every guess, every max_steps >= 1, every tol and every eps < 1, line search on or off; arithmetic with inf and nan, without rounding", "why_tests_cant": "Claims about every number of steps and every network with an isolated node, and about the absence of infinite values in every other run.", "anchors": ["src/NEMtropy/solver_functions.py: solver", "src/NEMtropy/models_functions.py: iterative_cm_exp, linsearch_fun_CM_exp_fixed, iterative_dcm_exp, linsearch_fun_DCM_exp_fixed", "src/NEMtropy/graph_classes.py: UndirectedGraph.solve_tool, DirectedGraph.solve_tool"]}
{"id": "C79", "title": "Solving never divides by zero", "statement": "solve_tool with cm, dcm, ecm, decm or crema (undirected and directed) never ends with ZeroDivisionError: no gradient, Hessian, fixed-point map or expectation evaluated during a run divides a number by 0, whatever nodes without links or without weight the network has.", "quantifier": "every degree and strength sequence, every method, every documented initial guess and every positive array, every option set (line search on for dcm), every adjacency given to crema; scalar division by 0 raises as in numba's default error model", "why_tests_cant": "Ranges over every point visited by every run on every network; the exception appears only for particular combinations of zero degrees or strengths, links and methods.", "anchors": ["src/NEMtropy/models_functions.py: loglikelihood_prime_cm, loglikelihood_hessian_cm, loglikelihood_hessian_diag_cm, iterative_cm, expected_degree_cm, loglikelihood_prime_ecm, loglikelihood_hessian_ecm, loglikelihood_hessian_diag_ecm, iterative_ecm, expected_ecm, loglikelihood_prime_dcm, loglikelihood_hessian_dcm, loglikelihood_hessian_diag_dcm, iterative_dcm, loglikelihood_prime_decm, loglikelihood_hessian_decm, loglikelihood_hessian_diag_decm, iterative_decm, expected_decm, loglikelihood_prime_crema_undirected, loglikelihood_hessian_crema_undirected, loglikelihood_hessian_diag_crema_undirected, iterative_crema_undirected, loglikelihood_prime_crema_directed, iterative_crema_directed", "src/NEMtropy/solver_functions.py: solver", "src/NEMtropy/graph_classes.py: UndirectedGraph.solve_tool, DirectedGraph.solve_tool, _set_initial_guess_cm, _set_initial_guess_ecm, _set_initial_guess_dcm, _set_initial_guess_crema_undirected"]}
{"id": "C80", "title": "ensemble_sampler draws from the model solved last", "statement": "Once solve_tool has returned normally, ensemble_sampler on the same object writes files whose k-th one holds a network drawn, with the k-th seed, by the one-network sampler of the model that call solved, at the parameters that call stored; neither depends on any earlier call on the object (for a binary or enhanced model, what parsing file k gives has exactly the probability law of that model). A solve_tool call that raises does not change what ensemble_sampler draws.", "quantifier": "every object history, every model (cm, ecm, crema, crema-sparse with a named or a given adjacency, and the directed counterparts), method, guess and option set, every number of files, directory, seed, generator state and schedule", "why_tests_cant": "Ranges over all histories of solve_tool calls, successful or not, before the sampling call and over all seeds and schedules.", "anchors": ["src/NEMtropy/graph_classes.py: UndirectedGraph.solve_tool, UndirectedGraph.ensemble_sampler, DirectedGraph.solve_tool, DirectedGraph.ensemble_sampler, _set_solved_problem", "src/NEMtropy/ensemble_generator.py: ensemble_sampler_cm_graph, ensemble_sampler_ecm_graph, ensemble_sampler_crema_ecm_prob_graph, ensemble_sampler_crema_ecm_det_graph, ensemble_sampler_crema_sparse_ecm_prob_graph, ensemble_sampler_dcm_graph, ensemble_sampler_decm_graph, ensemble_sampler_crema_decm_prob_graph, ensemble_sampler_crema_decm_det_graph, ensemble_sampler_crema_sparse_decm_prob_graph"]}
{"id": "C81", "title": "A run is never ended by an undefined number", "statement": "The parameters solve_tool stores are the result of the chosen method: the function value at the initial guess and at every later point is a number, so that the run goes on until the tolerance, the step size or max_steps is reached. In particular the norm that is reported is a number, and the initial guess is not returned because the function is undefined there.", "quantifier": "crema-sparse on undirected networks with every method, guess, number of steps and strength sequence; dcm with the fixed-point method on the degrees of every network, every positive guess and option set", "why_tests_cant": "A nan in the norm raises no exception: the loop condition is false and the call returns normally. Whether it can occur has to be decided for every degree and strength sequence and every point of every run.", "anchors": ["src/NEMtropy/solver_functions.py: solver", "src/NEMtropy/models_functions.py: loglikelihood_prime_crema_undirected_sparse, iterative_crema_undirected_sparse, linsearch_fun_crema_undirected_fixed, iterative_dcm, linsearch_fun_DCM_fixed", "src/NEMtropy/graph_classes.py: UndirectedGraph.solve_tool, DirectedGraph.solve_tool"]}
{"id": "C82", "title": "CReMa with the name of a model is that model followed by CReMa on its link probabilities", "statement": "solve_tool('crema', adjacency=m, method_adjacency=..., initial_guess_adjacency=...) gives the same result as calling solve_tool(m, method=..., initial_guess=...) first and then solve_tool('crema', adjacency=P) with P the matrix of the link probabilities of model m at the parameters found: the same rates, expected strengths and exceptions, the degrees of the first call, the larger of the two errors; crema-sparse goes on with the parameters of the first call. A failure of the first problem is the failure of the call; a name that is no model raises ValueError and leaves the parameters alone.", "quantifier": "all networks, both classes, all model names, methods, guesses, options, draws, and all earlier histories of the three objects", "why_tests_cant": "The two ways of calling share code but pass different attributes and options on; equality has to hold for all inputs and histories.", "anchors": ["src/NEMtropy/graph_classes.py: UndirectedGraph._solve_problem_crema_undirected", "src/NEMtropy/graph_classes.py: DirectedGraph._solve_problem_crema_directed", "src/NEMtropy/graph_classes.py: UndirectedGraph.solve_tool", "src/NEMtropy/graph_classes.py: DirectedGraph.solve_tool"]}
{"id": "C83", "title": "A run stopped by max_steps can be continued", "statement": "With newton or quasinewton, or with any method and linsearch=False, a solve_tool call of m steps that was not ended by eps, followed by a second call (on any object with the same network) of at most k steps whose initial_guess is the array of the parameters returned by the first, is the same as one call of at most m + k steps: the same numerical failure or none, the same parameters, the step counts add up, and the recorded norms, differences and step lengths of the long run are those of the first run followed by those of the second. (For cm_exp and ecm_exp the array is minus the logarithm of the parameters. The fixed-point method with the line search is excluded: it compares each step with the one before, and a concrete case where the continued run ends elsewhere is proved.)", "quantifier": "all networks in which no constraint is zero, all ten models (crema on every given matrix), both classes, all guesses, tolerances, step limits m and k, eps < 1, all histories of the second object", "why_tests_cant": "The claim is an equality of two whole executions for every number of steps and every network; a test compares a few runs up to rounding.", "anchors": ["src/NEMtropy/solver_functions.py: solver", "src/NEMtropy/graph_classes.py: UndirectedGraph.solve_tool", "src/NEMtropy/graph_classes.py: DirectedGraph.solve_tool", "src/NEMtropy/graph_classes.py: UndirectedGraph._set_initial_guess", "src/NEMtropy/models_functions.py: linsearch_fun_crema_undirected_fixed"]}
{"id": "C84", "title": "Asking for more accuracy only adds steps", "statement": "Two solve_tool calls that differ only in tol, eps and max_steps, the second with a smaller or equal tol and eps and a larger or equal max_steps (the objects may have different pasts): the second call makes exactly the steps of the first and then perhaps more, so its recorded norms, differences and step lengths begin with those of the first; if it makes no further step it returns the same parameters; and a numerical failure of the first call is a failure of the second with the same error.", "quantifier": "all networks, both classes, all ten models (crema on every given matrix), all three methods with and without line search, all guesses, all pairs of tolerances and step limits, all draws", "why_tests_cant": "The claim compares whole executions for every pair of tolerances and every network.", "anchors": ["src/NEMtropy/solver_functions.py: solver", "src/NEMtropy/graph_classes.py: UndirectedGraph.solve_tool", "src/NEMtropy/graph_classes.py: DirectedGraph.solve_tool"]}
