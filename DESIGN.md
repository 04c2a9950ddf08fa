# Formal model of NEMtropy in Lean 4

Everything is under `lean/Verif/`:

* `Base.lean`, `Calc.lean` – the loop and array vocabulary used to transcribe the numba code
  (`for i in arange(n)`, `f[i] += v`, ...), the lemmas that turn loops into sums, calculus helpers.
* `Model/*.lean` – the model, function by function, each definition citing the file and
  lines of `/repo/src/NEMtropy` it transcribes.
* `Spec/*.lean` – small specifications written without looking at the loops
  (link probabilities, independent-arc ensembles, triad patterns, ...).
* `Lemmas/*.lean` – helper lemmas.
* `Props/*.lean` – the property theorems (named `C01_…`, `C02_…`), each with an `example`
  that its hypotheses are met by a concrete non trivial case.
* `Witness/*.lean` – every property theorem that has hypotheses, instantiated at a concrete network (a ring of five nodes, a directed
  triangle, paths, …), so that each hypothesis is proved for it; `Witness/Data` holds the fixtures

| source | model | specification | property theorems |
|--------|-------|---------------|-------------------|
| `models_functions.py` cm, ecm, dcm, decm, crema (likelihoods, gradients, Hessians, fixed-point maps, expectations) | `Model/{CM,ECM,DCM,DECM,CReMa,Exp2}` | `Spec/Domain`, `Spec/Solve`, `Spec/SolveD` | `Props/{CM,ECM,DCM,DECM,CReMa,DCReMa,Concave,Exp2}` |
| `models_functions.py` line searches, `solver_functions.py` | `Model/Solver` | `Spec/LineSearch`, `Spec/Matrix` | `Props/{Solver,LineSearch,Regulariser}` |
| `models_functions.py` parallel loops | `Model/Parallel` | in the statements | `Props/Parallel` |
| `graph_classes.py` construction, setters, `clean_edges` | `Model/Graph` | `Spec/Graph` | `Props/{Graph,GraphIndex,GraphSparse,GraphWeighted}` |
| `graph_classes.py` `solve_tool`, guesses, setters of solutions, errors, `model_loglikelihood` (undirected) | `Model/SolveU`, `Model/Reduction` | `Spec/Solve`, `Spec/Guess` | `Props/SolveU`, `SolveU2`–`SolveU6`, `Guess`, `Runs`, `Runs2` |
| the same, directed | `Model/SolveD` | `Spec/SolveD` | `Props/SolveD`, `SolveD2`–`SolveD6`, `Guess`, `Runs`, `Runs2`, `SparseGiven`, `SparseGiven2` (crema-sparse on a given matrix, both classes) |
| likelihoods as log-probabilities, entropy, maximum likelihood (C49–C51) | the models above | `Spec/Likelihood` | `Props/Likelihood`, `Likelihood2`, `MaxEntropy`, `MaxEntropy2`, `MaxEntropy3`, `MaxLikelihood`; concrete networks in `LawExamples` |
| arrays as guesses (C53) | `Model/SolveU`, `Model/SolveD` | `Spec/Guess` | `Props/Guess2` |
| renaming nodes (C56) | `Model/SolveU`, `Model/SolveD` | (statement only; `Guess.rename`, `RenamedAnswer`) | `Lemmas/Relabel`, `Props/Relabel`, `Relabel2` (ecm), `Relabel3` (crema), `Relabel4` (decm), `Relabel5` (directed crema) |
| curvature, progress of a run (C17, C57) | `Model/CM`, …, `Model/SolveU`, `Model/SolveD` | `Spec/Matrix`, `Spec/Likelihood` | `Props/Psd`, `Props/Monotone` |
| independence of the history (C58) | `Model/SolveU`, `Model/SolveD` | – | `Props/Memory` |
| order of the parameters, unreachable degrees (C59, C60) | `Model/SolveU`, `Model/SolveD` | `Spec/Solve`, `Spec/SolveD`, `Spec/Reports` | `Props/Order` |
| uniqueness and stability of the answer (C61) | `Model/SolveU`, `Model/SolveD` | `Spec/Solve`, `Spec/SolveD`, `Spec/Reports` | `Props/Agree` |
| convergence (C62) | `Model/SolveU`, `Model/SolveD`, `Model/Solver` | `Spec/Converge`, `Spec/Solve`, `Spec/SolveD` | `Lemmas/Converge`, `Props/Converge` |
| fixed-point runs (C63–C65) | `Model/SolveU`, `Model/SolveD`, `Model/Solver` | `Spec/FixedPoint`, `Spec/Solve`, `Spec/SolveD` | `Lemmas/FixedPoint`, `Lemmas/FixedRun`, `Lemmas/FixedModels`, `Props/FixedPoint` |
| existence of exact solutions (C66) | `Model/SolveU`, `Model/SolveD` | `Spec/Existence`, `Spec/FixedPoint` | `Lemmas/Existence`, `Props/Existence` |
| fixed-point method of crema (C67–C69) | `Model/SolveU`, `Model/SolveD`, `Model/CReMa` | `Spec/CremaFixed`, `Spec/Solve`, `Spec/SolveD` | `Lemmas/EM*`, `Props/CremaFixed` |
| law of samples after crema (C70) | `Model/Sampler`, `Model/SolveU`, `Model/SolveD` | `Spec/CremaLaw`, `Spec/SamplerLaw`, `Spec/Solve` | `Lemmas/CremaLaw`, `Props/CremaLaw`, `Props/CremaLaw2` |
| existence of exact solutions of the enhanced models (C71) | `Model/SolveU`, `Model/SolveD` | `Spec/ExistenceW`, `Spec/Reports` | `Lemmas/Existence2`, `Props/ExistenceW`, `Props/ExistenceW2` |
| newton and quasinewton of crema converge (C72) | `Model/SolveU`, `Model/SolveD`, `Model/Solver` | `Spec/CremaFixed` | `Lemmas/Barrier`, `Props/CremaNewton` |
| reversing every arc (C73) | `Model/SolveD` | (statement only; `ReversedData`, `ReversedAnswer`, `DGuess.reverse`) | `Props/Reverse1` (decm), `Reverse2` (crema), `Reverse3` (dcm), `Reverse4` (crema on binary links) |
| verbose output (C74) | `Model/Verbose` | `Spec/Verbose` | `Props/Verbose` |
| undirected against directed models (C75) | `Model/SolveU`, `Model/SolveD` | `Spec/Solve`, `Spec/SolveD`, `Spec/Likelihood` | `Props/Symmetric` |
| units of the weights (C76) | `Model/SolveU`, `Model/SolveD`, `Model/Solver` | `Spec/Solve`, `Spec/SolveD` | `Lemmas/Units`, `Props/Units` |
| isolated nodes (C77) | `Model/SolveU`, `Model/SolveD`, `Model/Solver` | `Padded` in `Props/Isolated`, `Spec/Solve` | `Lemmas/Isolated`, `Props/Isolated`, `Props/Isolated2` |
| empty sides of weighted networks (C41, C16, C13) | `Model/SolveD`, `Model/SolveU`, `Model/Solver`, `Model/DECM` | `Spec/SolveD`, `Spec/Solve`, `Spec/Likelihood` | `Props/ZeroNodes` (the Hessian splits at the empty sides, and so does its regularisation) |
| divisions by zero (C79) | `Model/Checked`, `Model/Checked2`, `Model/Checked3` (decm) | the statements themselves, `Spec/Solve`, `Spec/SolveD` | `Lemmas/Checked`, `Lemmas/Checked2`, `Props/Checked`, `Props/Checked2`, `Props/Checked3`, `Lemmas/Checked3`, `Props/Checked4`, `Props/Checked5` |
| sampling after solving (C80) | `Model/SamplerAttr`, `Model/Sampler`, `Model/SolveU`, `Model/SolveD` | `Spec/SampleAfter`, `Spec/Sampler` | `Props/SampleAfter`, `Props/SampleAfterD`, `Props/SampleAfterLaw`, `Props/SampleAfterCrema`, `Props/SampleAfter2` |
| undefined numbers (C81) | `Model/Float2`, `Model/Float`, `Model/Solver` | `DStar`, `Placeable` and the statements themselves in `Props/Float2` | `Lemmas/Float`, `Props/Float2` |
| two calls in one (C82) | `Model/SolveU`, `Model/SolveD` | `linkMatrix`, `linkMatrixD`, `linkUECM`, `strCReMa` | `Props/TwoCalls`, `Props/TwoCalls2`, `Props/TwoCalls3` |
| reported expectations and errors (C54) | `Model/SolveU`, `Model/SolveD` | `Spec/Reports` | `Props/Reports`, `Props/Reports2` |
| stopped runs continued (C83) | `Model/Solver`, `Model/SolveU`, `Model/SolveD` | `Follows`, `Trace.NotStuck`, `Forgets` (in `Props/Continue`) | `Props/Continue`, `Props/Continue2` |
| stricter calls (C84) | `Model/Solver`, `Model/SolveU`, `Model/SolveD` | `Trace.StartOf` (in `Props/Stricter`) | `Props/Stricter` |
| the whole pipeline (C52) | the models above | `Spec/EndToEnd` | `Props/EndToEnd` |
| `ensemble_generator.py`, `ensemble_sampler` | `Model/Sampler` | `Spec/Sampler`, `Spec/SamplerLaw`, `Spec/NetworkLaw` | `Props/{Sampler,SamplerLaw,SamplerLaw2}` |
| `network_functions.py` edge lists, degrees | `Model/Network` | `Spec/Network` | `Props/Network` |
| `network_functions.py` motifs | `Model/Motif` | `Spec/Motif` | `Props/Motif` |
| `ensemble_functions.py`, `graph_classes.py` z-scores | `Model/Ensemble` | `Spec/Ensemble` | `Props/Ensemble` |
| `matrix_generator.py` | `Model/Matgen` | `Spec/Matgen` | `Props/{Matgen,Matgen2}` |

## Trusted base

* Lean's kernel, and the axioms `propext`, `Classical.choice`, `Quot.sound` (Mathlib's usual
  ones).  No axiom of our own; no compiled-code tactics.
* Our reading of the Python code.  Nothing links the text of `/repo` to the model mechanically.
* **Floats are real numbers.**  Rounding, overflow, `nan`/`inf` are not modelled; where the
  code tests `if fx:` or divides by something that can be zero, the model branches exactly where the
  code branches, and theorems carry the hypothesis that the divisor is not zero (or treat the
  inf/nan case explicitly, as in the line searches).
* **Arrays** are functions `Fin n → ℝ`.  A parameter vector of length `2n` (`4n`) that the code
  slices (`x = sol[:n]; y = sol[n:]`) is given as its two (four) blocks.
* **numba `prange`** loops are modelled in `Model/CReMa` as loops over an arbitrary order of their range, and in
  `Model/Parallel` as concurrent programs whose reads and writes interleave arbitrarily (sequential consistency); C44
  connects the two. The one racy loop is in `iterative_crema_directed_sparse`.
* **Random numbers**: `np.random`'s generators are parameters (a function from seed to the numbers
  drawn); theorems quantify over all of them.  For the distribution statements (C23, C30, C31) the arcs
  are independent with the acceptance probability `P(u < p) = p` of a uniform `u ∈ [0,1)`.
* **multiprocessing.Pool.starmap** is modelled by its documented contract (results in task order), over
  an arbitrary schedule of the workers.
* numpy/scipy/networkx functions (`np.unique`, `np.linalg.solve`, `np.linalg.eigvalsh`,
  `nx.…`) are modelled by their documented contract.

Not modelled: `bicm` (bipartite) re-exports, plotting, printing (except the lines of `solver`, C74), time measurements, IO errors, `nan`/`inf` arithmetic except in the
objective of the line searches, in `iterative_dcm_exp_2` and in the fixed-point runs of cm_exp and dcm_exp (C78), of dcm and of the undirected crema-sparse (C81), reads out of bounds
of `crema-sparse` on a given matrix with a single link (the model raises there, see `solveCremaTail` and `solveDCremaTail`), attributes half-assigned when an array of the wrong length is passed as guess.
Each model file states its further simplifications at the top and each definition beside it.

Points where real arithmetic hides a float effect: `exp(-1000)` is positive in the model and underflows to 0 in the code (C41, dcm_exp);
`x/0` is 0 in the real model while numba raises `ZeroDivisionError` for scalars and gives inf/nan for arrays. C79 has the same functions with checked divisions and says
exactly where they raise and when a checked run is the run of the real model; the theorems on newton/quasinewton runs of cm and ecm say nothing about the code on networks
with isolated nodes, those on crema nothing about links between nodes without strength. The fixed-point map of dcm divides arrays: where the only possible partners
of a node have fitness 0 (an in-star, an out-star) the code has 0/0 = nan and the model 0, and so have the functions of the undirected crema-sparse at a parameter 0
(any node of strength 0): C81 has both with special values; the theorems on crema-sparse runs say nothing about the code when a strength is 0;
the fixed-point maps of cm_exp, dcm_exp and ecm_exp at a zero degree or strength give `-log 0` (infinity in the code, 0 in the real model): the real model of these
runs is faithful exactly when no degree (strength) is 0, which C78 proves for cm_exp and dcm_exp by comparing it with a model that has the special values
(`Model/Float`); theorems on the fixed-point method of these three models say nothing about the code on networks with zero degrees.

numba: `cond is False` on booleans is compiled as a comparison of values (as the line searches assume); with the default error model a division of scalars by 0 raises
`ZeroDivisionError`, a division of arrays gives inf or nan; inside `prange` loops numba uses numpy's error model, where scalars behave like array entries.

`MANIFEST.json` is generated by `tools/mkmanifest.py` from the theorem names and `tools/notes.json`. A property is marked *partial* if
a case is missing **or if the unchanged code violates it** – then the negation is proved with a witness, together with the strongest
restriction that holds. `seeded/LOG.jsonl` records the mutation tests of the theorems.

## Per-property plan

| id | what is modelled | how it is proved |
|----|------------------|------------------|
| C01 | `loglikelihood_prime_cm(_exp)`, `expected_degree_cm`, degree reduction | algebra: gradient = c·(k−⟨k⟩)/x; sum over classes regrouped with the class map |
| C02 | the dcm / dcm_exp analogues | same |
| C03 | ecm / ecm_exp gradient, `expected_ecm` | same |
| C04 | decm / decm_exp gradient, `expected_decm` | same |
| C05 | crema gradients over edge lists, expected strengths | induction-free: loops to sums over the edge list |
| C06 | all likelihoods and gradients | `HasDerivAt` along every coordinate, Mathlib calculus |
| C07 | all Hessians | `HasDerivAt` of gradient components; negation with witness for cm, cm_exp |
| C08 | all diagonal Hessians | second derivative; negations for cm_exp, decm |
| C09 | both parametrisations | substitution x = exp(−θ) |
| C10 | `degree_reduction` (`np.unique` contract) + likelihoods | regrouping of sums by fibres |
| C11 | exp likelihoods, crema likelihoods | concavity: composition of log-sum-exp / −log with affine maps |
| C12 | `iterative_*` | algebra; negation for decm_exp |
| C13–C15 | `solver` as a fuel-free loop on `max_steps` | induction on steps, all callbacks arbitrary |
| C16 | `linsearch_*`, `sufficient_decrease_condition` | induction over the back-tracking loop |
| C17 | `matrix_regulariser_function*` (eigenvalues by Mathlib's spectral theorem) | spectral theorem |
| C18 | `pmatrix_*`, `expected_*` | algebra |
| C19–C22 | `ensemble_sampler_*`, `is_a_link_*`, class method `ensemble_sampler` | lists of pairs, permutation of task executions |
| C23 | sampler + product measure on finite outcome space | linearity of expectation |
| C24–C27 | `network_functions` builders, degrees, edge lists | list induction |
| C28–C29 | `count_2motif_*`, `count_3motif_*` dense and sparse | loops to sums over triples, bijections |
| C30–C32 | `expected_dcm_*`, `std_dcm_*` | independence in the product ensemble; `HasDerivAt` in the arc probability |
| C33 | crema sparse/dense | sums over pairs vs. sums over the list of pairs |
| C34–C37, C40 | graph classes as a state machine | induction over call sequences; witnesses for violations |
| C38 | initial guesses | inequalities |
| C39 | `matrix_generator` dense | loop invariants (partial correctness) |
| C41–C42 | setters, samplers, iterative maps | algebra |
| C43 | z-scores | algebra, permutation invariance |
| C44 | `prange` loops as sets of atomic reads/writes, arbitrary interleaving | commutation of disjoint writes; witness for the racy function |
| C45 | constructor branch on adjacency matrices | sums over entries; witness |
| C46 | `_set_initial_guess*` with the caller's array as a memory cell | case analysis; witnesses |
| C47 | `_set_initial_guess*`, named guesses | case analysis; witnesses |
| C48 | `matrix_generator` with the state of numpy's global generator explicit | equality of results; witness |
| C49 | likelihood functions and expected values of all models; the laws on graphs are specified in `Spec/Likelihood` without reference to the code | the product over pairs is turned into the sum of the code; Fubini over independent pairs for total mass and means |
| C50 | the same, gradients, `solve_tool` | Gibbs' inequality with the log-linear form of the law (relative entropy ≥ 0, = 0 iff equal); converged runs via C13, C16 |
| C51 | the same | Gibbs' inequality with a competing member of the family |
| C52 | constructor + history + `solve_tool` + sampler | composition of C34, C13, C16, C23 |
| C53 | guesses given as arrays: `guessCM`, `guessECM`, `guessDCM`, `guessDECM`, crema | zero-step run of `solver`; restart from the exit condition; fixed point of the callbacks |
| C54 | `_solution_error` and the attributes it writes | unfold the successful run, expected values by C06-style lemmas, maxima by `norm(ord=inf)` |
| C55 | the edge list of one sample as a random variable; ideal independent random numbers (as in C23); different seeds for different pairs is a hypothesis because a collision of seeds correlates two pairs (C23) | the event "lists the network A" is an intersection over pairs of independent events; product law; product of link laws = `probUBCM` etc.; `exp(-loglikelihood)` by C49 |
| C56 | two objects whose sequences differ by a permutation of the nodes; the full `solve_tool` model for cm, cm_exp, dcm, dcm_exp | the reduction to classes gives the same distinct values and counts (`np.unique` does not see the order), hence the same reduced problem, guess and iteration; only `inv` is composed with the permutation. ecm, decm, crema are not reduced: every callback (gradient, Hessian, regulariser, line search, fixed point map) commutes with the renaming of the entries (closed forms), so the runs are renamings of each other step by step (`Renamed`, `solver_rename`) |
| C57 | two full `solve_tool` calls that differ in `max_steps` (and in the earlier state of the object), all ten dense models | the shorter run is a prefix of the longer one; every accepted step satisfies the decrease test because the direction is a descent direction (C17 with positive semidefinite curvature for the exp and crema models) and the step length is legal (C16); induction over the extra steps |
| C58 | `solve_tool` of both classes on two arbitrary attribute states of the same network | every attribute the solver and the report read has been written by the same call before; case analysis over the dispatch and the report |
| C59 | full `solve_tool` calls and their reports | expected degrees are monotone in the parameters (rows compared by swapping two nodes) and within `error` of integers |
| C60 | full `solve_tool` calls and their reports | a sum of n-1 probabilities below one is below n-1; with core and periphery, the difference of two degree sums is maximal and only attained with probabilities one |
| C61 | two full `solve_tool` calls and their reports | the symmetrised relative entropy of the two fitted laws is the scalar product of parameter and constraint differences; it bounds the squared differences of the link probabilities pair by pair (logistic function, relative entropy of coins) |
| C62 | the full `solve_tool` call, with the line search and the regulariser of the solver loop | the likelihood has a global curvature bound, so the backtracking line search accepts a step bounded below after a bounded number of halvings (fewer than its fifty); each step with residual above `tol` gains a fixed amount, and an attainable sequence bounds the likelihood above, so only boundedly many such steps exist; then the exit tests of the loop are analysed |
| C63 | the full `solve_tool` calls with method fixed-point, with both settings of the line search | in the coordinates of the nodes one step of the recipe keeps the ratios to a solution between the same bounds (the denominators are monotone in the ratios), a damped step is a convex combination (of logarithms in the exponential models), so the bounds are an invariant of the loop; a longer run is the continuation of a shorter one |
| C64 | the same calls without line search | the recipe strictly narrows the spread of the ratios in boundedly many steps unless they are all equal (the extremal ratio would have to spread along all pairs; an exact solution with integer degrees links every node to two others); compactness of the band turns this into uniform convergence; the stopping rules are harmless for small `tol` and `eps` |
| C65 | the same calls for the exponential variants | the statement fails: the tolerance test looks at the norm of the next iterate, which may vanish far from the solution (hexagon from θ = log 2, all `tol ≥ 0`); with `tol < 0` the argument of C64 applies |
| C66 | exact solutions of the two binary models (`Spec/FixedPoint`) and the calls of C64 | the log-likelihood of an interior ensemble is continuous and coercive once the gauge coordinate is fixed, so it has a minimum, where its derivative is the degree equation; averaging over all networks with the degrees gives an interior ensemble; then C64 |
| C67 | calls of crema with method fixed-point on a given matrix, undirected and directed (a directed network is an undirected one between out-nodes and in-nodes) | the recipe β ↦ β·(expected)/(observed) maximises a minorant of the log-likelihood that touches it at β (concavity of log on each link), and the likelihood is concave, so shortened steps do not lower it either; positivity is kept |
| C68 | exact rates of crema (`strCReMa`, `outStrCReMa`, `inStrCReMa`) and calls that start there | the log-likelihood on the sums β_i + β_j of the links attains its maximum on the compact set of non-negative link sums of fixed total weight (the product of powers vanishes on its boundary), and its maximum solves the strength equations; the two witnesses violate the triangle inequality that non-negative rates impose on the reciprocal mean weights |
| C69 | calls of C67 without line search | the divergence Σ s_i (b_i log(b_i/β_i) − b_i + β_i) to a best vector b decreases at every step by at least the gap in likelihood, so the gap after k steps is at most D₀/k; early stops have small steps, which bound the gap too; the gap bounds the relative strength errors where b is positive |
| C70 | the crema samplers with the generator replaced by ideal uniform and exponential variables, one pair per task seed | the edge list is a filterMap over candidates and seeds; law of one pair from the joint law of the variates, joint law from independence over distinct seeds, means by linearity; the observed strengths by composing with C54; violated by undirected crema-sparse (every pair twice) and by given matrices of probabilities (proved) |
| C71 | exact solutions of the two enhanced models and the calls of `solve_tool` | the log-likelihood of an interior weighted ensemble is coercive on the open domain of link and weight multipliers (its barrier is the weight term), so it has a minimum, where its derivative is the pair of constraint equations; averaging over chosen networks gives an interior ensemble; summing the strict inequalities over a row rules out unit weights and hubs; calls via C53 (a solution is kept) and C54 (reported errors) |
| C72 | the calls of `solve_tool` with crema, newton or quasinewton, line search on, a given matrix | the likelihood is a sum of `p log y - w y` over links: along the regularised direction the step `alfa = min(1, c)` is accepted with `c` bounded below on the level set of the start, because the second-order term is controlled by the Hessian (self-concordance); so each step gains at least a fixed multiple of the squared gradient, the gain is bounded by the gap to the exact solution, and 50 halvings suffice when the gap is at most 1e13 times the smallest probability; the gap of the named guesses on a network's own links is bounded link by link |
| C73 | two directed objects whose sequences are exchanged; the full `solve_tool_directed` model | the exchange of blocks is a permutation of the entries of the parameter vector: every callback (gradient, Hessian, regulariser, line search, fixed-point map) commutes with it (closed forms), so `solver_rename` applies with that permutation; dcm and dcm_exp are reduced to classes of (out, in) degrees, whose sorted order changes: the classes correspond by a bijection. decm_exp by fixed point is refuted on two nodes joined by two arcs |
| C74 | `solver(verbose=True)` transcribed a second time with the lines it prints (`Model/Verbose`) | induction over the loop: each verbose pass ends as the silent pass and appends one block of lines whose numbers are those of the new state; newton without regularisation is refuted (`new_ml` unassigned) |
| C75 | a call of `solve_tool` on an undirected object and one of `solve_tool_directed` on the directed object of the same network | the undirected law is the directed law with both sides equal; strict monotonicity of the expected constraints in the log-parameters (the argument of C61) bounds the distance of the two answers by their reported errors (C54) |
| C76 | two calls of `solve_tool` with "crema" on a given matrix, strengths multiplied by `u` in the second | fixed point: simulation of the solver loop (every vector of the state is multiplied by 1/u, every test is invariant); all methods: strict monotonicity of the expected strengths in the rates (as C75) |
| C77 | two calls of `solve_tool` with "cm"/"dcm" and "fixed-point", the second network with more nodes, all of degree 0 | simulation of the solver loop: every vector of the larger run is the smaller one extended by 0 (`Lemmas/Isolated`); the degree classes of the smaller network embed into those of the larger one |
| C78 | the fixed-point branch of `solver` and the maps and line searches of cm_exp and dcm_exp with `inf` and `nan` as values | invariant of the loop: after the first step exactly the zero-degree parameters are infinite; equality with the real model when no degree is 0 |
| C79 | the functions of cm, ecm, dcm, decm and crema and the solver with checked divisions (`ZeroDivisionError` as a value) | each checked function equals its model guarded by an explicit condition on the point; the condition is an invariant of the loop, or fails at the guess because guesses are masked |
| C80 | `solve_tool` followed by `ensemble_sampler` reading the attributes that call left | which attributes each branch of `solve_tool` writes when it returns (with C58), then C48/C55/C70 for the sampler (the law of the file contents); counterexamples after raising calls |
| C81 | dcm fixed-point and undirected crema-sparse with `inf` and `nan` as values (division of arrays); for crema-sparse the pass of the loop is a parameter in the refutation | value at the masked guess is `nan`, so the loop is not entered; otherwise positivity is an invariant under which the run is the one of the real model |
| C82 | `solve_tool` of both classes, three objects with arbitrary pasts | the inner problem does not see the past (C58 lemmas), the second half is the same function of `adjacency_crema`; the report is computed in both cases; refutations at `max_steps=0` and by counting `alfa_seq` |
| C83 | `solver` and `solve_tool` of both classes | `loop` of m + k passes is `loop` of m and then of k; simulation between the state reached and the initial state of the second run (they differ in counters, traces, `diff` and `dx_old`, which newton, quasinewton and runs without line search do not look at); guesses as arrays are read back to the same point (C53 lemmas); a computed run on two nodes for the excluded case |
| C84 | `solver` and `solve_tool` of both classes | induction on the number of passes: the condition of the stricter loop holds wherever that of the other does, so it passes through the final state of the other; after that every pass only appends to the traces |

## Findings

Disagreements between the code and what its documentation or purpose says, met while modelling. Each is proved of the model unless marked (read).

Likelihoods and derivatives
1. `loglikelihood_hessian_cm`: off-diagonal entries right only if `x_i = x_j`; diagonal of cm and cm_exp right only for multiplicity 0 or 1;
   `loglikelihood_hessian_diag_cm_exp` never right (C07, C08).
2. `loglikelihood_hessian_diag_dcm` lacks the multiplicity; `loglikelihood_hessian_diag_decm` has the wrong sign when an in-strength is zero (C08).
3. The undirected crema Hessians are wrong if the adjacency has self-loops (C07).
4. `iterative_decm_exp` uses out-block indices in the in-block: its fixed points are not solutions (C12). `iterative_decm_exp_2` (unused) moves every exact
   solution in every strength component; `iterative_dcm_exp_2` (unused) is right where the degree is positive and `nan` elsewhere (C12).
   `expected_out_degree_dcm_exp` (unused) never reads the in-parameters (C09).
5. `iterative_crema_directed_sparse` writes `yd[j]` and reads `yd[index]`: wrong result and a data race (C33, C44).
6. The sparse crema fixed point targets `s + exp(-100)`; the directed sparse diagonal Hessian is off by at most `exp(-100)·Σ p/rate⁴` (C36, C33).

Solver
7. With "fixed-point" the stopping test is on the norm of the image, not of the displacement: networks exist on which the initial guess is returned (C14).
8. Line search: step 0 for cm if some `x_i = 0`; leaves the domain for dcm there; endless loop for ecm/decm outside the domain; after 50 halvings
   ecm/decm accept an unchecked point (C16). The "identity" regulariser does not make an indefinite matrix positive definite (C17).
   `eps ≥ 1` returns the guess untouched (C15). newton with `verbose=True` and `regularise=False` raises UnboundLocalError after the first step (C74).

Graph classes
9. `model_loglikelihood` returns minus the log-likelihood, for dcm_exp/decm_exp of the wrong argument; for directed crema with `full_return` it fails (C40).
10. Weighted detection compares the sum of the entries with the number of positive entries: real weights averaging 1 are missed (C45).
11. Lists (documented) raise AttributeError; directed sequences of different lengths are accepted (C35).
12. `clean_edges` keeps strengths and the weighted flag; directed weighted edge lists do not set the flag, so directed crema fails on them (C34, C36).
13. After crema, solving cm/dcm reports the error of the stale rates; after decm, solving dcm always raises (C37).
    crema on top of "ecm"/"decm" raises AttributeError on a new object, but after cm/dcm it silently uses the link probabilities of that other model (C58).
14. `solve_tool` overwrites the caller's initial guess for ecm, decm, crema (C46).
15. Unknown models are silently ignored; unknown methods with ecm overwrite x, y before raising; `("crema", "sparse-newton")` is also the key of crema-sparse with
    newton; crema-sparse with newton fails unless a matrix is given; on a given matrix crema-sparse takes the node numbers of the list of links for fitnesses: it raises
    unless there are as many links as nodes, and otherwise (newton, quasinewton) the residual never falls below the strength of the first node; directed crema's documented default adjacency raises (C36).
16. "degrees_minor" is proportional, not inversely proportional; "chung_lu" lacks the square root; crema "strengths" is constant (C47).
17. Guesses outside the domain: cm at isolated nodes, ecm_exp with two zero strengths, crema with two zero strengths, decm with a single link (C38).
    cm_exp with newton/quasinewton gives isolated nodes a positive fitness (C41).
    With "fixed-point" a single degree 0 gives cm_exp and dcm_exp an infinite parameter: the norm is infinite, no tolerance is ever met and all `max_steps` steps are
    used; with the line search (the default) every step of cm_exp after the first has length 2^-50, so that the run never gets anywhere, and those of dcm_exp at
    most 1/2 (C78).
    Guesses are set to 0 at nodes without degree or strength and numba raises ZeroDivisionError when scalars are divided by 0: cm with newton/quasinewton
    always fails on a network with an isolated node, ecm with newton/quasinewton on one with a zero degree or strength, crema when a link joins two nodes of strength 0
    (fixed-point: one), which the default adjacency "cm_exp" always produces on networks with two such nodes, decm with every method from the guess "strengths"
    when all the weight is on one link (C79).
    Arrays are read as log-parameters by cm_exp and ecm_exp but as fitnesses by dcm_exp and decm_exp; started at an exact solution of decm with
    `b_out_i b_in_i ≥ 1` the fixed-point method never returns (C53).
    A `solve_tool` call that raises has already changed `last_model` and, for crema, the parameters: `ensemble_sampler` then mixes the new model's sampler with the old
    model's fitnesses, or draws networks at the initial guess (C80).
    `nan` ends the loop of `solver` silently: crema-sparse (undirected) returns its initial guess as the solution, after 0 steps, on every network with a node of
    strength 0, and so does dcm with fixed-point on in-stars and out-stars (C81).
    crema stores its expected strengths as `expected_stregth_seq`; `expected_strength_seq` stays unset or stale (C54).
    crema-sparse with `adjacency="ecm"` (directed: "decm") uses the cm (dcm) probabilities of the fitnesses of that model; directed crema does not pass `linsearch=False` on to its binary problem; a name that is
    no model becomes `last_model` before ValueError is raised (C82).
    A stopped fixed-point run with the line search cannot be continued: the search compares with the previous step, which the next call has forgotten (C83).

Networks, motifs, samples
18. `build_adjacency_sparse*` always raise; `build_adjacency_fast` needs labels 0..n-1 (C25). 
19. Sparse triad counts compare indices with `is not`: wrong beyond index 256 (C29). Dyad counts mix ordered and unordered pairs and are wrong with self-loops (C28).
20. The sparse probabilistic undirected crema sampler draws each pair twice (C21); after crema-sparse on a given matrix the sampler writes nothing (C22, C80).
21. Per-pair seeds are drawn from 10^6 values: for 1415 or more nodes some pairs share a seed and are dependent (C23). `ensemble_sampler(seed=None)` reseeds from
    the OS although the documentation says 42 (read).
22. The ecm sampler raises ValueError where `y_i y_j ≥ 1` (C21). Isolated nodes are lost when a sample is read back (C24).
23. Matrix generators: one node loops for ever; gaussian weights may be negative or vanish; sparse generators may return one isolated node and ignore the
    seed for the weights; networkx with uniform weights may lose links (C39, C48).

Checked and found right: all ten gradients, Hessians of ecm, dcm, decm and directed crema, the 13 expected triad counts and their standard deviations,
dyad expectations and variances, edge-list relabelling, dispatch of solve_tool, degree reduction, sampler reproducibility and laws.
