{"id": "C01", "title": "Vectorisation is invertible", "statement": "unvectorize_matrix(vectorize_matrix(m), m.shape) returns m, and vectorize_matrix(unvectorize_matrix(v, shape)) returns v whenever v has rows*cols entries; any other length is rejected with an error instead of returning a wrong matrix.", "quantifier": "every matrix of every shape (including empty ones), every vector, every target shape", "why_tests_cant": "There are infinitely many sizes and values; a test fixes a handful of them.", "anchors": ["src/models/matrix_operations.py:vectorize_matrix", "src/models/matrix_operations.py:unvectorize_matrix"]}
{"id": "C02", "title": "Real/complex stacking is invertible", "statement": "make_complex_vector(make_real_vector(v)) = v for every complex vector, and make_real_vector(make_complex_vector(w)) = w for every real vector of even length.", "quantifier": "every complex vector and every even-length real vector", "why_tests_cant": "There are infinitely many sizes and values; a test fixes a handful of them.", "anchors": ["src/models/matrix_operations.py:make_real_vector", "src/models/matrix_operations.py:make_complex_vector"]}
{"id": "C03", "title": "Odd-length stacked vectors are rejected", "statement": "make_complex_vector never silently returns a result for a stacked vector of odd length.", "quantifier": "every odd length and every content", "why_tests_cant": "Only very short odd lengths misbehave because of broadcasting; a test on a typical odd length sees an error and passes.", "anchors": ["src/models/matrix_operations.py:make_complex_vector"]}
{"id": "C04", "title": "The real 2x2 block form is a faithful representation", "statement": "make_real_matrix turns complex products into real products: R(A)·real(v) = real(A·v), R(A·B) = R(A)·R(B), R(A+B) = R(A)+R(B), and R is injective.", "quantifier": "all complex matrices of all compatible shapes and all vectors", "why_tests_cant": "There are infinitely many sizes and values; a test fixes a handful of them.", "anchors": ["src/models/matrix_operations.py:make_real_matrix", "src/models/matrix_operations.py:make_real_vector"]}
{"id": "C05", "title": "The complex form can be read back from the block form", "statement": "make_complex_matrix(make_real_matrix(m)) = m for every complex matrix.", "quantifier": "every complex matrix", "why_tests_cant": "There is no test of make_complex_matrix; the claim ranges over all inputs.", "anchors": ["src/models/matrix_operations.py:make_complex_matrix", "src/models/matrix_operations.py:make_real_matrix"]}
{"id": "C06", "title": "Duplication matrix", "statement": "For every n and every symmetric n-by-n matrix M, duplication_matrix(n) times the stacked lower triangle of M is the column vectorisation of M; the construction never indexes out of bounds and its entries are 0 or 1 with exactly one 1 per row.", "quantifier": "every n and every symmetric matrix over any commutative ring", "why_tests_cant": "A test checks one small n; the index arithmetic must be right for all n.", "anchors": ["src/models/matrix_operations.py:duplication_matrix"]}
{"id": "C07", "title": "Symmetric elimination matrix", "statement": "elimination_sym_matrix(n)·vec(M) is the stacked lower triangle of (M+Mᵀ)/2 for every square M; in particular it is a left inverse of the duplication matrix and no division by zero happens.", "quantifier": "every n and every square matrix over a field of characteristic 0", "why_tests_cant": "There are infinitely many sizes and values; a test fixes a handful of them.", "anchors": ["src/models/matrix_operations.py:elimination_sym_matrix", "src/models/matrix_operations.py:duplication_matrix"]}
{"id": "C08", "title": "Laplacian transformation matrix", "statement": "For every n, transformation_matrix(n) maps the vector of negated strictly-lower entries of a symmetric zero-row-sum matrix to its stacked lower triangle; the construction never indexes out of bounds.", "quantifier": "every n and every symmetric Laplacian matrix", "why_tests_cant": "The row/column arithmetic (running row counter, slice, partial sums) must be right for every n.", "anchors": ["src/models/matrix_operations.py:transformation_matrix"]}
{"id": "C09", "title": "Laplacian elimination matrix", "statement": "elimination_lap_matrix(n) is a left inverse of transformation_matrix(n): it removes exactly the diagonal positions of the stacked lower triangle and negates the others.", "quantifier": "every n, every vector", "why_tests_cant": "There are infinitely many sizes and values; a test fixes a handful of them.", "anchors": ["src/models/matrix_operations.py:elimination_lap_matrix", "src/models/matrix_operations.py:transformation_matrix"]}
{"id": "C10", "title": "Projection onto admissible admittance matrices", "statement": "The composite duplicate∘eliminate used by the identification is an idempotent projection: its output is always symmetric (and has zero row sums in Laplacian mode), and it leaves a matrix unchanged exactly when the matrix is already symmetric (and Laplacian).", "quantifier": "every n and every square complex matrix, both modes", "why_tests_cant": "There are infinitely many sizes and values; a test fixes a handful of them.", "anchors": ["src/models/matrix_operations.py:duplication_matrix", "src/models/matrix_operations.py:transformation_matrix", "src/models/matrix_operations.py:elimination_sym_matrix", "src/models/matrix_operations.py:elimination_lap_matrix", "src/identification/run.py:build_lasso_prior"]}
{"id": "C11", "title": "undelete inverts np.delete", "statement": "For distinct in-range positions, undelete inserts zero rows/columns exactly at those positions: np.delete(undelete(m, idx), idx) = m, the rows at idx are zero, undelete(np.delete(m, idx), idx) equals m with those rows zeroed, and the order of idx is irrelevant.", "quantifier": "every matrix, every list of distinct in-range indices in every order, both axes", "why_tests_cant": "Depends on the whole insertion history; repeated or out-of-range indices break it.", "anchors": ["src/models/matrix_operations.py:undelete"]}
{"id": "C12", "title": "Prior bookkeeping stays consistent", "statement": "After any sequence of successful add_*_prior calls with one value per index, the prior has as many rows of L as entries of mu and of gamma, each row has n columns, and evaluating log_distribution on a vector of length n never fails on shapes.", "quantifier": "every finite history of add calls in every order with every content", "why_tests_cant": "Invariant over all histories.", "anchors": ["src/models/bayesian_prior.py:BayesianPrior", "src/models/smooth_prior.py:SmoothPrior"]}
{"id": "C13", "title": "Meaning of each prior row", "statement": "Each added row has the residual its documentation promises: exact: w(x_i - v); sparsity: w x_i; adaptive sparsity: x_i/v; contrast: w((sum of the listed x)/v - 1); ratio: w(x_a - v x_b).", "quantifier": "all indices, values, weights and parameter vectors x", "why_tests_cant": "There are infinitely many sizes and values; a test fixes a handful of them.", "anchors": ["src/models/bayesian_prior.py:add_exact_prior", "src/models/bayesian_prior.py:add_sparsity_prior", "src/models/bayesian_prior.py:add_adaptive_sparsity_prior", "src/models/bayesian_prior.py:add_contrast_prior", "src/models/bayesian_prior.py:add_ratios_prior"]}
{"id": "C14", "title": "Adding a prior never alters earlier priors, and order does not matter", "statement": "Previously added rows are an unchanged prefix after every further call, and two histories that add the same rows in different orders yield the same quadratic form, linear term and penalty from log_distribution.", "quantifier": "every history and every permutation of it, every x", "why_tests_cant": "Ranges over all permutations of all histories.", "anchors": ["src/models/bayesian_prior.py:BayesianPrior", "src/models/smooth_prior.py:log_distribution"]}
{"id": "C15", "title": "log_distribution returns a valid convex quadratic model", "statement": "For positive smoothness parameter, A is symmetric positive semidefinite, all weights are positive, the model's gradient A x - b equals Lᵀ W⁻¹ (L x - mu) and b is in the range of Lᵀ; the returned quadratic is the weighted square of the residual.", "quantifier": "every prior state, every x", "why_tests_cant": "There are infinitely many sizes and values; a test fixes a handful of them.", "anchors": ["src/models/smooth_prior.py:log_distribution"]}
{"id": "C16", "title": "The reported penalty is the log-prior Σ|r|^order", "statement": "The third value returned by log_distribution is (up to the smoothing) Σ|r_i|^order_i with the order the user asked for.", "quantifier": "every prior state, every x, every order in {DELTA, LAPLACE, GAUSS}", "why_tests_cant": "A test with a single order cannot show agreement for the others.", "anchors": ["src/models/smooth_prior.py:log_distribution"]}
{"id": "C17", "title": "Sparse and dense priors agree", "statement": "A SparseSmoothPrior and a SmoothPrior that received the same calls return the same A, b and penalty for every x, and fail on the same calls.", "quantifier": "every history of add calls, every x", "why_tests_cant": "Refinement over all histories.", "anchors": ["src/models/smooth_prior.py:SparseSmoothPrior", "src/models/smooth_prior.py:SmoothPrior"]}
{"id": "C18", "title": "Copy construction", "statement": "A prior built from another one (other=p) behaves like p, can be extended with further priors, and extending it leaves p unchanged.", "quantifier": "every prior p, every later history of either object", "why_tests_cant": "Aliasing and later histories.", "anchors": ["src/models/bayesian_prior.py:BayesianPrior.__init__", "src/models/smooth_prior.py:SmoothPrior.__init__"]}
{"id": "C19", "title": "Adaptive exact prior is normalised by the value", "statement": "add_exact_adaptive_prior on a SmoothPrior/SparseSmoothPrior adds rows with residual w(x_i/v - 1), as BayesianPrior.add_exact_adaptive_prior does.", "quantifier": "all indices, values, weights, x", "why_tests_cant": "One unit value hides the difference (w·v = w and w/v = w at v=1).", "anchors": ["src/models/smooth_prior.py:add_exact_adaptive_prior", "src/models/bayesian_prior.py:add_exact_adaptive_prior"]}
{"id": "C20", "title": "A rejected prior leaves the object unchanged", "statement": "If an add_*_prior call raises (index out of range, too few weights), the prior can still be used as if the call had never been made.", "quantifier": "every failing call in every state", "why_tests_cant": "Failure atomicity quantifies over all failure points.", "anchors": ["src/models/bayesian_prior.py:add_exact_prior", "src/models/bayesian_prior.py:add_sparsity_prior", "src/models/smooth_prior.py:add_exact_prior"]}
{"id": "C21", "title": "Absolute error metrics are norms of the difference", "statement": "fro_error and max_error are symmetric, nonnegative, zero exactly when the matrices are equal, satisfy the triangle inequality, and max_error ≤ fro_error ≤ sqrt(#entries)·max_error.", "quantifier": "all pairs/triples of complex matrices", "why_tests_cant": "There are infinitely many sizes and values; a test fixes a handful of them.", "anchors": ["src/models/error_metrics.py:fro_error", "src/models/error_metrics.py:max_error"]}
{"id": "C22", "title": "Relative error metrics", "statement": "For a nonzero reference, rrms_error is invariant under a common nonzero scaling, is 100 when the estimate is 0, map_error does not depend on the estimate where the reference is zero, and map_error ≤ rrms_error with equality iff the estimate vanishes there.", "quantifier": "all matrices and scalings", "why_tests_cant": "There are infinitely many sizes and values; a test fixes a handful of them.", "anchors": ["src/models/error_metrics.py:rrms_error", "src/models/error_metrics.py:map_error"]}
{"id": "C23", "title": "Linearised noise covariance is first-order propagation", "statement": "naive_noise_covariance equals J·diag(sd_m², sd_p²)·Jᵀ with J the Jacobian of the polar-to-cartesian map at the measurement; it is positive semidefinite with determinant sd_m²·m²·sd_p².", "quantifier": "all measurements and standard deviations", "why_tests_cant": "There are infinitely many sizes and values; a test fixes a handful of them.", "anchors": ["src/models/noise_transformation.py:naive_noise_covariance"]}
{"id": "C24", "title": "Exact noise covariance is the true covariance", "statement": "exact_noise_covariance at (m,f) equals the covariance matrix of the cartesian coordinates of (m+δm)e^{i(f+δf)} with independent centred Gaussian δm, δf of the given standard deviations.", "quantifier": "all m, f, sd_m, sd_p", "why_tests_cant": "An integral over a continuous distribution; sampling only approximates it.", "anchors": ["src/models/noise_transformation.py:exact_noise_covariance"]}
{"id": "C25", "title": "Average-true covariance is the conditional mean of the exact one", "statement": "average_true_noise_covariance at a noisy measurement equals the expectation of the exact covariance over the Gaussian-distributed true magnitude and phase.", "quantifier": "all measurements and standard deviations", "why_tests_cant": "An integral over a continuous distribution.", "anchors": ["src/models/noise_transformation.py:average_true_var_real", "src/models/noise_transformation.py:average_true_var_imag", "src/models/noise_transformation.py:average_true_cov", "src/models/noise_transformation.py:exact_noise_covariance"]}
{"id": "C26", "title": "inverted=True returns the matrix inverse", "statement": "Whenever the diagonal variances and the per-sample determinants are nonzero, the matrix returned with inverted=True multiplied by the one returned with inverted=False is the identity, on both sides; positive standard deviations and nonzero magnitude guarantee that condition for the linearised covariance.", "quantifier": "all measurement matrices and standard deviations", "why_tests_cant": "There are infinitely many sizes and values; a test fixes a handful of them.", "anchors": ["src/models/noise_transformation.py:naive_noise_covariance", "src/models/noise_transformation.py:exact_noise_covariance", "src/models/noise_transformation.py:average_true_noise_covariance"]}
{"id": "C27", "title": "Covariance layout matches the data vectorisation", "statement": "Entry k of each block is the variance of entry k of the column-vectorised measurements (so weights line up with make_real_vector(vectorize_matrix(.))), in the scalar and in the per-column branch, and both branches agree for a constant vector of standard deviations.", "quantifier": "all shapes, all standard deviations, both branches", "why_tests_cant": "There are infinitely many sizes and values; a test fixes a handful of them.", "anchors": ["src/models/noise_transformation.py:average_true_noise_covariance", "src/models/noise_transformation.py:naive_noise_covariance", "src/models/noise_transformation.py:exact_noise_covariance", "src/models/matrix_operations.py:vectorize_matrix"]}
{"id": "C28", "title": "Standard-deviation arguments of the wrong kind are rejected", "statement": "A per-column vector of standard deviations whose length does not match the number of columns is rejected rather than silently truncated to its first entry; a numpy scalar is accepted for every number of columns.", "quantifier": "all argument kinds (float, int, numpy scalar, array) and lengths", "why_tests_cant": "The fallback looks identical for square-ish test data; the type dispatch has corner cases.", "anchors": ["src/models/noise_transformation.py:average_true_noise_covariance"]}
{"id": "C29", "title": "Ordinary least squares is optimal and recovers noise-free data", "statement": "ComplexRegression.fit returns a minimiser of ‖z - x y‖ over all y; if z = x Y and x has full column rank it returns exactly Y.", "quantifier": "all data matrices", "why_tests_cant": "Optimality quantifies over all competitors.", "anchors": ["src/models/regression.py:ComplexRegression.fit"]}
{"id": "C30", "title": "Total least squares recovers noise-free data", "statement": "If z = x Y and x has full column rank, TotalLeastSquares.fit returns Y and the inversion it performs is well defined.", "quantifier": "all data matrices and every valid SVD", "why_tests_cant": "There are infinitely many sizes and values; a test fixes a handful of them.", "anchors": ["src/models/error_in_variable.py:TotalLeastSquares.fit"]}
{"id": "C31", "title": "The regression matrix encodes z = x·Y", "statement": "The real linear system built by the Bayesian regressions satisfies A·real(params(Y)) = real(vec(x·Y)) for every admissible Y, so zero residual is equivalent to x·Y = z.", "quantifier": "all x, z, all symmetric (Laplacian) Y, all sizes", "why_tests_cant": "There are infinitely many sizes and values; a test fixes a handful of them.", "anchors": ["src/models/regression.py:BayesianRegression.fit", "src/models/error_in_variable.py:BayesianEIVRegression.fit"]}
{"id": "C32", "title": "Fitted admittance matrices are always admissible", "statement": "After at least one iteration, the fitted matrix and every logged iterate are symmetric (and have zero row sums in Laplacian mode), whatever the data, weights, prior and linear solver.", "quantifier": "all data, priors, weights, initial guesses, numbers of iterations", "why_tests_cant": "All executions of an iterative algorithm.", "anchors": ["src/models/regression.py:BayesianRegression.fit", "src/models/error_in_variable.py:BayesianEIVRegression.fit"]}
{"id": "C33", "title": "Iteration log of a fit", "statement": "A fit on a fresh object logs between 1 and max_iterations iterations numbered 0,1,2,..., its last logged iterate is the fitted matrix, and with max_iterations = 0 the result is the initial guess and nothing is logged.", "quantifier": "all data and parameters", "why_tests_cant": "All executions.", "anchors": ["src/models/regression.py:BayesianRegression.fit", "src/models/error_in_variable.py:BayesianEIVRegression.fit"]}
{"id": "C34", "title": "Stopping rule", "statement": "A fit on a fresh object stops before max_iterations only if its last two logged target values satisfy the tolerance test and did not increase, and it stops at the first such iteration.", "quantifier": "all target sequences, tolerances", "why_tests_cant": "All sequences of target values.", "anchors": ["src/models/regression.py:BayesianRegression._is_stationary_point", "src/models/regression.py:BayesianRegression.fit", "src/models/error_in_variable.py:BayesianEIVRegression.fit"]}
{"id": "C35", "title": "Fitting again on the same object", "statement": "Calling fit twice on one object gives the same result as fitting on a fresh object: the stopping test only looks at the current fit.", "quantifier": "all pairs of fits", "why_tests_cant": "Depends on the history of the object.", "anchors": ["src/models/regression.py:BayesianRegression.fit", "src/models/error_in_variable.py:BayesianEIVRegression.fit"]}
{"id": "C36", "title": "Iterations decrease the Bayesian objective", "statement": "With order-1 and order-2 priors and exact linear solves, every iteration of BayesianRegression.fit does not increase the smoothed objective ‖b - A y‖² + λ·Σφ(r).", "quantifier": "all data, priors, λ ≥ 0, starting points", "why_tests_cant": "Monotonicity over all executions.", "anchors": ["src/models/regression.py:BayesianRegression.fit", "src/models/smooth_prior.py:log_distribution"]}
{"id": "C37", "title": "True parameters are a fixed point", "statement": "If the data satisfy z = x Y exactly and Y satisfies every prior exactly, BayesianRegression.fit returns Y after every number of iterations (nonsingular system).", "quantifier": "all data, priors, λ, iteration counts", "why_tests_cant": "All executions.", "anchors": ["src/models/regression.py:BayesianRegression.fit"]}
{"id": "C38", "title": "Current weights are used", "statement": "BayesianEIVRegression.fit weighs the current residual with the z_weight the caller passed.", "quantifier": "all weights", "why_tests_cant": "A test with equal voltage and current weights cannot see the difference.", "anchors": ["src/models/error_in_variable.py:BayesianEIVRegression.fit"]}
{"id": "C39", "title": "Error-in-variables sub-problem is solved exactly", "statement": "In the weighted branch the voltage correction of each iteration is the global minimiser of the weighted misfit for the current parameters, and the operator used maps vec(x) to vec(x·Y).", "quantifier": "all data, weights, iterates", "why_tests_cant": "Optimality over all corrections.", "anchors": ["src/models/error_in_variable.py:BayesianEIVRegression.fit"]}
{"id": "C40", "title": "Projection on the power-flow equations", "statement": "In the unweighted branch the projected data satisfy the power-flow equation for the current admittance matrix, the projector is idempotent and Hermitian, the matrix it inverts is always invertible, and the projected data are the nearest consistent data.", "quantifier": "all data and all admittance matrices", "why_tests_cant": "There are infinitely many sizes and values; a test fixes a handful of them.", "anchors": ["src/models/error_in_variable.py:BayesianEIVRegression.fit"]}
{"id": "C41", "title": "Reported target of the unweighted error-in-variables fit", "statement": "In the unweighted branch the logged target is the squared misfit of voltages and currents plus λ·penalty.", "quantifier": "all data", "why_tests_cant": "Only visible as a value in the log; holds or fails for general data.", "anchors": ["src/models/error_in_variable.py:BayesianEIVRegression.fit"]}
{"id": "C42", "title": "Fisher information is AᵀW⁻¹A", "statement": "fisher_info returns AᵀW⁻¹A with A the real block form of I⊗x and W the covariance of the residual, and the residual weight of sample k only uses sample k.", "quantifier": "all data and covariances", "why_tests_cant": "Layout errors cancel on constant data or single samples.", "anchors": ["src/models/error_in_variable.py:TotalLeastSquares.fisher_info"]}
{"id": "C43", "title": "Adaptive lasso weights", "statement": "The lasso prior penalises parameter i with weight 1/|y_ols,i| as documented.", "quantifier": "all y_ols", "why_tests_cant": "Needs general values; at |y|=1 both agree.", "anchors": ["src/identification/run.py:build_lasso_prior", "src/identification/run3ph.py:build_lasso_prior"]}
{"id": "C44", "title": "Complex prior penalises exactly the off-diagonal parameters", "statement": "build_complex_prior adds adaptive rows for exactly the off-diagonal parameters (real and imaginary), each with weight 1/|y|, and one contrast row per node and component listing exactly the off-diagonal parameters of that node.", "quantifier": "every number of nodes, every estimate, both modes", "why_tests_cant": "There are infinitely many sizes and values; a test fixes a handful of them.", "anchors": ["src/identification/run.py:build_complex_prior"]}
{"id": "C45", "title": "Contrast centre", "statement": "The contrast rows of build_complex_prior are centred on the row sums of the symmetrised estimate: the estimate itself has zero contrast residual.", "quantifier": "every estimate, both modes and both contrast options", "why_tests_cant": "Sign and factor errors are invisible without evaluating at general estimates.", "anchors": ["src/identification/run.py:build_complex_prior"]}
{"id": "C46", "title": "Suboptimal prior selection", "statement": "add_known_lines with prior_type 'suboptimal' uses the lines documented for that option rather than the optimal ones.", "quantifier": "every prior_type string containing 'suboptimal'", "why_tests_cant": "All strings.", "anchors": ["src/identification/run.py:add_known_lines"]}
{"id": "C47", "title": "Centring preserves the network equation", "statement": "If current = voltage·Y then the centred data used for identification satisfy the same equation: always for column centring, and for global centring when Y has zero column sums.", "quantifier": "all data and Y", "why_tests_cant": "There are infinitely many sizes and values; a test fixes a handful of them.", "anchors": ["src/identification/run.py:standard_methods", "src/identification/run.py:bayesian_eiv"]}
{"id": "C48", "title": "Noise-free end-to-end recovery", "statement": "On noise-free, sufficiently exciting data the standard methods return exactly the true admittance matrix for OLS and TLS.", "quantifier": "all networks and data with full-column-rank centred voltage", "why_tests_cant": "All data.", "anchors": ["src/identification/run.py:standard_methods", "src/models/regression.py:ComplexRegression.fit", "src/models/error_in_variable.py:TotalLeastSquares.fit"]}
{"id": "C49", "title": "Stored results are what is loaded", "statement": "After any sequence of runs, loading a stage's result for a network returns exactly what the last completed computation of that stage for that network returned.", "quantifier": "all interleavings of runs for all network names", "why_tests_cant": "All histories of the file store.", "anchors": ["src/identification/run.py:standard_methods", "src/identification/run.py:bayesian_eiv", "src/simulation/run.py:generate_loads", "src/simulation/run.py:simulate_net", "src/simulation/run.py:add_noise_and_filter"]}
{"id": "C50", "title": "Result files of different stages never collide", "statement": "Two different (stage, network) pairs use different files.", "quantifier": "all network names", "why_tests_cant": "All strings.", "anchors": ["src/identification/run.py:standard_methods", "simulate_network.py:simulate", "identify_network.py:identify"]}
{"id": "C51", "title": "Interrupted three-phase identification", "statement": "If a three-phase run is interrupted, the stored result is either the previous complete one or the new complete one.", "quantifier": "every crash point", "why_tests_cant": "Crash points.", "anchors": ["src/identification/run3ph.py:standard_methods", "src/identification/run3ph.py:bayesian_eiv", "src/identification/run.py:standard_methods"]}
{"id": "C52", "title": "Three-phase results are assembled and read back without loss", "statement": "The block of the assembled matrix belonging to phase/sequence i equals the matrix identified for phase i, entries between different phases are zero, and symmetric inputs give a symmetric result.", "quantifier": "all phase labelings and sizes", "why_tests_cant": "All labelings.", "anchors": ["src/identification/run3ph.py:standard_methods", "src/identification/run3ph.py:bayesian_eiv"]}
{"id": "C53", "title": "Merged three-phase iteration log", "statement": "The merged log has as many entries as the shortest of the three logs, entry i has the sum of the three targets and the assembled iterates.", "quantifier": "all logs", "why_tests_cant": "There are infinitely many sizes and values; a test fixes a handful of them.", "anchors": ["src/identification/run3ph.py:bayesian_eiv"]}
{"id": "C54", "title": "Reloading three-phase Bayesian results", "statement": "Running the three-phase identification with only the standard methods redone reloads the stored Bayesian result.", "quantifier": "all stored results with at least one node", "why_tests_cant": "The load path is only reached after a previous run.", "anchors": ["src/identification/run3ph.py:bayesian_eiv", "src/identification/run.py:bayesian_eiv", "identify_network.py:identify"]}
{"id": "C55", "title": "Kron reduction is electrically exact", "statement": "If the currents at the eliminated nodes are zero and their block is invertible, the reduced admittance matrix maps the remaining voltages to the remaining currents.", "quantifier": "all networks, all sets of eliminated nodes, all voltages", "why_tests_cant": "There are infinitely many sizes and values; a test fixes a handful of them.", "anchors": ["src/simulation/abstract_network.py:kron_reduction"]}
{"id": "C56", "title": "Kron reduction preserves structure", "statement": "The reduced matrix of a symmetric matrix is symmetric. With an invertible eliminated block, a matrix with zero row sums keeps zero row sums, listing an eliminated node twice changes nothing, and eliminating in two steps gives the same admittances between the same nodes as eliminating at once.", "quantifier": "all networks and node sets", "why_tests_cant": "There are infinitely many sizes and values; a test fixes a handful of them.", "anchors": ["src/simulation/abstract_network.py:kron_reduction"]}
{"id": "C57", "title": "Reduced matrix and reduced measurements use the same node order", "statement": "The rows of the Kron-reduced matrix are in the same order as the measurement columns kept by np.delete.", "quantifier": "all sets of eliminated nodes", "why_tests_cant": "Depends on set iteration order, which is ascending for most small examples.", "anchors": ["src/simulation/abstract_network.py:kron_reduction", "src/simulation/run.py:reduce_network", "simulate_network.py:simulate"]}
{"id": "C58", "title": "Position of the grid connection", "statement": "reduce_network eliminates exactly the hidden and passive nodes and the grid connections, wherever the connections are located in the bus list.", "quantifier": "all networks, all positions and numbers of connections", "why_tests_cant": "All template networks have a single connection at the end.", "anchors": ["src/simulation/run.py:reduce_network"]}
{"id": "C59", "title": "Hidden constant-impedance loads", "statement": "Reducing a hidden node whose current is proportional to its voltage gives the equivalent admittance matrix of the remaining nodes.", "quantifier": "all networks and load admittances", "why_tests_cant": "Loads are tiny in the examples, so the error is hidden in the noise.", "anchors": ["src/simulation/run.py:reduce_network", "src/simulation/run3ph.py:reduce_network"]}
{"id": "C60", "title": "Sub-Kron reduction with centred data", "statement": "When the grid-connection voltage is constant, removing its row and column keeps the network equation valid for the centred data.", "quantifier": "all networks and data", "why_tests_cant": "There are infinitely many sizes and values; a test fixes a handful of them.", "anchors": ["src/simulation/run.py:reduce_network", "src/identification/run.py:standard_methods"]}
{"id": "C61", "title": "Sequence and phase conversions are mutually inverse", "statement": "admittance_phase_to_sequence and admittance_sequence_to_phase invert each other, and so do the measurement conversions.", "quantifier": "all matrices whose width is a multiple of three", "why_tests_cant": "There are infinitely many sizes and values; a test fixes a handful of them.", "anchors": ["src/simulation/lines.py:admittance_sequence_to_phase", "src/simulation/lines.py:admittance_phase_to_sequence", "src/simulation/lines.py:measurement_sequence_to_phase", "src/simulation/lines.py:measurement_phase_to_sequence"]}
{"id": "C62", "title": "Network equation in the sequence domain", "statement": "If current = voltage·Y in phase coordinates, the converted quantities satisfy the same equation in sequence coordinates.", "quantifier": "all networks", "why_tests_cant": "Holds by accident for balanced lines.", "anchors": ["src/simulation/lines.py:admittance_phase_to_sequence", "src/simulation/lines.py:measurement_phase_to_sequence", "simulate_network.py:simulate"]}
{"id": "C63", "title": "Interleaved three-phase layout", "statement": "Voltages and admittances of node i and phase p are at position 3i+p, so voltage·Y couples matching positions; sub-sampling with stride 3 reads back the per-sequence matrices.", "quantifier": "all networks", "why_tests_cant": "There are infinitely many sizes and values; a test fixes a handful of them.", "anchors": ["src/simulation/simulation_3ph.py:get_current_and_voltage", "src/simulation/network_3ph.py:make_y_bus", "src/simulation/run3ph.py:reduce_network"]}
{"id": "C64", "title": "Passive nodes", "statement": "give_passive_nodes lists, per phase, exactly the buses that are not grid connections and have no active or reactive load on that phase.", "quantifier": "all networks built from bus data", "why_tests_cant": "All networks, including repeated and asymmetric loads.", "anchors": ["src/simulation/abstract_network.py:give_passive_nodes", "src/simulation/network.py:create_bus", "src/simulation/network_3ph.py:create_bus"]}
{"id": "C65", "title": "Lines from templates", "statement": "Building a network from line data creates one line per in-service entry between the two named buses, independent of the orientation given, and building it twice from the same template gives the same network.", "quantifier": "all bus and line lists", "why_tests_cant": "The template objects are mutated; all histories.", "anchors": ["src/simulation/network.py:create_lines", "src/simulation/network_3ph.py:create_lines"]}
{"id": "C66", "title": "Admittance matrix round trip", "statement": "create_lines_from_ybus followed by make_y_bus returns the given matrix for every symmetric zero-row-sum matrix.", "quantifier": "all such matrices and bus voltages", "why_tests_cant": "All matrices; bus labels start at 1 in the templates.", "anchors": ["src/simulation/network.py:create_lines_from_ybus", "src/simulation/network.py:make_y_bus"]}
{"id": "C67", "title": "Line editing operations", "statement": "remove_lines removes the given lines and no bus; NetData.create_line adds a line; NetData can be constructed without line data.", "quantifier": "all networks", "why_tests_cant": "All states.", "anchors": ["src/simulation/abstract_network.py:remove_lines", "src/simulation/network.py:create_line", "src/simulation/network.py:NetData.__init__"]}
{"id": "C68", "title": "Resampling and block averaging", "statement": "filter_and_resample_measurement returns floor(len(newtimes)/fparam) rows, each the mean of its own fparam consecutive resampled values; it is linear, keeps constant series constant, stays within the range of the data, and preserves current = voltage·Y.", "quantifier": "all series, time grids and block lengths", "why_tests_cant": "There are infinitely many sizes and values; a test fixes a handful of them.", "anchors": ["src/simulation/noise.py:filter_and_resample_measurement"]}
{"id": "C69", "title": "Zero noise changes nothing", "statement": "With zero standard deviations the noise functions return the measurements unchanged, for every noise sample.", "quantifier": "all measurements", "why_tests_cant": "There are infinitely many sizes and values; a test fixes a handful of them.", "anchors": ["src/simulation/noise.py:add_polar_noise_to_measurement", "src/simulation/noise.py:add_cartesian_noise_to_measurement"]}
{"id": "C70", "title": "Simulated phase noise matches the assumed noise model", "statement": "The simulated phase noise is additive with the configured standard deviation irrespective of the phase itself, as assumed by the covariance functions.", "quantifier": "all measurements", "why_tests_cant": "Phases near 120 degrees hide the scaling.", "anchors": ["src/simulation/noise.py:add_polar_noise_to_measurement", "src/models/noise_transformation.py:average_true_noise_covariance"]}
{"id": "C71", "title": "Equivalent noise", "statement": "Averaging fparam independent noise samples of variance s² gives variance s²/fparam, the value used by the equivalent-noise option.", "quantifier": "all fparam and s", "why_tests_cant": "A statement about distributions.", "anchors": ["src/simulation/run.py:add_noise_and_filter", "src/simulation/noise.py:filter_and_resample_measurement"]}
{"id": "C72", "title": "The returned averaging factor describes the returned data", "statement": "The standard deviation of the noise in the returned data is the configured one divided by sqrt(returned fparam), with and without the equivalent-noise option, for one and three phases.", "quantifier": "all parameters", "why_tests_cant": "Only visible across two programs.", "anchors": ["src/simulation/run.py:add_noise_and_filter", "src/simulation/run3ph.py:add_noise_and_filter", "identify_network.py:identify"]}
{"id": "C73", "title": "Sensor ratings", "statement": "The rating of each sensor is the safety factor times |S| of its node, and the grid connection's rating is the sum of the others.", "quantifier": "all networks", "why_tests_cant": "Needs general loads.", "anchors": ["src/simulation/run.py:add_noise_and_filter"]}
{"id": "C74", "title": "Sensor ratings line up with measurement columns", "statement": "Entry k of the ratings belongs to measurement column k, for one and three phases.", "quantifier": "all networks", "why_tests_cant": "Uniform loads hide permutations.", "anchors": ["src/simulation/run3ph.py:add_noise_and_filter", "src/simulation/simulation_3ph.py:get_current_and_voltage"]}
{"id": "C75", "title": "Load profile selection", "statement": "load_profile_from_numpy uses, for each selected week, exactly rows skip..skip+length of both files, in order, and each node's profile is a sum of round(ref/percentile) household columns.", "quantifier": "all files, headers and lengths", "why_tests_cant": "All inputs.", "anchors": ["src/simulation/load_profile.py:load_profile_from_numpy"]}
{"id": "C76", "title": "Load and time vectors have equal length", "statement": "generate_loads returns as many time stamps as load samples.", "quantifier": "all numbers of days and selected weeks", "why_tests_cant": "Only non-divisible combinations fail.", "anchors": ["src/simulation/run.py:generate_loads", "src/simulation/load_profile.py:load_profile_from_numpy"]}
{"id": "C77", "title": "Constant-load blending", "statement": "Blending with load_constantness in [0,1] keeps each load between its profile and its nominal value, is the identity at 0 and constant at 1, and touches only the listed nodes.", "quantifier": "all profiles and factors", "why_tests_cant": "There are infinitely many sizes and values; a test fixes a handful of them.", "anchors": ["src/simulation/run.py:generate_loads"]}
{"id": "C78", "title": "Which stages are recomputed", "statement": "With no stage flag everything is recomputed, otherwise exactly the flagged stages are; identify follows the same rule.", "quantifier": "all flag combinations", "why_tests_cant": "Finite but spans two programs; holds for all states.", "anchors": ["simulate_network.py:simulate", "identify_network.py:identify"]}
{"id": "C79", "title": "Phase selection", "statement": "identify accepts exactly the documented phase strings, and selecting one phase keeps exactly the rows, columns and ratings labelled with it, in order.", "quantifier": "all strings, labelings and data", "why_tests_cant": "All strings.", "anchors": ["identify_network.py:identify"]}
{"id": "C80", "title": "Uncertainty analysis and continued identification", "statement": "identify with --uncertainty or --continue-id completes whenever its inputs are available.", "quantifier": "all inputs", "why_tests_cant": "The failure only appears at the end of a long run.", "anchors": ["identify_network.py:identify"]}
{"id": "C81", "title": "Constant-load nodes are the configured hidden nodes", "statement": "The set of nodes whose load is kept constant is exactly the configured hidden nodes.", "quantifier": "all configurations", "why_tests_cant": "Aliasing.", "anchors": ["simulate_network.py:simulate", "src/simulation/run.py:generate_loads"]}
{"id": "C82", "title": "GPU and CPU matrix helpers agree", "statement": "The GPU variants of the vectorisation helpers return the same values as the CPU ones.", "quantifier": "all inputs", "why_tests_cant": "Needs a GPU to test.", "anchors": ["src/models/gpu_matrix_operations.py", "src/models/matrix_operations.py"]}
{"id": "C83", "title": "Three-phase Gaussian loads", "statement": "generate_loads with Gaussian loads on a three-phase network returns the six arrays in the order expected by the simulation.", "quantifier": "all networks", "why_tests_cant": "The branch fails before returning; ordering is invisible for equal loads.", "anchors": ["src/simulation/run3ph.py:generate_loads", "src/simulation/load_profile.py:generate_gaussian_load", "src/simulation/simulation_3ph.py:run"]}
{"id": "C84", "title": "Simulated currents are consistent with the voltages", "statement": "get_current_and_voltage returns current = voltage·Y exactly with |voltage| = vm and angle va, and (None, None) before any run.", "quantifier": "all results and networks", "why_tests_cant": "There are infinitely many sizes and values; a test fixes a handful of them.", "anchors": ["src/simulation/simulation.py:get_current_and_voltage", "src/simulation/simulation_3ph.py:get_current_and_voltage"]}
{"id": "C85", "title": "Batch script restores the configuration", "statement": "After run_multiple_sims.sh finishes, the configuration files are unchanged; an interruption leaves them modified at most in the edited setting.", "quantifier": "all configuration texts with the default settings, all list entries, all interruption points", "why_tests_cant": "Crash points; text substitution.", "anchors": ["run_multiple_sims.sh", "conf/conf.py", "conf/simulation.py"]}
{"id": "C86", "title": "Number of noisy samples", "statement": "add_noise_and_filter returns at least `steps` rows whenever there are at least `steps` raw samples, never more than 2·steps-1, and exactly `steps` when steps divides the number of samples; fewer raw samples than steps never yields silently wrong data.", "quantifier": "all sample counts and steps", "why_tests_cant": "There are infinitely many sizes and values; a test fixes a handful of them.", "anchors": ["src/simulation/run.py:add_noise_and_filter", "src/simulation/noise.py:filter_and_resample_measurement"]}
{"id": "C87", "title": "Weighted EIV alternating minimisation descends", "statement": "In the weighted error-in-variables fit, each iteration (voltage-correction solve followed by parameter solve) never increases the smoothed objective: weighted voltage correction plus weighted current residual plus lambda times the smoothed prior penalty.", "quantifier": "all data, symmetric positive semidefinite weights, priors with order-1 and order-2 terms, lambda >= 0, exact solver, all iterations from a symmetric start", "why_tests_cant": "A statement on every iteration of every run, over real-valued data.", "anchors": ["src/models/error_in_variable.py:BayesianEIVRegression.fit"]}
{"id": "C88", "title": "Weighted EIV fit never raises", "statement": "With positive definite voltage weights, lambda > 0 and a prior whose rows span the parameter space, the weighted error-in-variables fit completes all its iterations without an exception: both linear systems are always solvable.", "quantifier": "all data, initial matrices, positive definite voltage weights, positive semidefinite current weights, iteration counts", "why_tests_cant": "Singularity of the systems is a measure-zero event tests never meet; the claim covers every input.", "anchors": ["src/models/error_in_variable.py:BayesianEIVRegression.fit"]}
{"id": "C89", "title": "Unweighted EIV fit never raises", "statement": "With lambda > 0 and a prior whose rows span the parameter space, the unweighted error-in-variables fit completes all its iterations without an exception.", "quantifier": "all data, initial matrices, iteration counts", "why_tests_cant": "Singularity is a measure-zero event tests never meet; the claim covers every input.", "anchors": ["src/models/error_in_variable.py:BayesianEIVRegression.fit"]}
{"id": "C90", "title": "Diagonal regularisation yields a usable prior", "statement": "build_complex_prior with regularize_diag=True returns a prior with one centre and one order per row, so log_distribution accepts every parameter vector.", "quantifier": "every number of nodes, every estimate, both modes", "why_tests_cant": "The option is off in the configuration, and the failure appears only when the prior is evaluated.", "anchors": ["src/identification/run.py:build_complex_prior"]}
{"id": "C91", "title": "Loads prior", "statement": "build_loads_id_prior consists of exactly one l1 term per line and part: the distance of the entry to that of the known matrix, with unit weight.", "quantifier": "every number of nodes and every known matrix", "why_tests_cant": "There are infinitely many sizes and values; a test fixes a handful of them.", "anchors": ["src/identification/run.py:build_loads_id_prior"]}
{"id": "C92", "title": "Known lines are pinned in both modes", "statement": "bayesian_eiv with a known matrix adds to its prior one l1 term per part of each line at a documented node, acting on the parameter of that line, with and without Laplacian constraint.", "quantifier": "every number of nodes, every known matrix, every initial estimate, both modes", "why_tests_cant": "The mode is a constant of the configuration and the misplacement raises nothing: the terms land on other lines.", "anchors": ["src/identification/run.py:bayesian_eiv", "src/identification/run.py:add_known_lines"]}
{"id": "C93", "title": "Regularised regression never raises", "statement": "With lambda >= 0 and voltages of full column rank, BayesianRegression.fit raises no exception and leaves an estimate, whatever the currents, the initial guess, the prior terms and the number of iterations.", "quantifier": "all data with linearly independent voltages, all consistent priors, all iteration limits", "why_tests_cant": "Singular systems appear only for particular data; no finite set of runs covers all data.", "anchors": ["src/models/regression.py:BayesianRegression.fit"]}
{"id": "C94", "title": "Connected networks can be Kron-reduced", "statement": "In a network of lines with positive conductance, every set of nodes each connected to a node outside the set has an invertible block, so its Kron reduction succeeds and is exact, symmetric and with zero row sums.", "quantifier": "all such networks and node sets", "why_tests_cant": "There are infinitely many networks; a test fixes a handful of them.", "anchors": ["src/simulation/abstract_network.py:kron_reduction"]}
{"id": "C95", "title": "Three-phase reduction", "statement": "The three-phase reduce_network eliminates exactly the grid connections, the hidden nodes and the passive nodes, and the matrix it returns gives the currents of the remaining nodes on all phases.", "quantifier": "all networks built from sequence matrices, all positions of the connection", "why_tests_cant": "The shipped networks have the connection last, so the missing index shift is never exercised.", "anchors": ["src/simulation/run3ph.py:reduce_network", "src/simulation/lines.py:admittance_phase_to_sequence"]}
{"id": "C96", "title": "Nodes loaded on some phases only", "statement": "With reduce_single, networks whose nodes are loaded on some of their phases can be reduced.", "quantifier": "all networks with partially loaded nodes", "why_tests_cant": "Needs networks whose phases have different passive nodes; the templates used in tests are balanced.", "anchors": ["src/simulation/run3ph.py:reduce_network"]}
{"id": "C97", "title": "Loads that feed in power", "statement": "generate_loads can be used for networks with nodes of negative nominal power (generation).", "quantifier": "all networks with a negative nominal power", "why_tests_cant": "Needs a network with generation; the templates have loads only.", "anchors": ["src/simulation/load_profile.py:generate_gaussian_load", "src/simulation/load_profile.py:load_profile_from_numpy", "src/simulation/run.py:generate_loads"]}
{"id": "C98", "title": "Nodes without nominal power", "statement": "A node of zero nominal active (reactive) power has zero active (reactive) load at all times, for both kinds of loads and with blending. The same holds for each phase of an asymmetric load in a three-phase network, in the values the power flow is run with.", "quantifier": "all networks, files, samples and factors", "why_tests_cant": "All random draws and all profiles.", "anchors": ["src/simulation/run.py:generate_loads", "src/simulation/load_profile.py:load_profile_from_numpy", "src/simulation/load_profile.py:generate_gaussian_load"]}
{"id": "C99", "title": "Law of random loads", "statement": "Random loads are independent normal variables with the nominal power as mean and the configured fraction of it as standard deviation, for all samples, nodes and both powers.", "quantifier": "all networks, numbers of days and relative deviations", "why_tests_cant": "A statement about a probability distribution; samples only suggest it.", "anchors": ["src/simulation/load_profile.py:generate_gaussian_load", "src/simulation/run.py:generate_loads"]}
{"id": "C100", "title": "Runs of one network leave other networks alone", "statement": "A run of simulate_network.py or identify_network.py, completed or interrupted at any point, leaves all result files of every other network as they were; simulate leaves the results of identify for the same network as they were and conversely.", "quantifier": "all networks with plain names, all options, all interruption points", "why_tests_cant": "All interruption points and all combinations of options; the files are shared state.", "anchors": ["simulate_network.py:simulate", "identify_network.py:identify", "src/identification/run3ph.py:standard_methods", "src/identification/run3ph.py:bayesian_eiv"]}
{"id": "C101", "title": "A second run of the script restores the configuration after an interruption", "statement": "If run_multiple_sims.sh is interrupted anywhere and then run again to the end with the same flags, both configuration files are back to their original text.", "quantifier": "all configuration texts with each default setting at one place, all lists of numbers, all flags, all interruption points", "why_tests_cant": "Needs interrupting a run of many hours at every command; the damage shows only for values that begin other values.", "anchors": ["run_multiple_sims.sh", "conf/conf.py", "conf/simulation.py"]}
{"id": "C102", "title": "Each run of the script finds the settings it is meant for", "statement": "Every program started by run_multiple_sims.sh finds exactly the seed and the noise level or number of days of its loops in the configuration, the other settings at their defaults and everything else unchanged, in the order of the loops.", "quantifier": "all configuration texts with each default setting at one place, all lists of numbers, all flags", "why_tests_cant": "Needs running the script for hours and inspecting the files between its commands, for all texts.", "anchors": ["run_multiple_sims.sh"]}
{"id": "C103", "title": "Cartesian noise has the announced law", "statement": "add_noise_in_cartesian_coordinates returns arrays of the given shapes in which the error of each real and imaginary part is normal with zero mean, three standard deviations being the accuracy times the mean absolute value of that part of the series, and the errors of all parts, samples, series and of both arrays are independent; a negative accuracy is rejected when a real part differs from zero, and the returned deviations are those used.", "quantifier": "all arrays, all nonnegative accuracies, all independent standard normal draws", "why_tests_cant": "A law of a random result and the independence of all its entries cannot be observed from finitely many draws.", "anchors": ["src/simulation/noise.py:16-52"]}
{"id": "C104", "title": "Errors do not depend on the displayed components", "statement": "The Frobenius errors and relative errors that plot_results.py states, and the plotted series of errors and objective values, are those of the stored matrices and are the same with and without --sequence, for one phase, phases 123 and sequences 012.", "quantifier": "all stores, all networks, all complete reports", "why_tests_cant": "The conversions differ by 3x3 blocks of arbitrary size; equality for every matrix is not testable.", "anchors": ["plot_results.py:22-178"]}
{"id": "C105", "title": "The report completes on stored results", "statement": "plot_results.py completes on the results stored for a network when the reference, the voltages, the standard and the Bayesian results are there.", "quantifier": "all stored results of consistent sizes", "why_tests_cant": "The failing cases depend on the topology of the network and on the labels of the phases.", "anchors": ["plot_results.py:22-178"]}
{"id": "C106", "title": "Sparsity metrics", "statement": "In Laplacian mode the sparsity metrics measure the admittances that each method estimated between nodes that are not connected (Frobenius norm, largest value), and their percentages do not depend on the estimates.", "quantifier": "all networks with Laplacian admittance matrices, all estimates", "why_tests_cant": "For all topologies and all estimates.", "anchors": ["plot_results.py:22-178"]}
{"id": "C107", "title": "Voltages of the report", "statement": "The correlations that plot_results.py shows are those of the voltages of the phase that was identified.", "quantifier": "all phases, all labelled voltages", "why_tests_cant": "Wrong only for phases other than 1, where nothing fails when the phases have equally many nodes.", "anchors": ["plot_results.py:22-178"]}
{"id": "C108", "title": "The last plotted error is that of the estimate", "statement": "The last point of the plotted error curve is the stated relative error of the Bayesian estimate.", "quantifier": "all identifications with at least one iteration, one or three phases", "why_tests_cant": "The logs of three phases differ in length only for some data.", "anchors": ["src/identification/run.py:348-455", "src/identification/run3ph.py:214-279", "plot_results.py:95-119"]}
{"id": "C109", "title": "Reports of different networks are kept apart", "statement": "Files of a report for one network are not replaced by a report for another one, and what lies in the output folder after a report belongs to that report.", "quantifier": "all pairs of networks", "why_tests_cant": "Needs all combinations of present and absent results.", "anchors": ["plot_results.py:22-178"]}
{"id": "C110", "title": "Colours and labels of plots", "statement": "plot_scatter and plot_series draw one series per column, in the colour of its index and with its label when as many labels as columns are given.", "quantifier": "all matrices, colours and labels", "why_tests_cant": "plot_series is only called without labels in the programs.", "anchors": ["src/identification/utils.py:20-140"]}
{"id": "C111", "title": "The report after an identification", "statement": "After a completed run of identify_network.py, plot_results.py completes for the same network and states the errors of the estimates of that run with respect to the selected reference.", "quantifier": "all options, all data, all phases", "why_tests_cant": "All combinations of flags, phases and topologies.", "anchors": ["identify_network.py:25-128", "plot_results.py:22-178"]}
{"id": "C112", "title": "The regression with prior converges", "statement": "With order-1 and order-2 terms and data that determine the matrix, the smoothed objective of BayesianRegression has exactly one minimiser and the fitted matrix tends to it as the number of iterations grows; the log of any run is an initial part of the same sequence of matrices.", "quantifier": "all data, all priors with orders 1 and 2, all numbers of iterations", "why_tests_cant": "A limit over unboundedly many iterations, for all data.", "anchors": ["src/models/regression.py:60-148", "src/models/smooth_prior.py:22-226"]}
{"id": "C113", "title": "Fixed points of the iteration", "statement": "An iteration of the regression with prior returns the matrix it starts from exactly when that matrix minimises the smoothed objective; otherwise it strictly decreases the objective.", "quantifier": "all data, all priors with orders 1 and 2, all iterations", "why_tests_cant": "An equivalence over all real matrices.", "anchors": ["src/models/regression.py:60-148", "src/models/smooth_prior.py:22-226"]}
{"id": "C114", "title": "Law of the noise in polar coordinates", "statement": "Polar measurement noise returns arrays of the given shapes in which every entry has a relative error of magnitude and of phase; all these errors, of both arrays, are independent and normal with mean zero and the standard deviation configured for the column (the first one if there are neither one nor as many as columns). Python integers, empty arrays and negative values are refused.", "quantifier": "all arrays, all forms of standard deviations", "why_tests_cant": "A statement about the joint distribution, for all shapes.", "anchors": ["src/simulation/noise.py:55-109"]}
{"id": "C115", "title": "Identification inverts a simulation without noise", "statement": "After simulate_network.py without measurement noise for a single-phase network (everything recomputed, no hidden nodes configured, passive nodes neither close behind a connection nor too many, see C57 and C58), identify_network.py for the same network and mode returns the stored admittance matrix as ordinary and total least squares estimate and stores it as reference, if the centred voltages are linearly independent. With noise, the stored data without noise still satisfy the equation of the stored matrix after centring. For the shipped networks nothing has to be assumed about the admittance matrix, and each of them has a run with independent voltages.", "quantifier": "all networks, power flows, configurations, options and result folders", "why_tests_cant": "The chain of seven functions over both programs for all networks and load profiles; a test sees one network.", "anchors": ["simulate_network.py:31-125", "identify_network.py:25-131", "src/simulation/run.py:104-295", "src/identification/run.py:246-345"]}
{"id": "C116", "title": "The simulation completes", "statement": "simulate_network.py completes for every single-phase network all of whose nodes have a load or are connections, with random loads of non-negative nominal powers, non-negative noise levels, at least one day and at least as many samples as steps, if the power flow converges (no hidden nodes, passive nodes as for C115). It never completes if some node has neither a load nor the connection.", "quantifier": "all networks, configurations, options and result folders", "why_tests_cant": "Absence of exceptions in all functions of the program for all networks.", "anchors": ["simulate_network.py:31-125", "src/simulation/run.py:29-295", "src/simulation/noise.py:71-143"]}
{"id": "C117", "title": "Least-squares estimates are stable under bounded noise", "statement": "If the measured data differ from data satisfying the network equation by errors whose largest singular value is at most eps, and the smallest singular value of the true voltages is at least sigma, then for eps < sigma the ordinary least squares estimate exists and, in every direction q, its error has length at most eps/(sigma-eps) times the length of (Y q, q). For 2 eps < sigma the total least squares estimate exists, whichever singular value decomposition the library returns, and its error has length at most 2 eps/(sigma-2 eps) times that length.", "quantifier": "all data, errors, matrices and decompositions", "why_tests_cant": "A bound for all noise realisations, and existence of the inverse in the total least squares formula; tests sample noise.", "anchors": ["src/models/regression.py:38-46", "src/models/error_in_variable.py:34-51"]}
{"id": "C118", "title": "Network tables stay closed under removals", "statement": "Every network built from bus and line data refers only to buses it has and numbers buses and lines without repetition. Removing buses returns exactly when all of them exist; the others keep their order, and a load, grid connection or line stays exactly if all its buses stay. Removing lines returns exactly when all of them exist and removes just these.", "quantifier": "all networks built from data, all lists of buses or lines to remove", "why_tests_cant": "Quantifies over all networks and all removals; there are no tests of removals in the repository.", "anchors": ["src/simulation/abstract_network.py:37-59", "src/simulation/network.py:18-82", "src/simulation/network_3ph.py:21-88"]}
{"id": "C119", "title": "identify_network.py returns on data with small noise", "statement": "For single-phase data and valid options (no --continue, no --uncertainty, --exact only with --laplacian or at least 29 nodes), if the centred data are exact data plus errors of at most eps, the exact voltages are excited by at least sigma > 2 eps, and the Bayesian method either has a stored result to load, or measurements without linear relation (unweighted), or a regularisation whose prior determines all parameters (weighted or not), then identify_network.py returns, and the errors of its ordinary and total least squares estimates are at most eps/(sigma-eps) and 2 eps/(sigma-2 eps) times the length of (Y q, q) in every direction q.", "quantifier": "all data, noise, options, configurations and decompositions within these conditions", "why_tests_cant": "The absence of any exception along the whole script for all data; tests run a few networks.", "anchors": ["identify_network.py:25-128", "src/identification/run.py:248-455"]}
{"id": "C120", "title": "Simulation with noise followed by identification stays close to the stored reference", "statement": "After simulate_network.py with any noise on a single-phase network, recomputing everything, identify_network.py with all methods returns, stores the reference of the simulation, and its ordinary and total least squares estimates differ from that reference by the bounds of C119, whenever the noise of the centred measurements is less than half of the excitation of the true ones. For the shipped networks nothing has to be assumed about the admittance matrix.", "quantifier": "all networks, load and noise realisations, options and configurations within these conditions", "why_tests_cant": "End-to-end statement over two scripts and all noise realisations.", "anchors": ["simulate_network.py:24-121", "identify_network.py:25-128"]}
{"id": "C121", "title": "The CSV and the numpy reader of household profiles agree", "statement": "load_profile_from_csv called with the footers that load_profile_from_numpy computes returns the same loads as load_profile_from_numpy, for all files and selected weeks.", "quantifier": "all files, weeks, nominal powers and random choices of households", "why_tests_cant": "Two implementations compared on all inputs; the CSV reader is not called by any script.", "anchors": ["src/simulation/load_profile.py:82-180", "src/simulation/load_profile.py:183-283"]}
{"id": "C122", "title": "Identification of a simulated three-phase network in sequence coordinates", "statement": "After simulate_network.py -3 -q without noise, identify_network.py -3 -p 012 without the Laplacian option returns the stored zero-sequence block, and the stored positive- and negative-sequence blocks exchanged, as ordinary and total least squares estimates; hence it returns the stored matrix exactly when these two blocks agree, in particular for lines with equal positive- and negative-sequence impedance. The stored reference is the stored matrix.", "quantifier": "all three-phase networks (everything recomputed, no hidden nodes configured, passive nodes as in C58), power flows, configurations and result folders, if the centred sequence voltages are linearly independent", "why_tests_cant": "The exchange is invisible on the only template networks, where both sequences agree; a test sees one network.", "anchors": ["simulate_network.py:31-125", "identify_network.py:25-131", "src/simulation/lines.py:71-132", "src/simulation/run3ph.py:158-384", "src/identification/run.py:246-346", "src/identification/run3ph.py:89-212"]}
{"id": "C123", "title": "The simulation of three-phase networks completes", "statement": "simulate_network.py -3 -q completes with loads from profile files that contain the selected weeks, for every three-phase network with non-negative loads, non-negative noise levels, at least one day and at least as many samples as steps, if the power flow converges (no hidden nodes, passive nodes as for C122). With random loads it never completes: the three-phase random load generator raises NameError.", "quantifier": "all three-phase networks, profile files, configurations, options and result folders", "why_tests_cant": "Absence of exceptions in all functions of the program for all networks; the random-load branch is never executed by the repository's own commands.", "anchors": ["simulate_network.py:31-125", "src/simulation/run3ph.py:12-384", "src/simulation/load_profile.py:183-283", "src/simulation/noise.py:71-143"]}
{"id": "C124", "title": "Identification in sequence values completes with error bounds", "statement": "identify_network.py -3 -q -p 012 with all methods completes whenever in each sequence the noise is below half the smallest singular value of the exact voltages, and either the data are exactly related by no vector (unweighted) or the prior spans all parameters; its ordinary and total least squares estimates are, block by block, within the bounds of C119 of the exact matrices.", "quantifier": "all three-phase measurement data, result folders, configurations, phases at any positions, all numerical routines meeting their contracts", "why_tests_cant": "No exception in any of three runs of every method for all noisy data; bounds over all noise.", "anchors": ["identify_network.py:25-131", "src/identification/run.py:15-456", "src/identification/run3ph.py:89-280"]}
{"id": "C125", "title": "Known lines can be given for every network", "statement": "identify_network.py --exact without Laplacian constraint completes for networks of every size: under the conditions of C119, and in sequence values C124, a known matrix of any size leads to a result, whose prior pulls the documented lines to their known values (C92).", "quantifier": "all networks, data, options, configurations", "why_tests_cant": "The nodes of the known lines are constants in the program (0, 25, 26, neighbours up to 28); whether a network is too small only shows at the end of a long identification.", "anchors": ["identify_network.py:25-131", "src/identification/run.py:147-245", "src/identification/run.py:383-388", "src/identification/run3ph.py:214-280"]}
{"id": "C126", "title": "Weights of the Bayesian method", "statement": "With weights, bayesian_eiv is the alternating minimisation of the weighted error-in-variables problem on the centred data, where voltages and currents are each weighted with the inverse of their noise covariance: the mean covariance (C25) for synchronised measurements, and that of the turned measurements with unknown phase for unsynchronised ones. In particular the estimate of identify_network.py takes the noise of the current sensors and their ratings into account.", "quantifier": "all data, noise levels, ratings, priors, both modes, with and without synchronisation", "why_tests_cant": "That a weight is ignored shows in no test of the result; the inverse and the layout of the weights are claims on all measurements.", "anchors": ["src/identification/run.py:348-455", "identify_network.py:73-99", "src/models/error_in_variable.py:173-288"]}
{"id": "C127", "title": "Unsynchronised measurements are turned", "statement": "With the option --unsynchronized, identify_network.py uses only the magnitudes of the voltages and the phases of the currents relative to the voltages.", "quantifier": "all data and options", "why_tests_cant": "A relation between two runs for all data.", "anchors": ["identify_network.py:22", "identify_network.py:92-99", "src/identification/run.py:402-423"]}
{"id": "C128", "title": "Three-phase simulation with noise followed by identification", "statement": "After simulate_network.py -3 -q with any noise, recomputing everything, identify_network.py -3 -q -p 012 without the Laplacian option and with all methods returns and stores the matrix of the simulation as reference, whenever in each sequence the noise of the centred measurements is less than half of the excitation of the true ones and data or prior determine the Bayesian estimate. Its ordinary and total least squares estimates have one block per sequence; the zero-sequence block is within the bounds of C119 of the stored one, the positive-sequence block of the stored negative-sequence one and the negative-sequence block of the stored positive-sequence one. For the shipped three-phase networks the block of the same sequence can be taken for every sequence.", "quantifier": "all three-phase networks (no hidden nodes, passive nodes as for C122), power flows, load and noise realisations, options and configurations within these conditions", "why_tests_cant": "End-to-end statement over two scripts and all noise realisations; the exchange is invisible on the template networks.", "anchors": ["simulate_network.py:31-125", "identify_network.py:25-131", "src/simulation/run3ph.py:158-384", "src/simulation/lines.py:71-132", "src/identification/run3ph.py:89-280"]}
{"id": "C129", "title": "Uncertainty results are stored and reported", "statement": "After a run of identify_network.py with --uncertainty the error covariances of the estimates are stored, and plot_results.py shows, next to the errors of the total least squares estimate, the deviations they predict.", "quantifier": "all sequences of runs of the programs, networks, options and stored results", "why_tests_cant": "The claim is on all options and histories; that an output never appears shows in no test of the outputs that do.", "anchors": ["identify_network.py:110-128", "plot_results.py:151-176"]}
{"id": "C130", "title": "Deviations shown in the report", "statement": "Given the covariance matrix of the real and imaginary parts of the vectorized estimate, the matrix shown as predicted error has as moduli the standard deviations of the entries, and does not depend on which orthonormal eigenvectors the eigendecomposition returns.", "quantifier": "all numbers of nodes, covariance matrices and eigendecompositions", "why_tests_cant": "Eigenvectors are returned up to sign and rotation, a test sees one choice.", "anchors": ["plot_results.py:154-157", "plot_results.py:165-174"]}
{"id": "C131", "title": "The fit stops once it has converged", "statement": "With a positive abs_tol, BayesianRegression.fit stops after a number of iterations that depends on the data but not on max_iterations, so that results with large max_iterations do not depend on it.", "quantifier": "all data, priors, tolerances and numbers of iterations", "why_tests_cant": "Whether an iteration ever stops, however large its limit, is not visible in finitely many runs.", "anchors": ["src/models/regression.py:88-90", "src/models/regression.py:117-145", "src/models/error_in_variable.py:169-171"]}
{"id": "C132", "title": "The error-in-variables fit keeps an exact initial guess", "statement": "On noise-free data of full column rank with positive definite weights, ErrorInVariableRegression.fit started at the matrix that generated the data returns exactly this matrix after two iterations, if the prior is met by it or has no weight.", "quantifier": "all numbers of nodes and samples, data, weights, matrices, priors met by the matrix and numbers of iterations", "why_tests_cant": "The claim is on all exact data and weights at once.", "anchors": ["src/models/error_in_variable.py:173-290"]}
{"id": "C133", "title": "The simulated network is the one of the template", "statement": "make_net succeeds exactly for templates with different bus numbers, powers of the right form and lines in service between known buses (of nonzero length, respectively of a known type); the network then has the buses, loads, grid connections and lines in service of the template, and the admittance matrix that a run of simulate_network.py stores is the one of these lines: minus the sum of the line admittances between two buses, and rows of sum zero.", "quantifier": "all templates, names, base powers, options and stored files", "why_tests_cant": "The claim is on all templates; parallel lines, lines given from the larger to the smaller bus and lines out of service are each handled by different code.", "anchors": ["src/simulation/run.py:10-27", "src/simulation/run3ph.py:12-29", "src/simulation/network.py:29-73", "src/simulation/network_3ph.py:33-88"]}
{"id": "C134", "title": "A network can be recreated from its admittance matrix", "statement": "make_net(name, y_bus) with the admittance matrix of the template network gives, for buses numbered from one with a common nominal voltage, a network with the same buses and the same admittance matrix; without y_bus it is the network of the scripts; for three-phase networks it raises NotImplementedError for every y_bus.", "quantifier": "all templates with such buses, base powers and line lists", "why_tests_cant": "The claim is on all templates, including those with parallel lines.", "anchors": ["src/simulation/run.py:10-27", "src/simulation/run3ph.py:12-29", "src/simulation/network.py:75-101", "src/simulation/network_3ph.py:90-98"]}
{"id": "C135", "title": "Nodes can be eliminated exactly when they are connected to a kept node", "statement": "For the admittance matrix of a network whose lines in service have positive resistance, the block of a set of nodes that the Kron reduction inverts is nonsingular if and only if every node of the set is connected by lines in service to a node outside the set.", "quantifier": "all templates, base powers and sets of nodes", "why_tests_cant": "The claim is on all networks and all sets of hidden nodes, in both directions.", "anchors": ["src/simulation/abstract_network.py:98-113", "src/simulation/run.py:246-295", "src/simulation/network.py:55-73"]}
{"id": "C136", "title": "The shipped networks can be simulated", "statement": "Each network template of the repository can be built, has one connection to the grid to which every node is connected, and any set of its nodes without the connection can be eliminated; each single-phase network is recreated from its admittance matrix, and its simulation completes without hidden nodes whenever the power flow converges. The sequence networks of each three-phase template consume power and can be reduced in the same way.", "quantifier": "all shipped templates, sets of nodes, loads, noise draws and settings with nothing hidden", "why_tests_cant": "The eliminated sets, loads and noise are unbounded; tests run one network with one setting.", "anchors": ["src/simulation/net_templates.py:18-359", "src/simulation/net_templates_3ph.py:18-208", "src/simulation/run.py:10-27", "src/simulation/run3ph.py:12-29", "src/simulation/network_3ph.py:121-127"]}
{"id": "C137", "title": "The shipped settings work for every shipped network", "statement": "A simulation with the hidden nodes set in conf/simulation.py runs for every network of the repository.", "quantifier": "all shipped networks, loads, noise draws and stores", "why_tests_cant": "A test with the shipped network of the README passes; the claim is on all networks.", "anchors": ["conf/simulation.py:4-14", "src/simulation/run.py:268-276", "src/simulation/run3ph.py:355-375"]}
{"id": "C138", "title": "The nodes listed as observed are the ones kept", "statement": "With the settings in conf/simulation.py, a node is hidden if and only if it is not in the list of observed nodes.", "quantifier": "all node numbers", "why_tests_cant": "The simulation runs with any list of hidden nodes; no test compares the stored nodes with the list of observed ones.", "anchors": ["conf/simulation.py:4-14"]}
{"id": "C139", "title": "What a run with hidden nodes stores, and that it completes", "statement": "A successful single-phase simulation stores exactly the measurements of the nodes that are not hidden, not passive and, without Laplacian, not connections, in the order of the buses. For any hidden nodes that are buses of the network, a run that recomputes everything completes if the power flow converges with voltages in the right half plane.", "quantifier": "all networks with at most one connection, hidden nodes, loads, noise draws, settings and stores", "why_tests_cant": "The hidden nodes, loads and noise are unbounded; tests run one list of hidden nodes.", "anchors": ["src/simulation/run.py:246-295", "simulate_network.py:31-126", "src/simulation/abstract_network.py:98-113"]}
{"id": "C140", "title": "Without noise the network seen from the measured nodes is identified when hidden nodes are constant impedances", "statement": "If the hidden nodes of a single-phase network draw constant impedances, the simulation has no noise and the centred voltages are linearly independent, the least squares estimates of identify_network.py are the admittance matrix that simulate_network.py stores as the reference. The same holds for three-phase networks in sequence values whose hidden nodes draw constant impedances on each phase.", "quantifier": "all networks, hidden nodes, constant impedances, loads and stores", "why_tests_cant": "A comparison on one example shows some error anyway because of noise and load changes; the claim separates it from an error of the reference.", "anchors": ["src/simulation/run.py:287-291", "src/simulation/run.py:246-295", "identify_network.py:28-128", "src/identification/run.py:246-345", "src/simulation/run3ph.py:322-384"]}
{"id": "C141", "title": "Without noise the lasso estimate is near the admittance matrix but not equal to it", "statement": "On noise-free data with linearly independent centred voltages, the lasso estimate of identify_network.py predicts the currents with a squared error of at most twice the weight of the prior times the squared size of the parameters, hence is that near to the stored admittance matrix. It equals that matrix only if the weight of the prior or the matrix is zero, although the estimate it starts from is exact. Through both programs, without noise: for every shipped single-phase network and every positive weight the stored lasso estimate differs from the stored reference while both least squares estimates equal it. In three phases every sequence block of the lasso estimate is that near the stored block, with positive and negative sequence exchanged, and for the shipped three-phase networks it never is the reference.", "quantifier": "all networks, data, weights, numbers of iterations and tolerances", "why_tests_cant": "A test on one example cannot bound the error for all data, and rounding hides whether the estimate is exact.", "anchors": ["src/identification/run.py:15-35", "src/identification/run.py:246-345", "src/models/regression.py:92-148", "identify_network.py:28-128"]}
{"id": "C142", "title": "The total least squares estimate solves the total least squares problem", "statement": "Whenever TotalLeastSquares.fit returns, its result is the matrix Y for which the smallest correction of voltages and currents (in sum of squared moduli) makes the data satisfy z = x Y, among all matrices and all corrections; if the singular value of the data following the first n is smaller than those, no other matrix has this property. The estimate returned and saved by standard_methods has it for the centred measurements. For three-phase networks in sequence values each block of the estimate has it for its sequence.", "quantifier": "all data, consistent or not, and all singular value decompositions of them", "why_tests_cant": "A test compares the estimate with the true matrix or a few other candidates on some data; optimality is over all corrections and all matrices.", "anchors": ["src/models/error_in_variable.py:36-51", "src/identification/run.py:246-345", "src/identification/run3ph.py:89-211"]}
{"id": "C143", "title": "White noise does not disturb the total least squares estimate but shrinks the ordinary one", "statement": "If the noise is uncorrelated between all measured quantities and with their values, and equally strong in all of them, then the total least squares estimate is exactly the true admittance matrix, whatever the power of the noise, while every nonzero column of the ordinary least squares estimate is strictly shorter than the true one. The same holds for the two estimates that standard_methods returns. For three-phase networks in sequence values it holds for each sequence, whose noise powers may differ.", "quantifier": "all data, networks, noise powers and singular value decompositions", "why_tests_cant": "Random noise in a test has these correlations only approximately, so a test sees estimates near the claim, never the claim.", "anchors": ["src/models/error_in_variable.py:36-51", "src/models/regression.py:38-46", "src/identification/run.py:246-345", "src/identification/run3ph.py:89-211"]}
{"id": "C144", "title": "Numbering, order, reference angles and units", "statement": "Reordering the samples, renumbering the nodes and turning the phasors of each sample by any angle changes neither the ordinary nor the total least squares estimate, apart from the numbering. The ordinary estimate follows any change of the units of voltage and current; the total least squares estimate follows a common factor but not a change of one unit only.", "quantifier": "all data, orders, numberings, angles and units", "why_tests_cant": "Tests fix one numbering and one unit; rounding makes the invariance inexact.", "anchors": ["src/models/error_in_variable.py:36-51", "src/models/regression.py:38-46"]}
{"id": "C145", "title": "Missing result files", "statement": "A run that needs a result file that does not exist ends with FileNotFoundError: simulate_network.py without the loads or the simulation that it does not recompute, identify_network.py without the network data or the standard estimates, plot_results.py without the reference or the network data. Result files other than those of the earlier steps of the same run are unchanged.", "quantifier": "all networks, options and stores", "why_tests_cant": "Needs all combinations of options and existing files.", "anchors": ["src/simulation/run.py:97-100", "src/simulation/run.py:133-135", "identify_network.py:47-50", "src/identification/run.py:340-345", "plot_results.py:36-41", "simulate_network.py:31-125"]}
{"id": "C146", "title": "Standard estimates depend only on correlations", "statement": "The ordinary least squares estimate, the lasso estimate with its whole iteration log, and, with a gap in the singular values, the total least squares estimate depend on the measurements only through the correlations (sums over the samples of products of two measured quantities). So two series of measurements, even of different lengths, with the same correlations give the same estimates; in particular the order of the samples and their reference angles do not matter. For three-phase networks in sequence values only the correlations within each sequence matter.", "quantifier": "all data, priors, solvers, settings and states of the objects", "why_tests_cant": "Needs pairs of different data with equal correlations; rounding makes equality inexact.", "anchors": ["src/models/regression.py:38-46", "src/models/regression.py:92-145", "src/models/error_in_variable.py:36-51", "src/identification/run.py:246-345", "src/identification/run3ph.py:89-211"]}
{"id": "C147", "title": "Errors-in-variables estimates do not depend on the order of the samples", "statement": "The errors-in-variables fit of samples combined by a unitary matrix, with voltage weights that weigh the combined samples as before, is the fit of the samples: same estimate, same iteration log, same exception. Without weights this holds for real orthogonal combinations. So bayesian_eiv, weighted or not, with synchronised measurements or not, returns and stores the same for the samples in another order; with weights and unsynchronised measurements also for other reference angles of the samples. The same holds for bayesian_eiv of run3ph.py.", "quantifier": "all data, orders, reference angles, priors, exact solvers, settings and stores", "why_tests_cant": "Needs pairs of runs over all orders of the samples; rounding makes equality inexact.", "anchors": ["src/models/error_in_variable.py:173-288", "src/models/noise_transformation.py:95-295", "src/identification/run.py:348-455", "src/identification/run3ph.py:214-279"]}
{"id": "C148", "title": "Weighted errors-in-variables iterations approach matrices that are optimal in each variable", "statement": "With zero tolerances the estimates of the weighted errors-in-variables fit after 0, 1, 2, ... iterations form one sequence, and the iteration log of every run is an initial part of it. This sequence is bounded and its changes vanish. Each of its limit points is an admissible matrix that minimises the objective for some correction of the voltages, which itself minimises the objective for that matrix. Such a limit point exists, and the sequence eventually stays within any distance of such matrices.", "quantifier": "all data, positive definite voltage weights, current weights, priors of order 1 or 2 that determine every parameter, initial guesses, exact solvers", "why_tests_cant": "A statement about infinite sequences of iterations; the objective is not jointly convex, so no test value of the limit is known.", "anchors": ["src/models/error_in_variable.py:173-288"]}
{"id": "C149", "title": "Weighted errors-in-variables iterations stay exactly at balanced matrices", "statement": "Call a matrix balanced if it and some correction of the voltages each minimise the objective of the weighted errors-in-variables fit for the other. An iteration returns the matrix it starts from exactly when this matrix is balanced; otherwise the objective at the correction used becomes strictly smaller. So a fit started at a balanced matrix logs only that matrix, whatever the tolerances.", "quantifier": "all data, positive definite voltage weights, current weights, priors of order 1 or 2 that determine every parameter, exact solvers, all iterations of all runs", "why_tests_cant": "Exact equality of consecutive iterations is invisible in floating point, and balanced matrices cannot be enumerated.", "anchors": ["src/models/error_in_variable.py:173-288"]}
{"id": "C150", "title": "Weighted errors-in-variables iterations approach critical points of one joint objective", "statement": "A matrix and a correction of the voltages that are optimal for each other are exactly the critical points of the objective in both variables: the derivative towards every other admissible matrix and correction is zero. So with zero tolerances and enough iterations the weighted fit, and the weighted bayesian_eiv that builds the prior and the weights itself, returns and stores an estimate as close as wanted to a critical point of one fixed objective. For three-phase networks in sequence values the same holds for each block of the estimate.", "quantifier": "all data, weights, priors of order 1 or 2 (for the limit: that determine every parameter), exact solvers, required distances", "why_tests_cant": "Criticality is about derivatives in all directions of a non-convex objective; the code never evaluates this objective jointly.", "anchors": ["src/models/error_in_variable.py:173-288", "src/identification/run.py:348-455"]}
{"id": "C151", "title": "Power balance of simulated networks", "statement": "At every time of a simulation the complex power that enters all nodes of a single-phase network (voltage times conjugate current) equals the sum over the lines in service of the conjugate line admittance times the squared voltage difference. With positive resistances its real part is not negative, and zero exactly when lines join only nodes of equal voltage. Elimination of nodes without current keeps the power. For a three-phase network the power is three times the sum of the powers of the symmetrical components in the sequence networks.", "quantifier": "all templates with single-phase loads, power flow results, voltages, sets of eliminated nodes with nonsingular block", "why_tests_cant": "Energy conservation is never computed by the code; it ties the built line table, the admittance matrix and the computed currents together for every voltage profile.", "anchors": ["src/simulation/network.py:48-82", "src/simulation/network.py:102-114", "src/simulation/run.py:104-137", "src/simulation/run.py:246-295", "src/simulation/network_3ph.py:121-127"]}
{"id": "C152", "title": "Stored matrices are those of passive networks", "statement": "The admittance matrix that simulate_network.py stores for a network of resistive lines and consuming loads never delivers active power, whatever the voltages; without the Laplacian form it consumes power at all nonzero voltages and is therefore invertible. The same holds for three-phase networks stored in sequence coordinates.", "quantifier": "all single-phase networks of resistive lines, three-phase networks with passive sequence networks, hidden nodes, noise levels", "why_tests_cant": "A matrix with negative power looks like any other matrix in error tables; passivity is a statement about all voltages, and the shipped network data is only one instance.", "anchors": ["src/simulation/run.py:246-295", "src/simulation/run.py:287-291", "simulate_network.py:simulate", "src/simulation/network_3ph.py:121-127"]}
{"id": "C153", "title": "Correlations in the report are singular values", "statement": "The series 'correlations' that plot_results.py draws shows the base 10 logarithms of the singular values of the centred voltages, one per node; no value exceeds that of the largest singular value.", "quantifier": "all stored voltages of single-phase reports, eigenvalue functions that return the roots of the characteristic polynomial", "why_tests_cant": "The code multiplies with the transpose, not with the conjugate transpose; both agree on data whose deviations are real, which toy data is.", "anchors": ["plot_results.py:57-60"]}
{"id": "C154", "title": "The unweighted branch is the weighted one with unit weights", "statement": "BayesianEIVRegression.fit without weights, started at a symmetric matrix, logs the same matrices as the same fit given weight one on every real and imaginary part of all voltages and currents, and without early stop raises and returns the same; from any other start this holds from the first logged matrix on.", "quantifier": "all data, symmetric initial guesses, priors, penalties, iteration counts and tolerances of either fit", "why_tests_cant": "The two branches are separate code (inverse and projections of complex data against stacked real weight matrices); tests never run both on the same data and cannot cover all data.", "anchors": ["src/models/error_in_variable.py:173-288"]}
{"id": "C155", "title": "The unweighted fit approaches critical points", "statement": "With zero tolerances and a penalty determining every direction, the estimates of the errors-in-variables fit without weights change ever less and come as close as wanted to matrices at which the objective with unit weights is critical in the matrix and in the corrections; bayesian_eiv with uncertainties disabled returns and stores such an estimate. For three-phase networks in sequence values each block of the estimate does so.", "quantifier": "all data, initial guesses, order one and two priors leaving no direction free, positive lambda", "why_tests_cant": "A limit over all iteration counts; every finite run could stop far away.", "anchors": ["src/models/error_in_variable.py:173-288", "src/identification/run.py:348-455"]}
{"id": "C156", "title": "Errors in variables against total least squares", "statement": "With unit weights no target logged by the errors-in-variables fit is below the smallest total least squares correction, and a matrix whose logged target equals it is a total least squares estimate; where that estimate is unique and admissible, fits without penalty started at it, with unit weights or without weights, return it and log nothing else.", "quantifier": "all data, symmetric initial guesses, priors, tolerances; singular value decompositions with a gap for the second part", "why_tests_cant": "Relates two estimators for all data; tests compare them to the true matrix on one data set only.", "anchors": ["src/models/error_in_variable.py:36-51", "src/models/error_in_variable.py:173-288"]}
{"id": "C157", "title": "Another numbering of the nodes", "statement": "If the nodes of the measurements, and of a symmetric initial estimate, are numbered in another way, bayesian_eiv without known lines logs the same targets in the same iterations and its matrices, logged and stored, are those of the first numbering with rows and columns numbered in that way; standard_methods returns its three estimates numbered in that way. For three-phase networks in sequence values the same holds when the columns are numbered in another way together with their labels.", "quantifier": "all permutations of the nodes, all data, iteration counts and tolerances; weighted or not, synchronised or not, Laplacian or not; priors that see every line of the initial estimate and, for standard_methods, data of full rank with a gap of the singular values, which noise below half the excitation leaves", "why_tests_cant": "The parameters of a fit are stacked in an order depending on the numbering and the prior counts them by position; tests use one numbering per network.", "anchors": ["src/models/error_in_variable.py:173-288", "src/models/regression.py:92-148", "src/identification/run.py:15-455", "src/models/smooth_prior.py:27-226", "src/identification/run3ph.py:89-279"]}
{"id": "C158", "title": "Uncertainties exist exactly for informative data", "statement": "For current errors with a positive definite covariance, the uncertainty analysis returns a positive definite information matrix and its inverse when the voltages have full column rank, and raises LinAlgError without saving anything when they have not.", "quantifier": "all voltages, parameters, voltage covariances that are positive semidefinite and current covariances that are positive definite; for the program all positive standard deviations and ratings", "why_tests_cant": "Whether a Fisher information matrix is singular depends on the rank of the data in exact arithmetic; a test with noisy data hardly meets singular cases and cannot decide them in floating point.", "anchors": ["src/models/error_in_variable.py:53-127", "src/identification/run.py:458-534"]}
{"id": "C159", "title": "A further sample does not reduce the information", "statement": "Adding samples with independent errors to the data increases none of the variances reported for the parameters.", "quantifier": "all data, numbers of samples and covariances of independent samples", "why_tests_cant": "The claim compares two runs with different numbers of samples for every possible data set; tests evaluate one data set.", "anchors": ["src/models/error_in_variable.py:53-127"]}
{"id": "C160", "title": "A simulation that cannot start writes nothing", "statement": "simulate_network.py raises AttributeError for a network without a template, exits when it has to create loads without random loads and without both profile files, and writes no file in either case; every other simulation of a network that can be built reaches the load stage.", "quantifier": "all networks, options, configurations, templates, profile files and stored results", "why_tests_cant": "Tests run the script on shipped networks with valid profiles; what remains on disk after every failed start is not observed.", "anchors": ["simulate_network.py:31-60", "src/simulation/run.py:10-27", "src/simulation/run3ph.py:12-29"]}
{"id": "C161", "title": "Weighted errors-in-variables estimates are stable under bounded noise", "statement": "Let measurements differ from true data x0, x0*Y with an admissible matrix Y by at most epsilon in Frobenius norm. Every logged estimate of the weighted errors-in-variables fit, and the returned one, differs from Y by an explicit bound that depends on epsilon, the smallest singular value of x0, the error of the initial guess, the penalty of the projected guess times lambda and the ratio of the extreme weights. The bound tends to zero with noise, guess error and penalty. A successful weighted synchronised identification run that redoes both methods obeys the bound with the guess error that follows from the total least squares estimate.", "quantifier": "all data, true matrices, noise levels, weights, priors of order 1 or 2, lambda >= 0, numbers of iterations, exact solvers", "why_tests_cant": "Tests compare estimates with the truth for a few noise realisations; a bound for all noise of a given size cannot be sampled.", "anchors": ["src/models/error_in_variable.py:BayesianEIVRegression.fit", "src/identification/run.py:401-441", "identify_network.py"]}
{"id": "C162", "title": "Unweighted errors-in-variables estimates are stable under bounded noise", "statement": "Let measurements differ from true data x0, x0*Y with an admissible matrix Y by at most epsilon in Frobenius norm. Every logged estimate of the errors-in-variables fit without weights, started at a symmetric matrix, and the returned one, differs from Y by an explicit bound in epsilon, the smallest singular value of x0, the error of the initial guess and lambda times the penalty of the projected guess. A successful single-phase identification run without weights that redoes both methods obeys this bound.", "quantifier": "all data, true matrices, noise levels, priors of order 1 or 2, lambda >= 0, numbers of iterations, exact solvers", "why_tests_cant": "Tests compare estimates with the truth for a few noise realisations; a bound for all noise of a given size cannot be sampled.", "anchors": ["src/models/error_in_variable.py:BayesianEIVRegression.fit", "src/identification/run.py:401-441", "identify_network.py"]}
{"id": "C163", "title": "The regression with prior and the lasso estimate are stable under bounded noise", "statement": "Let measurements differ from true data x0, x0*Y with an admissible matrix Y by at most epsilon in Frobenius norm. Every logged estimate of the regression with prior differs from Y by at most (epsilon + r)/(sigma - epsilon) relative to the size of the relation, where sigma is the smallest singular value of x0 and r bounds the residuals by noise, error of the initial guess and lambda times the penalty of the projected guess. For the lasso estimate of the standard methods the bound is explicit in epsilon, sigma, the sizes of x0 and Y, the number of nodes and lambda: the guess error follows from ordinary least squares and the penalty is at most twice the squared size of the guess.", "quantifier": "all data, true matrices, noise levels below sigma, priors of order 1 or 2, lambda >= 0, positive numbers of iterations, exact solvers", "why_tests_cant": "Tests compare estimates with the truth for a few noise realisations; a bound for all noise of a given size cannot be sampled.", "anchors": ["src/models/regression.py:BayesianRegression.fit", "src/identification/run.py:248-345", "identify_network.py"]}
{"id": "C164", "title": "The admittance matrix that a simulation stores can be represented by the identification", "statement": "Removing grid connections, adding shunts and Kron reduction keep an admittance matrix symmetric, for any hidden nodes and in both modes; so every successful single-phase simulation of a network with a symmetric bus matrix stores a symmetric reference. In --laplacian mode with nothing hidden, a bus matrix without shunts and passive nodes that can be eliminated, the rows of the stored matrix also sum to zero. The stored reference is then in the range of the parameters that the identification estimates.", "quantifier": "all networks, symmetric bus matrices, hidden nodes, options, stores and noise; zero row sums: nothing hidden, zero column sums of the bus matrix", "why_tests_cant": "Tests look at stored matrices of a few template networks; symmetry for every network and every set of hidden nodes is not covered by samples.", "anchors": ["src/identification/run.py:251-333", "simulate_network.py:89-120"]}
{"id": "C165", "title": "Simulation with noise followed by identification: lasso and Bayesian estimates stay near the stored reference", "statement": "A single-phase network with symmetric bus matrix and no hidden nodes is simulated with noise, then identified. Let epsilon be the size of the noise in the centred stored data and sigma the smallest singular value of the centred true voltages. If epsilon < sigma the lasso estimate, and if 2 epsilon < sigma every logged and the returned Bayesian estimate, with or without the weights of synchronised measurements, differ from the stored reference by an explicit bound in epsilon, sigma, the sizes of voltages and reference, the number of nodes, the ratio of the weights and lambda times the penalty of the projected initial guess. For the shipped single-phase networks symmetry need not be assumed.", "quantifier": "all networks, power flows, noise realisations, configurations with non-negative lambda, positive numbers of iterations and exact numerical routines", "why_tests_cant": "Tests run both programs for a few random seeds; a bound for every noise realisation of a given size cannot be sampled.", "anchors": ["simulate_network.py", "identify_network.py", "src/identification/run.py:156-248", "src/identification/run.py:401-441", "src/models/regression.py", "src/models/error_in_variable.py"]}
{"id": "C166", "title": "Three-phase identification in sequence values: lasso and Bayesian estimates stay near the truth", "statement": "For data of a three-phase network in sequence values (phases 012), the third standard estimate and every logged and the returned Bayesian estimate consist of one block per sequence and zeros between sequences. If, for a sequence, the true admittance matrix is one the parameters can represent and the noise of the centred data of this sequence is small against its excitation, its block differs from the true matrix by an explicit bound, as for a single-phase network (C161, C162, C163), and the initial guess of the Bayesian method is the symmetric part of the total least squares block with a bound of its own.", "quantifier": "all data with labels 0, 1, 2, noise, weights of synchronised measurements or none, configurations with non-negative lambda, positive iteration limits, exact numerical routines", "why_tests_cant": "Tests compare a few estimates with references; that selection of columns, separate fits and reassembly keep the bound for every data set is not sampled.", "anchors": ["src/identification/run.py:17-47", "src/identification/run.py:156-248", "src/identification/run.py:401-441", "identify_network.py"]}
{"id": "C167", "title": "Three-phase simulation then identification: the stored blocks are representable and the estimates stay near them, with two sequences exchanged", "statement": "A three-phase network with reciprocal (symmetric) sequence matrices and no hidden nodes, simulated in sequence values, is stored as three symmetric blocks without coupling between sequences. The lasso and the Bayesian estimates that the identification makes from the stored noisy data have, for every sequence, an explicit error bound relative to the stored block of the zero sequence for the zero sequence, of the negative sequence for the positive one and of the positive sequence for the negative one. For the shipped networks symmetry need not be assumed, positive and negative sequence blocks are equal, and every bound is relative to the block of the same sequence.", "quantifier": "all networks, power flows, noise realisations, configurations with non-negative lambda, positive iteration limits, exact numerical routines", "why_tests_cant": "Tests run both programs on template networks whose positive and negative sequences are equal, for a few seeds; neither the exchange nor a bound for every noise realisation can be seen there.", "anchors": ["simulate_network.py", "identify_network.py", "src/identification/run.py:156-248", "src/identification/run.py:251-333", "src/identification/run.py:401-441", "src/simulation/lines.py"]}
{"id": "C168", "title": "Sparse storage does not matter", "statement": "The fits and the prior work with sparse matrices. Whatever entries these store, in whatever order, with positions stored several times and with stored zeros, and however the library stores results, make_real_matrix keeps the storage format and gives the array of its dense branch, BayesianRegression.fit and BayesianEIVRegression.fit have the same outcome, error, log and estimate as with plain arrays, and SparseSmoothPrior.log_distribution the same values or error as with plain arrays.", "quantifier": "all sparse matrices, data, weights, priors, configurations, storage behaviours that keep the denoted array, and solvers that depend on the denoted array only", "why_tests_cant": "Which entries are stored depends on the data, for instance on exact zeros; tests see a few patterns in one format and one library version.", "anchors": ["src/models/matrix_operations.py:66-81", "src/models/gpu_matrix_operations.py:66-86", "src/models/regression.py", "src/models/error_in_variable.py", "src/models/smooth_prior.py:141-148"]}
{"id": "C169", "title": "Command lines mean what the manual says", "statement": "Each program runs with some parameters exactly for the command lines that spell settings of its declared options meaning these parameters: long names with the value as next word or after =, letters alone or combined, the last with a value attached or as next word; the last setting of an option counts, flags are on exactly if present, options not mentioned have their defaults. The order of different options does not matter. Every program started by run_multiple_sims.sh gets the parameters it is meant to have: everything once per seed and then only the noise for each noise level, everything for each sample size, identification of the three sequences with 20 iterations.", "quantifier": "all command lines, lists and flags of the script", "why_tests_cant": "Tests call the functions directly; the space of command lines is infinite.", "anchors": ["simulate_network.py:14-29", "identify_network.py:10-23", "plot_results.py:14-20", "run_multiple_sims.sh:21-66"]}
{"id": "C170", "title": "The limits of the plots can be any number", "statement": "plot_results.py accepts every decimal number for --max-plot-y and --max-plot-err and uses it as the limit.", "quantifier": "all decimal numbers, spellings and other options", "why_tests_cant": "A test would use round numbers.", "anchors": ["plot_results.py:16-17", "plot_results.py:29-30"]}
{"id": "C171", "title": "The commands of the README run", "statement": "The commands of the README are accepted by the programs and, with the settings the README lists, the simulations they start complete.", "quantifier": "all loads, noise draws, stores, and settings other than those listed", "why_tests_cant": "The commands need files that are not in the repository and hours of computing.", "anchors": ["README.md:46-72", "simulate_network.py:31-125", "conf/simulation.py:4-14"]}
{"id": "C172", "title": "Three-phase simulations can hide every node but the connection", "statement": "A three-phase simulation in sequence values that recomputes everything completes exactly if each hidden node is a bus of the network other than the grid connection. A successful run stores exactly the columns of the nodes that are neither hidden nor the connection and have a load (in phase values: of their phases with a load), in the order of the network, converted to sequences if asked, with the number of each column's phase or sequence.", "quantifier": "all hidden lists, load profiles, noise draws, stores and settings; converging power flows", "why_tests_cant": "The hidden list of the repository is one of 2^55 for its network, and the measurements decide whether an average voltage is zero.", "anchors": ["src/simulation/run3ph.py:322-384", "simulate_network.py:43-110"]}
{"id": "C173", "title": "What the plots of the report show", "statement": "In a complete report the heat maps show the moduli of the stored reference and estimates in the selected coordinates and of the error of the Bayesian estimate; the error curve has one point per logged iterate, its relative Frobenius error in percent; the curve of objective values starts with the second logged value; the comparison has one point per line of the reference, ordered by the nodes it joins, for each of the four estimates and the reference, and nothing else, in Laplacian mode or not.", "quantifier": "all stored results, phases, modes and sizes", "why_tests_cant": "The plots are images written by a library; tests of the repository do not look at them.", "anchors": ["plot_results.py:54-149"]}
{"id": "C174", "title": "A noise sweep varies only the noise", "statement": "After a completed simulation that computed the noise, runs for the noise only (--noise, as in the script's sweep over noise levels) complete for all non-negative standard deviations and random numbers, in any number and order; each saves the same exact voltages and currents, admittance matrix, ratings, averaging factor and labels as the first run, noisy measurements of the same shape, leaves the stored loads and power flow unchanged, and reproduces the first run's data if the numbers and deviations are the same.", "quantifier": "all networks, phases, stores, settings, sequences of noise levels and random numbers", "why_tests_cant": "Needs two and more full simulations compared with each other; the repository only starts them from a script.", "anchors": ["simulate_network.py:31-125", "src/simulation/run.py:140-243", "run_multiple_sims.sh:21-45"]}
{"id": "C175", "title": "The errors are at most proportional to the noise level", "statement": "For given random numbers, the measurements stored by a run for the noise only differ from the exact ones of the first run by at most a constant times the largest of the four standard deviations, for single- and three-phase networks and with or without the sequence transform. If a single-phase simulation recomputed everything and its exact centred voltages determine the admittance matrix, then below some positive noise level the standard methods complete on those measurements, and every entry of the ordinary and the total least squares estimate differs from the stored reference by at most a constant times the noise level; for a three-phase network in sequence values the same holds block by block, with the positive and negative sequence blocks of the reference exchanged. So the estimates converge to the reference as the noise goes to zero. If nodes are hidden that draw constant impedances, the estimates approach in the same way the network with those impedances connected, and stay away from the stored reference, which has them with the opposite sign. For the shipped three-phase networks the exchange has no effect.", "quantifier": "all networks, stores, settings, random numbers, earlier noise runs and noise levels (below the threshold for the estimates)", "why_tests_cant": "A limit over noise levels; every test fixes finitely many of them.", "anchors": ["src/simulation/noise.py:71-143", "src/simulation/run.py:140-243", "src/identification/run.py:274-300", "run_multiple_sims.sh:29-40"]}
{"id": "C176", "title": "Results left from a network with another number of nodes", "statement": "A run of identify_network.py that does not recompute a stage, while the stored result of that stage is of a network with another number of nodes, raises an error and changes no stored estimate.", "quantifier": "all stores, data, options and sizes", "why_tests_cant": "The combination of an old result file and new network data only appears after a sequence of runs with different settings.", "anchors": ["identify_network.py:39-99", "src/identification/run.py:65-95", "src/identification/run.py:340-345", "src/identification/run.py:383-388", "src/identification/run.py:448-455", "src/identification/run3ph.py:244-259"]}
{"id": "C177", "title": "The expected error printed with the uncertainty", "statement": "The relative error that eiv_fim stores, and that identify_network.py prints as the Cramer-Rao bound, is the root mean square of the relative distance between samples of the error distribution and the parameters, whose expected square is the trace of the covariance relative to the squared norm of the parameters.", "quantifier": "all data, parameters, covariances, numbers of samples and sample values; normal samples for the expectation", "why_tests_cant": "A wrong statistic of random samples still looks like a plausible percentage; the difference is one of definitions and holds for every draw.", "anchors": ["src/identification/run.py:512-516", "identify_network.py:109-121"]}
{"id": "C178", "title": "Power and meaning of sequence values", "statement": "Converting measurements from phase to sequence values keeps the complex power of every node up to the factor three, and converting back multiplies it by three. The three values of a node are in the order zero, positive, negative: equal phase values have only the first, balanced values (a third of a turn apart, order a b c) only the second, balanced values in the opposite order only the third, each with the value of phase a. The same holds for the exact and the measured data that simulate_network.py stores with --sequence.", "quantifier": "all measurement arrays, nodes, times; all runs with sequence values", "why_tests_cant": "A conversion with a different scale or with two sequences exchanged passes a round trip test; the physical meaning is a statement about all voltages and currents.", "anchors": ["src/simulation/lines.py:99-130", "simulate_network.py:108-111"]}
{"id": "C179", "title": "Balanced voltages give the currents of the positive sequence network", "statement": "If the voltages of all nodes are balanced (three phases of equal size, a third of a turn apart, in the order a b c), the simulated currents of a three-phase network are balanced too, and those of phase a are the voltages of phase a times the positive sequence matrix.", "quantifier": "all three-phase networks, balanced voltages", "why_tests_cant": "Tests with equal positive and negative sequence matrices, as lines have them, cannot see which of the two is used.", "anchors": ["src/simulation/network_3ph.py:121-127", "src/simulation/lines.py:52-73", "src/simulation/simulation_3ph.py:110-131"]}
{"id": "C180", "title": "Weights for sequence values have the noise of sequence values", "statement": "The covariances with which the Bayesian identification weighs sequence values are those of the noise of these values. Noise is added to the phase values; if the errors of the three phases of a node are uncorrelated, each of the three sequence values has a ninth of the sum of the noise powers of the phases, and the errors of different sequences are uncorrelated exactly if the three phases have the same power.", "quantifier": "all measurement arrays, nodes, times, error laws with finite power; all standard deviations for the weights", "why_tests_cant": "Powers are expectations over all noise, and a wrong factor in the weights only makes the estimate less accurate, not visibly wrong.", "anchors": ["src/simulation/lines.py:116-130", "simulate_network.py:108-111", "src/identification/run.py:405-412", "src/models/noise_transformation.py:236-295", "src/identification/run3ph.py:240-262"]}
{"id": "C181", "title": "Line types have the impedances that their comment gives", "statement": "The line types of the three-phase networks have the sequence impedances of three equal wires with the self and mutual impedances that the comment above them gives, converted to kilometres: Z0 = ZS + 2 ZM and Z1 = ZS - ZM for the types with three wires, and Z1 = Z0 for the type with a single wire.", "quantifier": "all line types; the relation between wires and sequences for all complex impedances", "why_tests_cant": "No test reads the type table; an impedance that is too large gives a network that simulates and is identified as any other.", "anchors": ["src/simulation/net_templates_3ph.py:168-208", "src/simulation/lines.py:52-73"]}
{"id": "C182", "title": "Stored samples of the shipped configuration", "statement": "With the shipped days, sampling frequency and time_steps every run of simulate_network.py that recomputes everything stores measurements of 10082 rows, not the configured 10080, each the mean of 2999 raw samples although a minute has 3000. In general, with one block per minute of the loads and a sampling frequency of F Hz such that 60 F does not exceed the number of blocks, the blocks have 60 F - 1 raw samples, and the number of rows is the configured one if and only if it is below 120 F - 1. With --equivalent-noise the number of rows is the configured one if and only if twice the number of minutes after the first is less than three times 60 F - 1.", "quantifier": "all networks, loads, noise, hidden nodes, options and previous results, both kinds of networks; in general all numbers of days and frequencies", "why_tests_cant": "A run with the shipped configuration takes long, its tests use other sizes, and nothing compares the number of rows with the configured one.", "anchors": ["conf/simulation.py:24-30", "simulate_network.py:44-89", "src/simulation/run.py:181-182", "src/simulation/run3ph.py:add_noise_and_filter"]}
{"id": "C183", "title": "Data that do not determine the network", "statement": "On measurements without noise, however few or dependent they are, the ordinary least squares estimate reproduces the measured currents, with the shortest columns possible, and the total least squares estimate reproduces them whenever the method returns. The ordinary estimate is the true matrix if and only if every direction that the centred voltages do not excite is orthogonal to the columns of the matrix. For runs of both programs on the shipped single-phase networks without --laplacian this is the case if and only if the centred voltages are linearly independent, so never if no more samples than nodes are stored; for the shipped three-phase networks in sequence coordinates likewise, if and only if the centred voltages of each of the three sequences are. With --laplacian, for the shipped single-phase networks, it is the case if and only if the only combinations of nodes that vanish in all centred samples are multiples of the sum of all nodes.", "quantifier": "all data without noise of any rank; all runs of both programs without noise and hidden nodes", "why_tests_cant": "The programs return an estimate without warning in all cases; tests use data with more samples than nodes.", "anchors": ["src/models/regression.py:32-46", "src/models/error_in_variable.py:34-51", "src/identification/run.py:standard_methods", "simulate_network.py", "identify_network.py"]}
{"id": "C184", "title": "More iterations do not lead to arbitrarily large estimates", "statement": "For given data and settings the estimates of the Bayesian identification with zero tolerances, with or without weights and for one or three phases, have a common bound, however many iterations are allowed.", "quantifier": "all data, settings, initial guesses, numbers of iterations, exact solvers and inverses", "why_tests_cant": "A test runs a fixed number of iterations; growth beyond every bound is a statement about all of them.", "anchors": ["src/identification/run.py:348-455", "src/models/error_in_variable.py:173-288"]}
{"id": "C185", "title": "More iterations continue the same run", "statement": "If a Bayesian identification returns when a number of iterations is allowed, it returns when fewer are allowed, and its log is then the initial part of the longer log with as many entries as allowed. For one phase the estimate is the one of the last entry of that part, so the log of one long run contains the estimates of all shorter ones; if the longer run stopped early, both estimates are the same. For three phases the merged logs are related in the same way. The standard methods return with fewer iterations as well, with the same least squares estimates.", "quantifier": "all data, settings, initial guesses, weights, tolerances, numbers of iterations, numerical routines", "why_tests_cant": "A test compares two runs on one data set; dependence of the loop on its limit would only show for some data and limits.", "anchors": ["src/models/regression.py:124-148", "src/models/error_in_variable.py:216-288", "src/identification/run.py:248-455", "src/identification/run3ph.py:109-313"]}
