# Formal model of eiv-grid-id: design

Lean 4.33.0 with Mathlib. The model lives in `lean/Verif/`:

| directory | content |
|---|---|
| `Verif/Py/*` | the slice of Python/numpy semantics the code uses: exceptions, indices, slices, 2-D arrays |
| `Verif/Model/*` | one definition per modelled function of `/repo`, each with a comment citing file and lines |
| `Verif/Lemmas/*` | helper lemmas, no claims |
| `Verif/Spec/*` | small specifications used in the property statements, independent of the model |
| `Verif/Props/*` | the property theorems `Verif.Cnn_...`, each followed by a non-vacuity example |

## Modelling conventions

* Functions that can raise return `Except PyErr α`. External calls (solver, SVD, pandapower, random
  numbers, file system) are parameters; what is assumed of them is an explicit hypothesis of the theorem.
* Floating point numbers are exact reals / complex numbers. Rounding, overflow, NaN are not modelled. Where the code would
  divide by zero, the guard is a hypothesis of the theorem or the definition says so.
* 1-D arrays are `List`s. 2-D arrays are `Arr2`: a shape and a total entry function that is zero outside the shape
  (so equality of arrays is equality of shapes and of in-range entries). Shape errors and index errors are explicit.
* Pure linear algebra (pseudo-inverse, Kron reduction, projector, Gaussian integrals) uses Mathlib `Matrix`.
* scipy sparse matrices are modelled by the dense array they denote; for the fits and the prior C168 proves that stored entries do not matter.
* Loops are folds with early exit (`forRange`, `Except`); mutable objects (priors, networks) are states passed through.
* Programs with files are `Prog α`: store before to result, store after, and the stores in between, so that interruptions
  are points of the run (Model/Prog.lean). One `np.savez` is one step.
* Random numbers are an arbitrary stream of samples. Statements about laws add the hypothesis that the samples are independent
  standard normal ones, and it is proved that such streams exist.
* A theorem suffixed `_partial` proves less than the property; the note says what is missing. When the code violates the
  property, a theorem suffixed `_violated` gives a witness in the model.
* Theorems were tested against wrong programs; see `seeded/LOG.jsonl`.


## Properties: what is modelled and how it is proved

`MANIFEST.json` lists the same theorems. Status: *proved*; *partial* means that the theorem proves less than the property, in most
cases because the code violates it: then a theorem `_violated` proves the violation and the theorems `_partial` say what does hold.

- **C01 Vectorisation is invertible** (proved). `Arr2`/`List` models of both functions; entry-wise extensionality. 2-D arrays; no -1 wildcard in the shape. Theorems: `C01_unvec_vec`, `C01_vec_unvec`, `C01_unvec_error`, `C01_vec_entry` (Props/MatrixOps.lean).
- **C02 Real/complex stacking is invertible** (proved). Lists; induction on halves.  Theorems: `C02_complex_of_real`, `C02_real_of_complex` (Props/MatrixOps.lean).
- **C03 Odd-length stacked vectors are rejected** (partial). Same model, with numpy broadcasting of lengths 1. the code violates the property for lengths 1 and 3 (broadcasting); exact domain of the error proved. Theorems: `C03_odd_rejected_partial`, `C03_odd_rejected_violated` (Props/MatrixOps.lean).
- **C04 The real 2x2 block form is a faithful representation** (proved). Block matrix; finite sums split in halves.  Theorems: `C04_mul`, `C04_mulVec`, `C04_add`, `C04_injective` (Props/MatrixOps.lean).
- **C05 The complex form can be read back from the block form** (partial). The slices have float bounds: every path of the model raises. C05_division_partial: with an integer division of the sizes the slices are the real and imaginary blocks. Violated: the slice bounds are floats, so every call raises TypeError. But for the true division the expression reads every matrix back (C05_division_partial). Theorems: `C05_make_complex_matrix_violated`, `C05_division_partial` (Props/MatrixOps.lean).
- **C06 Duplication matrix** (proved). Double loop with bounds-checked assignments; closed form by loop invariant.  Theorems: `C06_duplication`, `C06_rows` (Props/MatrixOps.lean).
- **C07 Symmetric elimination matrix** (proved). Closed form by loop invariant, all n.  Theorems: `C07_elimination_sym`, `C07_left_inverse`, `C07_no_division_by_zero` (Props/MatrixOps.lean).
- **C08 Laplacian transformation matrix** (proved). Closed form by loop invariant, all n.  Theorems: `C08_transformation` (Props/MatrixOps.lean).
- **C09 Laplacian elimination matrix** (proved). Closed form by loop invariant, all n.  Theorems: `C09_left_inverse`, `C09_drops_diagonal` (Props/MatrixOps.lean).
- **C10 Projection onto admissible admittance matrices** (proved). From the closed forms of C06-C09.  Theorems: `C10_projection`, `C10_admissible`, `C10_fixed_iff`, `C10_idempotent` (Props/MatrixOps.lean).
- **C11 undelete inverts np.delete** (proved). `undelete` as repeated insertion; induction over the sorted indices.  Theorems: `C11_delete_undelete`, `C11_zero_rows`, `C11_undelete_delete`, `C11_order_irrelevant`, `C11_columns` (Props/MatrixOps.lean).
- **C12 Prior bookkeeping stays consistent** (partial). The prior as a state, each `add_*` as an operation; invariant over every history. Proved for every history; evaluation fails in the code for n = 1 (x.squeeze() is a scalar) and for a sparse prior with exactly one row (mu.squeeze()). Theorems: `C12_bookkeeping_partial`, `C12_bookkeeping_violated`, `C12_extra_values_desynchronise` (Props/Prior.lean).
- **C13 Meaning of each prior row** (proved). Appended rows computed for every call. Ratio rows need two different columns (a repeated column is overwritten). Theorems: `C13_exact`, `C13_sparsity`, `C13_adaptive_sparsity`, `C13_contrast`, `C13_ratios` (Props/Prior.lean).
- **C14 Adding a prior never alters earlier priors, and order does not matter** (proved). Histories; permutation of rows.  Theorems: `C14_prefix`, `C14_order_irrelevant` (Props/Prior.lean).
- **C15 log_distribution returns a valid convex quadratic model** (proved). `log_distribution` evaluated; entry-wise algebra, convexity.  Theorems: `C15_quadratic_model` (Props/Prior.lean).
- **C16 The reported penalty is the log-prior Σ|r|^order** (partial). Same evaluation; counterexamples by computation. Code returns sum |r|^(2-order): right for LAPLACE only. Theorems: `C16_penalty_laplace_partial`, `C16_penalty_formula`, `C16_penalty_gauss_violated`, `C16_penalty_delta_violated`, `C16_witness_violated` (Props/Prior.lean).
- **C17 Sparse and dense priors agree** (partial). Dense and sparse class side by side; simulation relation. Violated for single-row priors and for any call after a rejected call. Theorems: `C17_same_outcome_partial`, `C17_same_log_distribution_partial`, `C17_agree_violated` (Props/Prior.lean).
- **C18 Copy construction** (partial). Constructor with `other`. n is not copied: SmoothPrior(other=p) rejects every further call unless n is repeated. Theorems: `C18_copy_partial`, `C18_copy_violated` (Props/Prior.lean).
- **C19 Adaptive exact prior is normalised by the value** (partial). Method resolution of the subclass written out. SmoothPrior.add_exact_adaptive_prior calls BayesianPrior.add_exact_prior. Theorems: `C19_same_as_exact`, `C19_adaptive_violated`, `C19_base_class_partial` (Props/Prior.lean).
- **C20 A rejected prior leaves the object unchanged** (partial). State after the raise; for the exact statement the shapes after the extension of mu are computed and compared with those of L. Violated: mu is extended before the loop that may raise. Exact: a rejected call of the dense class leaves the prior as it was exactly if the shapes of weights and values do not fit, there are no values, or an index matrix has fewer than two columns; after every other rejected call no evaluation returns. In the sparse class every later call raises AttributeError. Theorems: `C20_rejected_violated`, `C20_early_rejection_partial`, `C20_exact_partial` (Props/Prior.lean, Props/PriorReject.lean).
- **C21 Absolute error metrics are norms of the difference** (proved). Finite sums; Minkowski. Metrics proved on arrays of any shape. Theorems: `C21_fro_distance`, `C21_fro_triangle`, `C21_max_distance`, `C21_max_triangle`, `C21_max_le_fro` (Props/Metrics.lean).
- **C22 Relative error metrics** (proved). Finite sums. Relative metrics, any shape. Theorems: `C22_rrms_scale`, `C22_rrms_zero`, `C22_map_ignores`, `C22_map_le_rrms`, `C22_bundle` (Props/Metrics.lean).
- **C23 Linearised noise covariance is first-order propagation** (proved). Scalar formulas; derivatives. Jacobian given by derivatives (HasDerivAt), for every sample and every accepted standard-deviation argument. Theorems: `C23_first_order`, `C23_psd_det` (Props/NoiseTransformation.lean).
- **C24 Exact noise covariance is the true covariance** (proved). Gaussian characteristic functions of Mathlib. Covariance in the sense of Mathlib for any probability space carrying the errors; exists_polar_errors shows such spaces exist. Theorems: `C24_exact_is_true_covariance` (Props/NoiseTransformation.lean).
- **C25 Average-true covariance is the conditional mean of the exact one** (proved). Same, integrated again over the true value. Expectation of the matrix the code itself returns for the random true value. Theorems: `C25_average_is_mean_of_exact` (Props/NoiseTransformation.lean).
- **C26 inverted=True returns the matrix inverse** (proved). 2x2 blocks; positivity of determinants. Both-sided inverse; positivity guarantees for all three functions. Theorems: `C26_inverse`, `C26_inverse_naive`, `C26_inverse_exact`, `C26_inverse_average` (Props/NoiseTransformation.lean).
- **C27 Covariance layout matches the data vectorisation** (proved). Positions of the block-diagonal layout. Both branches, all three functions. Theorems: `C27_layout`, `C27_constant_vector` (Props/NoiseTransformation.lean).
- **C28 Standard-deviation arguments of the wrong kind are rejected** (partial). Dispatch on the kinds of arguments. The code violates the property: wrong lengths are silently truncated, numpy scalars fail for one column. Exact characterisation of the accepted arguments proved. Theorems: `C28_wrong_length_violated`, `C28_scalar_violated`, `C28_accepted_partial` (Props/NoiseTransformation.lean).
- **C29 Ordinary least squares is optimal and recovers noise-free data** (proved). Moore-Penrose contract; normal equations. pinv is a parameter with the Moore-Penrose contract; optimality over all complex competitors. Theorems: `C29_minimiser`, `C29_recovery` (Props/LeastSquares.lean).
- **C30 Total least squares recovers noise-free data** (proved). SVD contract; kernel of [x z]. SVD and inverse are parameters; every valid SVD of [x z]. Theorems: `C30_recovery` (Props/LeastSquares.lean).
- **C31 The regression matrix encodes z = x·Y** (proved). Kronecker structure entry-wise. Both parametrisations, any number of samples and nodes. Theorems: `C31_linear_system`, `C31_params_admissible` (Props/Regression.lean).
- **C32 Fitted admittance matrices are always admissible** (proved). Invariant of the iteration. Every logged and returned matrix of both Bayesian fits. Theorems: `C32_regression`, `C32_eiv` (Props/Regression.lean).
- **C33 Iteration log of a fit** (proved). Fold with early exit. Log of a fit on a fresh object. Theorems: `C33_regression`, `C33_eiv` (Props/Regression.lean).
- **C34 Stopping rule** (proved). Fold with early exit. Exact stopping rule on a fresh object. Theorems: `C34_regression`, `C34_eiv` (Props/Regression.lean).
- **C35 Fitting again on the same object** (partial). Refit as fold from a non-empty log. Exact: the iterates form one sequence; both fits stop at the first index that obeys their rule, and first indices are unique. The code violates the property: the stationarity test indexes the accumulated log by the new iteration number. Exact for completed fits: the iterates do not depend on the object, only the moment of stopping does, and a refit equals the fresh fit exactly if the log of the fresh fit obeys the stopping rule with the old log put in front. In particular when the tolerance test cannot fire or at most one iteration is allowed. Theorems: `C35_refit_violated`, `C35_regression_partial`, `C35_eiv_partial`, `C35_regression_exact`, `C35_eiv_exact` (Props/Refit.lean, Props/RefitExact.lean).
- **C36 Iterations decrease the Bayesian objective** (proved). Majorisation-minimisation. Monotone descent of the smoothed objective for exact solves. Theorems: `C36_descent` (Props/Regression.lean).
- **C37 True parameters are a fixed point** (proved). Zero residual solves each step; identifiability gives uniqueness. Noise-free data and prior with zero residual: the true matrix is found and kept. Theorems: `C37_fixed_point`, `identifiable_of_full_rank` (Props/Regression.lean).
- **C38 Current weights are used** (partial). The weight conversion line by line. The code violates this: line 210 converts x_weight instead of z_weight, so a given z_weight never reaches the fit in the stated form. Exact guard proved. Theorems: `C38_weight_ignored`, `C38_violated`, `C38_partial` (Props/Eiv.lean).
- **C39 Error-in-variables sub-problem is solved exactly** (partial). Normal equations of the sub-problem. The code violates this in the first iteration for a non-symmetric initial matrix; proved for symmetric start, and from iteration 2 on for any start. C39_transpose says what the first iteration does instead: its correction is optimal for the transposed guess. Theorems: `C39_operator`, `C39_violated`, `C39_fit_partial`, `C39_later_partial`, `C39_transpose` (Props/Eiv.lean).
- **C40 Projection on the power-flow equations** (proved). Schur complement. The inverse is a parameter with the InvContract; includes that the inverted matrix is never singular. Theorems: `C40_projector`, `C40_projected_data` (Props/EivUnweighted.lean).
- **C41 Reported target of the unweighted error-in-variables fit** (partial). Exact logged value. The code violates this: the target adds the (unconjugated) sum of squares of the consistent voltages instead of the voltage misfit. Exact logged value proved (C41_trace). Theorems: `C41_trace`, `C41_violated`, `C41_partial` (Props/EivUnweighted.lean).
- **C42 Fisher information is AᵀW⁻¹A** (partial). Permutation and weight layout entry-wise. The code violates this in three ways: block form, exchanged pair order, and exchanged samples; what it computes is proved. C42_program: the same for eiv_fim, with the covariances it computes from noise levels and ratings. Theorems: `C42_partial`, `C42_samples_partial`, `C42_violated`, `C42_samples_violated`, `C42_program` (Props/Fisher.lean, Props/BayesWeights.lean).
- **C43 Adaptive lasso weights** (partial). Prior builder on top of the prior model. The code violates this: it takes the reciprocal twice, so the weight of parameter k is |y_k| instead of 1/|y_k|. Theorems: `C43_computes`, `C43_partial`, `C43_violated` (Props/IdPriors.lean).
- **C44 Complex prior penalises exactly the off-diagonal parameters** (proved). Prior builder on top of the prior model. Terms characterised as functions of an arbitrary symmetric matrix. Zero estimates divide by zero (inf in numpy, 0 in the model). Theorems: `C44_complex_prior`, `C44_diag` (Props/IdPriors.lean).
- **C45 Contrast centre** (partial). Prior builder on top of the prior model. Holds with one contrast row per node (nonzero row sums); violated with contrast_each_row=False: residuals are -3/2 and 3/2 lambda' (wrong sign, every line counted twice). Theorems: `C45_partial`, `C45_violated`, `complex_total` (Props/IdPriors.lean).
- **C46 Suboptimal prior selection** (partial). Masks and indices of the known lines. The code violates this: 'optimal' is a substring of 'suboptimal', so the nodes of the optimal choice are pinned as well. C46_partial: exact effect for strings naming only one choice. C46_branch_partial: what the branch for the suboptimal choice would do, if it were reached. Theorems: `C46_partial`, `C46_none`, `C46_violated`, `known_lines_optimal`, `C46_branch_partial` (Props/KnownLines.lean).
- **C47 Centring preserves the network equation** (proved). Means as linear operators. The condition for global centring is shown to be necessary unless the mean voltage is zero. Theorems: `C47_columns`, `C47_global`, `C47_global_iff` (Props/Identification.lean).
- **C48 Noise-free end-to-end recovery** (proved). Composition of C29, C30, C36, C37 inside the model of `standard_methods`. Under the contracts of pinv, svd, inv and spsolve (Spec/LinAlg); includes success of the lasso, storage and reloading of the three estimates. Theorems: `C48_recovery` (Props/Identification.lean).
- **C49 Stored results are what is loaded** (partial). Every stage as an operation on the store; frame lemmas for histories. Proved for all stages after any sequence of other stage calls, except for the noise stage: the ratings and the averaging factor are recomputed on loading, not read. They agree for the configured safety factor 4 in one phase; in three phases with equivalent noise the averaging factor differs (violated). Theorems: `C49_loads`, `C49_loads3`, `C49_simulation`, `C49_simulation3`, `C49_network`, `C49_standard`, `C49_standard3`, `C49_bayesian`, `C49_bayesian3`, `C49_fim`, `C49_filtered`, `C49_filtered_partial`, `C49_filtered3_partial`, `C49_filtered3_violated` (Props/Store.lean).
- **C50 Result files of different stages never collide** (partial). String prefixes of file names. The exact condition for a collision; violated for network names starting with the prefix of a stage (the network data have no prefix); no collision for plain names, which all templates have. Theorems: `C50_exact`, `C50_partial`, `C50_violated`, `templates_plain` (Props/Store.lean).
- **C51 Interrupted three-phase identification** (partial). Crash states of the program. Violated: the runs for single labels save under the name of the whole network, so an interruption leaves the result of one label. Holds for the runs that use no labels. Theorems: `C51_standard_violated`, `C51_bayesian_violated`, `C51_partial` (Props/Interrupt.lean).
- **C52 Three-phase results are assembled and read back without loss** (proved). Scatter/gather by label. Equivalences: the run succeeds exactly when the runs for the labels do, and returns exactly the assembled matrix; read back by C49. Theorems: `C52_standard`, `C52_bayesian`, `C49_standard3`, `C49_bayesian3` (Props/Phases.lean, Props/Store.lean).
- **C53 Merged three-phase iteration log** (proved). Fold over the logs.  Theorems: `C53`, `C52_bayesian` (Props/Phases.lean).
- **C54 Reloading three-phase Bayesian results** (partial). Loading branch of the three-phase program. Violated for every stored three-phase result with at least two columns: the loading branch is called per label and returns the whole matrix, which does not fit, so the program never completes; a stored result of the size of one phase is silently copied to all of them. Reloading works for one phase (C49). Theorems: `C54_violated`, `C54_copies`, `C54_program`, `C54_partial`, `C49_bayesian` (Props/Interrupt.lean, Props/Programs2.lean, Props/Store.lean).
- **C55 Kron reduction is electrically exact** (proved). Schur complement with pseudo-inverse. pinv is a parameter with the Moore-Penrose contract (satisfiable: exactPinv_contract). Eliminated nodes may be listed repeatedly. Theorems: `C55_exact`, `C55_refused` (Props/Kron.lean).
- **C56 Kron reduction preserves structure** (proved). Quotient property of Schur complements. Symmetry without invertibility; C56_duplicates_singular shows that the invertibility hypothesis is needed for repeated nodes. Theorems: `C56_symmetric`, `C56_rowSums`, `C56_duplicates`, `C56_two_steps`, `C56_duplicates_singular` (Props/Kron.lean).
- **C57 Reduced matrix and reduced measurements use the same node order** (partial). Executable model of CPython set order. Violated in every network of at least nine nodes: the rows follow the iteration order of a CPython set (modelled). Holds with at most eight nodes or when at least 3/5 of the nodes are kept. The shipped configuration (lists 1 to 5 on bolognani56) is in order, those with lists 1, 1-2 or 1-3 are not. Theorems: `C57_violated`, `C57_partial`, `C57_shipped`, `C57_lists_violated` (Props/Kron.lean, Props/Reduce.lean).
- **C58 Position of the grid connection** (partial). Index shifts of `reduce_network` on lists. Violated when an eliminated node directly follows the connection (its shifted index is taken for the connection). Proved for all other positions of one connection, for several connections followed at a distance, and for laplacian=True. Theorems: `C58_partial`, `C58_violated`, `C58_laplacian` (Props/Reduce.lean).
- **C59 Hidden constant-impedance loads** (partial). Same model, with shunts. Violated: the admittance is added with the wrong sign, and taken from another column when a connection precedes the node. Exact for hidden nodes without mean current; C58_partial states exactly which load the code assumes. Theorems: `C59_violated`, `C59_column_violated`, `C59_partial`, `C58_partial` (Props/Reduce.lean).
- **C60 Sub-Kron reduction with centred data** (proved). Row sums and centred data. C60_removed is the statement; C60_reduced follows the data through the reduction, deletion of columns and centring. Theorems: `C60_removed`, `C60_reduced` (Props/Reduce.lean).
- **C61 Sequence and phase conversions are mutually inverse** (proved). Cube roots of unity, block-wise. Rotations are the exact complex exponentials; widths that are not multiples of three raise. Theorems: `C61_admittance`, `C61_measurement`, `C61_width` (Props/Lines.lean).
- **C62 Network equation in the sequence domain** (partial). Same. Violated: measurements are multiplied by t_012 from the right while admittances are conjugated with t_012 on the left, so the converted equation holds exactly for matrices invariant under exchange of phases b and c (for matrices built by make_y_bus: exactly when positive and negative sequence agree). Theorems: `C62_violated`, `C62_partial`, `C62_networks` (Props/Lines.lean).
- **C63 Interleaved three-phase layout** (proved). Strided layout. Voltages, admittances and currents at position 3i+p; each symmetrical component of the currents depends on that of the voltages only; stride 3 reads back the three matrices. Theorems: `C63_admittances`, `C63_currents`, `C84_three` (Props/Simulation.lean).
- **C64 Passive nodes** (proved). Tables of buses and loads. C64_tables: for any tables with at most one symmetric and one asymmetric load per node (also both on one node). Bus tables as created by pandapower (contract: duplicate indices refused). A type-1 bus with scalar demand counts on every phase. Theorems: `C64_single`, `C64_three`, `C64_tables` (Props/Network.lean, Props/PassiveTables.lean).
- **C65 Lines from templates** (proved). Tables of lines. The mutation of the template objects by create_lines is modelled (the constructor returns the mutated template). Theorems: `C65_single`, `C65_three`, `C65_orientation`, `C65_twice`, `C65_rejected` (Props/Network.lean).
- **C66 Admittance matrix round trip** (partial). Tables of lines and textbook assembly. Violated: nominal voltages are looked up by label instead of position. C66_entries gives the matrix that comes back in general; the round trip holds for the guard of C66_partial, in particular for templates with one nominal voltage. What pandapower computes from the lines is modelled as the textbook assembly. Theorems: `C66_entries`, `C66_violated`, `C66_raises`, `C66_partial`, `C66_templates_partial` (Props/Network.lean).
- **C67 Line editing operations** (partial). Tables of lines. All three clauses are violated for single-phase networks; C67_partial covers what holds for three phases. Theorems: `C67_createLine_violated`, `C67_constructor_violated`, `C67_removeLines_violated`, `C67_partial` (Props/Network.lean).
- **C68 Resampling and block averaging** (proved). Linear interpolation as convex combination. Linear interpolation of scipy written out; increasing old times (the callers use equally spaced ones). Theorems: `C68_blocks`, `C68_weights`, `C68_convex`, `C68_constant`, `C68_network`, `C68_rejected` (Props/Noise.lean).
- **C69 Zero noise changes nothing** (proved). Any stream of samples. For every stream of samples; polar and Cartesian noise, also inside the resampling. Theorems: `C69_series`, `C69_array`, `C69_both`, `C69_cartesian`, `C69_filter` (Props/Noise.lean).
- **C70 Simulated phase noise matches the assumed noise model** (partial). Law of the noise for Gaussian samples. Violated: the phase noise is multiplied by the phase itself (none at all at phase zero); the configured law is met exactly at phases of 1 rad, and the magnitude law exactly at magnitude 1. Theorems: `C70_violated`, `C70_partial` (Props/NoiseLaw.lean).
- **C71 Equivalent noise** (proved). Sums of independent Gaussians. C71_equivalent: for the code's polar noise without phase noise on a constant series, the full simulation gives exactly the law of the equivalent-noise option (take fparam=1 and sd/sqrt(fparam)). Theorems: `C71_variance`, `C71_equivalent` (Props/NoiseLaw.lean).
- **C72 The returned averaging factor describes the returned data** (partial). Both branches. Proved for one phase, and for three phases without equivalent noise; violated with it (fparam is returned as 1). Theorems: `C72_single`, `C72_three_partial`, `C72_violated` (Props/Sampling.lean).
- **C73 Sensor ratings** (partial). Closed form of the rating loop. Violated: the squared power is used, and a second grid connection includes the first in its sum. C73_values gives the ratings in closed form; C73_partial has one connection and the squared power. Theorems: `C73_values`, `C73_violated`, `C73_two_connections_violated`, `C73_partial` (Props/Sampling.lean).
- **C74 Sensor ratings line up with measurement columns** (partial). Positions. Holds for one phase; violated for three phases (ratings ordered by phase, columns by node). Theorems: `C74_single`, `C74_three_entries`, `C74_three_violated`, `C74_three_partial` (Props/Sampling.lean).
- **C75 Load profile selection** (partial). Profile selection with the percentile. Violated for a week that runs beyond the end of the file: fewer rows, no error. Proved for weeks inside the files, for one and three phases, with the percentile specified independently. Theorems: `C75_partial`, `C75_violated` (Props/Loads.lean, Props/Loads2.lean).
- **C76 Load and time vectors have equal length** (partial). Lengths. Violated whenever the number of minutes is not a multiple of the number of weeks. Holds when it is and the files cover the weeks, and always for random loads. Exact division; the float computation of the length can lose one more row. Theorems: `C76_violated`, `C76_partial`, `C76_gaussian` (Props/Loads.lean, Props/Loads2.lean).
- **C77 Constant-load blending** (proved). Columns. One and three phases, profiles and random loads. Theorems: `C77`, `C77_three` (Props/Loads.lean, Props/Loads3.lean).
- **C78 Which stages are recomputed** (proved). Case analysis of the program. Each stage of a completed run either computed its result or read it from the store, as the flags say; the others are left untouched. Theorems: `C78_simulate`, `C78_simulate3`, `C78_identify`, `C78_identify3`, `C78_untouched` (Props/Programs.lean).
- **C79 Phase selection** (partial). Case analysis of the program. Violated: on data of phase 1 only, asking for another phase or sequence keeps everything instead of failing. Otherwise exactly the labelled rows, columns and ratings are kept, and the selection fails exactly when there are none. Theorems: `C79_accepts`, `C79_partial`, `C79_violated` (Props/Programs2.lean).
- **C80 Uncertainty analysis and continued identification** (partial). Case analysis of the program. Violated: no run with either flag completes. Without them a run completes exactly when its inputs can be read and selected and the methods complete. Theorems: `C80_violated`, `C80_uncertainty`, `C80_continue`, `C80_partial` (Props/Programs2.lean).
- **C81 Constant-load nodes are the configured hidden nodes** (partial). Case analysis of the program. Violated: for a single phase without laplacian the buses at the external grid are added. Harmless when their nominal powers are zero. Theorems: `C81_exact`, `C81_violated`, `C81_partial`, `C81_harmless` (Props/Programs2.lean).
- **C82 GPU and CPU matrix helpers agree** (proved). Both versions modelled where they differ. vectorisation and make_real_matrix differ in code and are proved equal, the latter for arrays and sparse matrices; the other GPU helpers are the same expressions and share one model definition. Theorems: `C82_gpu_vectorize`, `C82_gpu_make_real_matrix`, `C168_make_real` (Props/MatrixOps.lean, Props/Sparse.lean).
- **C83 Three-phase Gaussian loads** (partial). Case analysis. Violated: NameError for every network, and the arrays would be in the wrong order. Proved for profiles from files. Theorems: `C83_violated`, `C83_order_violated`, `C83_partial` (Props/Loads3.lean).
- **C84 Simulated currents are consistent with the voltages** (proved). Power flow results as parameters. Angles as elements of the circle, magnitudes and angles of the power flow arbitrary (also negative magnitudes). Theorems: `C84`, `C84_none`, `C84_three` (Props/Simulation.lean).
- **C85 Batch script restores the configuration** (partial). `sed` on texts, the script as a list of commands. Violated: a comment that mentions another value of the list is rewritten. Holds, with every interruption point, for texts with each setting at one place, as those of the repository. Theorems: `C85_partial`, `C85_violated` (Props/Script.lean, Props/Script3.lean).
- **C86 Number of noisy samples** (proved). Lengths. For every returned result, in both branches (equivalent noise or not). Theorems: `C86_single`, `C86_three` (Props/Sampling.lean).
- **C87 Weighted EIV alternating minimisation descends** (proved). Alternating minimisation. Smoothed objective; exact solver contract. C39_transpose gives the descent from the first logged matrix on for any initial guess. Theorems: `C87_descent`, `C39_transpose` (Props/Eiv.lean).
- **C88 Weighted EIV fit never raises** (proved). Positive definiteness of every system. Solver succeeds on nonsingular systems by contract. Theorems: `C88_no_exception` (Props/Eiv.lean).
- **C89 Unweighted EIV fit never raises** (proved). Positive definiteness of every system; for C89_data the projected voltages keep full column rank. Solver and inverse are parameters with contracts. C89_data needs no prior that spans: data without linear relations suffice. Theorems: `C89_no_exception`, `C89_data` (Props/EivUnweighted.lean, Props/EivRun.lean).
- **C90 Diagonal regularisation yields a usable prior** (partial). Bookkeeping of C12. Violated in Laplacian mode: 2n more centres than rows, log_distribution always raises. Outside Laplacian mode C44_diag gives the consistent prior. Theorems: `C90_violated`, `C44_diag` (Props/IdPriors.lean).
- **C91 Loads prior** (proved). Prior builder.  Theorems: `C91_loads_prior` (Props/IdPriors.lean).
- **C92 Known lines are pinned in both modes** (partial). Masks and indices; C92_partial, C92_prior_violated and C92_few_violated are about the prior that bayesian_eiv builds itself. The last finds for every size from 29 to 38 a known line whose position lies beyond the parameters; a loop whose steps raise only IndexError then raises it. Violated with the Laplacian constraint, because bayesian_eiv calls add_known_lines with laplacian=False: for at least 39 nodes the terms are other ones (C92_prior_violated), for fewer nodes IndexError is raised (C92_few_violated, C92_accepts). This is reachable by calling bayesian_eiv directly; identify_network.py passes a known matrix only without the constraint. C92_partial: holds without it for at least 29 nodes. Theorems: `C92_prior_violated`, `C92_few_violated`, `C92_accepts`, `C92_violated`, `C92_partial`, `C46_partial` (Props/KnownIdentify.lean, Props/KnownFew.lean, Props/KnownLines.lean).
- **C93 Regularised regression never raises** (proved). Positive definiteness. Stated for identifiable problems; identifiable_fullColumnRank: full column rank suffices. spsolve solves every system with trivial kernel (contract). Theorems: `C93_no_exception`, `identifiable_fullColumnRank` (Props/Identification.lean).
- **C94 Connected networks can be Kron-reduced** (proved). Energy argument on connected graphs. Energy argument; gives the hypotheses of C55 and C56 for connected resistive networks. Theorems: `C94_nonsingular`, `C94_reducible` (Props/Kron.lean).
- **C95 Three-phase reduction** (partial). Three-phase index bookkeeping. Violated with an IndexError when the connection is not last and the last node is hidden. Exact when the connection is last, hidden loads are balanced and nodes are passive on all phases or none (or reduce_single is off). Theorems: `C95_violated`, `C95_partial` (Props/Reduce3.lean).
- **C96 Nodes loaded on some phases only** (partial). Three-phase index bookkeeping. Violated whenever the first two phases have different numbers of passive nodes. Holds (C95_partial) when nodes are passive on all phases or none. Theorems: `C96_violated`, `C95_partial` (Props/Reduce3.lean).
- **C97 Loads that feed in power** (partial). Error branches; rounding to a nonnegative number of households is equivalent to at least -1/2, the mean percentile is unique and nonnegative. Three phases: C97_three_gaussian_violated (random loads: NameError), C97_three_profiles_partial (with profiles loads are generated exactly if no symmetric load and no phase of an asymmetric load is below minus half of the mean percentile), C97_three_zero (a phase with negative nominal power then has no load). Violated: ValueError for random loads (NameError for three phases); with profiles no load, and no phase of an asymmetric load, may be below minus half of the mean percentile, and those above are replaced by no load (C97_zero, C97_three_zero). Guards are exact (iff): random loads need nonnegative nominal powers, profiles feed-in of at most half of the mean percentile. Theorems: `C97_gaussian_violated`, `C97_profiles_violated`, `C97_gaussian_partial`, `C97_profiles_partial`, `C97_zero`, `C97_three_gaussian_violated`, `C97_three_profiles_partial`, `C97_three_zero` (Props/Loads2.lean, Props/LoadSign.lean, Props/LoadSign3.lean).
- **C98 Nodes without nominal power** (proved). Error-free zero columns.  Theorems: `C98`, `C98_three` (Props/Loads2.lean, Props/LoadsZero3.lean).
- **C99 Law of random loads** (proved). Gaussian laws. Given independent standard normal samples (exists_standard_normals). Theorems: `C99` (Props/Loads2.lean).
- **C100 Runs of one network leave other networks alone** (proved). Frame lemmas for the programs. For plain names (C50). Interruptions are between saves; a save is one step. Theorems: `C100` (Props/Store.lean).
- **C101 A second run of the script restores the configuration after an interruption** (partial). The script from an intermediate state. Violated with -s for every configuration: a seed 1311 or 70 days remain. Holds when no value of a list begins another one, as with -n. Theorems: `C101_violated`, `C101_partial` (Props/Script3.lean).
- **C102 Each run of the script finds the settings it is meant for** (proved). The script round by round. The letters accepted are characterised by induction (C102_flags), and the runs for the lists of the repository are written out (C102_noises, C102_days).  Theorems: `C102`, `C102_flags`, `C102_refused`, `C102_noises`, `C102_days` (Props/Script.lean, Props/ScriptRuns.lean).
- **C103 Cartesian noise has the announced law** (proved). Laws of the draws, position of every draw.  Theorems: `C103`, `C103_rejected`, `C103_returned` (Props/Cartesian.lean).
- **C104 Errors do not depend on the displayed components** (proved). The conversions multiply by unitary blocks up to a scalar; Frobenius norms are kept.  Theorems: `C104`, `C104_stated` (Props/PlotResults.lean, Props/PlotSparsity.lean).
- **C105 The report completes on stored results** (partial). Exact outcome of the report for results of consistent sizes. Violated: in Laplacian mode a network in which all nodes are connected with each other makes max() of an empty array raise; without standard results a name is undefined. Exact condition for completion proved. Theorems: `C105_partial`, `C105_violated`, `C105_violated_missing` (Props/PlotReport.lean).
- **C106 Sparsity metrics** (proved). Closed forms of the elimination matrices applied to the vectorised matrices. Where results are shown as stored; in Laplacian mode. Theorems: `C106` (Props/PlotSparsity.lean).
- **C107 Voltages of the report** (partial). Case analysis of the report. For three phases the report shows all stored voltages in the coordinates asked for (C107_three). Violated: always the voltages labelled 1; if phase 1 has another number of nodes the report fails. Theorems: `C107_partial`, `C107_violated`, `C107_three` (Props/PlotReport.lean, Props/PlotVoltage.lean).
- **C108 The last plotted error is that of the estimate** (partial). Last entry of the log (C33) and merged log (C53). C108_violated: three samples of one node on each of three sequences, no prior and no weights, three iterations: the sequences started at 0 stop after two iterations, the one started at 1 makes three, and the last entry of the merged log differs from the estimate; for every exact solver and inverse. Violated for three phases: the merged log ends with the shortest log (concrete run proved for `bayesian_eiv` of run3ph.py). Proved for one phase; for three phases the exact condition is proved, the last point is that of the estimate if the three fits took equally many iterations. Theorems: `C108_single`, `C108_partial`, `C108_report`, `C108_violated` (Props/PlotLog.lean, Props/ShortLog.lean).
- **C109 Reports of different networks are kept apart** (partial). Names of all outputs of a complete report. Violated: file names do not contain the network, and files of kinds of results that are missing stay in place. Theorems: `C109_violated`, `C109_stale` (Props/PlotLog.lean).
- **C110 Colours and labels of plots** (partial). Maps over column indices. plot_series with labels raises AttributeError (`scaplottter`). A list with too few colours gives every series the first colour. Theorems: `C110_colors`, `C110_scatter`, `C110_series`, `C110_violated` (Props/PlotLog.lean).
- **C111 The report after an identification** (partial). C78 composed with C104 and C105; for three phases the shapes of the results through the scatter assignments; no lines between sequences by C122. The files hold the estimates of the run and a complete report states their errors (proved for all options). Completion: exact condition for one phase and for all phases or sequences; it fails for fully connected Laplacians (C111_violated: the phase view of an identified Laplacian) and for phases with another number of nodes than phase 1 (C105, C107). After simulate and identify in sequence coordinates the report in sequence coordinates always completes. Theorems: `C111_violated`, `C111_stored`, `C111_states`, `C111_completes`, `C111_completes3`, `C111_pipeline3` (Props/PlotPipeline3.lean, Props/PlotPipeline.lean).
- **C112 The regression with prior converges** (proved). Iteratively reweighted least squares as majorisation: coercivity, tangent bound with a quadratic gap, compactness, uniqueness of the stationary point. For an exact solver of regular systems (scipy's spsolve is a parameter). Theorems: `C112_converges`, `C112_lasso` (Props/Converge.lean).
- **C113 Fixed points of the iteration** (proved). Fixed points are stationary points; the objective is strictly convex. For an exact solver. Theorems: `C113_fixed_points` (Props/Converge.lean).
- **C114 Law of the noise in polar coordinates** (proved). Positions of the samples are distinct; scaled independent normals. numpy's generator is a sequence of independent standard normal variables, used in order. Theorems: `C114`, `C114_rejected` (Props/PolarLaw.lean).
- **C115 Identification inverts a simulation without noise** (proved). Resampling and averaging are one linear map for all columns, so the network equation survives; then the reductions of C57 to C60 and the recoveries of C29 and C30. C115_shipped: for the shipped networks the hypotheses on the matrix follow from the tables (Spec.Pandapower states what pandapower returns); shipped_excited gives, for each of them, a run whose centred voltages are independent. Contracts of pinv, inv, SVD and the sparse solver are hypotheses, met by exact routines (exactPinv, exactInv, exactSvd, exactSolve); the power flow keeps connection voltages and injects nothing at passive nodes. demo_C115 is a run that meets all hypotheses. Theorems: `C115`, `C115_data`, `C115_shipped`, `shipped_excited` (Props/Pipeline.lean, Props/ShippedPrograms.lean, Props/ShippedDemo.lean).
- **C116 The simulation completes** (proved). Each stage is shown to return a value; the number of rating entries is the number of load rows. The power flow and make_y_bus are parameters. C116 is for random loads, C116_profiles for loads from files. demo_C116 meets the hypotheses. Theorems: `C116`, `C116_profiles`, `C116_needs_loads` (Props/SimulateRun.lean, Props/SimulateRun3.lean).
- **C117 Least-squares estimates are stable under bounded noise** (proved). Least squares: the pseudo-inverse projects, so the error solves a normal equation. Total least squares: the trailing right singular vectors are shrunk at least as much as any subspace of the same dimension, so the block that is inverted is injective. Contracts of pinv, inv and SVD are hypotheses, met by exactPinv, exactInv and exactSvd. An example gives data with error 1 and excitation 3. Theorems: `C117_ols`, `C117_tls` (Props/Stability.lean).
- **C118 Network tables stay closed under removals** (proved). Invariant of the building loops; the tables after a removal are filters of the tables before. The pandapower functions drop_buses and drop_lines are modelled from their documented behaviour. Theorems: `C118_single`, `C118_three`, `C118_removeBuses`, `C118_removeLine` (Props/Remove.lean).
- **C119 identify_network.py returns on data with small noise** (proved). C117 for the standard methods, C93 for the lasso, C88 and C89 for the Bayesian method with the priors and weights the code builds. Contracts of the numerical routines are hypotheses, met by exactPinv, exactInv, exactSvd, exactSolve. --exact is covered with the Laplacian constraint or for at least 29 nodes (C125 for fewer). An example gives data with noise on which the script returns. Theorems: `C119`, `complex_prior`, `eiv_prior`, `eivWeights_ok`, `eivCompute_ok`, `standard_noisy` (Props/IdentifyRun.lean, Props/Weights.lean).
- **C120 Simulation with noise followed by identification stays close to the stored reference** (proved). C115_data gives the equation of the stored data, then C119. C120_shipped: the same for the shipped networks, without a hypothesis on the matrix or the ratings. The power flow contract of C115 is a hypothesis. The bounds are on the centred data. demo_C120 meets all hypotheses. Theorems: `C120`, `simulate_shape`, `demo_C120`, `C120_shipped` (Props/NoisyPipeline.lean, Props/ShippedPrograms.lean).
- **C121 The CSV and the numpy reader of household profiles agree** (partial). Rows read by each reader computed by induction over the weeks; the rest is shared. Negations with general witnesses. Holds (also for exceptions) when both files have the same length and contain all weeks. Beyond the end of the files the CSV reader raises ValueError where the other returns fewer samples; a reactive file longer by d lines gives d reactive samples too many; no weeks give TypeError instead of IndexError. pandas.read_csv is modelled on files of numbers. Theorems: `C121_partial`, `C121_overrun`, `C121_violated`, `C121_empty` (Props/LoadsCsv.lean).
- **C122 Identification of a simulated three-phase network in sequence coordinates** (proved). Kron reduction done in sequence coordinates (`reduce3_exact`), deletion of the three columns of each removed node, conversion of measurements and admittances (`sequence_exact`), then least squares per sequence (`network3_exact`). Shipped networks: positive and negative sequence blocks are the reductions of matrices that agree besides the connection, so they are equal and the exchange has no effect; the estimates are the reference. shipped3_excited: for every shipped three-phase network a run without noise whose centred voltages of each sequence are linearly independent; demo_C141_three_shipped: both programs on it. For the shipped networks (C122_shipped) positive and negative sequence blocks are equal and the estimates are the stored reference. Theorems: `C122`, `C122_data`, `demo128_data`, `C122_shipped`, `demo_C141_three_shipped` (Props/Pipeline3.lean, Props/PipelineDemo3.lean, Props/Shipped3.lean, Props/ShippedDemo3.lean).
- **C123 The simulation of three-phase networks completes** (proved). Each stage is shown to return a value: profiles from the contents of the files, three load rows per node, power flow, Kron reduction in sequence coordinates, noise and filtering, conversion. The random branch by evaluation of the generator. The power flow and make_y_bus (built from three sequence matrices) are parameters. demo_C123 meets the hypotheses. Theorems: `C123`, `C123_gaussian`, `demo_C123` (Props/SimulateRun3.lean, Props/PipelineDemo3.lean).
- **C124 Identification in sequence values completes with error bounds** (proved). Each label is one run of C117 on the columns of that label; the per-label results are shown to assemble. Contracts of inv, pinv, SVD and the sparse solver are hypotheses, met by exact routines. Its hypotheses are met in demo_C128. Theorems: `C124`, `demo_C128` (Props/IdentifyRun3.lean, Props/PipelineDemo3.lean).
- **C125 Known lines can be given for every network** (partial). The known lines are read from the stored matrix at fixed positions; below 29 rows one of the reads is out of range (known_few). From 29 on the extended prior keeps the properties C119 needs (eiv_prior). The example builds data for every size. The code violates this: below 29 nodes every run with --exact and without the Laplacian constraint fails (C125_needs, C125_needs3), with IndexError after the standard methods (C125_few). From 29 nodes on it completes (C119, C124 with the option --exact). An example shows both sides for every size. Theorems: `C125_few`, `C125_needs`, `C125_needs3`, `C119`, `C124` (Props/KnownIdentify.lean, Props/IdentifyRun.lean, Props/IdentifyRun3.lean).
- **C126 Weights of the Bayesian method** (partial). C25 and C26 for the covariance and its inverse, C87 for the minimisation; the violation by evaluation with two noise levels. The code violates this: the result, log and files do not depend on the noise of the currents or on the ratings (C126_violated for bayesian_eiv, C126_identify_violated for the program, every option). C126_partial: what is minimised instead uses the inverse covariance of the voltages for both. Examples give runs that return. C126_program_partial states the same for identify_network.py with the configured noise divided by the square root of the number of averaged samples; demo_C126 is a weighted run that meets its hypotheses. Theorems: `C126_violated`, `C126_identify_violated`, `C126_partial`, `eivWeights_meaning`, `C126_program_partial`, `demo_C126`, `C126_three_partial` (Props/BayesWeights.lean, Props/BayesProgram.lean, Props/Standard3.lean).
- **C127 Unsynchronised measurements are turned** (partial). Equality of the two programs. Without weights the option is not read (C127_violated). With weights the data enter bayesian_eiv only through the magnitudes of the voltages and the complex powers: data with equal meters (Spec.SameMeters) give the same outcome, for one phase (C127_partial) and for three (C127_three_partial). But the standard methods, whose total least squares estimate is the starting point and makes the weights of the prior, use the phases: C127_initial_violated gives two data sets with the same meters and different estimates of the whole program. Violated without --weighted: the option changes nothing (C127_violated, one and three phases). Violated with --weighted: the initial estimate is computed from the phases (C127_initial_violated). Proved: given the initial estimate, the weighted Bayesian method uses only magnitudes and complex powers (C127_partial, C127_three_partial). Theorems: `C127_violated`, `C126_partial`, `C127_partial`, `C127_three_partial`, `C127_initial_violated` (Props/BayesWeights.lean, Props/Unsynchronized.lean).
- **C128 Three-phase simulation with noise followed by identification** (proved). C122_data (extended by the shapes of the noisy data) into C124, with the exchanged blocks as reference. C128_shipped: for the three shipped three-phase networks the exchanged blocks are equal (C167_shipped), so the bounds are relative to the block of the same sequence. Contracts of the power flow, pinv, inv, SVD and the sparse solver are hypotheses. demo_C128 meets all hypotheses with three different line admittances g0, g1, g2: the stored matrix is diag(g0, g1, g2), the estimates are diag(g0, g2, g1). Theorems: `C128`, `demo_C128`, `C128_shipped` (Props/NoisyPipeline3.lean, Props/PipelineDemo3.lean, Props/Shipped3.lean).
- **C129 Uncertainty results are stored and reported** (partial). Frame of simulate and identify (C100) over a list of runs; inversion of the report program. The code violates this: no sequence of runs with any options, completed or not, creates the file, so a completed report never shows the deviations (C129_violated; demo_C129 is a run with --uncertainty that raises NameError after storing everything else, followed by a complete report). C129_partial, C129_completes: what the report shows once such a file is there, and that it is then completed. demo_C130 is such a report. Theorems: `C129_violated`, `C129_partial`, `C129_completes`, `runs_uncertainty`, `demo_C129` (Props/Uncertainty.lean).
- **C130 Deviations shown in the report** (partial). vᵀv = 1 and c = v diag(w) vᵀ give the sum of squares as a trace; the factor 1/n contradicts equality of all moduli; a rotated basis of the identity as witness. The code violates this: for two or more nodes the moduli are never the standard deviations unless all are zero (C130_violated), and they depend on the eigenvectors (C130_choice_violated). C130_partial: the sum of their squares is the mean of the variances, and for one node the modulus is the standard deviation. Roots and quotients are exact reals. Theorems: `C130_violated`, `C130_choice_violated`, `C130_partial`, `demo_C130` (Props/Uncertainty.lean).
- **C131 The fit stops once it has converged** (partial). Trace of the fit in vector form (reg_trace); scalar recursion of one separated parameter; convergence of C112 and continuity of the target for the general statement. The code violates this: the step solves the normal equations with weight lambda while the logged target counts the penalty without the factor two, so the targets of a converging fit can increase for ever, and the stop test requires that they do not. C131_violated: for data that separate the parameters every number of iterations is used, with increasing targets, although the matrices converge. C131_lasso_violated and C131_shipped_violated: the Bayesian estimate of identify_network.py is different for every max_iterations on orthogonal voltages (an instance: two nodes, one line, shipped lambda). What holds: a bound on the number of iterations if the targets do not increase (C131_bound_partial), which is so for the weighted error-in-variables fit without prior (C131_eiv_partial); two iterations without prior, with squares only, or with exact data and prior (C131_squares_partial, C131_exact_partial); and in general, after finitely many iterations, an increase of the target is the only reason not to stop (C131_increasing_partial). Theorems: `C131_violated`, `C131_lasso_violated`, `C131_shipped_violated`, `C131_bound_partial`, `C131_squares_partial`, `C131_eiv_partial`, `C131_exact_partial`, `C131_increasing_partial` (Props/Stop.lean, Props/EivExact.lean).
- **C132 The error-in-variables fit keeps an exact initial guess** (proved). Zero cost forces the correction and the residual to vanish by positive definiteness; invariant of the run; equal targets stop at the second iteration. Weighted branch, the weights of the voltages are used for both as the code does. Exact solver. Theorems: `C132_fixed` (Props/EivExact.lean).
- **C133 The simulated network is the one of the template** (proved). Inversion of the construction of buses and lines over the template; the sum over the line table is turned into a sum over the lines of the template in service, and positions into bus numbers by their being different. The admittance matrix is that of the model of pandapower's line table (makeYBus: pi model without shunts), for single-phase networks; that pandapower gives it is the hypothesis of C133_stored. Theorems: `C133_builds`, `C133_builds3`, `C133_single`, `C133_three`, `C133_ybus`, `C133_stored` (Props/Template.lean).
- **C134 A network can be recreated from its admittance matrix** (proved). The admittance matrix of C133 is symmetric with rows of sum zero, so that the round trip of C66 applies. For other bus numbers and voltages the round trip fails, see C66. Theorems: `C134_none`, `C134_roundtrip`, `C134_three` (Props/Template.lean).
- **C135 Nodes can be eliminated exactly when they are connected to a kept node** (proved). The real part of the energy of a vector in the kernel of the block is a sum of nonnegative terms over the lines; hence the vector is constant along lines and zero next to kept nodes. Conversely the indicator of a component inside the set is in the kernel.  Theorems: `C135_iff` (Props/Connected.lean).
- **C136 The shipped networks can be simulated** (proved). Model/Templates.lean holds the data of the template files; a parent of every node with decreasing depth is checked by the kernel for each of the eight finite templates, and connectivity, C133, C134 and C135 give the rest for all sets, loads and settings. Three phases: the sequence networks of the shipped templates have lines with positive resistances (C181), are connected to the grid connection, hence dissipate and every set without the connection can be eliminated; that pandapower makes the sequence matrices from these lines, up to entries at the connection, is a hypothesis. The template data are copied from the two template files; convergence of the power flow is a hypothesis, as it is outside the repository. Theorems: `C136_network`, `C136_recreate`, `C136_runs`, `C136_three`, `C136_types`, `C136_three_matrices` (Props/Shipped.lean, Props/LineTypes.lean).
- **C137 The shipped settings work for every shipped network** (partial). A successful run has been through the lookup of every hidden label, inverted for both kinds of networks; label 54 is hidden and no bus of six of the networks. Violated: a run only succeeds if every hidden label is a bus of the network, and the shipped list has labels up to 55, so that no run succeeds for the six shipped networks with fewer buses (ValueError of list.index). Partial: the labels are buses of bolognani56 and of ieee123center; for both, runs complete if the power flow converges. Theorems: `C137_known`, `C137_violated`, `C137_buses_partial`, `C137_runs_partial`, `C171_three_partial` (Props/Shipped.lean, Props/HiddenRun.lean, Props/HiddenRun3.lean).
- **C138 The nodes listed as observed are the ones kept** (partial). The list is unfolded to an equivalence for all integers; the counts follow. Violated: the list of hidden nodes subtracts one from the observed numbers although buses are labelled from one, so that 17 of the 32 observed nodes are hidden and 16 other nodes are kept; every successful run for bolognani56 omits the measurements of observed node 28 and stores those of node 27. Exact condition: a node is hidden if and only if its successor is not observed. Theorems: `C138_exact`, `C138_violated`, `C138_run_violated` (Props/Shipped.lean, Props/HiddenRun.lean).
- **C139 What a run with hidden nodes stores, and that it completes** (proved). The run is inverted into its stages; the deleted columns are the union of the positions of hidden, passive and connection labels. For completion each stage is shown to succeed: with at most one connection the shifted positions stay inside the smaller matrix, and the averaged voltages of the hidden nodes have positive real part, so that no mean is zero. Convergence of the power flow is a hypothesis, as it is outside the repository. Theorems: `C139_stored`, `C139_completes`, `C139_shipped` (Props/HiddenRun.lean).
- **C140 Without noise the network seen from the measured nodes is identified when hidden nodes are constant impedances** (partial). Averaging is linear, so that constant impedances remain constant impedances in the stored data. The reduced network with the impedances connected exists (C58 applied to the negated currents) and its equation holds for the centred data; by linear independence the estimates are that network. The witness is a run of both programs on three nodes. Three phases in sequence values: the averaged phase data keep the constant impedances; the sequence networks with the impedances connected give the equation of the centred sequence data, positive and negative exchanged (C122), and the stored blocks are those with the impedances negated. Three-phase witness (C140_three_violated): reference diagonal 0, estimates 2/3. Theorems: `C140_estimate`, `C140_violated`, `C140_partial`, `C140_three_data`, `C140_three_estimate`, `C140_three_partial`, `C140_three_violated` (Props/HiddenLoads.lean, Props/HiddenLoads3.lean, Props/HiddenDemo3.lean).
- **C141 Without noise the lasso estimate is near the admittance matrix but not equal to it** (proved). The fit starts from the exact matrix and no iteration increases the objective (C36, C113), so that the final misfit is at most the penalty of the exact matrix, which the smoothed absolute value bounds. The exact matrix is never the minimiser: shrinking it by a small factor raises the misfit quadratically but lowers the penalty linearly; hence the first iteration decreases the objective strictly and the estimate cannot return. C141_programs: through both programs; C141_shipped: for every shipped single-phase network, without --laplacian, the lasso estimate always differs from the stored reference; demo_C141_shipped runs both programs for each of them. C141_three: the same per sequence for three phases; C141_three_shipped: for every shipped three-phase network the lasso estimate differs from the stored reference. demo_C141_three_shipped: such runs of both programs for every shipped three-phase network. The matrix is assumed symmetric, and with zero row sums in Laplacian mode, because the fit returns such matrices only. The constant of the distance is a lower bound of the squared singular values of the voltages. Theorems: `C141`, `C141_standard`, `C141_programs`, `C141_shipped`, `demo_C141_shipped`, `C141_three`, `C141_three_shipped`, `demo_C141_three`, `demo_C141_three_shipped` (Props/LassoExact.lean, Props/ShippedPrograms.lean, Props/ShippedDemo.lean, Props/LassoExact3.lean, Props/ShippedDemo3.lean).
- **C142 The total least squares estimate solves the total least squares problem** (proved). The last right singular vectors span the columns of Y over -1. The projection on any space of dimension m retains at least the sum of the m smallest squared singular values (weighted sum of diagonal entries of a projection), and this projection attains it; equality with a gap forces the same space, hence the same matrix. The optimality is the truncation theorem of Eckart, Young and Mirsky, proved in Lemmas/EckartYoung.lean for the form needed. svd and inv are specified by contracts that exact arithmetic meets. Theorems: `C142`, `C142_unique`, `C142_standard`, `C142_noisy`, `C142_three` (Props/TlsOptimal.lean, Props/NoisyGap.lean, Props/Standard3.lean).
- **C143 White noise does not disturb the total least squares estimate but shrinks the ordinary one** (proved). The tail of the singular values of the noisy data is the noise power times the number of currents, which leaves nothing for the exact data: these vanish on the last singular vectors, hence [1 Y] does. The ordinary estimate solves (A + c) b = A y with A positive semidefinite, from which |b| < |y|. The exact voltages must be linearly independent. The correlations are those of the sample, so that the claim is exact and not asymptotic. Theorems: `C143_tls`, `C143_ols`, `C143_standard`, `C143_three` (Props/IsotropicNoise.lean, Props/Standard3.lean).
- **C144 Numbering, order, reference angles and units** (proved). All changes are unitary factors and scalars. The pseudo-inverse follows them by its uniqueness; the correction of C142 and the singular values with their gap follow them too, and the gap determines the space of the last singular vectors. For the units an explicit matrix with a smaller correction is given. For total least squares a gap after the first n singular values is assumed, without which the estimate depends on the decomposition. Theorems: `C144_ols`, `C144_tls`, `C144_units` (Props/Invariance.lean).
- **C145 Missing result files** (proved). The programs are unfolded up to the load that fails; the saves before it are those listed. The network must be one that can be built, and what is read before the missing file must be readable. Theorems: `C145_loads`, `C145_simulation`, `C145_simulation3`, `C145_identify`, `C145_standard`, `C145_plot` (Props/MissingFiles.lean).
- **C146 Standard estimates depend only on correlations** (proved). The misfit of every matrix is a function of the correlations, and a quadratic misfit determines its normal equations (polarisation), so that every step of the fit is the same. The pseudo-inverse of x is that of x^H x times x^H. Corrections for the total least squares problem can be carried from one series to the other without growing. For total least squares a gap after the first n singular values is assumed. standard_methods centres the measurements first; the claim is about the centred ones. Theorems: `C146_fit`, `C146_ols`, `C146_tls`, `C146_standard`, `C146_samples`, `C146_three` (Props/LassoGram.lean, Props/EivOrder3.lean).
- **C147 Errors-in-variables estimates do not depend on the order of the samples** (proved). Combining samples is an orthogonal map on the stacked real vectors. It commutes with the matrix built from the current estimate, maps the regression matrices, and the weights are conjugate; so the correction of the voltages is mapped too and the normal equations are the same. The weights are made of one block per sample and variable, computed from that measurement alone, so they are reordered with the samples, as is the centred data. Positive standard deviations of the voltages, more than one node and a rating are assumed for the weighted runs, and nonzero voltages if they are unsynchronised. The solver is exact and solves regular systems. Theorems: `C147_fit`, `C147_unweighted`, `C147_run`, `C147_three` (Props/EivSamples.lean, Props/EivOrder.lean, Props/EivOrder3.lean).
- **C148 Weighted errors-in-variables iterations approach matrices that are optimal in each variable** (proved). The iteration is seen as alternating minimisation with reweighted penalties. The penalties lie below the weighted squares, so every iteration decreases the objective by at least the squared change of the penalised quantities, weighted. The objective bounds the penalties, so these weights are bounded and the changes vanish. Limits of minimisers are minimisers by continuity. The fit assigns the weights of the voltages to the currents as well; this is C148_fit. C148_limits treats the body of the fit with any weights of the currents. The solver is exact and solves regular systems, and the weight of the prior is positive. Theorems: `C148_limits`, `C148_fit` (Props/EivConverge.lean).
- **C149 Weighted errors-in-variables iterations stay exactly at balanced matrices** (proved). The next matrix is the unique minimiser of a strictly convex quadratic. The derivative of the penalties equals that of the weighted squares at the current matrix, and the penalties are convex, so the minimiser is the current matrix exactly when this minimises the objective. The first iteration is covered when the initial guess is admissible. The solver is exact and the weight of the prior is positive. Theorems: `C149_fixed_points`, `C149_stays` (Props/EivConverge.lean).
- **C150 Weighted errors-in-variables iterations approach critical points of one joint objective** (proved). The derivative of the cost in a joint direction is the sum of those in each variable, and each vanishes at a minimum. The penalties are differentiable, since they lie between their tangent and the weighted squares. Conversely the objective is convex in each variable alone, so a zero derivative means a minimum there. The objective weighs voltages and currents with the weights of the voltages, as the fit does (error_in_variable.py:210). C150_run assumes: positive standard deviations of the voltages, more than one node, a rating, nonzero voltages if unsynchronised, a starting matrix in which all lines are seen, and the Laplacian constraint or a regularised diagonal with a contrast in each row. Theorems: `C150_critical`, `C150_fit`, `C150_run`, `C150_three` (Props/EivCritical.lean, Props/EivCritical3.lean).
- **C151 Power balance of simulated networks** (proved). The quadratic form of a symmetric matrix with zero row sums is the sum over pairs of entries times squared voltage differences; the entries are sums over lines (C133), so the double sum regroups by lines. Reduction: the eliminated nodes take the voltages at which they have no current, so they contribute no power. Three phases: the phase matrix acts on each symmetrical component by the matrix of its sequence (C63), and the power of three values is three times that of their components. Per unit power; C151_simulated for results of run_simulation with the admittance matrix of the line table (C133). Theorems: `C151_balance`, `C151_losses`, `C151_simulated`, `C151_reduced`, `C151_three`, `C151_three_lines` (Props/Energy.lean, Props/Energy3.lean).
- **C152 Stored matrices are those of passive networks** (partial). By C58 the reduced matrix is that of the network with grounded connections and shunts at hidden nodes, whose power is that of the lines plus that of the shunts (C151). Zero losses make voltages equal along lines (C135), so with grounded connections they vanish. The counterexample is the run of C140 with admittance 3/2. Three phases: the stored matrix has the three reduced sequence matrices without coupling (C122), each of which is a grounded sequence network. For the shipped three-phase networks the passivity of the sequence networks is proved from the line types. C152_laplacian_partial: with --laplacian the stored matrix of the shipped networks loses no power, or has no currents, exactly at equal voltages. Violated: hidden nodes with constant-admittance loads are added with the wrong sign (C59, C140), and a run with one such consuming load stores a 1 by 1 matrix that delivers power, while standard identification finds a dissipative one. Guard: no hidden nodes (program, both forms, any noise; all shipped single-phase networks), or hidden nodes at which the added conductance is not negative (reduction). Three phases with --sequence: no hidden nodes (program, any noise); the unreduced matrix delivers no power exactly if none of the three sequence matrices does. Theorems: `C152_reduced_partial`, `C152_partial`, `C152_shipped_partial`, `C152_violated`, `C152_three`, `C152_three_partial`, `C152_three_lines_partial`, `C152_three_shipped_partial`, `C152_laplacian_partial`, `demo_C152_laplacian` (Props/Energy.lean, Props/Energy3.lean, Props/LineTypes.lean, Props/DeterminedLaplacian.lean).
- **C153 Correlations in the report are singular values** (partial). On a line the plain products are a unit multiple of the Hermitian ones, whose spectral theorem gives the eigenvalues of the multiple. Bound: an eigenvector v gives |z||v|^2 <= |X conj(v)||X v|, and both factors are bounded by the largest eigenvalue of the Hermitian products. The same for three phases (C153_three_partial). Violated: plotted are the moduli of the eigenvalues of the product with the plain transpose; for one node with deviations 2, i, -2, -i the plot shows the logarithm of the root of 6 instead of the root of 10. Guard: all deviations lie on one line through the origin (as for real voltages). The bound holds for all voltages. The logarithm of zero is 0 in the model, on both sides. Theorems: `C153_partial`, `C153_bound_partial`, `C153_violated`, `C153_three_partial` (Props/PlotSpectrum.lean, Props/PlotVoltage.lean).
- **C154 The unweighted branch is the weighted one with unit weights** (proved). One step: both corrections minimise the distance to data consistent with the current matrix, which has one minimiser; both systems then have the same normal equations. Induction over the iterations; the logs of fits with different tolerances are prefixes of one trajectory. Targets may differ: the unweighted branch logs another target. Solver exact and total, inverse meeting its contract. Theorems: `C154`, `C154_first` (Props/EivUnit.lean).
- **C155 The unweighted fit approaches critical points** (proved). C154 turns the run after its first iteration into a weighted run with positive definite weights, to which the limits of C148 and C150 apply.  Theorems: `C155_fit`, `C155_run`, `C155_three` (Props/EivUnit.lean, Props/EivCritical3.lean).
- **C156 Errors in variables against total least squares** (proved). The cost with unit weights of a matrix and a correction is the size of a total least squares correction, and conversely. At the unique estimate any other result of a step would be another estimate; the same argument shows that the linear system of the step has no kernel. Penalty coefficient nonnegative in the first part, zero in the second. Theorems: `C156_bound`, `C156_stays` (Props/EivTls.lean).
- **C157 Another numbering of the nodes** (proved). A fit is determined by the sequence of its quadratic costs, each with one minimiser (C88, C93). A renumbering carries data misfit, weights and every prior term, rebuilt from its own list of parameters, into the terms of the second fit; so it carries minimisers into minimisers, by induction over the iterations. The gap in the singular values follows from the noise bound by comparing dimensions (noisy_gap). Contrast without known lines; the exact prior of bayesian_eiv is left out. Laplacian runs with both contrast_each_row and regularize_diag are left out, see C90. Theorems: `C157_run`, `C157_standard`, `C157_noisy`, `C157_three`, `C157_standard3`, `C157_noisy3` (Props/Renumber.lean, Props/Renumber3.lean).
- **C158 Uncertainties exist exactly for informative data** (partial). The quadratic form of the information matrix is a sum over samples and nodes of forms in the products of real and imaginary parts with the parameters; each is positive definite because the residual covariance is a positive semidefinite part plus the covariance of the currents. C158_program instantiates it with the covariances of C25. Violated: the code uses diag(Re x, Im x) instead of the real block form of x. Real voltages of full rank raise LinAlgError, and voltages that leave the parameters undetermined get a covariance. Exact guard: real parts and imaginary parts each have independent columns. Theorems: `C158_partial`, `C158_singular`, `C158_violated`, `C158_undetermined_violated`, `C158_program`, `C158_few` (Props/FisherRank.lean).
- **C159 A further sample does not reduce the information** (partial). With equal contributions of the voltage errors the form is additive over samples, so it grows; the inverse of the larger matrix has the smaller diagonal (inverse_diag_le). The counterexample has one node, one and two samples. Violated: the covariances of the samples are exchanged, see C42. Proved when the voltage errors of all samples contribute the same variance to the residuals. Theorems: `C159_partial`, `C159_violated` (Props/FisherMore.lean).
- **C160 A simulation that cannot start writes nothing** (proved). By cases on the templates and on the conditions of lines 52-60; the program of Model/Simulate.lean stops before its first write. The module templates are functions from names to tables, the profile files a function from paths to tables. Theorems: `C160_unknown`, `C160_exit`, `C160_starts` (Props/SimStart.lean).
- **C161 Weighted errors-in-variables estimates are stable under bounded noise** (proved). All objectives of a run are at most the objective at the projected guess (descent). This bounds correction and residual, hence the distance of the corrected data from the true data, and the perturbation bound for exact relations gives the error of the estimate. The run-level statement combines it with the bound for total least squares (C117). Exact real arithmetic, exact solver contract. The weights of the voltages are bounded above and below by multiples of the unit weights; such bounds exist for the weights of the code (PosDef.between). Theorems: `C161_body`, `C161_fit`, `C161_small`, `C161_run`, `C161_identify` (Props/EivNoisy.lean, Props/EivNoisyRun.lean).
- **C162 Unweighted errors-in-variables estimates are stable under bounded noise** (proved). The step without weights equals the step with unit weights (C154), so the bound of C161 applies with weight ratio one. Exact real arithmetic, exact solver contract. With the exact prior for passive networks the run-level theorem asks for at least 29 nodes, as the prior fails below. Theorems: `C162_fit`, `C162_identify` (Props/EivNoisyPlain.lean).
- **C163 The regression with prior and the lasso estimate are stable under bounded noise** (proved). Descent (C36) bounds the residual of every logged estimate by the objective at the projected guess. Subtracting the true relation turns the residual into an error bound. For the lasso the penalty at the guess is a sum of at most twice the squared parameters of the guess, and C117 bounds the guess error. Exact real arithmetic, exact solver and pseudo-inverse contracts. Theorems: `C163_fit`, `C163_standard`, `C163_identify` (Props/LassoNoisy.lean).
- **C164 The admittance matrix that a simulation stores can be represented by the identification** (proved). The pseudo-inverse of a symmetric matrix is symmetric by uniqueness of the Penrose conditions, so the Schur complement is; deletion and shunts act on rows and columns alike. Row sums: the reduced matrix reproduces the currents of a constant voltage (C58), which are zero. Single phase. The pseudo-inverse satisfies the Penrose conditions; symmetry of the bus matrix is a hypothesis (bus matrices of the modelled construction are symmetric, see C133). Theorems: `C164_reduced`, `C164_symmetric`, `C164` (Props/Reference.lean).
- **C165 Simulation with noise followed by identification: lasso and Bayesian estimates stay near the stored reference** (proved). C115 gives the equation of the stored data without noise, C164 that the stored matrix is admissible, C49 that the identification loads what was stored; then C161, C162 and C163 apply with the measured noise size. For the shipped networks symmetry and regularity need not be assumed. Single phase, exact real arithmetic, contracts of the numerical routines; the power flow satisfies the network equations. Weighted: at least two stored nodes and positive configured noise. With the exact prior for passive networks at least 29 nodes, as the prior fails below. Theorems: `C165_lasso`, `C165_bayesian`, `C165_weighted`, `C165_shipped_lasso`, `C165_shipped_bayesian`, `C165_shipped_weighted` (Props/Reference.lean, Props/ShippedPrograms.lean).
- **C166 Three-phase identification in sequence values: lasso and Bayesian estimates stay near the truth** (proved). C78 reduces the run to the runs of the methods, C52 these to one run per label; then the single-phase bounds C161 to C163 apply to the columns of each label. Example: the data of C161 in all three sequences, with both settings of the weights. Sequence values; with weights: synchronised measurements, at least two nodes per sequence, positive configured noise. With the exact prior at least 29 nodes per sequence, as the prior fails below. Exact real arithmetic, contracts of the numerical routines. Theorems: `C166_lasso`, `C166_bayesian`, `C166_weighted` (Props/EivNoisy3.lean).
- **C167 Three-phase simulation then identification: the stored blocks are representable and the estimates stay near them, with two sequences exchanged** (proved). Reciprocity: two voltage profiles with the same eliminated nodes exchange power symmetrically, so the reduced block is symmetric; C122 gives the equations of the stored data; then C166. Example: two loads and a connection, run through both programs. Shipped networks: symmetry of the blocks is derived from the line types instead of assumed. For them the bounds of the lasso and Bayesian estimates are relative to the block of the same sequence, without a symmetry hypothesis. Hypotheses of C122 and C128 for the simulation. The exchange of positive and negative sequence is the behaviour recorded in C122. Theorems: `C167`, `C167_lasso`, `C167_bayesian`, `C167_weighted`, `C167_shipped`, `C167_shipped_lasso`, `C167_shipped_bayesian`, `C167_shipped_weighted` (Props/Reference3.lean, Props/Shipped3.lean).
- **C168 Sparse storage does not matter** (proved). Model/Sparse.lean writes the sparse programs on lists of stored entries. Each operation commutes with summing the entries per position; then the programs are compared step by step, errors included. Example: a position stored twice and a stored zero; two libraries, one merging and one keeping everything. The library's treatment of storage is any function keeping the denoted array. Exact arithmetic: merging entries reorders sums. Theorems: `C168_make_real`, `C168_regression`, `C168_eiv`, `C168_prior` (Props/Sparse.lean).
- **C169 Command lines mean what the manual says** (proved). The parser is shown to accept exactly the lines generated by a grammar (one constructor per spelling), and to return their settings; the conversion is compared with the manual option by option. The lines of the script are evaluated. The parser of click is modelled (Model/Cli.lean); float() is a parameter, int() is modelled for ASCII digits. Theorems: `Cli.C169_simulate`, `Cli.C169_identify`, `Cli.C169_plot`, `Cli.C169_order`, `Cli.C169_script` ().
- **C170 The limits of the plots can be any number** (partial). int() accepts digits and underscores only, so a point is refused after trimming; digits are read as the number they denote. Violated: the defaults are the integer 0, so click makes the options integers and refuses every number with a decimal point. Partial: whole numbers are accepted, 0 meaning no limit. Theorems: `Cli.C170_violated`, `Cli.C170_partial` ().
- **C171 The commands of the README run** (partial). The lines are parsed by evaluation; C137 gives the failure, C116 and C136 completion without hidden nodes, C172 completion of the three-phase command with them. Violated: the README does not say that the hidden nodes of conf/simulation.py have to be removed; with them the first command never completes. Partial: it completes with no hidden nodes if the profile files contain the weeks and the power flow converges; the first command for the three-phase network completes with the shipped hidden nodes under the same conditions. Theorems: `Cli.C171_accepted`, `Cli.C171_violated`, `Cli.C171_partial`, `C171_three_partial` (Props/HiddenRun3.lean).
- **C172 Three-phase simulations can hide every node but the connection** (proved). The deleted indices are characterised through the tables of the network; the reduction completes because averages of voltages within an open half plane are not zero, and fails with IndexError for the hidden connection, whose index is out of range after its removal. The averages stored by the filter have nonnegative weights. Convergence of the power flow, to voltages within a right angle of those without load, is a hypothesis as it is outside the repository. The connection is the last bus, as in all shipped three-phase networks. Theorems: `C172_stored`, `C172_completes`, `C172_shipped` (Props/HiddenRun3.lean).
- **C173 What the plots of the report show** (proved). The report is inverted step by step; the mask over the triangle (with or without its diagonal) keeps exactly the pairs with a nonzero reference entry.  Theorems: `C173` (Props/PlotShown.lean).
- **C174 A noise sweep varies only the noise** (proved). The saved stages of a completed run are read back as they were; the noise stage's exact series do not depend on the deviations and its shapes do not either, so reduction, removal of the hidden nodes and the sequence transform succeed with the same result; induction over the sweep.  Theorems: `C174`, `C174_script` (Props/NoiseSweep.lean).
- **C175 The errors are at most proportional to the noise level** (proved). A polar perturbation moves a value by at most its modulus times (relative magnitude error + pi times relative phase error); averaging, removing columns and the sequence transform are linear, hence the constant for the measurements. Centring at most doubles it, the Frobenius size bounds the perturbation of the regression, and the bounds of C117 give the constant for the estimates. For hidden constant impedances the data equation is that of C140_data; C175_hidden_apart exhibits a network whose estimates stay 1/3 away from the reference at every small noise level. C175_three_shipped: for the shipped three-phase networks the limit is the stored reference itself. C175_shipped: the single-phase shipped networks. The constants depend on the random numbers and on the exact data, not on the numerical library. For three phases in sequence values the limits are the stored blocks with positive and negative sequence exchanged (see C122); with hidden constant impedances the limit is the network with them connected, not the stored reference (see C140). Theorems: `C175_data`, `C175`, `C175_three`, `C175_hidden`, `C175_hidden_apart`, `C175_three_shipped`, `C175_shipped` (Props/NoiseLimit.lean, Props/NoiseLimit3.lean, Props/NoiseLimitHidden.lean, Props/Shipped3.lean, Props/ShippedPrograms.lean).
- **C176 Results left from a network with another number of nodes** (partial). With -b the prior is built from the loaded estimate first, and the elimination matrix does not take a vector of another length; in sequence values the selection of the labels of the initial estimate fails before that. With -s the stored Bayesian result is read without being used, so that nothing compares its size. Violated for -s: the stored Bayesian result is returned whatever its size. Proved for -b without -c: ValueError for one phase, IndexError in sequence values, and only the reference file is written. Theorems: `C176_violated`, `C176_partial`, `C176_three_partial` (Props/StaleResults.lean).
- **C177 The expected error printed with the uncertainty** (partial). np.random.multivariate_normal is a parameter; for the expectation every component of every sample has the normal law with the mean and the variance of its place. The variance of finitely many numbers is the mean square minus the squared mean; the mean distance is zero only if almost all samples are the parameters. Violated: the standard deviation of the distances is stored (as the docstring of eiv_fim says, but not the caller). It is less than the root mean square for every set of samples other than copies of the parameters, zero if all samples are at the same distance, and its mean square is less than the trace. C177_partial: its square is the mean square minus the squared mean. Theorems: `C177_violated`, `C177_law_violated`, `C177_partial` (Props/Spread.lean).
- **C178 Power and meaning of sequence values** (proved). Entries of the converted arrays are sums of three values times powers of the third root of unity; power is the discrete Fourier transform's Parseval identity for three values. Exact rotations. Powers are those of voltage times conjugate current, summed over the three values of a node. Theorems: `C178`, `C178_back`, `C178_components`, `C178_stored` (Props/SequencePower.lean).
- **C179 Balanced voltages give the currents of the positive sequence network** (partial). Entries of the phase matrix are the inverse transform of the three sequence matrices (C63); summing with the powers of a balanced voltage leaves the negative sequence. Necessity: one node at balanced voltage one. Violated: currents are voltages times the matrix from the left, i.e. the transpose of the phase matrix acts, which exchanges the positive and negative sequences; balanced voltages meet the negative sequence matrix. They are balanced in all cases; the equation holds exactly if the two matrices agree (static lines). Theorems: `C179_violated`, `C179_partial`, `C179_simulated_partial` (Props/SequencePower.lean).
- **C180 Weights for sequence values have the noise of sequence values** (partial). Sequence errors are combinations of the phase errors with powers of the third root of unity over three; expectations of products of combinations of uncorrelated errors. Trace of the averaged covariance: sin, cos and cosh, sinh identities. The counterexample takes the noise law of C114. Violated: the weights use the standard deviations of the phase values for the sequence values. With voltage one on all phases and any positive magnitude deviation, each sequence value has noise power a third of its square, while the covariance used has at least the square, at any measured values. The first part (powers and correlation of the sequence errors) is proved for uncorrelated phase errors. Theorems: `C180_partial`, `C180_violated` (Props/SequenceNoise.lean).
- **C181 Line types have the impedances that their comment gives** (partial). The type table is modelled with exact numbers (Model/LineTypes.lean). The impedances of three equal wires are compared with the sequences through admittanceSequenceToPhase; the equivalence is linear algebra with the third root of unity, the numbers are rational arithmetic. Violated by the single-wire type OG1: its zero sequence impedance is divided by 0.3 twice, so that it differs from the positive one and corresponds to no wires with the given impedance. The two other documented types are right; the undocumented fourth type is compared with UG3. Theorems: `C181_wires`, `C181_partial`, `C181_violated`, `C181_cigre` (Props/LineTypes.lean).
- **C182 Stored samples of the shipped configuration** (proved). The rows follow through the reduction and the change of coordinates from the number of raw samples (stored_count); shippedConf is the shipped configuration, demo_C182 a run with all of it. C182_equivalent: with --equivalent-noise the quotient is rounded; the half case cannot occur because 60 F - 1 is odd. Runs that redo all stages; the general statements without (C182) and with --equivalent-noise (C182_equivalent), and the one for the shipped configuration with both. Theorems: `C182`, `C182_shipped`, `demo_C182`, `C182_equivalent` (Props/ShippedConf.lean).
- **C183 Data that do not determine the network** (proved). The pseudo-inverse gives the orthogonal projection of any explaining matrix (C183_ols); a total least squares solution needs no correction here (C183_tls, from C142); passivity of the stored matrix (C152) makes it regular (C183_shipped). demo_C183: two nodes with equal voltages. Three phases: C183_three (each sequence; the block compared is that of the exchanged sequence), C183_three_shipped (the estimate is the reference iff the centred voltages of each sequence are independent). The hypotheses are those of C122_shipped, met by the runs of demo_C141_three_shipped. C183_laplacian: with --laplacian the estimate is the reference iff only multiples of the sum of all nodes vanish in all centred samples (kernel of the stored matrix from C152_laplacian_partial). Contracts: pinv is the Moore-Penrose inverse, any singular value decomposition, inv returns inverses only; exact arithmetic (numpy's cutoff of small singular values in pinv is not modelled). Theorems: `C183_ols`, `C183_tls`, `C183_programs`, `C183_shipped`, `demo_C183`, `C183_three`, `C183_three_shipped`, `C183_laplacian` (Props/Determined.lean, Props/Determined3.lean, Props/DeterminedLaplacian.lean).
- **C184 More iterations do not lead to arbitrarily large estimates** (partial). C184_partial: from the first iterate on the iterates are those with weight one on every measurement (C155), which are bounded because the objective decreases (C148). C184_violated: one iteration is computed in closed form, y -> 3y(1+y^2)/(1+3y^2); the iterates increase and have no positive fixed point. C184_weighted_partial: the same bound for the weighted fit, whose weights are shown positive definite, for all initial guesses. C184_three_partial, C184_three_weighted_partial: the bounds of the three labels bound the assembled three-phase estimate. Violated without a prior (unweighted run that diverges). Proved for lambda_eiv > 0 and a prior that sees every parameter, with and without weights, for one and three phases. Theorems: `C184_partial`, `C184_violated`, `C184_weighted_partial`, `C184_three_partial`, `C184_three_weighted_partial` (Props/NoPrior.lean).
- **C185 More iterations continue the same run** (proved). Induction over the loop (fitLoop_take): the loop with a smaller limit makes the same steps and appends the same entries; the last entry holds the estimate by C33. Merging the logs of three phases commutes with taking the first entries (merged_take). No contract on the numerical routines, beyond being functions of their arguments. Runs that compute (a positive number of iterations). Theorems: `C185`, `C185_eiv`, `C185_regression`, `C185_three`, `C185_standard` (Props/MoreIterations.lean).

## Violations found in the code

Each is proved in the model; the wording of the property and the witness are in the module.

- C03: the code violates the property for lengths 1 and 3 (broadcasting); exact domain of the error proved — `C03_odd_rejected_violated`
- C05: Violated: the slice bounds are floats, so every call raises TypeError. But for the true division the expression reads every matrix back (C05_division_partial). — `C05_make_complex_matrix_violated`
- C12: Proved for every history; evaluation fails in the code for n = 1 (x.squeeze() is a scalar) and for a sparse prior with exactly one row (mu.squeeze()). — `C12_bookkeeping_violated`
- C16: Code returns sum |r|^(2-order): right for LAPLACE only. — `C16_penalty_gauss_violated`, `C16_penalty_delta_violated`, `C16_witness_violated`
- C17: Violated for single-row priors and for any call after a rejected call. — `C17_agree_violated`
- C18: n is not copied: SmoothPrior(other=p) rejects every further call unless n is repeated. — `C18_copy_violated`
- C19: SmoothPrior.add_exact_adaptive_prior calls BayesianPrior.add_exact_prior. — `C19_adaptive_violated`
- C20: Violated: mu is extended before the loop that may raise. Exact: a rejected call of the dense class leaves the prior as it was exactly if the shapes of weights and values do not fit, there are no values, or an index matrix has fewer than two columns; after every other rejected call no evaluation returns. In the sparse class every later call raises AttributeError. — `C20_rejected_violated`
- C28: The code violates the property: wrong lengths are silently truncated, numpy scalars fail for one column. Exact characterisation of the accepted arguments proved. — `C28_wrong_length_violated`, `C28_scalar_violated`
- C35: The code violates the property: the stationarity test indexes the accumulated log by the new iteration number. Exact for completed fits: the iterates do not depend on the object, only the moment of stopping does, and a refit equals the fresh fit exactly if the log of the fresh fit obeys the stopping rule with the old log put in front. In particular when the tolerance test cannot fire or at most one iteration is allowed. — `C35_refit_violated`
- C38: The code violates this: line 210 converts x_weight instead of z_weight, so a given z_weight never reaches the fit in the stated form. Exact guard proved. — `C38_violated`
- C39: The code violates this in the first iteration for a non-symmetric initial matrix; proved for symmetric start, and from iteration 2 on for any start. C39_transpose says what the first iteration does instead: its correction is optimal for the transposed guess. — `C39_violated`
- C41: The code violates this: the target adds the (unconjugated) sum of squares of the consistent voltages instead of the voltage misfit. Exact logged value proved (C41_trace). — `C41_violated`
- C42: The code violates this in three ways: block form, exchanged pair order, and exchanged samples; what it computes is proved. C42_program: the same for eiv_fim, with the covariances it computes from noise levels and ratings. — `C42_violated`, `C42_samples_violated`
- C43: The code violates this: it takes the reciprocal twice, so the weight of parameter k is |y_k| instead of 1/|y_k|. — `C43_violated`
- C45: Holds with one contrast row per node (nonzero row sums); violated with contrast_each_row=False: residuals are -3/2 and 3/2 lambda' (wrong sign, every line counted twice). — `C45_violated`
- C46: The code violates this: 'optimal' is a substring of 'suboptimal', so the nodes of the optimal choice are pinned as well. C46_partial: exact effect for strings naming only one choice. C46_branch_partial: what the branch for the suboptimal choice would do, if it were reached. — `C46_violated`
- C49: Proved for all stages after any sequence of other stage calls, except for the noise stage: the ratings and the averaging factor are recomputed on loading, not read. They agree for the configured safety factor 4 in one phase; in three phases with equivalent noise the averaging factor differs (violated). — `C49_filtered3_violated`
- C50: The exact condition for a collision; violated for network names starting with the prefix of a stage (the network data have no prefix); no collision for plain names, which all templates have. — `C50_violated`
- C51: Violated: the runs for single labels save under the name of the whole network, so an interruption leaves the result of one label. Holds for the runs that use no labels. — `C51_standard_violated`, `C51_bayesian_violated`
- C54: Violated for every stored three-phase result with at least two columns: the loading branch is called per label and returns the whole matrix, which does not fit, so the program never completes; a stored result of the size of one phase is silently copied to all of them. Reloading works for one phase (C49). — `C54_violated`
- C57: Violated in every network of at least nine nodes: the rows follow the iteration order of a CPython set (modelled). Holds with at most eight nodes or when at least 3/5 of the nodes are kept. The shipped configuration (lists 1 to 5 on bolognani56) is in order, those with lists 1, 1-2 or 1-3 are not. — `C57_violated`, `C57_lists_violated`
- C58: Violated when an eliminated node directly follows the connection (its shifted index is taken for the connection). Proved for all other positions of one connection, for several connections followed at a distance, and for laplacian=True. — `C58_violated`
- C59: Violated: the admittance is added with the wrong sign, and taken from another column when a connection precedes the node. Exact for hidden nodes without mean current; C58_partial states exactly which load the code assumes. — `C59_violated`, `C59_column_violated`
- C62: Violated: measurements are multiplied by t_012 from the right while admittances are conjugated with t_012 on the left, so the converted equation holds exactly for matrices invariant under exchange of phases b and c (for matrices built by make_y_bus: exactly when positive and negative sequence agree). — `C62_violated`
- C66: Violated: nominal voltages are looked up by label instead of position. C66_entries gives the matrix that comes back in general; the round trip holds for the guard of C66_partial, in particular for templates with one nominal voltage. What pandapower computes from the lines is modelled as the textbook assembly. — `C66_violated`
- C67: All three clauses are violated for single-phase networks; C67_partial covers what holds for three phases. — `C67_createLine_violated`, `C67_constructor_violated`, `C67_removeLines_violated`
- C70: Violated: the phase noise is multiplied by the phase itself (none at all at phase zero); the configured law is met exactly at phases of 1 rad, and the magnitude law exactly at magnitude 1. — `C70_violated`
- C72: Proved for one phase, and for three phases without equivalent noise; violated with it (fparam is returned as 1). — `C72_violated`
- C73: Violated: the squared power is used, and a second grid connection includes the first in its sum. C73_values gives the ratings in closed form; C73_partial has one connection and the squared power. — `C73_violated`, `C73_two_connections_violated`
- C74: Holds for one phase; violated for three phases (ratings ordered by phase, columns by node). — `C74_three_violated`
- C75: Violated for a week that runs beyond the end of the file: fewer rows, no error. Proved for weeks inside the files, for one and three phases, with the percentile specified independently. — `C75_violated`
- C76: Violated whenever the number of minutes is not a multiple of the number of weeks. Holds when it is and the files cover the weeks, and always for random loads. Exact division; the float computation of the length can lose one more row. — `C76_violated`
- C79: Violated: on data of phase 1 only, asking for another phase or sequence keeps everything instead of failing. Otherwise exactly the labelled rows, columns and ratings are kept, and the selection fails exactly when there are none. — `C79_violated`
- C80: Violated: no run with either flag completes. Without them a run completes exactly when its inputs can be read and selected and the methods complete. — `C80_violated`
- C81: Violated: for a single phase without laplacian the buses at the external grid are added. Harmless when their nominal powers are zero. — `C81_violated`
- C83: Violated: NameError for every network, and the arrays would be in the wrong order. Proved for profiles from files. — `C83_violated`, `C83_order_violated`
- C85: Violated: a comment that mentions another value of the list is rewritten. Holds, with every interruption point, for texts with each setting at one place, as those of the repository. — `C85_violated`
- C90: Violated in Laplacian mode: 2n more centres than rows, log_distribution always raises. Outside Laplacian mode C44_diag gives the consistent prior. — `C90_violated`
- C92: Violated with the Laplacian constraint, because bayesian_eiv calls add_known_lines with laplacian=False: for at least 39 nodes the terms are other ones (C92_prior_violated), for fewer nodes IndexError is raised (C92_few_violated, C92_accepts). This is reachable by calling bayesian_eiv directly; identify_network.py passes a known matrix only without the constraint. C92_partial: holds without it for at least 29 nodes. — `C92_prior_violated`, `C92_few_violated`, `C92_violated`
- C95: Violated with an IndexError when the connection is not last and the last node is hidden. Exact when the connection is last, hidden loads are balanced and nodes are passive on all phases or none (or reduce_single is off). — `C95_violated`
- C96: Violated whenever the first two phases have different numbers of passive nodes. Holds (C95_partial) when nodes are passive on all phases or none. — `C96_violated`
- C97: Violated: ValueError for random loads (NameError for three phases); with profiles no load, and no phase of an asymmetric load, may be below minus half of the mean percentile, and those above are replaced by no load (C97_zero, C97_three_zero). Guards are exact (iff): random loads need nonnegative nominal powers, profiles feed-in of at most half of the mean percentile. — `C97_gaussian_violated`, `C97_profiles_violated`, `C97_three_gaussian_violated`
- C101: Violated with -s for every configuration: a seed 1311 or 70 days remain. Holds when no value of a list begins another one, as with -n. — `C101_violated`
- C105: Violated: in Laplacian mode a network in which all nodes are connected with each other makes max() of an empty array raise; without standard results a name is undefined. Exact condition for completion proved. — `C105_violated`, `C105_violated_missing`
- C107: Violated: always the voltages labelled 1; if phase 1 has another number of nodes the report fails. — `C107_violated`
- C108: Violated for three phases: the merged log ends with the shortest log (concrete run proved for `bayesian_eiv` of run3ph.py). Proved for one phase; for three phases the exact condition is proved, the last point is that of the estimate if the three fits took equally many iterations. — `C108_violated`
- C109: Violated: file names do not contain the network, and files of kinds of results that are missing stay in place. — `C109_violated`
- C110: plot_series with labels raises AttributeError (`scaplottter`). A list with too few colours gives every series the first colour. — `C110_violated`
- C111: The files hold the estimates of the run and a complete report states their errors (proved for all options). Completion: exact condition for one phase and for all phases or sequences; it fails for fully connected Laplacians (C111_violated: the phase view of an identified Laplacian) and for phases with another number of nodes than phase 1 (C105, C107). After simulate and identify in sequence coordinates the report in sequence coordinates always completes. — `C111_violated`
- C121: Holds (also for exceptions) when both files have the same length and contain all weeks. Beyond the end of the files the CSV reader raises ValueError where the other returns fewer samples; a reactive file longer by d lines gives d reactive samples too many; no weeks give TypeError instead of IndexError. pandas.read_csv is modelled on files of numbers. — `C121_violated`
- C126: The code violates this: the result, log and files do not depend on the noise of the currents or on the ratings (C126_violated for bayesian_eiv, C126_identify_violated for the program, every option). C126_partial: what is minimised instead uses the inverse covariance of the voltages for both. Examples give runs that return. C126_program_partial states the same for identify_network.py with the configured noise divided by the square root of the number of averaged samples; demo_C126 is a weighted run that meets its hypotheses. — `C126_violated`, `C126_identify_violated`
- C127: Violated without --weighted: the option changes nothing (C127_violated, one and three phases). Violated with --weighted: the initial estimate is computed from the phases (C127_initial_violated). Proved: given the initial estimate, the weighted Bayesian method uses only magnitudes and complex powers (C127_partial, C127_three_partial). — `C127_violated`, `C127_initial_violated`
- C129: The code violates this: no sequence of runs with any options, completed or not, creates the file, so a completed report never shows the deviations (C129_violated; demo_C129 is a run with --uncertainty that raises NameError after storing everything else, followed by a complete report). C129_partial, C129_completes: what the report shows once such a file is there, and that it is then completed. demo_C130 is such a report. — `C129_violated`
- C130: The code violates this: for two or more nodes the moduli are never the standard deviations unless all are zero (C130_violated), and they depend on the eigenvectors (C130_choice_violated). C130_partial: the sum of their squares is the mean of the variances, and for one node the modulus is the standard deviation. Roots and quotients are exact reals. — `C130_violated`, `C130_choice_violated`
- C131: The code violates this: the step solves the normal equations with weight lambda while the logged target counts the penalty without the factor two, so the targets of a converging fit can increase for ever, and the stop test requires that they do not. C131_violated: for data that separate the parameters every number of iterations is used, with increasing targets, although the matrices converge. C131_lasso_violated and C131_shipped_violated: the Bayesian estimate of identify_network.py is different for every max_iterations on orthogonal voltages (an instance: two nodes, one line, shipped lambda). What holds: a bound on the number of iterations if the targets do not increase (C131_bound_partial), which is so for the weighted error-in-variables fit without prior (C131_eiv_partial); two iterations without prior, with squares only, or with exact data and prior (C131_squares_partial, C131_exact_partial); and in general, after finitely many iterations, an increase of the target is the only reason not to stop (C131_increasing_partial). — `C131_violated`, `C131_lasso_violated`, `C131_shipped_violated`
- C137: Violated: a run only succeeds if every hidden label is a bus of the network, and the shipped list has labels up to 55, so that no run succeeds for the six shipped networks with fewer buses (ValueError of list.index). Partial: the labels are buses of bolognani56 and of ieee123center; for both, runs complete if the power flow converges. — `C137_violated`
- C138: Violated: the list of hidden nodes subtracts one from the observed numbers although buses are labelled from one, so that 17 of the 32 observed nodes are hidden and 16 other nodes are kept; every successful run for bolognani56 omits the measurements of observed node 28 and stores those of node 27. Exact condition: a node is hidden if and only if its successor is not observed. — `C138_violated`, `C138_run_violated`
- C140: Three-phase witness (C140_three_violated): reference diagonal 0, estimates 2/3. — `C140_violated`, `C140_three_violated`
- C152: Violated: hidden nodes with constant-admittance loads are added with the wrong sign (C59, C140), and a run with one such consuming load stores a 1 by 1 matrix that delivers power, while standard identification finds a dissipative one. Guard: no hidden nodes (program, both forms, any noise; all shipped single-phase networks), or hidden nodes at which the added conductance is not negative (reduction). Three phases with --sequence: no hidden nodes (program, any noise); the unreduced matrix delivers no power exactly if none of the three sequence matrices does. — `C152_violated`
- C153: Violated: plotted are the moduli of the eigenvalues of the product with the plain transpose; for one node with deviations 2, i, -2, -i the plot shows the logarithm of the root of 6 instead of the root of 10. Guard: all deviations lie on one line through the origin (as for real voltages). The bound holds for all voltages. The logarithm of zero is 0 in the model, on both sides. — `C153_violated`
- C158: Violated: the code uses diag(Re x, Im x) instead of the real block form of x. Real voltages of full rank raise LinAlgError, and voltages that leave the parameters undetermined get a covariance. Exact guard: real parts and imaginary parts each have independent columns. — `C158_violated`, `C158_undetermined_violated`
- C159: Violated: the covariances of the samples are exchanged, see C42. Proved when the voltage errors of all samples contribute the same variance to the residuals. — `C159_violated`
- C170: Violated: the defaults are the integer 0, so click makes the options integers and refuses every number with a decimal point. Partial: whole numbers are accepted, 0 meaning no limit. — `Cli.C170_violated`
- C171: Violated: the README does not say that the hidden nodes of conf/simulation.py have to be removed; with them the first command never completes. Partial: it completes with no hidden nodes if the profile files contain the weeks and the power flow converges; the first command for the three-phase network completes with the shipped hidden nodes under the same conditions. — `Cli.C171_violated`
- C176: Violated for -s: the stored Bayesian result is returned whatever its size. Proved for -b without -c: ValueError for one phase, IndexError in sequence values, and only the reference file is written. — `C176_violated`
- C177: Violated: the standard deviation of the distances is stored (as the docstring of eiv_fim says, but not the caller). It is less than the root mean square for every set of samples other than copies of the parameters, zero if all samples are at the same distance, and its mean square is less than the trace. C177_partial: its square is the mean square minus the squared mean. — `C177_violated`, `C177_law_violated`
- C179: Violated: currents are voltages times the matrix from the left, i.e. the transpose of the phase matrix acts, which exchanges the positive and negative sequences; balanced voltages meet the negative sequence matrix. They are balanced in all cases; the equation holds exactly if the two matrices agree (static lines). — `C179_violated`
- C180: Violated: the weights use the standard deviations of the phase values for the sequence values. With voltage one on all phases and any positive magnitude deviation, each sequence value has noise power a third of its square, while the covariance used has at least the square, at any measured values. The first part (powers and correlation of the sequence errors) is proved for uncorrelated phase errors. — `C180_violated`
- C181: Violated by the single-wire type OG1: its zero sequence impedance is divided by 0.3 twice, so that it differs from the positive one and corresponds to no wires with the given impedance. The two other documented types are right; the undocumented fourth type is compared with UG3. — `C181_violated`
- C184: Violated without a prior (unweighted run that diverges). Proved for lambda_eiv > 0 and a prior that sees every parameter, with and without weights, for one and three phases. — `C184_violated`

## Modelled code, function by function

A function counts as modelled when a definition of `Verif/Model` cites its lines. Simplifications are stated at the definition.

| file | modelled functions (lines) | not modelled | model modules |
|---|---|---|---|
| identify_network.py | identify 25-128 | – | Cli, Identification, Identify, Store |
| plot_results.py | plot_results 22-178 | – | Cli, PlotResults |
| simulate_network.py | simulate 31-125 | – | Cli, Simulate, Store |
| src/identification/run.py | add_known_lines 147-243, bayesian_eiv 348-455, build_complex_prior 65-144, build_lasso_prior 15-35, build_loads_id_prior 37-63, eiv_fim 458-534, standard_methods 246-345 | – | Identification, IdentificationPriors, KnownLines, Loads, Parametrize, Reduce, Sampling, Simulate, Simulation, Spread, Stages, Store, Templates |
| src/identification/run3ph.py | bayesian_eiv 214-279, build_complex_prior 63-85, build_lasso_prior 17-32, build_loads_id_prior 35-60, eiv_fim 282-313, standard_methods 89-211 | – | Identification, Identification3, IdentificationPriors, Loads, Parametrize, Reduce, Sampling, Simulate, Simulation, Stages, Store, Templates |
| src/identification/utils.py | map_color_colormap 20-40, plot_scatter 66-104, plot_series 107-140 | colored 143-144, plot_heatmap 43-63 | PlotResults |
| src/models/abstract_models.py | – | __init__ 48-50, fit 30-31, fit 36-37, fit 42-43, fitted_admittance_matrix 53-54 | Regression |
| src/models/bayesian_prior.py | __init__ 24-27, _std_weights 29-35, add_adaptive_sparsity_prior 87-100, add_contrast_prior 102-117, add_exact_adaptive_prior 54-69, add_exact_prior 37-52, add_ratios_prior 119-134, add_sparsity_prior 71-85 | – | Prior |
| src/models/error_in_variable.py | __init__ 136-163, _is_stationary_point 169-171, fisher_info 53-127, fit 36-51, fit 173-288 | iterations 166-167 | Fisher, Regression, Sparse |
| src/models/error_metrics.py | error_metrics 67-73, fro_error 12-20, map_error 45-56, max_error 23-31, rrms_error 34-42 | – | ErrorMetrics |
| src/models/gpu_matrix_operations.py | make_complex_matrix 89-96, make_complex_vector 53-64, make_real_matrix 67-86, make_real_vector 43-50, vectorize_matrix 18-28 | unvectorize_matrix 31-40 | MatrixOps, Sparse |
| src/models/matrix_operations.py | duplication_matrix 99-115, elimination_lap_matrix 154-168, elimination_sym_matrix 142-151, make_complex_matrix 89-96, make_complex_vector 51-62, make_real_matrix 65-86, make_real_vector 41-48, transformation_matrix 118-139, undelete 171-187, unvectorize_matrix 29-38, vectorize_matrix 18-26 | – | MatrixOps, Sparse |
| src/models/noise_transformation.py | average_true_cov 214-233, average_true_noise_covariance 236-295, average_true_var_imag 189-211, average_true_var_real 164-186, exact_noise_covariance 20-92, naive_noise_covariance 95-161 | – | NoiseTransformation |
| src/models/regression.py | __init__ 55-82, _is_stationary_point 88-90, fit 38-46, fit 92-148 | iterations 85-86 | Regression, Sparse |
| src/models/smooth_prior.py | __init__ 27-33, __init__ 137-139, add_adaptive_sparsity_prior 89-101, add_adaptive_sparsity_prior 189-200, add_contrast_prior 103-115, add_contrast_prior 202-213, add_exact_adaptive_prior 62-74, add_exact_adaptive_prior 163-174, add_exact_prior 48-60, add_exact_prior 150-161, add_ratios_prior 117-129, add_ratios_prior 215-226, add_sparsity_prior 76-87, add_sparsity_prior 177-187, log_distribution 40-46, log_distribution 141-148 | – | Prior, Sparse |
| src/simulation/abstract_network.py | create_buses 38-47, give_passive_nodes 61-96, kron_reduction 98-113, remove_bus 49-50, remove_buses 52-53, remove_line 55-56, remove_lines 58-59 | __init__ 26-28, create_bus 35-36, make_y_bus 31-32 | Kron, Network, PySet |
| src/simulation/lines.py | __init__ 16-50, admittance_phase_to_sequence 75-96, admittance_sequence_to_phase 52-73, measurement_phase_to_sequence 116-130, measurement_sequence_to_phase 99-113 | – | Lines, Network |
| src/simulation/load_profile.py | __init__ 14-48, generate_gaussian_load 51-79, load_profile_from_csv 82-180, load_profile_from_numpy 183-283 | – | Loads, LoadsCsv, Network |
| src/simulation/network.py | __init__ 18-24, create_bus 26-46, create_line 48-64, create_lines 66-82, create_lines_from_ybus 84-100, make_y_bus 102-114 | – | Network |
| src/simulation/network_3ph.py | __init__ 21-33, create_bus 35-60, create_line 62-76, create_lines 78-88, create_lines_from_ybus 90-98, make_y_bus 100-127 | – | Lines, Network, Simulate |
| src/simulation/noise.py | add_cartesian_noise_to_measurement 32-52, add_noise_in_cartesian_coordinates 16-29, add_noise_in_polar_coordinates 55-68, add_polar_noise_to_measurement 71-109, filter_and_resample_measurement 111-143 | – | Noise |
| src/simulation/run.py | add_noise_and_filter 140-243, generate_loads 29-102, make_net 10-27, reduce_network 246-295, simulate_net 104-138 | – | Identification, IdentificationPriors, KnownLines, Loads, Reduce, Sampling, Simulate, Simulation, Spread, Stages, Store, Templates |
| src/simulation/run3ph.py | add_noise_and_filter 195-319, generate_loads 31-156, make_net 12-29, reduce_network 322-383, simulate_net 158-193 | – | Identification, Identification3, IdentificationPriors, Loads, Parametrize, Reduce, Sampling, Simulate, Simulation, Stages, Store, Templates |
| src/simulation/simulation.py | __init__ 47-50, from_dir 38-42, get_current_and_voltage 90-104, run 52-88 | – | Simulation |
| src/simulation/simulation_3ph.py | __init__ 55-58, from_dir 46-50, get_current_and_voltage 110-131, run 60-108 | – | Simulation |
| run_multiple_sims.sh | whole script | – | Script |
| conf/*.py | the settings the programs read, as parameters; texts of conf.py and simulation.py in Props/Script2 | – | Script, Simulate, Identify |

Also not modelled: the text the programs print, progress bars, plotting (matplotlib, proplot, seaborn),
the GPU array library and `tqdm`. The network templates are data: the theorems hold for
every template, and `Model/Templates.lean` copies the buses and lines of the shipped ones and the node lists of `conf/simulation.py`
for the statements about them (C136-C138). The three-phase line types are modelled with exact numbers (Model/LineTypes.lean); that pandapower multiplies them by the length and
builds the sequence matrices from them is a hypothesis (Spec.GridBesides).

`Props/RepoTests.lean` compares the definitions with the numbers written in the tests of the repository (matrix helpers, error
metrics, noise formulas, prior terms). These are examples that check the reading of the code, not properties. The definitions
give the expected numbers except where the code itself differs from its tests: relative errors are percentages (expected 1, code 100),
`add_exact_adaptive_prior` gives a row with entry 2 (expected -2), and Python integers are refused as standard deviations.

## Trusted base

* The Lean 4.33.0 kernel, and Mathlib as far as its definitions occur in the statements (`Matrix`, `MeasureTheory`,
  `gaussianReal`, `Complex.exp`, ...).
* Axioms: `propext`, `Classical.choice`, `Quot.sound` only; no own axioms, no `sorry`, no `native_decide`, no `bv_decide`.
* The reading of the Python source into the definitions of `Verif/Model`: the code is not executed here.
* The semantics of Python, numpy and pandas as far as `Verif/Py` and the comments of the definitions describe them: indexing, slices,
  broadcasting in the places used, `np.delete`, iteration order of CPython sets of small integers (Model/PySet.lean), `round`.
* The contracts of external functions, which are hypotheses of the theorems that need them:
  `np.linalg.pinv` (Moore-Penrose equations), `np.linalg.svd`, `np.linalg.inv`, `spsolve` (Spec/LinAlg), pandapower's element tables
  (duplicate indices are refused) and power flow results (arbitrary magnitudes and angles), `np.random.normal` (scaled standard
  samples), scipy's linear interpolation (written out), `sed -i`, `np.savez` and `np.load` (a save is one step, reading
  gives what was saved).


### Axioms per theorem

Output of `#print axioms` for every theorem of `MANIFEST.json`, grouped.

* propext: C01_unvec_error
* Quot.sound, propext: C11_order_irrelevant, C11_columns, C82_gpu_vectorize, C102_flags, C110_colors, C138_exact, C138_violated
* Classical.choice, Quot.sound, propext: C01_unvec_vec, C01_vec_unvec, C01_vec_entry, C02_complex_of_real, C02_real_of_complex, C03_odd_rejected_partial, C03_odd_rejected_violated, C04_mul, C04_mulVec, C04_add, C04_injective, C05_make_complex_matrix_violated, C05_division_partial, C06_duplication, C06_rows, C07_elimination_sym, C07_left_inverse, C07_no_division_by_zero, C08_transformation, C09_left_inverse, C09_drops_diagonal, C10_projection, C10_admissible, C10_fixed_iff, C10_idempotent, C11_delete_undelete, C11_zero_rows, C11_undelete_delete, C12_bookkeeping_partial, C12_bookkeeping_violated, C12_extra_values_desynchronise, C13_exact, C13_sparsity, C13_adaptive_sparsity, C13_contrast, C13_ratios, C14_prefix, C14_order_irrelevant, C15_quadratic_model, C16_penalty_laplace_partial, C16_penalty_formula, C16_penalty_gauss_violated, C16_penalty_delta_violated, C16_witness_violated, C17_same_outcome_partial, C17_same_log_distribution_partial, C17_agree_violated, C18_copy_partial, C18_copy_violated, C19_same_as_exact, C19_adaptive_violated, C19_base_class_partial, C20_rejected_violated, C20_early_rejection_partial, C20_exact_partial, C21_fro_distance, C21_fro_triangle, C21_max_distance, C21_max_triangle, C21_max_le_fro, C22_rrms_scale, C22_rrms_zero, C22_map_ignores, C22_map_le_rrms, C22_bundle, C23_first_order, C23_psd_det, C24_exact_is_true_covariance, C25_average_is_mean_of_exact, C26_inverse, C26_inverse_naive, C26_inverse_exact, C26_inverse_average, C27_layout, C27_constant_vector, C28_wrong_length_violated, C28_scalar_violated, C28_accepted_partial, C29_minimiser, C29_recovery, C30_recovery, C31_linear_system, C31_params_admissible, C32_regression, C32_eiv, C33_regression, C33_eiv, C34_regression, C34_eiv, C35_refit_violated, C35_regression_partial, C35_eiv_partial, C35_regression_exact, C35_eiv_exact, C36_descent, C37_fixed_point, identifiable_of_full_rank, C38_weight_ignored, C38_violated, C38_partial, C39_operator, C39_violated, C39_fit_partial, C39_later_partial, C39_transpose, C40_projector, C40_projected_data, C41_trace, C41_violated, C41_partial, C42_partial, C42_samples_partial, C42_violated, C42_samples_violated, C42_program, C43_computes, C43_partial, C43_violated, C44_complex_prior, C44_diag, C45_partial, C45_violated, complex_total, C46_partial, C46_none, C46_violated, known_lines_optimal, C46_branch_partial, C47_columns, C47_global, C47_global_iff, C48_recovery, C49_loads, C49_loads3, C49_simulation, C49_simulation3, C49_network, C49_standard, C49_standard3, C49_bayesian, C49_bayesian3, C49_fim, C49_filtered, C49_filtered_partial, C49_filtered3_partial, C49_filtered3_violated, C50_exact, C50_partial, C50_violated, templates_plain, C51_standard_violated, C51_bayesian_violated, C51_partial, C52_standard, C52_bayesian, C53, C54_violated, C54_copies, C54_program, C54_partial, C55_exact, C55_refused, C56_symmetric, C56_rowSums, C56_duplicates, C56_two_steps, C56_duplicates_singular, C57_violated, C57_partial, C57_shipped, C57_lists_violated, C58_partial, C58_violated, C58_laplacian, C59_violated, C59_column_violated, C59_partial, C60_removed, C60_reduced, C61_admittance, C61_measurement, C61_width, C62_violated, C62_partial, C62_networks, C63_admittances, C63_currents, C84_three, C64_single, C64_three, C64_tables, C65_single, C65_three, C65_orientation, C65_twice, C65_rejected, C66_entries, C66_violated, C66_raises, C66_partial, C66_templates_partial, C67_createLine_violated, C67_constructor_violated, C67_removeLines_violated, C67_partial, C68_blocks, C68_weights, C68_convex, C68_constant, C68_network, C68_rejected, C69_series, C69_array, C69_both, C69_cartesian, C69_filter, C70_violated, C70_partial, C71_variance, C71_equivalent, C72_single, C72_three_partial, C72_violated, C73_values, C73_violated, C73_two_connections_violated, C73_partial, C74_single, C74_three_entries, C74_three_violated, C74_three_partial, C75_partial, C75_violated, C76_violated, C76_partial, C76_gaussian, C77, C77_three, C78_simulate, C78_simulate3, C78_identify, C78_identify3, C78_untouched, C79_accepts, C79_partial, C79_violated, C80_violated, C80_uncertainty, C80_continue, C80_partial, C81_exact, C81_violated, C81_partial, C81_harmless, C82_gpu_make_real_matrix, C168_make_real, C83_violated, C83_order_violated, C83_partial, C84, C84_none, C85_partial, C85_violated, C86_single, C86_three, C87_descent, C88_no_exception, C89_no_exception, C89_data, C90_violated, C91_loads_prior, C92_prior_violated, C92_few_violated, C92_accepts, C92_violated, C92_partial, C93_no_exception, identifiable_fullColumnRank, C94_nonsingular, C94_reducible, C95_violated, C95_partial, C96_violated, C97_gaussian_violated, C97_profiles_violated, C97_gaussian_partial, C97_profiles_partial, C97_zero, C97_three_gaussian_violated, C97_three_profiles_partial, C97_three_zero, C98, C98_three, C99, C100, C101_violated, C101_partial, C102, C102_refused, C102_noises, C102_days, C103, C103_rejected, C103_returned, C104, C104_stated, C105_partial, C105_violated, C105_violated_missing, C106, C107_partial, C107_violated, C107_three, C108_single, C108_partial, C108_report, C108_violated, C109_violated, C109_stale, C110_scatter, C110_series, C110_violated, C111_violated, C111_stored, C111_states, C111_completes, C111_completes3, C111_pipeline3, C112_converges, C112_lasso, C113_fixed_points, C114, C114_rejected, C115, C115_data, C115_shipped, shipped_excited, C116, C116_profiles, C116_needs_loads, C117_ols, C117_tls, C118_single, C118_three, C118_removeBuses, C118_removeLine, C119, complex_prior, eiv_prior, eivWeights_ok, eivCompute_ok, standard_noisy, C120, simulate_shape, demo_C120, C120_shipped, C121_partial, C121_overrun, C121_violated, C121_empty, C122, C122_data, demo128_data, C122_shipped, demo_C141_three_shipped, C123, C123_gaussian, demo_C123, C124, demo_C128, C125_few, C125_needs, C125_needs3, C126_violated, C126_identify_violated, C126_partial, eivWeights_meaning, C126_program_partial, demo_C126, C126_three_partial, C127_violated, C127_partial, C127_three_partial, C127_initial_violated, C128, C128_shipped, C129_violated, C129_partial, C129_completes, runs_uncertainty, demo_C129, C130_violated, C130_choice_violated, C130_partial, demo_C130, C131_violated, C131_lasso_violated, C131_shipped_violated, C131_bound_partial, C131_squares_partial, C131_eiv_partial, C131_exact_partial, C131_increasing_partial, C132_fixed, C133_builds, C133_builds3, C133_single, C133_three, C133_ybus, C133_stored, C134_none, C134_roundtrip, C134_three, C135_iff, C136_network, C136_recreate, C136_runs, C136_three, C136_types, C136_three_matrices, C137_known, C137_violated, C137_buses_partial, C137_runs_partial, C171_three_partial, C138_run_violated, C139_stored, C139_completes, C139_shipped, C140_estimate, C140_violated, C140_partial, C140_three_data, C140_three_estimate, C140_three_partial, C140_three_violated, C141, C141_standard, C141_programs, C141_shipped, demo_C141_shipped, C141_three, C141_three_shipped, demo_C141_three, C142, C142_unique, C142_standard, C142_noisy, C142_three, C143_tls, C143_ols, C143_standard, C143_three, C144_ols, C144_tls, C144_units, C145_loads, C145_simulation, C145_simulation3, C145_identify, C145_standard, C145_plot, C146_fit, C146_ols, C146_tls, C146_standard, C146_samples, C146_three, C147_fit, C147_unweighted, C147_run, C147_three, C148_limits, C148_fit, C149_fixed_points, C149_stays, C150_critical, C150_fit, C150_run, C150_three, C151_balance, C151_losses, C151_simulated, C151_reduced, C151_three, C151_three_lines, C152_reduced_partial, C152_partial, C152_shipped_partial, C152_violated, C152_three, C152_three_partial, C152_three_lines_partial, C152_three_shipped_partial, C152_laplacian_partial, demo_C152_laplacian, C153_partial, C153_bound_partial, C153_violated, C153_three_partial, C154, C154_first, C155_fit, C155_run, C155_three, C156_bound, C156_stays, C157_run, C157_standard, C157_noisy, C157_three, C157_standard3, C157_noisy3, C158_partial, C158_singular, C158_violated, C158_undetermined_violated, C158_program, C158_few, C159_partial, C159_violated, C160_unknown, C160_exit, C160_starts, C161_body, C161_fit, C161_small, C161_run, C161_identify, C162_fit, C162_identify, C163_fit, C163_standard, C163_identify, C164_reduced, C164_symmetric, C164, C165_lasso, C165_bayesian, C165_weighted, C165_shipped_lasso, C165_shipped_bayesian, C165_shipped_weighted, C166_lasso, C166_bayesian, C166_weighted, C167, C167_lasso, C167_bayesian, C167_weighted, C167_shipped, C167_shipped_lasso, C167_shipped_bayesian, C167_shipped_weighted, C168_regression, C168_eiv, C168_prior, Cli.C169_simulate, Cli.C169_identify, Cli.C169_plot, Cli.C169_order, Cli.C169_script, Cli.C170_violated, Cli.C170_partial, Cli.C171_accepted, Cli.C171_violated, Cli.C171_partial, C172_stored, C172_completes, C172_shipped, C173, C174, C174_script, C175_data, C175, C175_three, C175_hidden, C175_hidden_apart, C175_three_shipped, C175_shipped, C176_violated, C176_partial, C176_three_partial, C177_violated, C177_law_violated, C177_partial, C178, C178_back, C178_components, C178_stored, C179_violated, C179_partial, C179_simulated_partial, C180_partial, C180_violated, C181_wires, C181_partial, C181_violated, C181_cigre, C182, C182_shipped, demo_C182, C182_equivalent, C183_ols, C183_tls, C183_programs, C183_shipped, demo_C183, C183_three, C183_three_shipped, C183_laplacian, C184_partial, C184_violated, C184_weighted_partial, C184_three_partial, C184_three_weighted_partial, C185, C185_eiv, C185_regression, C185_three, C185_standard
