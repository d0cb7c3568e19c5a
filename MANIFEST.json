{
 "claims": [
  {
   "property": "C01",
   "status": "proved",
   "theorems": [
    "Verif.C01_unvec_vec",
    "Verif.C01_vec_unvec",
    "Verif.C01_unvec_error",
    "Verif.C01_vec_entry"
   ],
   "note": "2-D arrays; no -1 wildcard in the shape"
  },
  {
   "property": "C02",
   "status": "proved",
   "theorems": [
    "Verif.C02_complex_of_real",
    "Verif.C02_real_of_complex"
   ],
   "note": ""
  },
  {
   "property": "C03",
   "status": "partial",
   "theorems": [
    "Verif.C03_odd_rejected_partial",
    "Verif.C03_odd_rejected_violated"
   ],
   "note": "the code violates the property for lengths 1 and 3 (broadcasting); exact domain of the error proved"
  },
  {
   "property": "C04",
   "status": "proved",
   "theorems": [
    "Verif.C04_mul",
    "Verif.C04_mulVec",
    "Verif.C04_add",
    "Verif.C04_injective"
   ],
   "note": ""
  },
  {
   "property": "C05",
   "status": "partial",
   "theorems": [
    "Verif.C05_make_complex_matrix_violated",
    "Verif.C05_division_partial"
   ],
   "note": "Violated: the slice bounds are floats, so every call raises TypeError. But for the true division the expression reads every matrix back (C05_division_partial)."
  },
  {
   "property": "C06",
   "status": "proved",
   "theorems": [
    "Verif.C06_duplication",
    "Verif.C06_rows"
   ],
   "note": ""
  },
  {
   "property": "C07",
   "status": "proved",
   "theorems": [
    "Verif.C07_elimination_sym",
    "Verif.C07_left_inverse",
    "Verif.C07_no_division_by_zero"
   ],
   "note": ""
  },
  {
   "property": "C08",
   "status": "proved",
   "theorems": [
    "Verif.C08_transformation"
   ],
   "note": ""
  },
  {
   "property": "C09",
   "status": "proved",
   "theorems": [
    "Verif.C09_left_inverse",
    "Verif.C09_drops_diagonal"
   ],
   "note": ""
  },
  {
   "property": "C10",
   "status": "proved",
   "theorems": [
    "Verif.C10_projection",
    "Verif.C10_admissible",
    "Verif.C10_fixed_iff",
    "Verif.C10_idempotent"
   ],
   "note": ""
  },
  {
   "property": "C100",
   "status": "proved",
   "theorems": [
    "Verif.C100"
   ],
   "note": "For plain names (C50). Interruptions are between saves; a save is one step."
  },
  {
   "property": "C101",
   "status": "partial",
   "theorems": [
    "Verif.C101_violated",
    "Verif.C101_partial"
   ],
   "note": "Violated with -s for every configuration: a seed 1311 or 70 days remain. Holds when no value of a list begins another one, as with -n."
  },
  {
   "property": "C102",
   "status": "proved",
   "theorems": [
    "Verif.C102",
    "Verif.C102_flags",
    "Verif.C102_refused",
    "Verif.C102_noises",
    "Verif.C102_days"
   ],
   "note": ""
  },
  {
   "property": "C103",
   "status": "proved",
   "theorems": [
    "Verif.C103",
    "Verif.C103_rejected",
    "Verif.C103_returned"
   ],
   "note": ""
  },
  {
   "property": "C104",
   "status": "proved",
   "theorems": [
    "Verif.C104",
    "Verif.C104_stated"
   ],
   "note": ""
  },
  {
   "property": "C105",
   "status": "partial",
   "theorems": [
    "Verif.C105_partial",
    "Verif.C105_violated",
    "Verif.C105_violated_missing"
   ],
   "note": "Violated: in Laplacian mode a network in which all nodes are connected with each other makes max() of an empty array raise; without standard results a name is undefined. Exact condition for completion proved."
  },
  {
   "property": "C106",
   "status": "proved",
   "theorems": [
    "Verif.C106"
   ],
   "note": "Where results are shown as stored; in Laplacian mode."
  },
  {
   "property": "C107",
   "status": "partial",
   "theorems": [
    "Verif.C107_partial",
    "Verif.C107_violated",
    "Verif.C107_three"
   ],
   "note": "Violated: always the voltages labelled 1; if phase 1 has another number of nodes the report fails."
  },
  {
   "property": "C108",
   "status": "partial",
   "theorems": [
    "Verif.C108_single",
    "Verif.C108_partial",
    "Verif.C108_report",
    "Verif.C108_violated"
   ],
   "note": "Violated for three phases: the merged log ends with the shortest log (concrete run proved for `bayesian_eiv` of run3ph.py). Proved for one phase; for three phases the exact condition is proved, the last point is that of the estimate if the three fits took equally many iterations."
  },
  {
   "property": "C109",
   "status": "partial",
   "theorems": [
    "Verif.C109_violated",
    "Verif.C109_stale"
   ],
   "note": "Violated: file names do not contain the network, and files of kinds of results that are missing stay in place."
  },
  {
   "property": "C11",
   "status": "proved",
   "theorems": [
    "Verif.C11_delete_undelete",
    "Verif.C11_zero_rows",
    "Verif.C11_undelete_delete",
    "Verif.C11_order_irrelevant",
    "Verif.C11_columns"
   ],
   "note": ""
  },
  {
   "property": "C110",
   "status": "partial",
   "theorems": [
    "Verif.C110_colors",
    "Verif.C110_scatter",
    "Verif.C110_series",
    "Verif.C110_violated"
   ],
   "note": "plot_series with labels raises AttributeError (`scaplottter`). A list with too few colours gives every series the first colour."
  },
  {
   "property": "C111",
   "status": "partial",
   "theorems": [
    "Verif.C111_violated",
    "Verif.C111_stored",
    "Verif.C111_states",
    "Verif.C111_completes",
    "Verif.C111_completes3",
    "Verif.C111_pipeline3"
   ],
   "note": "The files hold the estimates of the run and a complete report states their errors (proved for all options). Completion: exact condition for one phase and for all phases or sequences; it fails for fully connected Laplacians (C111_violated: the phase view of an identified Laplacian) and for phases with another number of nodes than phase 1 (C105, C107). After simulate and identify in sequence coordinates the report in sequence coordinates always completes."
  },
  {
   "property": "C112",
   "status": "proved",
   "theorems": [
    "Verif.C112_converges",
    "Verif.C112_lasso"
   ],
   "note": "For an exact solver of regular systems (scipy's spsolve is a parameter)."
  },
  {
   "property": "C113",
   "status": "proved",
   "theorems": [
    "Verif.C113_fixed_points"
   ],
   "note": "For an exact solver."
  },
  {
   "property": "C114",
   "status": "proved",
   "theorems": [
    "Verif.C114",
    "Verif.C114_rejected"
   ],
   "note": "numpy's generator is a sequence of independent standard normal variables, used in order."
  },
  {
   "property": "C115",
   "status": "proved",
   "theorems": [
    "Verif.C115",
    "Verif.C115_data",
    "Verif.C115_shipped",
    "Verif.shipped_excited"
   ],
   "note": "Contracts of pinv, inv, SVD and the sparse solver are hypotheses, met by exact routines (exactPinv, exactInv, exactSvd, exactSolve); the power flow keeps connection voltages and injects nothing at passive nodes. demo_C115 is a run that meets all hypotheses."
  },
  {
   "property": "C116",
   "status": "proved",
   "theorems": [
    "Verif.C116",
    "Verif.C116_profiles",
    "Verif.C116_needs_loads"
   ],
   "note": "The power flow and make_y_bus are parameters. C116 is for random loads, C116_profiles for loads from files. demo_C116 meets the hypotheses."
  },
  {
   "property": "C117",
   "status": "proved",
   "theorems": [
    "Verif.C117_ols",
    "Verif.C117_tls"
   ],
   "note": "Contracts of pinv, inv and SVD are hypotheses, met by exactPinv, exactInv and exactSvd. An example gives data with error 1 and excitation 3."
  },
  {
   "property": "C118",
   "status": "proved",
   "theorems": [
    "Verif.C118_single",
    "Verif.C118_three",
    "Verif.C118_removeBuses",
    "Verif.C118_removeLine"
   ],
   "note": "The pandapower functions drop_buses and drop_lines are modelled from their documented behaviour."
  },
  {
   "property": "C119",
   "status": "proved",
   "theorems": [
    "Verif.C119",
    "Verif.complex_prior",
    "Verif.eiv_prior",
    "Verif.eivWeights_ok",
    "Verif.eivCompute_ok",
    "Verif.standard_noisy"
   ],
   "note": "Contracts of the numerical routines are hypotheses, met by exactPinv, exactInv, exactSvd, exactSolve. --exact is covered with the Laplacian constraint or for at least 29 nodes (C125 for fewer). An example gives data with noise on which the script returns."
  },
  {
   "property": "C12",
   "status": "partial",
   "theorems": [
    "Verif.C12_bookkeeping_partial",
    "Verif.C12_bookkeeping_violated",
    "Verif.C12_extra_values_desynchronise"
   ],
   "note": "Proved for every history; evaluation fails in the code for n = 1 (x.squeeze() is a scalar) and for a sparse prior with exactly one row (mu.squeeze())."
  },
  {
   "property": "C120",
   "status": "proved",
   "theorems": [
    "Verif.C120",
    "Verif.simulate_shape",
    "Verif.demo_C120",
    "Verif.C120_shipped"
   ],
   "note": "The power flow contract of C115 is a hypothesis. The bounds are on the centred data. demo_C120 meets all hypotheses."
  },
  {
   "property": "C121",
   "status": "partial",
   "theorems": [
    "Verif.C121_partial",
    "Verif.C121_overrun",
    "Verif.C121_violated",
    "Verif.C121_empty"
   ],
   "note": "Holds (also for exceptions) when both files have the same length and contain all weeks. Beyond the end of the files the CSV reader raises ValueError where the other returns fewer samples; a reactive file longer by d lines gives d reactive samples too many; no weeks give TypeError instead of IndexError. pandas.read_csv is modelled on files of numbers."
  },
  {
   "property": "C122",
   "status": "proved",
   "theorems": [
    "Verif.C122",
    "Verif.C122_data",
    "Verif.demo128_data",
    "Verif.C122_shipped",
    "Verif.demo_C141_three_shipped"
   ],
   "note": "For the shipped networks (C122_shipped) positive and negative sequence blocks are equal and the estimates are the stored reference."
  },
  {
   "property": "C123",
   "status": "proved",
   "theorems": [
    "Verif.C123",
    "Verif.C123_gaussian",
    "Verif.demo_C123"
   ],
   "note": "The power flow and make_y_bus (built from three sequence matrices) are parameters. demo_C123 meets the hypotheses."
  },
  {
   "property": "C124",
   "status": "proved",
   "theorems": [
    "Verif.C124",
    "Verif.demo_C128"
   ],
   "note": "Contracts of inv, pinv, SVD and the sparse solver are hypotheses, met by exact routines. Its hypotheses are met in demo_C128."
  },
  {
   "property": "C125",
   "status": "partial",
   "theorems": [
    "Verif.C125_few",
    "Verif.C125_needs",
    "Verif.C125_needs3",
    "Verif.C119",
    "Verif.C124"
   ],
   "note": "The code violates this: below 29 nodes every run with --exact and without the Laplacian constraint fails (C125_needs, C125_needs3), with IndexError after the standard methods (C125_few). From 29 nodes on it completes (C119, C124 with the option --exact). An example shows both sides for every size."
  },
  {
   "property": "C126",
   "status": "partial",
   "theorems": [
    "Verif.C126_violated",
    "Verif.C126_identify_violated",
    "Verif.C126_partial",
    "Verif.eivWeights_meaning",
    "Verif.C126_program_partial",
    "Verif.demo_C126",
    "Verif.C126_three_partial"
   ],
   "note": "The code violates this: the result, log and files do not depend on the noise of the currents or on the ratings (C126_violated for bayesian_eiv, C126_identify_violated for the program, every option). C126_partial: what is minimised instead uses the inverse covariance of the voltages for both. Examples give runs that return. C126_program_partial states the same for identify_network.py with the configured noise divided by the square root of the number of averaged samples; demo_C126 is a weighted run that meets its hypotheses."
  },
  {
   "property": "C127",
   "status": "partial",
   "theorems": [
    "Verif.C127_violated",
    "Verif.C126_partial",
    "Verif.C127_partial",
    "Verif.C127_three_partial",
    "Verif.C127_initial_violated"
   ],
   "note": "Violated without --weighted: the option changes nothing (C127_violated, one and three phases). Violated with --weighted: the initial estimate is computed from the phases (C127_initial_violated). Proved: given the initial estimate, the weighted Bayesian method uses only magnitudes and complex powers (C127_partial, C127_three_partial)."
  },
  {
   "property": "C128",
   "status": "proved",
   "theorems": [
    "Verif.C128",
    "Verif.demo_C128",
    "Verif.C128_shipped"
   ],
   "note": "Contracts of the power flow, pinv, inv, SVD and the sparse solver are hypotheses. demo_C128 meets all hypotheses with three different line admittances g0, g1, g2: the stored matrix is diag(g0, g1, g2), the estimates are diag(g0, g2, g1)."
  },
  {
   "property": "C129",
   "status": "partial",
   "theorems": [
    "Verif.C129_violated",
    "Verif.C129_partial",
    "Verif.C129_completes",
    "Verif.runs_uncertainty",
    "Verif.demo_C129"
   ],
   "note": "The code violates this: no sequence of runs with any options, completed or not, creates the file, so a completed report never shows the deviations (C129_violated; demo_C129 is a run with --uncertainty that raises NameError after storing everything else, followed by a complete report). C129_partial, C129_completes: what the report shows once such a file is there, and that it is then completed. demo_C130 is such a report."
  },
  {
   "property": "C13",
   "status": "proved",
   "theorems": [
    "Verif.C13_exact",
    "Verif.C13_sparsity",
    "Verif.C13_adaptive_sparsity",
    "Verif.C13_contrast",
    "Verif.C13_ratios"
   ],
   "note": "Ratio rows need two different columns (a repeated column is overwritten)."
  },
  {
   "property": "C130",
   "status": "partial",
   "theorems": [
    "Verif.C130_violated",
    "Verif.C130_choice_violated",
    "Verif.C130_partial",
    "Verif.demo_C130"
   ],
   "note": "The code violates this: for two or more nodes the moduli are never the standard deviations unless all are zero (C130_violated), and they depend on the eigenvectors (C130_choice_violated). C130_partial: the sum of their squares is the mean of the variances, and for one node the modulus is the standard deviation. Roots and quotients are exact reals."
  },
  {
   "property": "C131",
   "status": "partial",
   "theorems": [
    "Verif.C131_violated",
    "Verif.C131_lasso_violated",
    "Verif.C131_shipped_violated",
    "Verif.C131_bound_partial",
    "Verif.C131_squares_partial",
    "Verif.C131_eiv_partial",
    "Verif.C131_exact_partial",
    "Verif.C131_increasing_partial"
   ],
   "note": "The code violates this: the step solves the normal equations with weight lambda while the logged target counts the penalty without the factor two, so the targets of a converging fit can increase for ever, and the stop test requires that they do not. C131_violated: for data that separate the parameters every number of iterations is used, with increasing targets, although the matrices converge. C131_lasso_violated and C131_shipped_violated: the Bayesian estimate of identify_network.py is different for every max_iterations on orthogonal voltages (an instance: two nodes, one line, shipped lambda). What holds: a bound on the number of iterations if the targets do not increase (C131_bound_partial), which is so for the weighted error-in-variables fit without prior (C131_eiv_partial); two iterations without prior, with squares only, or with exact data and prior (C131_squares_partial, C131_exact_partial); and in general, after finitely many iterations, an increase of the target is the only reason not to stop (C131_increasing_partial)."
  },
  {
   "property": "C132",
   "status": "proved",
   "theorems": [
    "Verif.C132_fixed"
   ],
   "note": "Weighted branch, the weights of the voltages are used for both as the code does. Exact solver."
  },
  {
   "property": "C133",
   "status": "proved",
   "theorems": [
    "Verif.C133_builds",
    "Verif.C133_builds3",
    "Verif.C133_single",
    "Verif.C133_three",
    "Verif.C133_ybus",
    "Verif.C133_stored"
   ],
   "note": "The admittance matrix is that of the model of pandapower's line table (makeYBus: pi model without shunts), for single-phase networks; that pandapower gives it is the hypothesis of C133_stored."
  },
  {
   "property": "C134",
   "status": "proved",
   "theorems": [
    "Verif.C134_none",
    "Verif.C134_roundtrip",
    "Verif.C134_three"
   ],
   "note": "For other bus numbers and voltages the round trip fails, see C66."
  },
  {
   "property": "C135",
   "status": "proved",
   "theorems": [
    "Verif.C135_iff"
   ],
   "note": ""
  },
  {
   "property": "C136",
   "status": "proved",
   "theorems": [
    "Verif.C136_network",
    "Verif.C136_recreate",
    "Verif.C136_runs",
    "Verif.C136_three",
    "Verif.C136_types",
    "Verif.C136_three_matrices"
   ],
   "note": "The template data are copied from the two template files; convergence of the power flow is a hypothesis, as it is outside the repository."
  },
  {
   "property": "C137",
   "status": "partial",
   "theorems": [
    "Verif.C137_known",
    "Verif.C137_violated",
    "Verif.C137_buses_partial",
    "Verif.C137_runs_partial",
    "Verif.C171_three_partial"
   ],
   "note": "Violated: a run only succeeds if every hidden label is a bus of the network, and the shipped list has labels up to 55, so that no run succeeds for the six shipped networks with fewer buses (ValueError of list.index). Partial: the labels are buses of bolognani56 and of ieee123center; for both, runs complete if the power flow converges."
  },
  {
   "property": "C138",
   "status": "partial",
   "theorems": [
    "Verif.C138_exact",
    "Verif.C138_violated",
    "Verif.C138_run_violated"
   ],
   "note": "Violated: the list of hidden nodes subtracts one from the observed numbers although buses are labelled from one, so that 17 of the 32 observed nodes are hidden and 16 other nodes are kept; every successful run for bolognani56 omits the measurements of observed node 28 and stores those of node 27. Exact condition: a node is hidden if and only if its successor is not observed."
  },
  {
   "property": "C139",
   "status": "proved",
   "theorems": [
    "Verif.C139_stored",
    "Verif.C139_completes",
    "Verif.C139_shipped"
   ],
   "note": "Convergence of the power flow is a hypothesis, as it is outside the repository."
  },
  {
   "property": "C14",
   "status": "proved",
   "theorems": [
    "Verif.C14_prefix",
    "Verif.C14_order_irrelevant"
   ],
   "note": ""
  },
  {
   "property": "C140",
   "status": "partial",
   "theorems": [
    "Verif.C140_estimate",
    "Verif.C140_violated",
    "Verif.C140_partial",
    "Verif.C140_three_data",
    "Verif.C140_three_estimate",
    "Verif.C140_three_partial",
    "Verif.C140_three_violated"
   ],
   "note": "Three-phase witness (C140_three_violated): reference diagonal 0, estimates 2/3."
  },
  {
   "property": "C141",
   "status": "proved",
   "theorems": [
    "Verif.C141",
    "Verif.C141_standard",
    "Verif.C141_programs",
    "Verif.C141_shipped",
    "Verif.demo_C141_shipped",
    "Verif.C141_three",
    "Verif.C141_three_shipped",
    "Verif.demo_C141_three",
    "Verif.demo_C141_three_shipped"
   ],
   "note": "The matrix is assumed symmetric, and with zero row sums in Laplacian mode, because the fit returns such matrices only. The constant of the distance is a lower bound of the squared singular values of the voltages."
  },
  {
   "property": "C142",
   "status": "proved",
   "theorems": [
    "Verif.C142",
    "Verif.C142_unique",
    "Verif.C142_standard",
    "Verif.C142_noisy",
    "Verif.C142_three"
   ],
   "note": "The optimality is the truncation theorem of Eckart, Young and Mirsky, proved in Lemmas/EckartYoung.lean for the form needed. svd and inv are specified by contracts that exact arithmetic meets."
  },
  {
   "property": "C143",
   "status": "proved",
   "theorems": [
    "Verif.C143_tls",
    "Verif.C143_ols",
    "Verif.C143_standard",
    "Verif.C143_three"
   ],
   "note": "The exact voltages must be linearly independent. The correlations are those of the sample, so that the claim is exact and not asymptotic."
  },
  {
   "property": "C144",
   "status": "proved",
   "theorems": [
    "Verif.C144_ols",
    "Verif.C144_tls",
    "Verif.C144_units"
   ],
   "note": "For total least squares a gap after the first n singular values is assumed, without which the estimate depends on the decomposition."
  },
  {
   "property": "C145",
   "status": "proved",
   "theorems": [
    "Verif.C145_loads",
    "Verif.C145_simulation",
    "Verif.C145_simulation3",
    "Verif.C145_identify",
    "Verif.C145_standard",
    "Verif.C145_plot"
   ],
   "note": "The network must be one that can be built, and what is read before the missing file must be readable."
  },
  {
   "property": "C146",
   "status": "proved",
   "theorems": [
    "Verif.C146_fit",
    "Verif.C146_ols",
    "Verif.C146_tls",
    "Verif.C146_standard",
    "Verif.C146_samples",
    "Verif.C146_three"
   ],
   "note": "For total least squares a gap after the first n singular values is assumed. standard_methods centres the measurements first; the claim is about the centred ones."
  },
  {
   "property": "C147",
   "status": "proved",
   "theorems": [
    "Verif.C147_fit",
    "Verif.C147_unweighted",
    "Verif.C147_run",
    "Verif.C147_three"
   ],
   "note": "Positive standard deviations of the voltages, more than one node and a rating are assumed for the weighted runs, and nonzero voltages if they are unsynchronised. The solver is exact and solves regular systems."
  },
  {
   "property": "C148",
   "status": "proved",
   "theorems": [
    "Verif.C148_limits",
    "Verif.C148_fit"
   ],
   "note": "The fit assigns the weights of the voltages to the currents as well; this is C148_fit. C148_limits treats the body of the fit with any weights of the currents. The solver is exact and solves regular systems, and the weight of the prior is positive."
  },
  {
   "property": "C149",
   "status": "proved",
   "theorems": [
    "Verif.C149_fixed_points",
    "Verif.C149_stays"
   ],
   "note": "The first iteration is covered when the initial guess is admissible. The solver is exact and the weight of the prior is positive."
  },
  {
   "property": "C15",
   "status": "proved",
   "theorems": [
    "Verif.C15_quadratic_model"
   ],
   "note": ""
  },
  {
   "property": "C150",
   "status": "proved",
   "theorems": [
    "Verif.C150_critical",
    "Verif.C150_fit",
    "Verif.C150_run",
    "Verif.C150_three"
   ],
   "note": "The objective weighs voltages and currents with the weights of the voltages, as the fit does (error_in_variable.py:210). C150_run assumes: positive standard deviations of the voltages, more than one node, a rating, nonzero voltages if unsynchronised, a starting matrix in which all lines are seen, and the Laplacian constraint or a regularised diagonal with a contrast in each row."
  },
  {
   "property": "C151",
   "status": "proved",
   "theorems": [
    "Verif.C151_balance",
    "Verif.C151_losses",
    "Verif.C151_simulated",
    "Verif.C151_reduced",
    "Verif.C151_three",
    "Verif.C151_three_lines"
   ],
   "note": "Per unit power; C151_simulated for results of run_simulation with the admittance matrix of the line table (C133)."
  },
  {
   "property": "C152",
   "status": "partial",
   "theorems": [
    "Verif.C152_reduced_partial",
    "Verif.C152_partial",
    "Verif.C152_shipped_partial",
    "Verif.C152_violated",
    "Verif.C152_three",
    "Verif.C152_three_partial",
    "Verif.C152_three_lines_partial",
    "Verif.C152_three_shipped_partial",
    "Verif.C152_laplacian_partial",
    "Verif.demo_C152_laplacian"
   ],
   "note": "Violated: hidden nodes with constant-admittance loads are added with the wrong sign (C59, C140), and a run with one such consuming load stores a 1 by 1 matrix that delivers power, while standard identification finds a dissipative one. Guard: no hidden nodes (program, both forms, any noise; all shipped single-phase networks), or hidden nodes at which the added conductance is not negative (reduction). Three phases with --sequence: no hidden nodes (program, any noise); the unreduced matrix delivers no power exactly if none of the three sequence matrices does."
  },
  {
   "property": "C153",
   "status": "partial",
   "theorems": [
    "Verif.C153_partial",
    "Verif.C153_bound_partial",
    "Verif.C153_violated",
    "Verif.C153_three_partial"
   ],
   "note": "Violated: plotted are the moduli of the eigenvalues of the product with the plain transpose; for one node with deviations 2, i, -2, -i the plot shows the logarithm of the root of 6 instead of the root of 10. Guard: all deviations lie on one line through the origin (as for real voltages). The bound holds for all voltages. The logarithm of zero is 0 in the model, on both sides."
  },
  {
   "property": "C154",
   "status": "proved",
   "theorems": [
    "Verif.C154",
    "Verif.C154_first"
   ],
   "note": "Targets may differ: the unweighted branch logs another target. Solver exact and total, inverse meeting its contract."
  },
  {
   "property": "C155",
   "status": "proved",
   "theorems": [
    "Verif.C155_fit",
    "Verif.C155_run",
    "Verif.C155_three"
   ],
   "note": ""
  },
  {
   "property": "C156",
   "status": "proved",
   "theorems": [
    "Verif.C156_bound",
    "Verif.C156_stays"
   ],
   "note": "Penalty coefficient nonnegative in the first part, zero in the second."
  },
  {
   "property": "C157",
   "status": "proved",
   "theorems": [
    "Verif.C157_run",
    "Verif.C157_standard",
    "Verif.C157_noisy",
    "Verif.C157_three",
    "Verif.C157_standard3",
    "Verif.C157_noisy3"
   ],
   "note": "Contrast without known lines; the exact prior of bayesian_eiv is left out. Laplacian runs with both contrast_each_row and regularize_diag are left out, see C90."
  },
  {
   "property": "C158",
   "status": "partial",
   "theorems": [
    "Verif.C158_partial",
    "Verif.C158_singular",
    "Verif.C158_violated",
    "Verif.C158_undetermined_violated",
    "Verif.C158_program",
    "Verif.C158_few"
   ],
   "note": "Violated: the code uses diag(Re x, Im x) instead of the real block form of x. Real voltages of full rank raise LinAlgError, and voltages that leave the parameters undetermined get a covariance. Exact guard: real parts and imaginary parts each have independent columns."
  },
  {
   "property": "C159",
   "status": "partial",
   "theorems": [
    "Verif.C159_partial",
    "Verif.C159_violated"
   ],
   "note": "Violated: the covariances of the samples are exchanged, see C42. Proved when the voltage errors of all samples contribute the same variance to the residuals."
  },
  {
   "property": "C16",
   "status": "partial",
   "theorems": [
    "Verif.C16_penalty_laplace_partial",
    "Verif.C16_penalty_formula",
    "Verif.C16_penalty_gauss_violated",
    "Verif.C16_penalty_delta_violated",
    "Verif.C16_witness_violated"
   ],
   "note": "Code returns sum |r|^(2-order): right for LAPLACE only."
  },
  {
   "property": "C160",
   "status": "proved",
   "theorems": [
    "Verif.C160_unknown",
    "Verif.C160_exit",
    "Verif.C160_starts"
   ],
   "note": "The module templates are functions from names to tables, the profile files a function from paths to tables."
  },
  {
   "property": "C161",
   "status": "proved",
   "theorems": [
    "Verif.C161_body",
    "Verif.C161_fit",
    "Verif.C161_small",
    "Verif.C161_run",
    "Verif.C161_identify"
   ],
   "note": "Exact real arithmetic, exact solver contract. The weights of the voltages are bounded above and below by multiples of the unit weights; such bounds exist for the weights of the code (PosDef.between)."
  },
  {
   "property": "C162",
   "status": "proved",
   "theorems": [
    "Verif.C162_fit",
    "Verif.C162_identify"
   ],
   "note": "Exact real arithmetic, exact solver contract. With the exact prior for passive networks the run-level theorem asks for at least 29 nodes, as the prior fails below."
  },
  {
   "property": "C163",
   "status": "proved",
   "theorems": [
    "Verif.C163_fit",
    "Verif.C163_standard",
    "Verif.C163_identify"
   ],
   "note": "Exact real arithmetic, exact solver and pseudo-inverse contracts."
  },
  {
   "property": "C164",
   "status": "proved",
   "theorems": [
    "Verif.C164_reduced",
    "Verif.C164_symmetric",
    "Verif.C164"
   ],
   "note": "Single phase. The pseudo-inverse satisfies the Penrose conditions; symmetry of the bus matrix is a hypothesis (bus matrices of the modelled construction are symmetric, see C133)."
  },
  {
   "property": "C165",
   "status": "proved",
   "theorems": [
    "Verif.C165_lasso",
    "Verif.C165_bayesian",
    "Verif.C165_weighted",
    "Verif.C165_shipped_lasso",
    "Verif.C165_shipped_bayesian",
    "Verif.C165_shipped_weighted"
   ],
   "note": "Single phase, exact real arithmetic, contracts of the numerical routines; the power flow satisfies the network equations. Weighted: at least two stored nodes and positive configured noise. With the exact prior for passive networks at least 29 nodes, as the prior fails below."
  },
  {
   "property": "C166",
   "status": "proved",
   "theorems": [
    "Verif.C166_lasso",
    "Verif.C166_bayesian",
    "Verif.C166_weighted"
   ],
   "note": "Sequence values; with weights: synchronised measurements, at least two nodes per sequence, positive configured noise. With the exact prior at least 29 nodes per sequence, as the prior fails below. Exact real arithmetic, contracts of the numerical routines."
  },
  {
   "property": "C167",
   "status": "proved",
   "theorems": [
    "Verif.C167",
    "Verif.C167_lasso",
    "Verif.C167_bayesian",
    "Verif.C167_weighted",
    "Verif.C167_shipped",
    "Verif.C167_shipped_lasso",
    "Verif.C167_shipped_bayesian",
    "Verif.C167_shipped_weighted"
   ],
   "note": "Hypotheses of C122 and C128 for the simulation. The exchange of positive and negative sequence is the behaviour recorded in C122."
  },
  {
   "property": "C168",
   "status": "proved",
   "theorems": [
    "Verif.C168_make_real",
    "Verif.C168_regression",
    "Verif.C168_eiv",
    "Verif.C168_prior"
   ],
   "note": "The library's treatment of storage is any function keeping the denoted array. Exact arithmetic: merging entries reorders sums."
  },
  {
   "property": "C169",
   "status": "proved",
   "theorems": [
    "Verif.Cli.C169_simulate",
    "Verif.Cli.C169_identify",
    "Verif.Cli.C169_plot",
    "Verif.Cli.C169_order",
    "Verif.Cli.C169_script"
   ],
   "note": "The parser of click is modelled (Model/Cli.lean); float() is a parameter, int() is modelled for ASCII digits."
  },
  {
   "property": "C17",
   "status": "partial",
   "theorems": [
    "Verif.C17_same_outcome_partial",
    "Verif.C17_same_log_distribution_partial",
    "Verif.C17_agree_violated"
   ],
   "note": "Violated for single-row priors and for any call after a rejected call."
  },
  {
   "property": "C170",
   "status": "partial",
   "theorems": [
    "Verif.Cli.C170_violated",
    "Verif.Cli.C170_partial"
   ],
   "note": "Violated: the defaults are the integer 0, so click makes the options integers and refuses every number with a decimal point. Partial: whole numbers are accepted, 0 meaning no limit."
  },
  {
   "property": "C171",
   "status": "partial",
   "theorems": [
    "Verif.Cli.C171_accepted",
    "Verif.Cli.C171_violated",
    "Verif.Cli.C171_partial",
    "Verif.C171_three_partial"
   ],
   "note": "Violated: the README does not say that the hidden nodes of conf/simulation.py have to be removed; with them the first command never completes. Partial: it completes with no hidden nodes if the profile files contain the weeks and the power flow converges; the first command for the three-phase network completes with the shipped hidden nodes under the same conditions."
  },
  {
   "property": "C172",
   "status": "proved",
   "theorems": [
    "Verif.C172_stored",
    "Verif.C172_completes",
    "Verif.C172_shipped"
   ],
   "note": "Convergence of the power flow, to voltages within a right angle of those without load, is a hypothesis as it is outside the repository. The connection is the last bus, as in all shipped three-phase networks."
  },
  {
   "property": "C173",
   "status": "proved",
   "theorems": [
    "Verif.C173"
   ],
   "note": ""
  },
  {
   "property": "C174",
   "status": "proved",
   "theorems": [
    "Verif.C174",
    "Verif.C174_script"
   ],
   "note": ""
  },
  {
   "property": "C175",
   "status": "proved",
   "theorems": [
    "Verif.C175_data",
    "Verif.C175",
    "Verif.C175_three",
    "Verif.C175_hidden",
    "Verif.C175_hidden_apart",
    "Verif.C175_three_shipped",
    "Verif.C175_shipped"
   ],
   "note": "The constants depend on the random numbers and on the exact data, not on the numerical library. For three phases in sequence values the limits are the stored blocks with positive and negative sequence exchanged (see C122); with hidden constant impedances the limit is the network with them connected, not the stored reference (see C140)."
  },
  {
   "property": "C176",
   "status": "partial",
   "theorems": [
    "Verif.C176_violated",
    "Verif.C176_partial",
    "Verif.C176_three_partial"
   ],
   "note": "Violated for -s: the stored Bayesian result is returned whatever its size. Proved for -b without -c: ValueError for one phase, IndexError in sequence values, and only the reference file is written."
  },
  {
   "property": "C177",
   "status": "partial",
   "theorems": [
    "Verif.C177_violated",
    "Verif.C177_law_violated",
    "Verif.C177_partial"
   ],
   "note": "Violated: the standard deviation of the distances is stored (as the docstring of eiv_fim says, but not the caller). It is less than the root mean square for every set of samples other than copies of the parameters, zero if all samples are at the same distance, and its mean square is less than the trace. C177_partial: its square is the mean square minus the squared mean."
  },
  {
   "property": "C178",
   "status": "proved",
   "theorems": [
    "Verif.C178",
    "Verif.C178_back",
    "Verif.C178_components",
    "Verif.C178_stored"
   ],
   "note": "Exact rotations. Powers are those of voltage times conjugate current, summed over the three values of a node."
  },
  {
   "property": "C179",
   "status": "partial",
   "theorems": [
    "Verif.C179_violated",
    "Verif.C179_partial",
    "Verif.C179_simulated_partial"
   ],
   "note": "Violated: currents are voltages times the matrix from the left, i.e. the transpose of the phase matrix acts, which exchanges the positive and negative sequences; balanced voltages meet the negative sequence matrix. They are balanced in all cases; the equation holds exactly if the two matrices agree (static lines)."
  },
  {
   "property": "C18",
   "status": "partial",
   "theorems": [
    "Verif.C18_copy_partial",
    "Verif.C18_copy_violated"
   ],
   "note": "n is not copied: SmoothPrior(other=p) rejects every further call unless n is repeated."
  },
  {
   "property": "C180",
   "status": "partial",
   "theorems": [
    "Verif.C180_partial",
    "Verif.C180_violated"
   ],
   "note": "Violated: the weights use the standard deviations of the phase values for the sequence values. With voltage one on all phases and any positive magnitude deviation, each sequence value has noise power a third of its square, while the covariance used has at least the square, at any measured values. The first part (powers and correlation of the sequence errors) is proved for uncorrelated phase errors."
  },
  {
   "property": "C181",
   "status": "partial",
   "theorems": [
    "Verif.C181_wires",
    "Verif.C181_partial",
    "Verif.C181_violated",
    "Verif.C181_cigre"
   ],
   "note": "Violated by the single-wire type OG1: its zero sequence impedance is divided by 0.3 twice, so that it differs from the positive one and corresponds to no wires with the given impedance. The two other documented types are right; the undocumented fourth type is compared with UG3."
  },
  {
   "property": "C182",
   "status": "proved",
   "theorems": [
    "Verif.C182",
    "Verif.C182_shipped",
    "Verif.demo_C182",
    "Verif.C182_equivalent"
   ],
   "note": "Runs that redo all stages; the general statements without (C182) and with --equivalent-noise (C182_equivalent), and the one for the shipped configuration with both."
  },
  {
   "property": "C183",
   "status": "proved",
   "theorems": [
    "Verif.C183_ols",
    "Verif.C183_tls",
    "Verif.C183_programs",
    "Verif.C183_shipped",
    "Verif.demo_C183",
    "Verif.C183_three",
    "Verif.C183_three_shipped",
    "Verif.C183_laplacian"
   ],
   "note": "Contracts: pinv is the Moore-Penrose inverse, any singular value decomposition, inv returns inverses only; exact arithmetic (numpy's cutoff of small singular values in pinv is not modelled)."
  },
  {
   "property": "C184",
   "status": "partial",
   "theorems": [
    "Verif.C184_partial",
    "Verif.C184_violated",
    "Verif.C184_weighted_partial",
    "Verif.C184_three_partial",
    "Verif.C184_three_weighted_partial"
   ],
   "note": "Violated without a prior (unweighted run that diverges). Proved for lambda_eiv > 0 and a prior that sees every parameter, with and without weights, for one and three phases."
  },
  {
   "property": "C185",
   "status": "proved",
   "theorems": [
    "Verif.C185",
    "Verif.C185_eiv",
    "Verif.C185_regression",
    "Verif.C185_three",
    "Verif.C185_standard"
   ],
   "note": "No contract on the numerical routines, beyond being functions of their arguments. Runs that compute (a positive number of iterations)."
  },
  {
   "property": "C19",
   "status": "partial",
   "theorems": [
    "Verif.C19_same_as_exact",
    "Verif.C19_adaptive_violated",
    "Verif.C19_base_class_partial"
   ],
   "note": "SmoothPrior.add_exact_adaptive_prior calls BayesianPrior.add_exact_prior."
  },
  {
   "property": "C20",
   "status": "partial",
   "theorems": [
    "Verif.C20_rejected_violated",
    "Verif.C20_early_rejection_partial",
    "Verif.C20_exact_partial"
   ],
   "note": "Violated: mu is extended before the loop that may raise. Exact: a rejected call of the dense class leaves the prior as it was exactly if the shapes of weights and values do not fit, there are no values, or an index matrix has fewer than two columns; after every other rejected call no evaluation returns. In the sparse class every later call raises AttributeError."
  },
  {
   "property": "C21",
   "status": "proved",
   "theorems": [
    "Verif.C21_fro_distance",
    "Verif.C21_fro_triangle",
    "Verif.C21_max_distance",
    "Verif.C21_max_triangle",
    "Verif.C21_max_le_fro"
   ],
   "note": "Metrics proved on arrays of any shape."
  },
  {
   "property": "C22",
   "status": "proved",
   "theorems": [
    "Verif.C22_rrms_scale",
    "Verif.C22_rrms_zero",
    "Verif.C22_map_ignores",
    "Verif.C22_map_le_rrms",
    "Verif.C22_bundle"
   ],
   "note": "Relative metrics, any shape."
  },
  {
   "property": "C23",
   "status": "proved",
   "theorems": [
    "Verif.C23_first_order",
    "Verif.C23_psd_det"
   ],
   "note": "Jacobian given by derivatives (HasDerivAt), for every sample and every accepted standard-deviation argument."
  },
  {
   "property": "C24",
   "status": "proved",
   "theorems": [
    "Verif.C24_exact_is_true_covariance"
   ],
   "note": "Covariance in the sense of Mathlib for any probability space carrying the errors; exists_polar_errors shows such spaces exist."
  },
  {
   "property": "C25",
   "status": "proved",
   "theorems": [
    "Verif.C25_average_is_mean_of_exact"
   ],
   "note": "Expectation of the matrix the code itself returns for the random true value."
  },
  {
   "property": "C26",
   "status": "proved",
   "theorems": [
    "Verif.C26_inverse",
    "Verif.C26_inverse_naive",
    "Verif.C26_inverse_exact",
    "Verif.C26_inverse_average"
   ],
   "note": "Both-sided inverse; positivity guarantees for all three functions."
  },
  {
   "property": "C27",
   "status": "proved",
   "theorems": [
    "Verif.C27_layout",
    "Verif.C27_constant_vector"
   ],
   "note": "Both branches, all three functions."
  },
  {
   "property": "C28",
   "status": "partial",
   "theorems": [
    "Verif.C28_wrong_length_violated",
    "Verif.C28_scalar_violated",
    "Verif.C28_accepted_partial"
   ],
   "note": "The code violates the property: wrong lengths are silently truncated, numpy scalars fail for one column. Exact characterisation of the accepted arguments proved."
  },
  {
   "property": "C29",
   "status": "proved",
   "theorems": [
    "Verif.C29_minimiser",
    "Verif.C29_recovery"
   ],
   "note": "pinv is a parameter with the Moore-Penrose contract; optimality over all complex competitors."
  },
  {
   "property": "C30",
   "status": "proved",
   "theorems": [
    "Verif.C30_recovery"
   ],
   "note": "SVD and inverse are parameters; every valid SVD of [x z]."
  },
  {
   "property": "C31",
   "status": "proved",
   "theorems": [
    "Verif.C31_linear_system",
    "Verif.C31_params_admissible"
   ],
   "note": "Both parametrisations, any number of samples and nodes."
  },
  {
   "property": "C32",
   "status": "proved",
   "theorems": [
    "Verif.C32_regression",
    "Verif.C32_eiv"
   ],
   "note": "Every logged and returned matrix of both Bayesian fits."
  },
  {
   "property": "C33",
   "status": "proved",
   "theorems": [
    "Verif.C33_regression",
    "Verif.C33_eiv"
   ],
   "note": "Log of a fit on a fresh object."
  },
  {
   "property": "C34",
   "status": "proved",
   "theorems": [
    "Verif.C34_regression",
    "Verif.C34_eiv"
   ],
   "note": "Exact stopping rule on a fresh object."
  },
  {
   "property": "C35",
   "status": "partial",
   "theorems": [
    "Verif.C35_refit_violated",
    "Verif.C35_regression_partial",
    "Verif.C35_eiv_partial",
    "Verif.C35_regression_exact",
    "Verif.C35_eiv_exact"
   ],
   "note": "The code violates the property: the stationarity test indexes the accumulated log by the new iteration number. Exact for completed fits: the iterates do not depend on the object, only the moment of stopping does, and a refit equals the fresh fit exactly if the log of the fresh fit obeys the stopping rule with the old log put in front. In particular when the tolerance test cannot fire or at most one iteration is allowed."
  },
  {
   "property": "C36",
   "status": "proved",
   "theorems": [
    "Verif.C36_descent"
   ],
   "note": "Monotone descent of the smoothed objective for exact solves."
  },
  {
   "property": "C37",
   "status": "proved",
   "theorems": [
    "Verif.C37_fixed_point",
    "Verif.identifiable_of_full_rank"
   ],
   "note": "Noise-free data and prior with zero residual: the true matrix is found and kept."
  },
  {
   "property": "C38",
   "status": "partial",
   "theorems": [
    "Verif.C38_weight_ignored",
    "Verif.C38_violated",
    "Verif.C38_partial"
   ],
   "note": "The code violates this: line 210 converts x_weight instead of z_weight, so a given z_weight never reaches the fit in the stated form. Exact guard proved."
  },
  {
   "property": "C39",
   "status": "partial",
   "theorems": [
    "Verif.C39_operator",
    "Verif.C39_violated",
    "Verif.C39_fit_partial",
    "Verif.C39_later_partial",
    "Verif.C39_transpose"
   ],
   "note": "The code violates this in the first iteration for a non-symmetric initial matrix; proved for symmetric start, and from iteration 2 on for any start. C39_transpose says what the first iteration does instead: its correction is optimal for the transposed guess."
  },
  {
   "property": "C40",
   "status": "proved",
   "theorems": [
    "Verif.C40_projector",
    "Verif.C40_projected_data"
   ],
   "note": "The inverse is a parameter with the InvContract; includes that the inverted matrix is never singular."
  },
  {
   "property": "C41",
   "status": "partial",
   "theorems": [
    "Verif.C41_trace",
    "Verif.C41_violated",
    "Verif.C41_partial"
   ],
   "note": "The code violates this: the target adds the (unconjugated) sum of squares of the consistent voltages instead of the voltage misfit. Exact logged value proved (C41_trace)."
  },
  {
   "property": "C42",
   "status": "partial",
   "theorems": [
    "Verif.C42_partial",
    "Verif.C42_samples_partial",
    "Verif.C42_violated",
    "Verif.C42_samples_violated",
    "Verif.C42_program"
   ],
   "note": "The code violates this in three ways: block form, exchanged pair order, and exchanged samples; what it computes is proved. C42_program: the same for eiv_fim, with the covariances it computes from noise levels and ratings."
  },
  {
   "property": "C43",
   "status": "partial",
   "theorems": [
    "Verif.C43_computes",
    "Verif.C43_partial",
    "Verif.C43_violated"
   ],
   "note": "The code violates this: it takes the reciprocal twice, so the weight of parameter k is |y_k| instead of 1/|y_k|."
  },
  {
   "property": "C44",
   "status": "proved",
   "theorems": [
    "Verif.C44_complex_prior",
    "Verif.C44_diag"
   ],
   "note": "Terms characterised as functions of an arbitrary symmetric matrix. Zero estimates divide by zero (inf in numpy, 0 in the model)."
  },
  {
   "property": "C45",
   "status": "partial",
   "theorems": [
    "Verif.C45_partial",
    "Verif.C45_violated",
    "Verif.complex_total"
   ],
   "note": "Holds with one contrast row per node (nonzero row sums); violated with contrast_each_row=False: residuals are -3/2 and 3/2 lambda' (wrong sign, every line counted twice)."
  },
  {
   "property": "C46",
   "status": "partial",
   "theorems": [
    "Verif.C46_partial",
    "Verif.C46_none",
    "Verif.C46_violated",
    "Verif.known_lines_optimal",
    "Verif.C46_branch_partial"
   ],
   "note": "The code violates this: 'optimal' is a substring of 'suboptimal', so the nodes of the optimal choice are pinned as well. C46_partial: exact effect for strings naming only one choice. C46_branch_partial: what the branch for the suboptimal choice would do, if it were reached."
  },
  {
   "property": "C47",
   "status": "proved",
   "theorems": [
    "Verif.C47_columns",
    "Verif.C47_global",
    "Verif.C47_global_iff"
   ],
   "note": "The condition for global centring is shown to be necessary unless the mean voltage is zero."
  },
  {
   "property": "C48",
   "status": "proved",
   "theorems": [
    "Verif.C48_recovery"
   ],
   "note": "Under the contracts of pinv, svd, inv and spsolve (Spec/LinAlg); includes success of the lasso, storage and reloading of the three estimates."
  },
  {
   "property": "C49",
   "status": "partial",
   "theorems": [
    "Verif.C49_loads",
    "Verif.C49_loads3",
    "Verif.C49_simulation",
    "Verif.C49_simulation3",
    "Verif.C49_network",
    "Verif.C49_standard",
    "Verif.C49_standard3",
    "Verif.C49_bayesian",
    "Verif.C49_bayesian3",
    "Verif.C49_fim",
    "Verif.C49_filtered",
    "Verif.C49_filtered_partial",
    "Verif.C49_filtered3_partial",
    "Verif.C49_filtered3_violated"
   ],
   "note": "Proved for all stages after any sequence of other stage calls, except for the noise stage: the ratings and the averaging factor are recomputed on loading, not read. They agree for the configured safety factor 4 in one phase; in three phases with equivalent noise the averaging factor differs (violated)."
  },
  {
   "property": "C50",
   "status": "partial",
   "theorems": [
    "Verif.C50_exact",
    "Verif.C50_partial",
    "Verif.C50_violated",
    "Verif.templates_plain"
   ],
   "note": "The exact condition for a collision; violated for network names starting with the prefix of a stage (the network data have no prefix); no collision for plain names, which all templates have."
  },
  {
   "property": "C51",
   "status": "partial",
   "theorems": [
    "Verif.C51_standard_violated",
    "Verif.C51_bayesian_violated",
    "Verif.C51_partial"
   ],
   "note": "Violated: the runs for single labels save under the name of the whole network, so an interruption leaves the result of one label. Holds for the runs that use no labels."
  },
  {
   "property": "C52",
   "status": "proved",
   "theorems": [
    "Verif.C52_standard",
    "Verif.C52_bayesian",
    "Verif.C49_standard3",
    "Verif.C49_bayesian3"
   ],
   "note": "Equivalences: the run succeeds exactly when the runs for the labels do, and returns exactly the assembled matrix; read back by C49."
  },
  {
   "property": "C53",
   "status": "proved",
   "theorems": [
    "Verif.C53",
    "Verif.C52_bayesian"
   ],
   "note": ""
  },
  {
   "property": "C54",
   "status": "partial",
   "theorems": [
    "Verif.C54_violated",
    "Verif.C54_copies",
    "Verif.C54_program",
    "Verif.C54_partial",
    "Verif.C49_bayesian"
   ],
   "note": "Violated for every stored three-phase result with at least two columns: the loading branch is called per label and returns the whole matrix, which does not fit, so the program never completes; a stored result of the size of one phase is silently copied to all of them. Reloading works for one phase (C49)."
  },
  {
   "property": "C55",
   "status": "proved",
   "theorems": [
    "Verif.C55_exact",
    "Verif.C55_refused"
   ],
   "note": "pinv is a parameter with the Moore-Penrose contract (satisfiable: exactPinv_contract). Eliminated nodes may be listed repeatedly."
  },
  {
   "property": "C56",
   "status": "proved",
   "theorems": [
    "Verif.C56_symmetric",
    "Verif.C56_rowSums",
    "Verif.C56_duplicates",
    "Verif.C56_two_steps",
    "Verif.C56_duplicates_singular"
   ],
   "note": "Symmetry without invertibility; C56_duplicates_singular shows that the invertibility hypothesis is needed for repeated nodes."
  },
  {
   "property": "C57",
   "status": "partial",
   "theorems": [
    "Verif.C57_violated",
    "Verif.C57_partial",
    "Verif.C57_shipped",
    "Verif.C57_lists_violated"
   ],
   "note": "Violated in every network of at least nine nodes: the rows follow the iteration order of a CPython set (modelled). Holds with at most eight nodes or when at least 3/5 of the nodes are kept. The shipped configuration (lists 1 to 5 on bolognani56) is in order, those with lists 1, 1-2 or 1-3 are not."
  },
  {
   "property": "C58",
   "status": "partial",
   "theorems": [
    "Verif.C58_partial",
    "Verif.C58_violated",
    "Verif.C58_laplacian"
   ],
   "note": "Violated when an eliminated node directly follows the connection (its shifted index is taken for the connection). Proved for all other positions of one connection, for several connections followed at a distance, and for laplacian=True."
  },
  {
   "property": "C59",
   "status": "partial",
   "theorems": [
    "Verif.C59_violated",
    "Verif.C59_column_violated",
    "Verif.C59_partial",
    "Verif.C58_partial"
   ],
   "note": "Violated: the admittance is added with the wrong sign, and taken from another column when a connection precedes the node. Exact for hidden nodes without mean current; C58_partial states exactly which load the code assumes."
  },
  {
   "property": "C60",
   "status": "proved",
   "theorems": [
    "Verif.C60_removed",
    "Verif.C60_reduced"
   ],
   "note": "C60_removed is the statement; C60_reduced follows the data through the reduction, deletion of columns and centring."
  },
  {
   "property": "C61",
   "status": "proved",
   "theorems": [
    "Verif.C61_admittance",
    "Verif.C61_measurement",
    "Verif.C61_width"
   ],
   "note": "Rotations are the exact complex exponentials; widths that are not multiples of three raise."
  },
  {
   "property": "C62",
   "status": "partial",
   "theorems": [
    "Verif.C62_violated",
    "Verif.C62_partial",
    "Verif.C62_networks"
   ],
   "note": "Violated: measurements are multiplied by t_012 from the right while admittances are conjugated with t_012 on the left, so the converted equation holds exactly for matrices invariant under exchange of phases b and c (for matrices built by make_y_bus: exactly when positive and negative sequence agree)."
  },
  {
   "property": "C63",
   "status": "proved",
   "theorems": [
    "Verif.C63_admittances",
    "Verif.C63_currents",
    "Verif.C84_three"
   ],
   "note": "Voltages, admittances and currents at position 3i+p; each symmetrical component of the currents depends on that of the voltages only; stride 3 reads back the three matrices."
  },
  {
   "property": "C64",
   "status": "proved",
   "theorems": [
    "Verif.C64_single",
    "Verif.C64_three",
    "Verif.C64_tables"
   ],
   "note": "Bus tables as created by pandapower (contract: duplicate indices refused). A type-1 bus with scalar demand counts on every phase."
  },
  {
   "property": "C65",
   "status": "proved",
   "theorems": [
    "Verif.C65_single",
    "Verif.C65_three",
    "Verif.C65_orientation",
    "Verif.C65_twice",
    "Verif.C65_rejected"
   ],
   "note": "The mutation of the template objects by create_lines is modelled (the constructor returns the mutated template)."
  },
  {
   "property": "C66",
   "status": "partial",
   "theorems": [
    "Verif.C66_entries",
    "Verif.C66_violated",
    "Verif.C66_raises",
    "Verif.C66_partial",
    "Verif.C66_templates_partial"
   ],
   "note": "Violated: nominal voltages are looked up by label instead of position. C66_entries gives the matrix that comes back in general; the round trip holds for the guard of C66_partial, in particular for templates with one nominal voltage. What pandapower computes from the lines is modelled as the textbook assembly."
  },
  {
   "property": "C67",
   "status": "partial",
   "theorems": [
    "Verif.C67_createLine_violated",
    "Verif.C67_constructor_violated",
    "Verif.C67_removeLines_violated",
    "Verif.C67_partial"
   ],
   "note": "All three clauses are violated for single-phase networks; C67_partial covers what holds for three phases."
  },
  {
   "property": "C68",
   "status": "proved",
   "theorems": [
    "Verif.C68_blocks",
    "Verif.C68_weights",
    "Verif.C68_convex",
    "Verif.C68_constant",
    "Verif.C68_network",
    "Verif.C68_rejected"
   ],
   "note": "Linear interpolation of scipy written out; increasing old times (the callers use equally spaced ones)."
  },
  {
   "property": "C69",
   "status": "proved",
   "theorems": [
    "Verif.C69_series",
    "Verif.C69_array",
    "Verif.C69_both",
    "Verif.C69_cartesian",
    "Verif.C69_filter"
   ],
   "note": "For every stream of samples; polar and Cartesian noise, also inside the resampling."
  },
  {
   "property": "C70",
   "status": "partial",
   "theorems": [
    "Verif.C70_violated",
    "Verif.C70_partial"
   ],
   "note": "Violated: the phase noise is multiplied by the phase itself (none at all at phase zero); the configured law is met exactly at phases of 1 rad, and the magnitude law exactly at magnitude 1."
  },
  {
   "property": "C71",
   "status": "proved",
   "theorems": [
    "Verif.C71_variance",
    "Verif.C71_equivalent"
   ],
   "note": "C71_equivalent: for the code's polar noise without phase noise on a constant series, the full simulation gives exactly the law of the equivalent-noise option (take fparam=1 and sd/sqrt(fparam))."
  },
  {
   "property": "C72",
   "status": "partial",
   "theorems": [
    "Verif.C72_single",
    "Verif.C72_three_partial",
    "Verif.C72_violated"
   ],
   "note": "Proved for one phase, and for three phases without equivalent noise; violated with it (fparam is returned as 1)."
  },
  {
   "property": "C73",
   "status": "partial",
   "theorems": [
    "Verif.C73_values",
    "Verif.C73_violated",
    "Verif.C73_two_connections_violated",
    "Verif.C73_partial"
   ],
   "note": "Violated: the squared power is used, and a second grid connection includes the first in its sum. C73_values gives the ratings in closed form; C73_partial has one connection and the squared power."
  },
  {
   "property": "C74",
   "status": "partial",
   "theorems": [
    "Verif.C74_single",
    "Verif.C74_three_entries",
    "Verif.C74_three_violated",
    "Verif.C74_three_partial"
   ],
   "note": "Holds for one phase; violated for three phases (ratings ordered by phase, columns by node)."
  },
  {
   "property": "C75",
   "status": "partial",
   "theorems": [
    "Verif.C75_partial",
    "Verif.C75_violated"
   ],
   "note": "Violated for a week that runs beyond the end of the file: fewer rows, no error. Proved for weeks inside the files, for one and three phases, with the percentile specified independently."
  },
  {
   "property": "C76",
   "status": "partial",
   "theorems": [
    "Verif.C76_violated",
    "Verif.C76_partial",
    "Verif.C76_gaussian"
   ],
   "note": "Violated whenever the number of minutes is not a multiple of the number of weeks. Holds when it is and the files cover the weeks, and always for random loads. Exact division; the float computation of the length can lose one more row."
  },
  {
   "property": "C77",
   "status": "proved",
   "theorems": [
    "Verif.C77",
    "Verif.C77_three"
   ],
   "note": "One and three phases, profiles and random loads."
  },
  {
   "property": "C78",
   "status": "proved",
   "theorems": [
    "Verif.C78_simulate",
    "Verif.C78_simulate3",
    "Verif.C78_identify",
    "Verif.C78_identify3",
    "Verif.C78_untouched"
   ],
   "note": "Each stage of a completed run either computed its result or read it from the store, as the flags say; the others are left untouched."
  },
  {
   "property": "C79",
   "status": "partial",
   "theorems": [
    "Verif.C79_accepts",
    "Verif.C79_partial",
    "Verif.C79_violated"
   ],
   "note": "Violated: on data of phase 1 only, asking for another phase or sequence keeps everything instead of failing. Otherwise exactly the labelled rows, columns and ratings are kept, and the selection fails exactly when there are none."
  },
  {
   "property": "C80",
   "status": "partial",
   "theorems": [
    "Verif.C80_violated",
    "Verif.C80_uncertainty",
    "Verif.C80_continue",
    "Verif.C80_partial"
   ],
   "note": "Violated: no run with either flag completes. Without them a run completes exactly when its inputs can be read and selected and the methods complete."
  },
  {
   "property": "C81",
   "status": "partial",
   "theorems": [
    "Verif.C81_exact",
    "Verif.C81_violated",
    "Verif.C81_partial",
    "Verif.C81_harmless"
   ],
   "note": "Violated: for a single phase without laplacian the buses at the external grid are added. Harmless when their nominal powers are zero."
  },
  {
   "property": "C82",
   "status": "proved",
   "theorems": [
    "Verif.C82_gpu_vectorize",
    "Verif.C82_gpu_make_real_matrix",
    "Verif.C168_make_real"
   ],
   "note": "vectorisation and make_real_matrix differ in code and are proved equal, the latter for arrays and sparse matrices; the other GPU helpers are the same expressions and share one model definition"
  },
  {
   "property": "C83",
   "status": "partial",
   "theorems": [
    "Verif.C83_violated",
    "Verif.C83_order_violated",
    "Verif.C83_partial"
   ],
   "note": "Violated: NameError for every network, and the arrays would be in the wrong order. Proved for profiles from files."
  },
  {
   "property": "C84",
   "status": "proved",
   "theorems": [
    "Verif.C84",
    "Verif.C84_none",
    "Verif.C84_three"
   ],
   "note": "Angles as elements of the circle, magnitudes and angles of the power flow arbitrary (also negative magnitudes)."
  },
  {
   "property": "C85",
   "status": "partial",
   "theorems": [
    "Verif.C85_partial",
    "Verif.C85_violated"
   ],
   "note": "Violated: a comment that mentions another value of the list is rewritten. Holds, with every interruption point, for texts with each setting at one place, as those of the repository."
  },
  {
   "property": "C86",
   "status": "proved",
   "theorems": [
    "Verif.C86_single",
    "Verif.C86_three"
   ],
   "note": "For every returned result, in both branches (equivalent noise or not)."
  },
  {
   "property": "C87",
   "status": "proved",
   "theorems": [
    "Verif.C87_descent",
    "Verif.C39_transpose"
   ],
   "note": "Smoothed objective; exact solver contract. C39_transpose gives the descent from the first logged matrix on for any initial guess."
  },
  {
   "property": "C88",
   "status": "proved",
   "theorems": [
    "Verif.C88_no_exception"
   ],
   "note": "Solver succeeds on nonsingular systems by contract."
  },
  {
   "property": "C89",
   "status": "proved",
   "theorems": [
    "Verif.C89_no_exception",
    "Verif.C89_data"
   ],
   "note": "Solver and inverse are parameters with contracts. C89_data needs no prior that spans: data without linear relations suffice."
  },
  {
   "property": "C90",
   "status": "partial",
   "theorems": [
    "Verif.C90_violated",
    "Verif.C44_diag"
   ],
   "note": "Violated in Laplacian mode: 2n more centres than rows, log_distribution always raises. Outside Laplacian mode C44_diag gives the consistent prior."
  },
  {
   "property": "C91",
   "status": "proved",
   "theorems": [
    "Verif.C91_loads_prior"
   ],
   "note": ""
  },
  {
   "property": "C92",
   "status": "partial",
   "theorems": [
    "Verif.C92_prior_violated",
    "Verif.C92_few_violated",
    "Verif.C92_accepts",
    "Verif.C92_violated",
    "Verif.C92_partial",
    "Verif.C46_partial"
   ],
   "note": "Violated with the Laplacian constraint, because bayesian_eiv calls add_known_lines with laplacian=False: for at least 39 nodes the terms are other ones (C92_prior_violated), for fewer nodes IndexError is raised (C92_few_violated, C92_accepts). This is reachable by calling bayesian_eiv directly; identify_network.py passes a known matrix only without the constraint. C92_partial: holds without it for at least 29 nodes."
  },
  {
   "property": "C93",
   "status": "proved",
   "theorems": [
    "Verif.C93_no_exception",
    "Verif.identifiable_fullColumnRank"
   ],
   "note": "Stated for identifiable problems; identifiable_fullColumnRank: full column rank suffices. spsolve solves every system with trivial kernel (contract)."
  },
  {
   "property": "C94",
   "status": "proved",
   "theorems": [
    "Verif.C94_nonsingular",
    "Verif.C94_reducible"
   ],
   "note": "Energy argument; gives the hypotheses of C55 and C56 for connected resistive networks."
  },
  {
   "property": "C95",
   "status": "partial",
   "theorems": [
    "Verif.C95_violated",
    "Verif.C95_partial"
   ],
   "note": "Violated with an IndexError when the connection is not last and the last node is hidden. Exact when the connection is last, hidden loads are balanced and nodes are passive on all phases or none (or reduce_single is off)."
  },
  {
   "property": "C96",
   "status": "partial",
   "theorems": [
    "Verif.C96_violated",
    "Verif.C95_partial"
   ],
   "note": "Violated whenever the first two phases have different numbers of passive nodes. Holds (C95_partial) when nodes are passive on all phases or none."
  },
  {
   "property": "C97",
   "status": "partial",
   "theorems": [
    "Verif.C97_gaussian_violated",
    "Verif.C97_profiles_violated",
    "Verif.C97_gaussian_partial",
    "Verif.C97_profiles_partial",
    "Verif.C97_zero",
    "Verif.C97_three_gaussian_violated",
    "Verif.C97_three_profiles_partial",
    "Verif.C97_three_zero"
   ],
   "note": "Violated: ValueError for random loads (NameError for three phases); with profiles no load, and no phase of an asymmetric load, may be below minus half of the mean percentile, and those above are replaced by no load (C97_zero, C97_three_zero). Guards are exact (iff): random loads need nonnegative nominal powers, profiles feed-in of at most half of the mean percentile."
  },
  {
   "property": "C98",
   "status": "proved",
   "theorems": [
    "Verif.C98",
    "Verif.C98_three"
   ],
   "note": ""
  },
  {
   "property": "C99",
   "status": "proved",
   "theorems": [
    "Verif.C99"
   ],
   "note": "Given independent standard normal samples (exists_standard_normals)."
  }
 ]
}