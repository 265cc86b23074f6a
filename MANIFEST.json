{
 "claims": [
  {
   "property": "C01",
   "status": "proved",
   "theorems": [
    "GsSA.APALM.C01_no_failure",
    "GsSA.APALM.C01_flat_strictly_ordered",
    "GsSA.APALM.C01_flat_filter"
   ],
   "note": "Also shows that no call within its contract fails, and that the level filter selects exactly the points of that level."
  },
  {
   "property": "C02",
   "status": "proved",
   "theorems": [
    "GsSA.APALM.C02_points_are_kept"
   ],
   "note": ""
  },
  {
   "property": "C03",
   "status": "proved",
   "theorems": [
    "GsSA.APALM.C03_jobs_are_gaps",
    "GsSA.APALM.C03_jobs_are_disjoint"
   ],
   "note": ""
  },
  {
   "property": "C04",
   "status": "proved",
   "theorems": [
    "GsSA.APALM.C04_pop_is_complete"
   ],
   "note": ""
  },
  {
   "property": "C05",
   "status": "proved",
   "theorems": [
    "GsSA.APALM.C05_length_in_flight",
    "GsSA.APALM.C05_length_handed_out"
   ],
   "note": ""
  },
  {
   "property": "C06",
   "status": "proved",
   "theorems": [
    "GsSA.APALM.C06_submit_places_points"
   ],
   "note": ""
  },
  {
   "property": "C07",
   "status": "proved",
   "theorems": [
    "GsSA.APALM.C07_ids_count_pops",
    "GsSA.APALM.C07_counters"
   ],
   "note": ""
  },
  {
   "property": "C08",
   "status": "proved",
   "theorems": [
    "GsSA.APALM.C08_level_bound",
    "GsSA.APALM.C08_zero_maxLevel_not_respected"
   ],
   "note": "The bound for MaxLevel >= 1 and the counterexample for MaxLevel = 0 are both proved, as stated."
  },
  {
   "property": "C09",
   "status": "proved",
   "theorems": [
    "GsSA.APALM.C09_requeue_decision",
    "GsSA.APALM.C09_maxLevel_no_requeue"
   ],
   "note": ""
  },
  {
   "property": "C10",
   "status": "proved",
   "theorems": [
    "GsSA.APALM.C10_refinement_terminates"
   ],
   "note": ""
  },
  {
   "property": "C11",
   "status": "proved",
   "theorems": [
    "GsSA.APALM.C11_schedule_independence"
   ],
   "note": ""
  },
  {
   "property": "C12",
   "status": "proved",
   "theorems": [
    "GsSA.APALM.C12_zero_last_distance_corrupts",
    "GsSA.APALM.C12_positive_distances_consistent"
   ],
   "note": "Corruption shown on a concrete reachable state; consistency for positive distances proved for all histories."
  },
  {
   "property": "C13",
   "status": "partial",
   "theorems": [
    "GsSA.APALM.C13_known_keys_partial",
    "GsSA.APALM.C13_unknown_id_violation",
    "GsSA.APALM.C13_unknown_time_violation"
   ],
   "note": "The code violates the property for unknown keys (two counterexamples proved). Known keys are proved correct for every reachable state (C13_known_keys_partial)."
  },
  {
   "property": "C14",
   "status": "partial",
   "theorems": [
    "GsSA.APALM.C14_start_time_violation"
   ],
   "note": "The code violates the property for a nonzero start time; the counterexample is proved."
  },
  {
   "property": "C15",
   "status": "proved",
   "theorems": [
    "GsSA.APALM.C15_init",
    "GsSA.APALM.C15_second_init_keeps_old_solutions"
   ],
   "note": ""
  },
  {
   "property": "C16",
   "status": "proved",
   "theorems": [
    "GsSA.APALM.C16_first_non_empty",
    "GsSA.APALM.C16_past_the_end",
    "GsSA.APALM.C16_empty",
    "GsSA.APALM.C16_add",
    "GsSA.APALM.C16_counters",
    "GsSA.APALM.C16_branch"
   ],
   "note": ""
  },
  {
   "property": "C17",
   "status": "proved",
   "theorems": [
    "GsSA.APALM.C17_correction_is_a_path",
    "GsSA.APALM.C17_zero_subintervals"
   ],
   "note": ""
  },
  {
   "property": "C18",
   "status": "proved",
   "theorems": [
    "GsSA.APALM.C18_total_length",
    "GsSA.APALM.C18_submit_accepts"
   ],
   "note": "The hypothesis 'a stored step travels at least its prescribed length' is what C36, C37 and C40 provide for the solvers."
  },
  {
   "property": "C19",
   "status": "partial",
   "theorems": [
    "GsSA.APALM.C19_only_success_partial",
    "GsSA.APALM.C19_violation"
   ],
   "note": "Violated by the code for SolverError / OtherError (C19_violation); proved for solvers that only report Success, NotConverged or AssemblyError."
  },
  {
   "property": "C20",
   "status": "proved",
   "theorems": [
    "GsSA.APALM.C20_initiation",
    "GsSA.APALM.C20_never_returns",
    "GsSA.APALM.C20_returns",
    "GsSA.APALM.C20_solver_error_not_restored"
   ],
   "note": ""
  },
  {
   "property": "C21",
   "status": "partial",
   "theorems": [
    "GsSA.APALM.C21_path",
    "GsSA.APALM.C21_serialSolve_partial",
    "GsSA.APALM.C21_no_starts",
    "GsSA.APALM.C21_no_bifurcation",
    "GsSA.APALM.C21_violated_single_point",
    "GsSA.APALM.C21_violated_double_bifurcation",
    "GsSA.APALM.C21_bifurcation_in_last_step"
   ],
   "note": "The path of each branch is proved for every start and N (C21_path). The whole function is proved not to fail unless a branch has a single point; that case is a defect, shown by two general counterexamples."
  },
  {
   "property": "C22",
   "status": "proved",
   "theorems": [
    "GsSA.APALM.C22_points",
    "GsSA.APALM.C22_points_le",
    "GsSA.APALM.C22_no_branch_from_last_step"
   ],
   "note": "Also proved with bifurcations as an upper bound; that serialSolve does open a branch from the last step is C21_bifurcation_in_last_step."
  },
  {
   "property": "C23",
   "status": "partial",
   "theorems": [
    "GsSA.APALM.C23_no_failure_partial",
    "GsSA.APALM.C23_violated_second_call",
    "GsSA.APALM.C23_violated_two_starts"
   ],
   "note": "Proved for a first call with one start, any number of processes and schedule; violated for objects which hold branches (all such states) and for two starts (witness)."
  },
  {
   "property": "C24",
   "status": "partial",
   "theorems": [
    "GsSA.APALM.C24_flat",
    "GsSA.APALM.C24_listed",
    "GsSA.APALM.C24_per_level_partial",
    "GsSA.APALM.C24_no_failure_partial",
    "GsSA.APALM.C24_violated_missing",
    "GsSA.APALM.C24_violated_out_of_range",
    "GsSA.APALM.C24_violated_second_call"
   ],
   "note": "The code lists the points among the first nBranches ones (C24_listed, proved in general); correct only if every branch has as many points as there are branches. Violations proved in general."
  },
  {
   "property": "C25",
   "status": "proved",
   "theorems": [
    "GsSA.MPI.C25_refines_sequential",
    "GsSA.MPI.C25_all_answered",
    "GsSA.MPI.C25_left_only_when_done",
    "GsSA.MPI.C25_failure_is_sequential"
   ],
   "note": ""
  },
  {
   "property": "C26",
   "status": "proved",
   "theorems": [
    "GsSA.MPI.C26_steps_bounded",
    "GsSA.MPI.C26_terminates",
    "GsSA.MPI.C26_no_deadlock",
    "GsSA.MPI.C26_no_deadlock_synchronous",
    "GsSA.MPI.C26_failure_leaves_workers"
   ],
   "note": ""
  },
  {
   "property": "C27",
   "status": "proved",
   "theorems": [
    "GsSA.APALM.C27_no_failure",
    "GsSA.APALM.C27_process_independence",
    "GsSA.APALM.C27_equals_single_process",
    "GsSA.APALM.C27_single_no_failure"
   ],
   "note": ""
  },
  {
   "property": "C28",
   "status": "proved",
   "theorems": [
    "GsSA.MPI.C28_held",
    "GsSA.MPI.C28_at_most_one",
    "GsSA.MPI.C28_pool_after",
    "GsSA.MPI.C28_second_call_two_jobs",
    "GsSA.MPI.C28_second_call_deadlock"
   ],
   "note": ""
  },
  {
   "property": "C29",
   "status": "partial",
   "theorems": [
    "GsSA.MPI.C29_size",
    "GsSA.MPI.C29_order",
    "GsSA.MPI.C29_answer",
    "GsSA.MPI.C29_too_few_distances",
    "GsSA.MPI.C29_init_any_transmission_partial",
    "GsSA.MPI.C29_corr_any_transmission_partial",
    "GsSA.MPI.C29_violated_loads"
   ],
   "note": "Orders (C29_order) and results with immediate transmission (C29_answer) are proved in full for every order in which MPI interleaves tags. With sends that are transmitted later the code violates the property (C29_violated_loads); the two _any_transmission_partial theorems give what remains true."
  },
  {
   "property": "C31",
   "status": "proved",
   "theorems": [
    "GsSA.ALM.C31_total",
    "GsSA.ALM.C31_failure",
    "GsSA.ALM.C31_assembly",
    "GsSA.ALM.C31_solver",
    "GsSA.ALM.C31_notConverged",
    "GsSA.ALM.C31_other",
    "GsSA.ALM.C31_violated_determinant"
   ],
   "note": "Both directions proved for every cause; the unreported factorisation failure with BifurcationMethod Determinant is proved as stated."
  },
  {
   "property": "C32",
   "status": "proved",
   "theorems": [
    "GsSA.ALM.C32_success",
    "GsSA.ALM.C32_violated_noIteration"
   ],
   "note": "The exceptional case MaxIter <= 1 is proved as stated."
  },
  {
   "property": "C34",
   "status": "proved",
   "theorems": [
    "GsSA.ALM.C34_factor",
    "GsSA.ALM.C34_step",
    "GsSA.ALM.C34_bounds",
    "GsSA.ALM.C34_violated_resetLength",
    "GsSA.ALM.C34_resetLength"
   ],
   "note": "The division by zero in resetLength is proved as stated."
  },
  {
   "property": "C35",
   "status": "proved",
   "theorems": [
    "GsSA.ALM.C35_step",
    "GsSA.ALM.C35_sum",
    "GsSA.ALM.C35_violated_guess",
    "GsSA.ALM.C35_violated_oscillation"
   ],
   "note": "The sum is proved for every sequence of steps; that the guess is never dropped and that the load oscillates are proved as violations."
  },
  {
   "property": "C36",
   "status": "proved",
   "theorems": [
    "GsSA.ALM.C36_relax",
    "GsSA.ALM.C36_relax_length",
    "GsSA.ALM.C36_real",
    "GsSA.ALM.C36_scaled",
    "GsSA.ALM.C36_modified",
    "GsSA.ALM.C36_step",
    "GsSA.ALM.C36_modified_eta",
    "GsSA.ALM.C36_modified_inside"
   ],
   "note": "Assumes an inner product with exact square root (proved for every real inner product space). Step-level theorem C36_step plus the three kinds of roots. The damping factor of the modified roots is characterised by the sphere alone (C36_modified_eta), so that such an iteration ends inside the sphere. The option Relaxation is characterised (C36_relax, C36_relax_length)."
  },
  {
   "property": "C37",
   "status": "proved",
   "theorems": [
    "GsSA.ALM.C37_first",
    "GsSA.ALM.C37_first_userPhi",
    "GsSA.ALM.C37_later",
    "GsSA.ALM.C37_forward",
    "GsSA.ALM.C37_degenerate"
   ],
   "note": "Includes the deviation for a user-set scaling and the degenerate case."
  },
  {
   "property": "C38",
   "status": "partial",
   "theorems": [
    "GsSA.ALM.C38_stored",
    "GsSA.ALM.C38_measure",
    "GsSA.ALM.C38_projection_partial",
    "GsSA.ALM.C38_violated_longLoad"
   ],
   "note": "Holds as stated for unit load vectors (C38_projection_partial); for other load vectors the code violates it, shown on a concrete iteration. C38_stored: which increment is kept for the next choice."
  },
  {
   "property": "C40",
   "status": "proved",
   "theorems": [
    "GsSA.ALM.C40_riks",
    "GsSA.ALM.C40_consistent",
    "GsSA.ALM.C40_riks_step",
    "GsSA.ALM.C40_consistent_step"
   ],
   "note": "Iteration and step level, both methods."
  },
  {
   "property": "C41",
   "status": "partial",
   "theorems": [
    "GsSA.ALM.C41_evaluation",
    "GsSA.ALM.C41_change",
    "GsSA.ALM.C41_violated_sign",
    "GsSA.ALM.C41_violated_isStable",
    "GsSA.ALM.C41_singular",
    "GsSA.ALM.C41_definite",
    "GsSA.ALM.C41_violated_shift"
   ],
   "note": "Change detection proved for every step of every method. Violated by the code: documented sign reversed, isStable() always true (general theorems). In terms of the Jacobian: C41_definite; an eigenvalue below the shift is missed: C41_violated_shift."
  },
  {
   "property": "C42",
   "status": "partial",
   "theorems": [
    "GsSA.ALM.C42_kept",
    "GsSA.ALM.C42_noBisection",
    "GsSA.ALM.C42_violated_error",
    "GsSA.ALM.C42_violated_length"
   ],
   "note": "Proved for every call that throws nothing internally, and always without bisection. Violated after an error in the bisection (general theorem and witness)."
  },
  {
   "property": "C43",
   "status": "partial",
   "theorems": [
    "GsSA.ALM.C43_error",
    "GsSA.ALM.C43_violated_stale",
    "GsSA.ALM.C43_violated_success",
    "GsSA.ALM.C43_violated_failure",
    "GsSA.ALM.C43_noBisection"
   ],
   "note": "Violated: without bisection the status is the one of an earlier call (general theorem), witnesses for both directions. Errors are reported correctly (C43_error, C43_noBisection)."
  },
  {
   "property": "C45",
   "status": "proved",
   "theorems": [
    "GsSA.ALM.C45_crisfield",
    "GsSA.ALM.C45_pseudometric",
    "GsSA.ALM.C45_riks",
    "GsSA.ALM.C45_riks_phi",
    "GsSA.APALM.C45_errors",
    "GsSA.APALM.C45_lowerError"
   ],
   "note": "Errors proved for a metric that does not change during the correction; with the default scaling of Crisfield the metric changes from step to step."
  },
  {
   "property": "C46",
   "status": "proved",
   "theorems": [
    "GsSA.Static.C46_tolerances",
    "GsSA.Static.C46_success",
    "GsSA.Static.C46_residual",
    "GsSA.Static.C46_violated_noIterations"
   ],
   "note": "The exceptional case maxIt = 0 is proved as stated."
  },
  {
   "property": "C47",
   "status": "partial",
   "theorems": [
    "GsSA.Static.C47_status",
    "GsSA.Static.C47_unchanged",
    "GsSA.Static.C47_notConverged",
    "GsSA.Static.C47_violated_linearStart"
   ],
   "note": "Statuses proved for every failure position; solution() unchanged proved for objects with an update vector. Violated without one (general theorem)."
  },
  {
   "property": "C48",
   "status": "proved",
   "theorems": [
    "GsSA.Static.C48_exact",
    "GsSA.Static.C48_success",
    "GsSA.Static.C48_violated_equilibrium"
   ],
   "note": "Any dimension, exact arithmetic; from a start in equilibrium the relative criterion 0/0 is never met (C48_violated_equilibrium)."
  },
  {
   "property": "C49",
   "status": "partial",
   "theorems": [
    "GsSA.Static.C49_opt",
    "GsSA.Static.C49_violated_dr",
    "GsSA.Static.C49_setLoad_dr",
    "GsSA.Static.C49_violated_newton",
    "GsSA.Static.C49_violated_reset",
    "GsSA.Static.C49_setters",
    "GsSA.Static.C49_setLoad"
   ],
   "note": "Violated by gsStaticNewton and gsStaticDR (general theorems), holds for gsStaticOpt; a load set afterwards is used."
  },
  {
   "property": "C50",
   "status": "partial",
   "theorems": [
    "GsSA.Static.C50_returns",
    "GsSA.Static.C50_violated_status",
    "GsSA.Static.C50_violated_single",
    "GsSA.Static.C50_violated_uninitialized",
    "GsSA.Static.C50_violated_equilibrium"
   ],
   "note": "Violated: exceptions escape, their cause is characterised for every run; maxIt = 1, start in equilibrium and solve without initialize are separate violations."
  },
  {
   "property": "C51",
   "status": "proved",
   "theorems": [
    "GsSA.Static.C51_success",
    "GsSA.Static.C51_violated_residual"
   ],
   "note": "Includes a witness in which the residual at solution() is large."
  },
  {
   "property": "C52",
   "status": "partial",
   "theorems": [
    "GsSA.Static.C52_success",
    "GsSA.Static.C52_failure",
    "GsSA.Static.C52_violated_exception",
    "GsSA.Static.C52_empty"
   ],
   "note": "Proved for every list of stages (pointers may be equal) and every outcome. An exception escaping from a stage leaves the status Success (general theorem)."
  },
  {
   "property": "C53",
   "status": "partial",
   "theorems": [
    "GsSA.Static.C53_sums",
    "GsSA.Static.C53_failed",
    "GsSA.Static.C53_consistent",
    "GsSA.Static.C53_setZero",
    "GsSA.Static.C53_reset",
    "GsSA.Static.C53_violated_first",
    "GsSA.Static.C53_violated_linear"
   ],
   "note": "Sums proved for every sequence. Agreement with the solver proved for every solver with the update law, which is proved for nonlinear Newton, dynamic relaxation and optimisation. Violations: initial displacement, linear Newton solver."
  },
  {
   "property": "C55",
   "status": "partial",
   "theorems": [
    "GsSA.Static.C55_returns",
    "GsSA.Static.C55_violated_status"
   ],
   "note": "Violated: converged() is false after any number of solves."
  },
  {
   "property": "C56",
   "status": "proved",
   "theorems": [
    "GsSA.Dynamic.C56_rejected",
    "GsSA.Dynamic.C56_returned",
    "GsSA.Dynamic.C56_time"
   ],
   "note": "An integrator that throws does not advance the time (C87); one that returns a failing status does."
  },
  {
   "property": "C57",
   "status": "proved",
   "theorems": [
    "GsSA.Dynamic.C57_step",
    "GsSA.Dynamic.C57_history"
   ],
   "note": ""
  },
  {
   "property": "C58",
   "status": "proved",
   "theorems": [
    "GsSA.Dynamic.C58_conserved",
    "GsSA.Dynamic.C58_damped"
   ],
   "note": ""
  },
  {
   "property": "C59",
   "status": "partial",
   "theorems": [
    "GsSA.Dynamic.C59_newmark",
    "GsSA.Dynamic.C59_rk4",
    "GsSA.Dynamic.C59_violated_explicitEuler",
    "GsSA.Dynamic.C59_bathe_partial",
    "GsSA.Dynamic.C59_violated_bathe_rest",
    "GsSA.Dynamic.C59_violated_bathe_once",
    "GsSA.Dynamic.C59_violated_wilson"
   ],
   "note": "Newmark and Runge-Kutta proved for any number of steps; Bathe up to the tolerance of the iteration; violated for Bathe at rest and with MaxIter 1, explicit Euler (sign) and Wilson."
  },
  {
   "property": "C60",
   "status": "proved",
   "theorems": [
    "GsSA.Dynamic.C60_equations",
    "GsSA.Dynamic.C60_stable"
   ],
   "note": ""
  },
  {
   "property": "C61",
   "status": "partial",
   "theorems": [
    "GsSA.Dynamic.C61_violated_time",
    "GsSA.Dynamic.C61_violated_residual",
    "GsSA.Dynamic.C61_update"
   ],
   "note": "Violated: time of the residual (for every linear problem) and state tested (witness)."
  },
  {
   "property": "C62",
   "status": "proved",
   "theorems": [
    "GsSA.Dynamic.C62_taylor"
   ],
   "note": ""
  },
  {
   "property": "C63",
   "status": "proved",
   "theorems": [
    "GsSA.Dynamic.C63_step"
   ],
   "note": ""
  },
  {
   "property": "C64",
   "status": "partial",
   "theorems": [
    "GsSA.Dynamic.C64_nonlinear",
    "GsSA.Dynamic.C64_violated_status",
    "GsSA.Dynamic.C64_violated_linear"
   ],
   "note": "gamma = 1 proved for the nonlinear version; status and linear version violated."
  },
  {
   "property": "C67",
   "status": "proved",
   "theorems": [
    "GsSA.Eigen.C67_dense",
    "GsSA.Eigen.C67_sparse",
    "GsSA.Eigen.C67_sticky",
    "GsSA.Eigen.C67_noAssembly"
   ],
   "note": ""
  },
  {
   "property": "C68",
   "status": "partial",
   "theorems": [
    "GsSA.Eigen.C68_throws",
    "GsSA.Eigen.C68_violated_false",
    "GsSA.Eigen.C68_flag"
   ],
   "note": "Reported if the callback throws; violated if it returns false."
  },
  {
   "property": "C69",
   "status": "proved",
   "theorems": [
    "GsSA.Eigen.C69_status",
    "GsSA.Eigen.C69_krylov",
    "GsSA.Eigen.C69_value",
    "GsSA.Eigen.C69_positive",
    "GsSA.Eigen.C69_negative",
    "GsSA.Eigen.C69_residual",
    "GsSA.Eigen.C69_violated_zero"
   ],
   "note": "Also: if the rows of B sum to zero the result is Success with a zero vector (C69_violated_zero)."
  },
  {
   "property": "C70",
   "status": "proved",
   "theorems": [
    "GsSA.Tools.C70_order",
    "GsSA.Tools.C70_records",
    "GsSA.Tools.C70_violated_columns"
   ],
   "note": "The code does not compare the number of columns with the header (C70_violated_columns)."
  },
  {
   "property": "C71",
   "status": "proved",
   "theorems": [
    "GsSA.Tools.C71_raw",
    "GsSA.Tools.C71_knots"
   ],
   "note": ""
  },
  {
   "property": "C72",
   "status": "proved",
   "theorems": [
    "GsSA.APALM.C72_correction_returns"
   ],
   "note": ""
  },
  {
   "property": "C73",
   "status": "partial",
   "theorems": [
    "GsSA.APALM.C73_schedule_independence",
    "GsSA.APALM.C73_equals_single_process_partial",
    "GsSA.APALM.C73_violated_single_process"
   ],
   "note": "Schedule and process independence with MPI proved in full; equality with the run without MPI needs a hypothesis on the solver length, and the violation without it is proved."
  },
  {
   "property": "C74",
   "status": "proved",
   "theorems": [
    "GsSA.ALM.C74_life",
    "GsSA.ALM.C74_riks",
    "GsSA.ALM.C74_consistent",
    "GsSA.ALM.C74_violated_crisfield"
   ],
   "note": "Positive for Riks, direction only for consistent Crisfield, general counterexample for Crisfield. C74_life: which methods drop a used guess, for a whole step."
  },
  {
   "property": "C75",
   "status": "proved",
   "theorems": [
    "GsSA.ALM.C75_far",
    "GsSA.ALM.C75_first",
    "GsSA.ALM.C75_riks",
    "GsSA.ALM.C75_consistent"
   ],
   "note": ""
  },
  {
   "property": "C76",
   "status": "partial",
   "theorems": [
    "GsSA.ALM.C76_extended",
    "GsSA.ALM.C76_violated_equilibrium",
    "GsSA.ALM.C76_violated_noIterations",
    "GsSA.ALM.C76_normalised",
    "GsSA.ALM.C76_pass"
   ],
   "note": "Outcome proved for all runs; equilibrium not tested and MaxIter 0 are violations."
  },
  {
   "property": "C77",
   "status": "proved",
   "theorems": [
    "GsSA.ALM.C77_distance",
    "GsSA.ALM.C77_firstPredictor",
    "GsSA.ALM.C77_switch"
   ],
   "note": ""
  },
  {
   "property": "C78",
   "status": "proved",
   "theorems": [
    "GsSA.ALM.C78_path",
    "GsSA.ALM.C78_counts"
   ],
   "note": ""
  },
  {
   "property": "C79",
   "status": "partial",
   "theorems": [
    "GsSA.Static.C79_violated_iterations"
   ],
   "note": "Violated for every run."
  },
  {
   "property": "C80",
   "status": "proved",
   "theorems": [
    "GsSA.Static.C80_period",
    "GsSA.Static.C80_never",
    "GsSA.Static.C80_zero"
   ],
   "note": ""
  },
  {
   "property": "C81",
   "status": "proved",
   "theorems": [
    "GsSA.Static.C81_energies"
   ],
   "note": ""
  },
  {
   "property": "C82",
   "status": "partial",
   "theorems": [
    "GsSA.Static.C82_violated_reset",
    "GsSA.Static.C82_reset_one"
   ],
   "note": "Violated for every alpha other than 1; holds for alpha = 1."
  },
  {
   "property": "C83",
   "status": "partial",
   "theorems": [
    "GsSA.Static.C83_start",
    "GsSA.Static.C83_total",
    "GsSA.Static.C83_violated_again",
    "GsSA.Static.C83_setters"
   ],
   "note": "Proved for any number of stages with a common displacement; violated in a second solve (witness)."
  },
  {
   "property": "C84",
   "status": "partial",
   "theorems": [
    "GsSA.Static.C84_violated_start",
    "GsSA.Static.C84_zero"
   ],
   "note": "Violated whenever the last update is not zero; holds with a zero update."
  },
  {
   "property": "C85",
   "status": "partial",
   "theorems": [
    "GsSA.Static.C85_objective",
    "GsSA.Static.C85_violated_failure",
    "GsSA.Static.C85_violated_gradient"
   ],
   "note": "Objective correct where the residual succeeds; failing residual and gradient are violations."
  },
  {
   "property": "C86",
   "status": "proved",
   "theorems": [
    "GsSA.APALM.C86_maxIt_counts_corrections"
   ],
   "note": ""
  },
  {
   "property": "C87",
   "status": "partial",
   "theorems": [
    "GsSA.Dynamic.C87_step",
    "GsSA.Dynamic.C87_violated_status",
    "GsSA.Dynamic.C87_violated_state",
    "GsSA.Dynamic.C87_reason"
   ],
   "note": "When exceptions escape is characterised exactly; the property itself is violated."
  },
  {
   "property": "C88",
   "status": "partial",
   "theorems": [
    "GsSA.Dynamic.C88_violated_unchanged"
   ],
   "note": "Violated for every problem and history."
  },
  {
   "property": "C89",
   "status": "proved",
   "theorems": [
    "GsSA.Dynamic.C89_cached",
    "GsSA.Dynamic.C89_kept",
    "GsSA.Dynamic.C89_timeDependent"
   ],
   "note": ""
  },
  {
   "property": "C90",
   "status": "proved",
   "theorems": [
    "GsSA.Dynamic.C90_relations",
    "GsSA.Dynamic.C90_residual",
    "GsSA.Dynamic.C90_update"
   ],
   "note": ""
  },
  {
   "property": "C91",
   "status": "proved",
   "theorems": [
    "GsSA.Dynamic.C91_count",
    "GsSA.Dynamic.C91_interval",
    "GsSA.Dynamic.C91_zero"
   ],
   "note": ""
  },
  {
   "property": "C92",
   "status": "partial",
   "theorems": [
    "GsSA.Dynamic.C92_violated_count"
   ],
   "note": "Violated for every history."
  },
  {
   "property": "C93",
   "status": "proved",
   "theorems": [
    "GsSA.Dynamic.C93_nonlinear",
    "GsSA.Dynamic.C93_linear"
   ],
   "note": ""
  },
  {
   "property": "C94",
   "status": "proved",
   "theorems": [
    "GsSA.Dynamic.C94_euler"
   ],
   "note": ""
  },
  {
   "property": "C95",
   "status": "partial",
   "theorems": [
    "GsSA.Dynamic.C95_init",
    "GsSA.Dynamic.C95_buffer",
    "GsSA.Dynamic.C95_serial",
    "GsSA.Dynamic.C95_rhs",
    "GsSA.Dynamic.C95_rfactor",
    "GsSA.Dynamic.C95_violated_rfactor",
    "GsSA.Dynamic.C95_violated_coarse",
    "GsSA.Dynamic.C95_violated_norm"
   ],
   "note": "Agreement with serial stepping proved; refinement factor, coarse failures and norm violated."
  },
  {
   "property": "C96",
   "status": "proved",
   "theorems": [
    "GsSA.Dynamic.C96_local",
    "GsSA.Dynamic.C96_times"
   ],
   "note": ""
  },
  {
   "property": "C97",
   "status": "partial",
   "theorems": [
    "GsSA.Eigen.C97_violated_info",
    "GsSA.Eigen.C97_stale",
    "GsSA.Eigen.C97_status",
    "GsSA.Eigen.C97_reports",
    "GsSA.Eigen.C97_escapes",
    "GsSA.Eigen.C97_mode"
   ],
   "note": "Violated as described. C97_mode: the pair given by mode."
  },
  {
   "property": "C98",
   "status": "partial",
   "theorems": [
    "GsSA.Eigen.C98_documented",
    "GsSA.Eigen.C98_violated_sign"
   ],
   "note": "Violated: sign."
  },
  {
   "property": "C99",
   "status": "partial",
   "theorems": [
    "GsSA.Tools.C99_violated_precision",
    "GsSA.Tools.C99_stored",
    "GsSA.Tools.C99_default"
   ],
   "note": "Violated for every precision. C99_stored: the stored precision is the last one given."
  },
  {
   "property": "C100",
   "status": "partial",
   "theorems": [
    "GsSA.Tools.C100_increasing",
    "GsSA.Tools.C100_violated_origin",
    "GsSA.Tools.C100_violated_duplicate",
    "GsSA.Tools.C100_returns",
    "GsSA.Tools.C100_few",
    "GsSA.Tools.C100_new"
   ],
   "note": "Proved for increasing times from 0 on; violated otherwise."
  },
  {
   "property": "C101",
   "status": "partial",
   "theorems": [
    "GsSA.Tools.C101_anchors",
    "GsSA.Tools.C101_linear",
    "GsSA.Tools.C101_violated_quadratic"
   ],
   "note": "Proved at the anchors and for degree 1; violated for degree 2."
  },
  {
   "property": "C102",
   "status": "partial",
   "theorems": [
    "GsSA.Tools.C102_best",
    "GsSA.Tools.C102_violated_nan",
    "GsSA.Tools.C102_support",
    "GsSA.Tools.C102_stationary",
    "GsSA.Tools.C102_empty"
   ],
   "note": "Proved if no trial gives NaN; violated otherwise."
  },
  {
   "property": "C103",
   "status": "partial",
   "theorems": [
    "GsSA.Tools.C103_anchors",
    "GsSA.Tools.C103_create",
    "GsSA.Tools.C103_accepts",
    "GsSA.Tools.C103_violated_dropped",
    "GsSA.Tools.C103_sorted",
    "GsSA.Tools.C103_violated_added",
    "GsSA.Tools.C103_violated_ptimes"
   ],
   "note": "Proved at the anchors for the data of the constructor; violated for added data and interior parametric times. C103_accepts: which data the constructor accepts."
  },
  {
   "property": "C104",
   "status": "partial",
   "theorems": [
    "GsSA.Tools.C104_load",
    "GsSA.Tools.C104_violated_planar",
    "GsSA.Tools.C104_violated_curve",
    "GsSA.Tools.C104_violated_component"
   ],
   "note": "Proved for targetDim = domainDim + 1; violated for every other case."
  },
  {
   "property": "C105",
   "status": "partial",
   "theorems": [
    "GsSA.Tools.C105_translation",
    "GsSA.Tools.C105_surface",
    "GsSA.Tools.C105_violated_girder"
   ],
   "note": "Proved for all but PlateGirderL, for which the violation is proved."
  },
  {
   "property": "C106",
   "status": "partial",
   "theorems": [
    "GsSA.Tools.C106_curve",
    "GsSA.Tools.C106_iBeam",
    "GsSA.Tools.C106_tBeam",
    "GsSA.Tools.C106_lBeam",
    "GsSA.Tools.C106_panelT",
    "GsSA.Tools.C106_panelStrip",
    "GsSA.Tools.C106_panelL",
    "GsSA.Tools.C106_plateGirderL",
    "GsSA.Tools.C106_lBeam_sides",
    "GsSA.Tools.C106_violated_interface",
    "GsSA.Tools.C106_skin"
   ],
   "note": "Joints proved for all panels; the declared interface of LBeam is wrong."
  },
  {
   "property": "C107",
   "status": "partial",
   "theorems": [
    "GsSA.Stepping.C107_equilibrium",
    "GsSA.Stepping.C107_points",
    "GsSA.Stepping.C107_times",
    "GsSA.Stepping.C107_uniform",
    "GsSA.Stepping.C107_terminates",
    "GsSA.Stepping.C107_terminates_exists",
    "GsSA.Stepping.C107_violated_endless"
   ],
   "note": "Proved, termination if all small enough steps succeed; violated (endless) if steps keep failing."
  },
  {
   "property": "C108",
   "status": "partial",
   "theorems": [
    "GsSA.Stepping.C108_violated_adaptive",
    "GsSA.Stepping.C108_violated_overwritten",
    "GsSA.Stepping.C108_lengths",
    "GsSA.Stepping.C108_kept",
    "GsSA.Stepping.C108_violated_quasistatic",
    "GsSA.Stepping.C108_violated_beam"
   ],
   "note": "Proved for gsAPALMBase and gsThinShell_ArcLength with constant length; violated by the other loops and with AdaptiveLength."
  },
  {
   "property": "C109",
   "status": "partial",
   "theorems": [
    "GsSA.Stepping.C109_converged",
    "GsSA.Stepping.C109_repeated",
    "GsSA.Stepping.C109_violated_solver",
    "GsSA.Stepping.C109_violated_origin"
   ],
   "note": "Proved for the test of converged() with at least two iterations; violated for the test of the status."
  },
  {
   "property": "C110",
   "status": "partial",
   "theorems": [
    "GsSA.ALM.C110_length",
    "GsSA.ALM.C110_violated_reset",
    "GsSA.ALM.C110_options",
    "GsSA.ALM.C110_violated_adaptive"
   ],
   "note": "Proved for constant lengths and the options; violated for adaptive lengths (reset before the first step, settings undone)."
  },
  {
   "property": "C111",
   "status": "partial",
   "theorems": [
    "GsSA.ALM.C111_options",
    "GsSA.ALM.C111_singular",
    "GsSA.ALM.C111_defaults",
    "GsSA.ALM.C111_merge",
    "GsSA.ALM.C111_idempotent",
    "GsSA.ALM.C111_determinant",
    "GsSA.ALM.C111_violated_into",
    "GsSA.ALM.C111_violated_unrelated"
   ],
   "note": "Proved; violated by options_into and by the reset of length and factorisation."
  },
  {
   "property": "C112",
   "status": "partial",
   "theorems": [
    "GsSA.ALM.C112_origin",
    "GsSA.ALM.C112_violated_solution",
    "GsSA.ALM.C112_violated_throws",
    "GsSA.ALM.C112_violated_initialized",
    "GsSA.ALM.C112_violated_status",
    "GsSA.ALM.C112_violated_change",
    "GsSA.ALM.C112_deterministic",
    "GsSA.ALM.C112_stability",
    "GsSA.ALM.C112_violated_guess"
   ],
   "note": "Proved that steps without guess do not depend on uninitialised members; violated for the solution set before, the exception, the assertion, stabilityChange, the status and the guess of Riks."
  },
  {
   "property": "C113",
   "status": "partial",
   "theorems": [
    "GsSA.ALM.C113_setters",
    "GsSA.ALM.C113_history",
    "GsSA.ALM.C113_increment",
    "GsSA.ALM.C113_failed",
    "GsSA.ALM.C113_retry",
    "GsSA.ALM.C113_violated_increment",
    "GsSA.ALM.C113_violated_tangent",
    "GsSA.ALM.C113_violated_retry"
   ],
   "note": "Proved under the stated conditions on the Jacobian, the scaling and the angle; each condition is shown to be necessary."
  },
  {
   "property": "C114",
   "status": "partial",
   "theorems": [
    "GsSA.ALM.C114_distance",
    "GsSA.ALM.C114_detect",
    "GsSA.ALM.C114_correction",
    "GsSA.ALM.C114_initiation",
    "GsSA.ALM.C114_settings",
    "GsSA.ALM.C114_parallelSolve",
    "GsSA.ALM.C114_parallelSolve_single",
    "GsSA.ALM.C114_solve",
    "GsSA.ALM.C114_solve_single",
    "GsSA.ALM.C114_violated_distance",
    "GsSA.ALM.C114_violated_bifurcation"
   ],
   "note": "Proved for Crisfield and Riks without SingularPoint, for jobs whose steps end with success or with NotConverged/AssemblyError; violated with SingularPoint and for the methods without distance()."
  },
  {
   "property": "C115",
   "status": "partial",
   "theorems": [
    "GsSA.ALM.C115_riks",
    "GsSA.ALM.C115_consistent",
    "GsSA.ALM.C115_loadControl",
    "GsSA.ALM.C115_violated_zeroLoad",
    "GsSA.ALM.C115_crisfield",
    "GsSA.ALM.C115_crisfield_path"
   ],
   "note": "Proved for steps away from load 0 with Relaxation 1; a step that passes through load factor 0 in its predictor is proved to fail."
  },
  {
   "property": "C116",
   "status": "partial",
   "theorems": [
    "GsSA.ALM.RealDemo.C116_violated_antisymmetric",
    "GsSA.ALM.C116_test",
    "GsSA.ALM.C116_unit",
    "GsSA.ALM.C116_symmetric",
    "GsSA.ALM.C116_violated_ones",
    "GsSA.ALM.C116_point"
   ],
   "note": "The mechanism is proved for all inputs (C116_test, C116_unit, C116_point); that the test detects bifurcations is refuted: it is blind to modes orthogonal to its start vector, shown in general and on a two-bar arch."
  },
  {
   "property": "C117",
   "status": "partial",
   "theorems": [
    "GsSA.Dynamic.C117_newmark",
    "GsSA.Dynamic.C117_bathe",
    "GsSA.Dynamic.C117_rk4",
    "GsSA.Dynamic.C117_rk4_balance",
    "GsSA.Dynamic.C117_violated_euler"
   ],
   "note": "Proved for Newmark, Bathe (1/4, 1/2) and Runge-Kutta; explicit Euler is proved unstable for every step size (C117_violated_euler)."
  },
  {
   "property": "C118",
   "status": "partial",
   "theorems": [
    "GsSA.Static.Newton.C118_bounds",
    "GsSA.Static.Newton.C118_quadratic",
    "GsSA.Static.Newton.C118_relaxed",
    "GsSA.Static.Newton.C118_success",
    "GsSA.Static.Newton.C118_error",
    "GsSA.Static.Newton.C118_violated_equilibrium",
    "GsSA.Static.Newton.C118_linearStart"
   ],
   "note": "Proved; violated if the displacement set is the solution already (NotConverged for every maxIt, C118_violated_equilibrium)."
  },
  {
   "property": "C119",
   "status": "partial",
   "theorems": [
    "GsSA.Static.C119_energy",
    "GsSA.Static.C119_stable",
    "GsSA.Static.C119_converges",
    "GsSA.Static.C119_residual",
    "GsSA.Static.C119_violated_middle",
    "GsSA.Static.C119_violated_kinetic"
   ],
   "note": "Proved with damping; violated without: resets miss the middle of the step (C119_violated_middle) and a single spring below the stability limit diverges (C119_violated_kinetic)."
  },
  {
   "property": "C120",
   "status": "partial",
   "theorems": [
    "GsSA.Static.C120_eigenvalue",
    "GsSA.Static.C120_determinant",
    "GsSA.Static.C120_sign",
    "GsSA.Static.C120_spectra",
    "GsSA.Static.C120_violated_shift",
    "GsSA.Static.C120_violated_failure",
    "GsSA.Static.C120_violated_solver",
    "GsSA.Static.C120_violated_default",
    "GsSA.Static.C120_options",
    "GsSA.Static.C120_newton",
    "GsSA.Static.C120_current",
    "GsSA.Static.C120_violated_current",
    "GsSA.Static.C120_violated_dr"
   ],
   "note": "Value and sign of the indicator proved; violated: eigenvalues below the shift (C120_violated_shift), solvers other than SimplicialLDLT (C120_violated_solver), failures (C120_violated_failure), missing getOptions (C120_options), options of gsStaticDR after initialize (C120_violated_dr), constructors without m_nonlinear (C120_violated_current)."
  },
  {
   "property": "C121",
   "status": "partial",
   "theorems": [
    "GsSA.Stepping.C121_cylinder",
    "GsSA.Stepping.C121_violated_cylinder",
    "GsSA.Stepping.C121_pillow",
    "GsSA.Stepping.C121_pillow_first",
    "GsSA.Stepping.C121_violated_pillow",
    "GsSA.Stepping.C121_violated_shear",
    "GsSA.Stepping.C121_violated_shear_end",
    "GsSA.Stepping.C121_pinched",
    "GsSA.Stepping.C121_pinched_first",
    "GsSA.Stepping.C121_pinched_ends",
    "GsSA.Stepping.C121_violated_pinched"
   ],
   "note": "Termination, range and order of the rows proved; violated: rows of failed solves (C121_violated_cylinder), negative load factor (C121_violated_pillow), undefined behaviour at the last target (C121_violated_shear, C121_violated_shear_end), endless loop (C121_violated_pinched)."
  },
  {
   "property": "C122",
   "status": "partial",
   "theorems": [
    "GsSA.Stepping.DC.C122_rows",
    "GsSA.Stepping.DC.C122_loads",
    "GsSA.Stepping.DC.C122_terminates",
    "GsSA.Stepping.DC.C122_repeated",
    "GsSA.Stepping.DC.C122_violated_endless",
    "GsSA.Stepping.DC.C122_violated_error",
    "GsSA.Stepping.DC.C122_printed",
    "GsSA.Stepping.DC.C122_violated_snapping",
    "GsSA.Stepping.DC.C122_violated_frustrum"
   ],
   "note": "Rows, loads and termination proved; violated: statuses other than NotConverged and AssemblyError (C122_violated_error), printed displacement (C122_violated_snapping, C122_violated_frustrum), endless loop (C122_violated_endless)."
  },
  {
   "property": "C123",
   "status": "partial",
   "theorems": [
    "GsSA.Dynamic.C123_shell",
    "GsSA.Dynamic.C123_tutorial",
    "GsSA.Dynamic.C123_violated_tutorial",
    "GsSA.Dynamic.C123_violated_beam",
    "GsSA.Dynamic.C123_violated_beam_load",
    "GsSA.Dynamic.C123_violated_status",
    "GsSA.Dynamic.C123_beam"
   ],
   "note": "Loops with step() proved; violated: times of the Paraview parts in the tutorials (C123_violated_tutorial), frozen time and load in example_DynamicBeamNL (C123_violated_beam, C123_violated_beam_load), ignored status (C123_violated_status)."
  },
  {
   "property": "C124",
   "status": "partial",
   "theorems": [
    "GsSA.Stepping.Bif.C124_returns",
    "GsSA.Stepping.Bif.C124_start",
    "GsSA.Stepping.Bif.C124_rows",
    "GsSA.Stepping.Bif.C124_strict",
    "GsSA.Stepping.Bif.C124_equilibrium",
    "GsSA.Stepping.Bif.C124_spotted",
    "GsSA.Stepping.Bif.C124_terminates",
    "GsSA.Stepping.Bif.C124_length",
    "GsSA.Stepping.Bif.C124_restored",
    "GsSA.Stepping.Bif.C124_bifurcation",
    "GsSA.Stepping.Bif.C124_violated_lost",
    "GsSA.Stepping.Bif.C124_violated_limit",
    "GsSA.Stepping.Bif.C124_violated_retry",
    "GsSA.Stepping.Bif.C124_violated_again"
   ],
   "note": "Rows, equilibrium, reports without failures, bifurcations and termination proved; violated: reports after a failed attempt (C124_violated_retry), limit points (C124_violated_limit), extended system not converged (C124_violated_lost), the step after a bifurcation (C124_violated_again)."
  },
  {
   "property": "C125",
   "status": "partial",
   "theorems": [
    "GsSA.Stepping.Fixed.C125_ignoring",
    "GsSA.Stepping.Fixed.C125_aborting",
    "GsSA.Stepping.Fixed.C125_prefix",
    "GsSA.Stepping.Fixed.C125_equilibrium",
    "GsSA.Stepping.Fixed.C125_violated_stuck",
    "GsSA.Stepping.Fixed.C125_violated_rows",
    "GsSA.Stepping.Fixed.C125_tutorial"
   ],
   "note": "Benchmarks proved; the tutorials repeat a failed step for ever (C125_violated_stuck, C125_violated_rows), for memoryless callbacks; for consistent Crisfield with a given scaling, for Crisfield with the angle of the step (the default)."
  },
  {
   "property": "C126",
   "status": "partial",
   "theorems": [
    "GsSA.Stepping.Adaptive.C126_end",
    "GsSA.Stepping.Adaptive.C126_band_roof",
    "GsSA.Stepping.Adaptive.C126_band_wrinkling",
    "GsSA.Stepping.Adaptive.C126_solves",
    "GsSA.Stepping.Adaptive.C126_solved",
    "GsSA.Stepping.Adaptive.C126_source",
    "GsSA.Stepping.Adaptive.C126_increment",
    "GsSA.Stepping.Adaptive.C126_predictor",
    "GsSA.Stepping.Adaptive.C126_length",
    "GsSA.Stepping.Adaptive.C126_terminates",
    "GsSA.Stepping.Adaptive.C126_path",
    "GsSA.Stepping.Adaptive.C126_violated_none",
    "GsSA.Stepping.Adaptive.C126_violated_row",
    "GsSA.Stepping.Adaptive.C126_violated_coarse",
    "GsSA.Stepping.Adaptive.C126_violated_repeat",
    "GsSA.Stepping.Adaptive.C126_violated_maxRefIt",
    "GsSA.Stepping.Wrinkling.C126_before",
    "GsSA.Stepping.Wrinkling.C126_before_links",
    "GsSA.Stepping.Wrinkling.C126_violated_maxSteps",
    "GsSA.Stepping.Wrinkling.C126_switched",
    "GsSA.Stepping.Wrinkling.C126_violated_load",
    "GsSA.Stepping.Wrinkling.C126_violated_lost"
   ],
   "note": "Ends, starts, lengths and numbers of load steps proved; violated as listed (C126_violated_*). The arc-length step, the estimate of the error and the changes of the mesh are abstract in the loop with adaptive meshes."
  },
  {
   "property": "C127",
   "status": "partial",
   "theorems": [
    "GsSA.Static.Prog.C127_shell",
    "GsSA.Static.Prog.C127_relaxation",
    "GsSA.Static.Prog.C127_residual",
    "GsSA.Static.Prog.C127_violated_linear",
    "GsSA.Static.Prog.C127_violated_status",
    "GsSA.Static.Prog.C127_tutorial",
    "GsSA.Static.Prog.C127_violated_tutorial",
    "GsSA.Static.Prog.C127_thinShell_linear",
    "GsSA.Static.Prog.C127_thinShell",
    "GsSA.Static.Prog.C127_meshes",
    "GsSA.Static.Prog.C127_compare_optimizer",
    "GsSA.Static.Prog.C127_compare",
    "GsSA.Static.Prog.C127_violated_compare"
   ],
   "note": "What each program writes proved for all outcomes of the stages; violated as listed (C127_violated_*)."
  },
  {
   "property": "C128",
   "status": "partial",
   "theorems": [
    "GsSA.Eigen.C128_modal",
    "GsSA.Eigen.C128_buckling",
    "GsSA.Eigen.C128_bucklingMulti",
    "GsSA.Eigen.C128_examples",
    "GsSA.Eigen.C128_fails",
    "GsSA.Eigen.C128_runs",
    "GsSA.Eigen.C128_pairs",
    "GsSA.Eigen.C128_violated_exit",
    "GsSA.Eigen.C128_violated_write",
    "GsSA.Eigen.C128_violated_linear",
    "GsSA.Eigen.C128_violated_ten",
    "GsSA.Eigen.C128_critical",
    "GsSA.Eigen.C128_violated_multipatch",
    "GsSA.Eigen.C128_violated_agree",
    "GsSA.Eigen.C128_shape",
    "GsSA.Eigen.C128_violated_patches",
    "GsSA.Eigen.C128_normalized",
    "GsSA.Eigen.C128_violated_digits"
   ],
   "note": "What each program reports proved for all results of the solvers; violated as listed (C128_violated_*)."
  },
  {
   "property": "C129",
   "status": "partial",
   "theorems": [
    "GsSA.APALM.C129_undisturbed",
    "GsSA.APALM.C129_interval",
    "GsSA.APALM.C129_steps",
    "GsSA.APALM.C129_violated_order",
    "GsSA.APALM.C129_table",
    "GsSA.APALM.C129_sheets",
    "GsSA.APALM.C129_intervalRows",
    "GsSA.APALM.C129_branchRows",
    "GsSA.APALM.C129_violated_first",
    "GsSA.APALM.C129_names",
    "GsSA.APALM.C129_frames",
    "GsSA.APALM.C129_violated_frames",
    "GsSA.APALM.C129_ids",
    "GsSA.APALM.C129_ids_solve",
    "GsSA.APALM.C129_files",
    "GsSA.APALM.C129_violated_overwritten",
    "GsSA.APALM.C129_lengths",
    "GsSA.APALM.C129_multipliers",
    "GsSA.APALM.C129_violated_generation",
    "GsSA.APALM.C129_solve_length",
    "GsSA.APALM.C129_violated_default"
   ],
   "note": "Hooks, tables, names of files and lengths proved for all runs; violated as listed (C129_violated_*)."
  },
  {
   "property": "C130",
   "status": "partial",
   "theorems": [
    "GsSA.Tools.C130_loads",
    "GsSA.Tools.C130_loads_iff",
    "GsSA.Tools.C130_violated_loads",
    "GsSA.Tools.C130_references",
    "GsSA.Tools.C130_violated_references",
    "GsSA.Tools.C130_violated_values",
    "GsSA.Tools.C130_materials",
    "GsSA.Tools.C130_setup",
    "GsSA.Tools.C130_violated_options",
    "GsSA.Tools.C130_violated_printed",
    "GsSA.Tools.C130_static",
    "GsSA.Tools.C130_violated_erased",
    "GsSA.Tools.C130_violated_physical",
    "GsSA.Tools.C130_quasistatic",
    "GsSA.Tools.C130_quasistatic_nowrite",
    "GsSA.Tools.C130_violated_assertion",
    "GsSA.Tools.C130_violated_undeformed",
    "GsSA.Tools.C130_multi_nowrite",
    "GsSA.Tools.C130_violated_columns",
    "GsSA.Tools.C130_perturb",
    "GsSA.Tools.C130_violated_perturb",
    "GsSA.Tools.C130_violated_smoothness"
   ],
   "note": "Loads, references, materials, options, tables and perturbation proved for all input files; violated as listed (C130_violated_*). C130_multi_nowrite: the table of the program for several patches without --write."
  },
  {
   "property": "C131",
   "status": "partial",
   "theorems": [
    "GsSA.Tools.C131_coordinates",
    "GsSA.Tools.C131_extremes",
    "GsSA.Tools.C131_samples",
    "GsSA.Tools.C131_resolution",
    "GsSA.Tools.C131_violated_sign",
    "GsSA.Tools.C131_unknown",
    "GsSA.Tools.C131_violated_trailing",
    "GsSA.Tools.C131_violated_wrinkling",
    "GsSA.Tools.C131_columns",
    "GsSA.Tools.C131_nowrite",
    "GsSA.Tools.C131_names",
    "GsSA.Tools.C131_sections",
    "GsSA.Tools.C131_nosections"
   ],
   "note": "Tables, extremes and cross sections proved for all runs; violated as listed (C131_violated_*)."
  },
  {
   "property": "C132",
   "status": "partial",
   "theorems": [
    "GsSA.ALM.C132_bisection",
    "GsSA.ALM.C132_test",
    "GsSA.ALM.C132_extended_columns",
    "GsSA.ALM.C132_more_columns",
    "GsSA.ALM.VerboseDemo.C132_violated_change",
    "GsSA.ALM.VerboseDemo.C132_violated_indicator",
    "GsSA.ALM.VerboseDemo.C132_violated_extended",
    "GsSA.ALM.C132_off",
    "GsSA.ALM.C132_step",
    "GsSA.ALM.C132_steps",
    "GsSA.ALM.C132_singular",
    "GsSA.ALM.C132_stability",
    "GsSA.ALM.C132_violated_previous",
    "GsSA.ALM.C132_table",
    "GsSA.ALM.C132_columns",
    "GsSA.ALM.C132_violated_squares",
    "GsSA.ALM.C132_violated_extended_table"
   ],
   "note": "Same status and point proved for all methods and any number of steps; the stability after a step and the table proved; violated as listed (C132_violated_*)."
  },
  {
   "property": "C133",
   "status": "partial",
   "theorems": [
    "GsSA.Dynamic.C133_implicit",
    "GsSA.Dynamic.C133_newmark",
    "GsSA.Dynamic.C133_bathe",
    "GsSA.Dynamic.C133_violated_wilson",
    "GsSA.Dynamic.C133_euler",
    "GsSA.Dynamic.C133_rk4",
    "GsSA.Dynamic.C133_rk4_nonlinear",
    "GsSA.Dynamic.C133_euler_nonlinear",
    "GsSA.Dynamic.C133_euler_limit",
    "GsSA.Dynamic.C133_rk4_limit",
    "GsSA.Dynamic.C133_violated_sign",
    "GsSA.Dynamic.C133_rk4_near",
    "GsSA.Dynamic.C133_rk4_smooth",
    "GsSA.Dynamic.C133_euler_smooth"
   ],
   "note": "Error bounds proved for explicit Euler, Runge-Kutta, implicit Euler, Newmark and Bathe on linear structures and for the explicit methods with smooth residuals (orders 1 and 4) or Lipschitz residuals (orders 1 and 2); violated for the sign of the residual in the nonlinear explicit Euler and for the linear Wilson method (C133_violated_*)."
  },
  {
   "property": "C134",
   "status": "proved",
   "theorems": [
    "GsSA.ALM.C134_loadControl_path",
    "GsSA.ALM.C134_loadControl_smooth",
    "GsSA.ALM.C134_loadControl",
    "GsSA.ALM.C134_riks",
    "GsSA.ALM.C134_consistent",
    "GsSA.ALM.C134_enough"
   ],
   "note": "Crisfield's method, whose correction chooses a root, is the subject of C135; following a path over many steps is proved for load control, and in C135 for Crisfield's method."
  },
  {
   "property": "C135",
   "status": "proved",
   "theorems": [
    "GsSA.ALM.C135_crisfield",
    "GsSA.ALM.C135_crisfield_path",
    "GsSA.ALM.C135_crisfield_smooth"
   ],
   "note": "Without relaxation; the path has no limit point (invertible tangents)."
  },
  {
   "property": "C136",
   "status": "proved",
   "theorems": [
    "GsSA.Static.C136_dr_same",
    "GsSA.Static.C136_dr_silent",
    "GsSA.Static.C136_dr_table",
    "GsSA.Static.C136_dr_values",
    "GsSA.Static.C136_newton_same",
    "GsSA.Static.C136_newton_silent",
    "GsSA.Static.C136_newton_linear",
    "GsSA.Static.C136_newton_table",
    "GsSA.Static.C136_newton_rows"
   ],
   "note": "The format of the numbers and the messages that are printed for all values of verbose are not modelled."
  },
  {
   "property": "C137",
   "status": "partial",
   "theorems": [
    "GsSA.Dynamic.C137_same",
    "GsSA.Dynamic.C137_rk4",
    "GsSA.Dynamic.C137_step",
    "GsSA.Dynamic.C137_newmark_table",
    "GsSA.Dynamic.C137_newmark_linear",
    "GsSA.Dynamic.C137_wilson",
    "GsSA.Dynamic.C137_explicit",
    "GsSA.Dynamic.C137_violated_euler",
    "GsSA.Dynamic.C137_euler_table",
    "GsSA.Dynamic.C137_bathe_table",
    "GsSA.Dynamic.C137_bathe_linear"
   ],
   "note": "Violated by gsDynamicRK4, by the linear methods of Euler and by gsDynamicWilson, as stated by C137_rk4, C137_violated_euler, C137_explicit and C137_wilson. The format of the numbers is not modelled."
  },
  {
   "property": "C138",
   "status": "proved",
   "theorems": [
    "GsSA.Dynamic.C138_euler_smooth",
    "GsSA.Dynamic.C138_newmark_near",
    "GsSA.Dynamic.C138_newmark_smooth",
    "GsSA.Dynamic.C138_euler_near"
   ],
   "note": "Exact arithmetic and exact linear solves. The motion is assumed to exist and to be smooth on the interval."
  },
  {
   "property": "C139",
   "status": "proved",
   "theorems": [
    "GsSA.Dynamic.C139_bathe_violated_second_order",
    "GsSA.Dynamic.C139_bathe_near",
    "GsSA.Dynamic.C139_bathe_smooth"
   ],
   "note": "Exact arithmetic and exact linear solves. The motion is assumed to exist and to be smooth on the interval. The loss of the second order with positive tolerances is C139_bathe_violated_second_order."
  },
  {
   "property": "C140",
   "status": "proved",
   "theorems": [
    "GsSA.Dynamic.C140_wilson_near",
    "GsSA.Dynamic.C140_wilson_smooth",
    "GsSA.Dynamic.C140_wilson_violated_small_gamma"
   ],
   "note": "Exact arithmetic and exact linear solves. The motion is assumed to exist and to be smooth on an interval that reaches gamma steps beyond the last start. The divergence for gamma < 1/2, inside the documented range, is C140_wilson_violated_small_gamma; nothing is said of gamma between 1/2 and 1."
  },
  {
   "property": "C141",
   "status": "proved",
   "theorems": [
    "GsSA.ALM.C141_extended_converges",
    "GsSA.ALM.C141_extended_rate",
    "GsSA.ALM.C141_smooth",
    "GsSA.ALM.C141_singularPoint",
    "GsSA.ALM.C141_bifurcation_singular",
    "GsSA.ALM.Demo.C141_violated_exact"
   ],
   "note": "Exact arithmetic; a linear solve that succeeds is exact. The space of displacements has finite dimension in C141_smooth. C141_singularPoint covers calls without bisection, test and switch of branches. The failure at an exact hit is C141_violated_exact, the missing regularity of unsymmetric bifurcations C141_bifurcation_singular."
  },
  {
   "property": "C142",
   "status": "proved",
   "theorems": [
    "GsSA.ALM.C142_bisection",
    "GsSA.ALM.C142_straight",
    "GsSA.ALM.C142_loadControl",
    "GsSA.ALM.Demo.C142_violated_flag"
   ],
   "note": "C142_bisection for any method under hypotheses on its steps, C142_loadControl without such hypotheses for load control on straight paths, exact arithmetic, callbacks that depend on the displacements only. The returned flag, which computeSingularPoint ignores, is wrong: C142_violated_flag."
  },
  {
   "property": "C143",
   "status": "proved",
   "theorems": [
    "GsSA.ALM.C143_straight",
    "GsSA.ALM.C143_singularPoint",
    "GsSA.ALM.C143_smooth",
    "GsSA.ALM.Demo.C143_violated_mode"
   ],
   "note": "C143_singularPoint with explicit constants, C143_smooth with constants from compactness. Load control, straight paths, exact arithmetic and linear solver; failure of the solver in the extended system is a possible outcome (C141_violated_exact). The improved mode is dropped: C143_violated_mode."
  },
  {
   "property": "C144",
   "status": "partial",
   "theorems": [
    "GsSA.Oracle.C144_compressible",
    "GsSA.Oracle.C144_incompressible",
    "GsSA.Oracle.C144_volume",
    "GsSA.Oracle.C144_shear",
    "GsSA.Oracle.C144_reference",
    "GsSA.Oracle.C144_passes_incompressible",
    "GsSA.Oracle.C144_passes_compressible",
    "GsSA.Oracle.C144_violated_stress"
   ],
   "note": "Formulas (C144_compressible, C144_incompressible), volumes (C144_volume) and what a passing check means (C144_passes_*) are proved over the real numbers. That the stress is checked is violated: C144_violated_stress."
  },
  {
   "property": "C145",
   "status": "proved",
   "theorems": [
    "GsSA.ALM.C145_bisection",
    "GsSA.ALM.C145_crisfield"
   ],
   "note": "C145_bisection and C145_crisfield, through C142_straight and C143_straight, which hold for every method whose steps advance the load along the path in proportion to the length (Follows). Exact arithmetic and linear solver; failure of the solver in the extended system is a possible outcome."
  },
  {
   "property": "C146",
   "status": "partial",
   "theorems": [
    "GsSA.Tools.C146_rectangle",
    "GsSA.Tools.C146_middle",
    "GsSA.Tools.C146_bilinear",
    "GsSA.Tools.C146_covers",
    "GsSA.Tools.C146_violated_uniform",
    "GsSA.Tools.C146_violated_degree",
    "GsSA.Tools.C146_clamped",
    "GsSA.Tools.C146_clampKnots",
    "GsSA.Tools.C146_violated_clamped",
    "GsSA.Tools.C146_brick",
    "GsSA.Tools.C146_frustrum",
    "GsSA.Tools.C146_annulus"
   ],
   "note": "C146_rectangle, C146_covers, C146_middle, C146_bilinear, C146_clamped, C146_clampKnots, C146_brick, C146_frustrum, C146_annulus. C146_violated_clamped: the option does not divide the last element if the offset is at least its length. C146_violated_uniform: with degree 2 and more the elements of a refined rectangle have different sizes. C146_violated_degree: with degree 0 the rectangle of one element is a segment."
  },
  {
   "property": "C147",
   "status": "partial",
   "theorems": [
    "GsSA.Tools.C147_apart",
    "GsSA.Tools.C147_number",
    "GsSA.Tools.C147_connected",
    "GsSA.Tools.C147_middle",
    "GsSA.Tools.C147_supports",
    "GsSA.Tools.C147_violated_supports",
    "GsSA.Tools.C147_violated_element",
    "GsSA.Tools.C147_element"
   ],
   "note": "C147_apart, C147_number, C147_connected, C147_middle, C147_supports, C147_element. C147_violated_supports: in a lattice with many rows (53 with the dimensions of the program) the left side of the first patch is fixed as well. C147_violated_element: in the programs for one element the load is put on the interfaces of the patches 13 and 14 with 8 and 12, and the upper end is free."
  },
  {
   "property": "C148",
   "status": "partial",
   "theorems": [
    "GsSA.Oracle.C148_clamped",
    "GsSA.Oracle.C148_cantilever",
    "GsSA.Oracle.C148_circle",
    "GsSA.Oracle.C148_first_clamped",
    "GsSA.Oracle.C148_first_cantilever",
    "GsSA.Oracle.C148_all_pinned",
    "GsSA.Oracle.C148_first_plate",
    "GsSA.Oracle.C148_stress",
    "GsSA.Oracle.C148_violated_stress",
    "GsSA.Oracle.C148_beam",
    "GsSA.Oracle.C148_violated_beam",
    "GsSA.Oracle.C148_violated_stiffness",
    "GsSA.Oracle.C148_pinned",
    "GsSA.Oracle.C148_violated_pinned",
    "GsSA.Oracle.C148_violated_cantilever",
    "GsSA.Oracle.C148_plate",
    "GsSA.Oracle.C148_stiffness"
   ],
   "note": "C148_stress, C148_beam, C148_pinned, C148_stiffness, C148_plate, C148_clamped, C148_cantilever, C148_circle, C148_first_clamped, C148_first_cantilever, C148_first_plate, C148_all_pinned. C148_violated_stress: the program takes lambdas(0) across the tension in S and along it in San; the two differ for every deformed plate. C148_violated_beam, C148_violated_stiffness: EI is computed with twice the thickness given to the assembler, and the manufactured solution solves the equations for no other EI. C148_violated_pinned: the first frequency printed for the pinned beam is 0, which is none. C148_violated_cantilever: the area is not updated, half the value of the formula is printed. Not proved: that the mode of the clamped circle is the first; not modelled: its further frequencies, which are not printed; the other cases print 0 for want of a reference."
  },
  {
   "property": "C149",
   "status": "partial",
   "theorems": [
    "GsSA.Tools.C149_found",
    "GsSA.Tools.C149_violated_gap",
    "GsSA.Tools.C149_tables",
    "GsSA.Tools.C149_paraview",
    "GsSA.Tools.C149_numbers",
    "GsSA.Tools.C149_violated_numbers",
    "GsSA.Tools.C149_violated_patches",
    "GsSA.Tools.C149_violated_parts",
    "GsSA.Tools.C149_points",
    "GsSA.Tools.C149_violated_one",
    "GsSA.Tools.C149_table",
    "GsSA.Tools.C149_lines",
    "GsSA.Tools.C149_violated_lines"
   ],
   "note": "C149_found, C149_tables, C149_paraview, C149_numbers, C149_points, C149_table, C149_lines. C149_violated_gap: solutions after a missing number are left out. C149_violated_numbers: with a solution without a number the outputs are shifted by one. C149_violated_patches: with eleven patches and twelve solutions two .vts files have the same name. C149_violated_parts: the collection has the first patch only. C149_violated_one: one point is the last. C149_violated_lines: lines with the same six decimals of u overwrite each other."
  },
  {
   "property": "C150",
   "status": "partial",
   "theorems": [
    "GsSA.Static.OptOptions.C150_handed",
    "GsSA.Static.OptOptions.C150_again",
    "GsSA.Static.OptOptions.C150_violated_optimizer",
    "GsSA.Static.OptOptions.C150_violated_unknown"
   ],
   "note": "C150_handed, C150_again. C150_violated_optimizer: MaxIterations, Verbose and the tolerances set with optimizerOptions() are overwritten by solve. C150_violated_unknown: an optimizer that is not known is an exception of initialize or solve."
  },
  {
   "property": "C151",
   "status": "partial",
   "theorems": [
    "GsSA.Dynamic.XBraidOptions.C151_applied",
    "GsSA.Dynamic.XBraidOptions.C151_again",
    "GsSA.Dynamic.XBraidOptions.C151_changed",
    "GsSA.Dynamic.XBraidOptions.C151_violated_off",
    "GsSA.Dynamic.XBraidOptions.C151_space"
   ],
   "note": "C151_applied, C151_again, C151_changed, C151_space. C151_violated_off: fmg, incrMaxLevels and spatial cannot be switched off again with initialize."
  }
 ]
}