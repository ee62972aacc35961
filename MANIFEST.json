{
 "claims": [
  {
   "property": "C01",
   "status": "proved",
   "theorems": [
    "Verif.C01_dense_column_major"
   ],
   "note": "all shapes and contents, exact comparison with zero"
  },
  {
   "property": "C02",
   "status": "proved",
   "theorems": [
    "Verif.C02_dense_row_major"
   ],
   "note": ""
  },
  {
   "property": "C03",
   "status": "proved",
   "theorems": [
    "Verif.C03_orders_agree"
   ],
   "note": "identical arrays, any arithmetic"
  },
  {
   "property": "C04",
   "status": "proved",
   "theorems": [
    "Verif.C04_transpose"
   ],
   "note": ""
  },
  {
   "property": "C05",
   "status": "proved",
   "theorems": [
    "Verif.C05_multiply",
    "Verif.C05_transMultiply"
   ],
   "note": "all well-formed matrices, all vectors, both start modes, exact arithmetic"
  },
  {
   "property": "C34",
   "status": "proved",
   "theorems": [
    "Verif.C34_valid_perm",
    "Verif.C34_isPerm_meaning",
    "Verif.C34_degenerate"
   ],
   "note": ""
  },
  {
   "property": "C35",
   "status": "proved",
   "theorems": [
    "Verif.C35_valid_matrix",
    "Verif.C35_degenerate"
   ],
   "note": ""
  },
  {
   "property": "C09",
   "status": "proved",
   "theorems": [
    "Verif.C09_symbolic"
   ],
   "note": "all patterns, all permutations or NULL"
  },
  {
   "property": "C10",
   "status": "proved",
   "theorems": [
    "Verif.C10_numeric"
   ],
   "note": "any arithmetic; capacity exactly Lp[n]"
  },
  {
   "property": "C11",
   "status": "proved",
   "theorems": [
    "Verif.C11_factorisation",
    "Verif.C11_exact_when_pivots_large"
   ],
   "note": "exact arithmetic; upper triangle of the permuted matrix, all of it when symmetric"
  },
  {
   "property": "C12",
   "status": "proved",
   "theorems": [
    "Verif.C12_pivots"
   ],
   "note": "exact arithmetic"
  },
  {
   "property": "C13",
   "status": "proved",
   "theorems": [
    "Verif.C13_solve_factor",
    "Verif.C13_initial_solve"
   ],
   "note": "exact arithmetic"
  },
  {
   "property": "C14",
   "status": "proved",
   "theorems": [
    "Verif.C14_ordering"
   ],
   "note": "exact arithmetic"
  },
  {
   "property": "C36",
   "status": "proved",
   "theorems": [
    "Verif.C36_permt_perm",
    "Verif.C36_perm_permt",
    "Verif.C36_meaning",
    "Verif.C36_inverse"
   ],
   "note": ""
  },
  {
   "property": "C06",
   "status": "proved",
   "theorems": [
    "Verif.C06_kkt"
   ],
   "note": "all well-formed problems with non-empty rows of G; the claim for arbitrary G is false, see C07"
  },
  {
   "property": "C07",
   "status": "proved",
   "theorems": [
    "Verif.C07_missing_diagonal",
    "Verif.C07_missing_diagonal_noeq",
    "Verif.C07_update_overwrites",
    "Verif.C07_update_oob"
   ],
   "note": ""
  },
  {
   "property": "C08",
   "status": "proved",
   "theorems": [
    "Verif.C08_update"
   ],
   "note": "every reachable state"
  },
  {
   "property": "C15",
   "status": "proved",
   "theorems": [
    "Verif.C15_start_positive"
   ],
   "note": "exact arithmetic"
  },
  {
   "property": "C27",
   "status": "proved",
   "theorems": [
    "Verif.C27_missing_ignored",
    "Verif.C27_dimensions"
   ],
   "note": "any arithmetic"
  },
  {
   "property": "C28",
   "status": "proved",
   "theorems": [
    "Verif.C28_fallback_overflow"
   ],
   "note": "any arithmetic"
  },
  {
   "property": "C33",
   "status": "proved",
   "theorems": [
    "Verif.C33_dense_eq_sparse"
   ],
   "note": "any arithmetic, both orderings"
  },
  {
   "property": "C38",
   "status": "proved",
   "theorems": [
    "Verif.C38_no_inequalities"
   ],
   "note": "any arithmetic"
  },
  {
   "property": "C16",
   "status": "proved",
   "theorems": [
    "Verif.C16_positive"
   ],
   "note": "exact arithmetic, every reachable state"
  },
  {
   "property": "C17",
   "status": "proved",
   "theorems": [
    "Verif.C17_ratio_test",
    "Verif.C17_steps"
   ],
   "note": "exact arithmetic"
  },
  {
   "property": "C18",
   "status": "proved",
   "theorems": [
    "Verif.C18_residuals"
   ],
   "note": "exact arithmetic"
  },
  {
   "property": "C19",
   "status": "proved",
   "theorems": [
    "Verif.C19_exit_zero",
    "Verif.C19_first_solve"
   ],
   "note": "exact arithmetic with exact square root"
  },
  {
   "property": "C20",
   "status": "proved",
   "theorems": [
    "Verif.C20_suboptimality",
    "Verif.C20_value"
   ],
   "note": "exact arithmetic with exact square root"
  },
  {
   "property": "C22",
   "status": "proved",
   "theorems": [
    "Verif.C22_terminates",
    "Verif.C22_first_solve",
    "Verif.C22_codes"
   ],
   "note": "any arithmetic"
  },
  {
   "property": "C23",
   "status": "proved",
   "theorems": [
    "Verif.C23_no_kktfail"
   ],
   "note": "any arithmetic"
  },
  {
   "property": "C24",
   "status": "proved",
   "theorems": [
    "Verif.C24_solve_again",
    "Verif.C24_stale_maxit",
    "Verif.C24_stale_optimal",
    "Verif.C24_stale_maxit_exists",
    "Verif.C24_stale_optimal_exists"
   ],
   "note": ""
  },
  {
   "property": "C25",
   "status": "proved",
   "theorems": [
    "Verif.C25_data_unchanged"
   ],
   "note": "any arithmetic"
  },
  {
   "property": "C26",
   "status": "proved",
   "theorems": [
    "Verif.C26_setup",
    "Verif.C26_solve"
   ],
   "note": "any arithmetic"
  },
  {
   "property": "C32",
   "status": "proved",
   "theorems": [
    "Verif.C32_sigma_step",
    "Verif.C32_sigma"
   ],
   "note": "exact arithmetic"
  },
  {
   "property": "C37",
   "status": "proved",
   "theorems": [
    "Verif.C37_verbose_uninit",
    "Verif.C37_otherwise_safe"
   ],
   "note": "any arithmetic"
  },
  {
   "property": "C21",
   "status": "proved",
   "theorems": [
    "Verif.C21_fval_zero",
    "Verif.C21_fval_maxit",
    "Verif.C21_fval_differs"
   ],
   "note": "exact arithmetic"
  },
  {
   "property": "C30",
   "status": "proved",
   "theorems": [
    "Verif.C30_contract",
    "Verif.C30_never_grow"
   ],
   "note": "exact arithmetic, no pivot changed"
  },
  {
   "property": "C31",
   "status": "proved",
   "theorems": [
    "Verif.C31_directions"
   ],
   "note": "exact arithmetic with exact square root; also states the perturbed equations when a pivot is changed"
  },
  {
   "property": "C29",
   "status": "proved",
   "theorems": [
    "Verif.Mem.C29_safe",
    "Verif.Mem.C29_caller",
    "Verif.Mem.C29_balance",
    "Verif.Mem.C29_pair",
    "Verif.Mem.C29_mismatch_leaks",
    "Verif.Mem.C29_mismatch_frees_caller"
   ],
   "note": "heap model; allocation is assumed to succeed; the last two theorems state what the wrong cleanup routine does"
  },
  {
   "property": "C43",
   "status": "proved",
   "theorems": [
    "Verif.C43_rejected_iff",
    "Verif.C43_accepted"
   ],
   "note": "any arithmetic; PyArg parsing itself is not modelled"
  },
  {
   "property": "C44",
   "status": "proved",
   "theorems": [
    "Verif.C44_result",
    "Verif.C43_accepted"
   ],
   "note": "any arithmetic"
  },
  {
   "property": "C45",
   "status": "proved",
   "theorems": [
    "Verif.C45_permutation",
    "Verif.C45_no_permutation",
    "Verif.C45_used"
   ],
   "note": "C45_permutation: any arithmetic; C45_used: exact arithmetic. Entries that are not integers are truncated by the code, see the example"
  },
  {
   "property": "C46",
   "status": "proved",
   "theorems": [
    "Verif.C46_elapsed",
    "Verif.C46_borrow"
   ],
   "note": "POSIX timer, integer nanoseconds"
  },
  {
   "property": "C47",
   "status": "proved",
   "theorems": [
    "Verif.C47_reads_outside",
    "Verif.C47_three_or_more"
   ],
   "note": "any arithmetic"
  },
  {
   "property": "C48",
   "status": "proved",
   "theorems": [
    "Verif.C48_wrong_shape"
   ],
   "note": "any arithmetic"
  },
  {
   "property": "C49",
   "status": "proved",
   "theorems": [
    "Verif.C49_zero_dim"
   ],
   "note": "any arithmetic"
  },
  {
   "property": "C50",
   "status": "proved",
   "theorems": [
    "Verif.C50_other_fields_ignored"
   ],
   "note": "any arithmetic"
  },
  {
   "property": "C51",
   "status": "proved",
   "theorems": [
    "Verif.C51_maxiter_zero"
   ],
   "note": "any arithmetic"
  },
  {
   "property": "C52",
   "status": "proved",
   "theorems": [
    "Verif.C52_rejected_iff",
    "Verif.C52_accepted"
   ],
   "note": "any arithmetic"
  },
  {
   "property": "C40",
   "status": "proved",
   "theorems": [
    "Verif.C40_valid",
    "Verif.C40_null",
    "Verif.C40_reads_outside",
    "Verif.C40_status"
   ],
   "note": "C40_reads_outside: for column pointers that are not monotone the check itself can read outside Ai"
  },
  {
   "property": "C41",
   "status": "proved",
   "theorems": [
    "Verif.C41_preprocess"
   ],
   "note": ""
  },
  {
   "property": "C42",
   "status": "proved",
   "theorems": [
    "Verif.C42_postorder"
   ],
   "note": "front sizes at least -1, as AMD_2 provides"
  },
  {
   "property": "C53",
   "status": "proved",
   "theorems": [
    "Verif.C53_starting_point"
   ],
   "note": "exact ordered field; perturbation e is the one stored in the factor"
  },
  {
   "property": "C54",
   "status": "proved",
   "theorems": [
    "Verif.C54_ordering_used"
   ],
   "note": "any arithmetic, any ordering routine meeting AmdSafe"
  },
  {
   "property": "C39",
   "status": "proved",
   "theorems": [
    "Verif.C39_order",
    "Verif.C39_safe",
    "Verif.C39_setup"
   ],
   "note": "full transcription of AMD_order and its callees; out-of-memory status is reported only when the dimension or the number of entries is at least 2^55; machine integers unbounded; the dense-row threshold is an arbitrary function"
  },
  {
   "property": "C55",
   "status": "proved",
   "theorems": [
    "Verif.C55_pivots_setup",
    "Verif.C55_pivots_step",
    "Verif.C55_exact_setup",
    "Verif.C55_exact_step"
   ],
   "note": "exact ordered field; strong convexity is a hypothesis on P"
  },
  {
   "property": "C56",
   "status": "proved",
   "theorems": [
    "Verif.C56_zero_diagonal_setup",
    "Verif.C56_zero_diagonal_step"
   ],
   "note": "exact ordered field; shows that the regularisation gives the wrong sign"
  },
  {
   "property": "C57",
   "status": "proved",
   "theorems": [
    "Verif.C57_ordering_independent",
    "Verif.C57_strongly_convex"
   ],
   "note": "exact ordered field with square roots; exact factorisations are a hypothesis, discharged by C55 for strongly convex problems without equality constraints"
  },
  {
   "property": "C58",
   "status": "proved",
   "theorems": [
    "Verif.C58_infeasible",
    "Verif.C58_unbounded",
    "Verif.C58_first_solve"
   ],
   "note": "exact ordered field with square roots"
  },
  {
   "property": "C59",
   "status": "proved",
   "theorems": [
    "Verif.C59_distance"
   ],
   "note": "exact ordered field with square roots; the solution is a hypothesis"
  },
  {
   "property": "C60",
   "status": "proved",
   "theorems": [
    "Verif.C60_statistics",
    "Verif.C60_exit_zero",
    "Verif.IsRoundedNorm.bound"
   ],
   "note": "rounded arithmetic satisfying the class Ieee; the gap can be -inf after an overflow, so its bound needs a finite gap"
  },
  {
   "property": "C61",
   "status": "proved",
   "theorems": [
    "Verif.C61_factorisation"
   ],
   "note": "rounded arithmetic satisfying the class Ieee with u <= 1/4 and eta <= 1e-15; the stored factor is finite"
  },
  {
   "property": "C62",
   "status": "proved",
   "theorems": [
    "Verif.C62_solve_factor",
    "Verif.C62_initial_solve"
   ],
   "note": "rounded arithmetic satisfying the class Ieee, (1+u)^(2n) < 2; the computed solution is finite"
  },
  {
   "property": "C63",
   "status": "proved",
   "theorems": [
    "Verif.C63_direction"
   ],
   "note": "rounded arithmetic satisfying the class Ieee with u <= 1/4, eta <= 1e-15, (1+u)^(2N) < 2; symmetric P; finite factor and direction"
  },
  {
   "property": "C64",
   "status": "proved",
   "theorems": [
    "Verif.C64_contraction"
   ],
   "note": "as C63; the numbers stored after the iteration are finite"
  },
  {
   "property": "C65",
   "status": "proved",
   "theorems": [
    "Verif.C65_exit_zero",
    "Verif.double_small"
   ],
   "note": "binary64; NaN payloads are not represented; the laws are the instance Ieee F64 in Double.lean"
  },
  {
   "property": "C66",
   "status": "proved",
   "theorems": [
    "Verif.C66_step",
    "Verif.C66_iterations",
    "Verif.C66_double",
    "Verif.C66_start",
    "Verif.C66_zero_slack"
   ],
   "note": "rounded arithmetic satisfying Ieee and IeeeRatio (instances for binary64 and the reals); C66_zero_slack is a run in binary64 that shows the size bound is needed"
  },
  {
   "property": "C67",
   "status": "proved",
   "theorems": [
    "Verif.C67_wrong_number",
    "Verif.C67_listed",
    "Verif.C67_wrong_shape",
    "Verif.C67_invalid_options",
    "Verif.C67_solved"
   ],
   "note": "with three results and MAXITER below 1 see C51; with VERBOSE positive and no equality constraints see C37; MATLAB itself is a list of values with class, sizes and contents"
  },
  {
   "property": "C68",
   "status": "proved",
   "theorems": [
    "Verif.C68_safe",
    "Verif.C68_positive",
    "Verif.C68_exit_zero",
    "Verif.C68_directions",
    "Verif.C68_flag_sticks",
    "Verif.C68_wrong_optimal"
   ],
   "note": "(a) and (e) for any arithmetic, with PrintOk as in C37; the writes are those of one thread between calls; (d) needs P symmetric at setup; the example of (e) is for problems with a nonnegative combination of constraint rows that vanishes"
  },
  {
   "property": "C69",
   "status": "proved",
   "theorems": [
    "Verif.C69_row_cache"
   ],
   "note": "the function is exported but its call in kktsolve_1 is commented out"
  },
  {
   "property": "C70",
   "status": "proved",
   "theorems": [
    "Verif.C70_reach",
    "Verif.C70_other_root",
    "Verif.C70_uninit",
    "Verif.C70_refactor"
   ],
   "note": "the function is exported but its call in kkt_initialize is commented out"
  },
  {
   "property": "C71",
   "status": "proved",
   "theorems": [
    "Verif.C71_upper"
   ],
   "note": "the function is not called by the solver"
  },
  {
   "property": "C72",
   "status": "proved",
   "theorems": [
    "Verif.C72_left_cache",
    "Verif.C72_past_end",
    "Verif.C72_refactor"
   ],
   "note": "the function is exported but its call in kktsolve_1 is commented out"
  },
  {
   "property": "C73",
   "status": "proved",
   "theorems": [
    "Verif.C73_order",
    "Verif.C73_setup",
    "Verif.Mem.C29_safe",
    "Verif.Mem.C29_balance"
   ],
   "note": "the release of the workspace on the failure paths is part of the heap model of C29; failing allocations outside the ordering are not modelled"
  },
  {
   "property": "C74",
   "status": "proved",
   "theorems": [
    "Verif.C74_renumbering",
    "Verif.C74_strongly_convex"
   ],
   "note": "exact arithmetic; P symmetric"
  },
  {
   "property": "C75",
   "status": "proved",
   "theorems": [
    "Verif.C75_objective",
    "Verif.C75_exit_zero",
    "Verif.C75_value"
   ],
   "note": "positivity of slacks and multipliers of the returned point is a hypothesis (C66 gives conditions for it)"
  },
  {
   "property": "C76",
   "status": "proved",
   "theorems": [
    "Verif.C76_python",
    "Verif.C76_matlab",
    "Verif.C76_python_matlab",
    "Verif.C76_simulink"
   ],
   "note": "the spare room that MATLAB may leave behind the last stored entry (nzmax > nnz) is excluded by hypothesis"
  },
  {
   "property": "C77",
   "status": "proved",
   "theorems": [
    "Verif.C77_exit_zero",
    "Verif.C77_first_solve"
   ],
   "note": ""
  },
  {
   "property": "C78",
   "status": "proved",
   "theorems": [
    "Verif.C78_infeasible",
    "Verif.C78_unbounded",
    "Verif.C78_distance"
   ],
   "note": "positivity of the returned slacks and multipliers is a hypothesis about the result: in double precision it can fail (C66_zero_slack)"
  },
  {
   "property": "C79",
   "status": "proved",
   "theorems": [
    "Verif.C79_start",
    "Verif.C79_iteration",
    "Verif.C79_run",
    "Verif.C79_exit",
    "Verif.C79_exit_back",
    "Verif.C79_exit_proto",
    "Verif.C79_unblocked",
    "Verif.C79_defined"
   ],
   "note": "C79_defined: wherever the C code takes a step without perturbed pivot all quantities of the prototype's pass exist. customQP_PredCorr_full*.m, qpSWIFT_checkinputs.m and starting points given by the caller are not modelled"
  },
  {
   "property": "C80",
   "status": "proved",
   "theorems": [
    "Verif.C80_symbolic",
    "Verif.C80_numeric",
    "Verif.C80_solver"
   ],
   "note": "independent of the elimination-style definition of the pattern used in C09 and C10"
  },
  {
   "property": "C81",
   "status": "proved",
   "theorems": [
    "Verif.C81_effect",
    "Verif.C81_dual",
    "Verif.C81_dual_contract",
    "Verif.C81_gap",
    "Verif.C81_run",
    "Verif.C81_feasible",
    "Verif.C81_strong"
   ],
   "note": "C81_effect needs no exactness; C81_strong gives exactness for strongly convex problems without equalities"
  },
  {
   "property": "C82",
   "status": "proved",
   "theorems": [
    "Verif.C82_setup",
    "Verif.C82_solve",
    "Verif.C82_times",
    "Verif.C82_laps",
    "Verif.C82_setup_output",
    "Verif.C82_setup_time",
    "Verif.C82_ldl_not_counted",
    "Verif.C82_output",
    "Verif.C82_windows",
    "Verif.C82_mac",
    "Verif.C82_mac_overflow"
   ],
   "note": "the texts themselves (format strings) are represented by constructors; ldl_numeric does not count the factorisation in kktsolve_2"
  },
  {
   "property": "C83",
   "status": "proved",
   "theorems": [
    "Verif.C83_moved",
    "Verif.C83_strongly_convex"
   ],
   "note": "C83_strongly_convex gives exactness for strongly convex problems without equalities from a condition on the first run only"
  },
  {
   "property": "C84",
   "status": "proved",
   "theorems": [
    "Verif.C84_setup",
    "Verif.C84_setup_dense",
    "Verif.C84_solve",
    "Verif.C84_fits",
    "Verif.C84_long",
    "Verif.C84_needed"
   ],
   "note": "C84_needed is the converse for the pointers and the entries; the integers inside AMD are covered by C85"
  },
  {
   "property": "C85",
   "status": "proved",
   "theorems": [
    "Verif.C85_order",
    "Verif.C85_solver"
   ],
   "note": "increments of loop counters already compared with a larger integer are not checked"
  },
  {
   "property": "C86",
   "status": "proved",
   "theorems": [
    "Verif.C86_setup",
    "Verif.C86_state",
    "Verif.C86_dense",
    "Verif.C86_solve",
    "Verif.C86_solve_ok"
   ],
   "note": "each call of malloc in setup is a separate site; failures inside AMD_order are C73"
  },
  {
   "property": "C87",
   "status": "proved",
   "theorems": [
    "Verif.C87_order",
    "Verif.C87_symbolic",
    "Verif.C87_solver"
   ],
   "note": "the statistics, doubles in the code, are exact integers in the model (they are integers below 2^53 in practice); AMD_NCMPA and the entries filled by AMD_aat and AMD_order are not modelled"
  },
  {
   "property": "C88",
   "status": "proved",
   "theorems": [
    "Verif.C88_input",
    "Verif.C88_bounds"
   ],
   "note": "the symmetry, a double in the code, is the exact fraction; AMD_NCMPA is not modelled"
  },
  {
   "property": "C89",
   "status": "proved",
   "theorems": [
    "Verif.C89_result",
    "Verif.C89_wrong_shape",
    "Verif.C89_rejected"
   ],
   "note": "a call of the Python or NumPy API that can fail for lack of memory is assumed to succeed; keys and numbers in a dictionary are counted as fresh objects"
  },
  {
   "property": "C90",
   "status": "proved",
   "theorems": [
    "Verif.C90_indicator",
    "Verif.C90_low_rank"
   ],
   "note": "over an ordered field"
  },
  {
   "property": "C91",
   "status": "proved",
   "theorems": [
    "Verif.C91_same",
    "Verif.C91_numeric",
    "Verif.C91_solves",
    "Verif.C91_ordering"
   ],
   "note": "additions of matrix entries to the work vector and the regularisation of pivots are not counted"
  },
  {
   "property": "C92",
   "status": "proved",
   "theorems": [
    "Verif.C92_min_degree",
    "Verif.C92_step"
   ],
   "note": "that the approximate degree is exact for variables in at most two elements is not claimed"
  },
  {
   "property": "C93",
   "status": "proved",
   "theorems": [
    "Verif.C93_order",
    "Verif.C93_exact_degree",
    "Verif.C93_true_minimum",
    "Verif.C93_first_steps"
   ],
   "note": "with dense nodes the degrees keep counting the dense neighbours, so exactness is not claimed there"
  },
  {
   "property": "C94",
   "status": "proved",
   "theorems": [
    "Verif.C94_validate",
    "Verif.C94_validate_sound",
    "Verif.C94_dense_tests",
    "Verif.C94_transpose_sound",
    "Verif.C94_transpose_test",
    "Verif.C94_rhs_never",
    "Verif.C94_rhs_rejects",
    "Verif.C94_rhs_overrun",
    "Verif.C94_rhs_wrong",
    "Verif.C94_formrho_overrun"
   ],
   "note": "check_matrix_symmetric, validate_kktmatrix (only called from commented-out tests), check_updatekktmatrix (a stub) and print_smat are not modelled"
  },
  {
   "property": "C95",
   "status": "proved",
   "theorems": [
    "Verif.C95_contiguous",
    "Verif.C95_scattered",
    "Verif.C95_short"
   ],
   "note": "the behaviour of the Simulink run time (pointers per element) is taken from its documentation"
  },
  {
   "property": "C96",
   "status": "proved",
   "theorems": [
    "Verif.C96_exact_setup",
    "Verif.C96_exact_step",
    "Verif.C96_contract",
    "Verif.C96_permut",
    "Verif.C96_indep",
    "Verif.C96_early_setup",
    "Verif.C96_early_step",
    "Verif.C96_dependent"
   ],
   "note": "exact arithmetic"
  },
  {
   "property": "C97",
   "status": "proved",
   "theorems": [
    "Verif.C97_exact_run",
    "Verif.C97_feasible",
    "Verif.C97_ordering"
   ],
   "note": "exact arithmetic; extends C57 and C81 to problems with equality constraints"
  },
  {
   "property": "C98",
   "status": "proved",
   "theorems": [
    "Verif.C98_setup",
    "Verif.C98_step"
   ],
   "note": "exact arithmetic; C96 gives conditions that do not mention elimination vectors"
  },
  {
   "property": "C99",
   "status": "proved",
   "theorems": [
    "Verif.C99_setup",
    "Verif.C99_step"
   ],
   "note": "exact arithmetic"
  },
  {
   "property": "C100",
   "status": "proved",
   "theorems": [
    "Verif.C100_setup",
    "Verif.C100_step"
   ],
   "note": "exact arithmetic; determinant of Mathlib"
  },
  {
   "property": "C101",
   "status": "proved",
   "theorems": [
    "Verif.C101_renumbering"
   ],
   "note": "exact arithmetic; extends the unconditional part of C74 to problems with equality constraints"
  },
  {
   "property": "C102",
   "status": "proved",
   "theorems": [
    "Verif.C102_sign_setup",
    "Verif.C102_sign_step",
    "Verif.C102_orderings",
    "Verif.C102_orderings_step"
   ],
   "note": "exact arithmetic; determinant of Mathlib"
  }
 ]
}