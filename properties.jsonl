{"id": "C01", "title": "Dense column-major input is stored faithfully", "statement": "When QP_SETUP_dense is called with COLUMN_MAJOR_ORDERING, the sparse matrix it stores has, at every row r and column c, exactly the value found at position c*rows+r of the caller's array; it stores each nonzero exactly once, no explicit zero, row indices strictly increasing inside a column, and no read or write leaves an array.", "quantifier": "all row and column counts (including 0), all matrix contents", "why_tests_cant": "A unit test fixes one matrix shape and one sparsity pattern; the two-pass count/fill agreement must hold for every pattern and size.", "anchors": ["src/Auxilary.c: densetosparse", "src/qpSWIFT.c: QP_SETUP_dense"]}
{"id": "C02", "title": "Dense row-major input is stored faithfully", "statement": "When QP_SETUP_dense is called with ROW_MAJOR_ORDERING, the stored sparse matrix has at row r, column c exactly the value at position r*cols+c of the caller's array, with the same well-formedness guarantees as in the column-major case.", "quantifier": "all row and column counts, all matrix contents", "why_tests_cant": "The column-pointer construction by per-column counters and a running prefix sum interleaved with the fill must be right for every pattern.", "anchors": ["src/Auxilary.c: densetosparse_ROWMAJOR", "src/qpSWIFT.c: QP_SETUP_dense"]}
{"id": "C03", "title": "Storage order does not matter", "statement": "Giving the same mathematical matrix in row-major and in column-major order produces the identical internal sparse matrix (same column pointers, row indices and values).", "quantifier": "all shapes and contents", "why_tests_cant": "Equality of two independently written conversions for every matrix is not reachable by examples.", "anchors": ["src/Auxilary.c: densetosparse, densetosparse_ROWMAJOR"]}
{"id": "C04", "title": "Transposes built at setup are exact", "statement": "The transposes of A and G computed at setup represent exactly the transposed matrices: entry (c,r) of the transpose equals entry (r,c) of the original, the result is a well-formed compressed-column matrix with sorted columns and the same number of entries, and the routine touches no memory outside its arrays.", "quantifier": "all well-formed compressed-column matrices of any shape, including unsorted or duplicate entries", "why_tests_cant": "Counting-sort index arithmetic must be in bounds and stable for every column distribution.", "anchors": ["src/Auxilary.c: SparseMatrixTranspose"]}
{"id": "C05", "title": "Sparse matrix-vector products are right", "statement": "The two product routines subtract A*x (resp. A'*x) from the output vector, optionally starting from zero, and modify nothing else.", "quantifier": "all well-formed matrices (duplicates allowed), all vectors, both start modes", "why_tests_cant": "Linear algebra identity over all sparsity patterns and sizes.", "anchors": ["src/Auxilary.c: SparseMatrixMultiply, SparseMatrixTransMultiply"]}
{"id": "C06", "title": "The KKT matrix is assembled correctly", "statement": "After setup the solver's KKT matrix equals [P A' G'; A 0 0; G 0 -I] (or [P G'; G -I] without equality constraints), it fits exactly in the memory allocated for it, and the last stored entry of every inequality-constraint column is its diagonal entry.", "quantifier": "all QPs whose G has at least one stored entry in every row; the claim for arbitrary G is the full statement", "why_tests_cant": "Block offsets and counters must be right for every sparsity pattern; an empty row of G is exactly the case tests do not contain.", "anchors": ["src/Auxilary.c: formkktmatrix_full", "src/qpSWIFT.c: QP_SETUP"]}
{"id": "C07", "title": "Empty inequality rows break KKT assembly", "statement": "If a row of G has no stored entry the diagonal entry of that constraint is missing from the KKT matrix, and the per-iteration update of that constraint overwrites the entry of another constraint (or writes before the start of the array). This records that the unrestricted form of C06 is false.", "quantifier": "existence of inputs (counterexample), with the general missing-diagonal statement for every input with an empty row", "why_tests_cant": "It is a universally quantified negative fact about a class of inputs that no test in the suite contains.", "anchors": ["src/Auxilary.c: formkktmatrix_full, updatekktmatrix"]}
{"id": "C08", "title": "Per-iteration KKT update touches only the slack block", "statement": "Each iteration changes the KKT matrix only in the m diagonal entries of the inequality block, setting entry i to -s[i]/z[i]; sparsity pattern and all other values stay as assembled at setup.", "quantifier": "all QPs with non-empty G rows, all s and z, all iterations", "why_tests_cant": "Frame condition over all patterns and histories.", "anchors": ["src/Auxilary.c: updatekktmatrix", "src/qpSWIFT.c: QP_SOLVE"]}
{"id": "C09", "title": "Symbolic analysis gives a proper elimination tree", "statement": "For any square pattern and any valid permutation the symbolic factorisation terminates without touching memory outside its arrays, every parent is larger than its child, and the column pointers are the running sums of the column counts of the factor.", "quantifier": "all dimensions, patterns and permutations", "why_tests_cant": "Path-following loops with in-place parent updates must terminate for every graph.", "anchors": ["src/ldl.c: LDL_symbolic"]}
{"id": "C10", "title": "Numeric factorisation never overruns the space predicted by the symbolic one", "statement": "For any matrix with the pattern given to the symbolic analysis, the numeric factorisation terminates, never reads uninitialised or out-of-range memory, and fills each column of L with exactly the number of entries predicted, with strictly increasing row indices below the diagonal.", "quantifier": "all dimensions, patterns, permutations and numerical values, in any arithmetic (including floating point with NaN)", "why_tests_cant": "A heap overflow in the factor depends on the fill pattern of the particular graph; tests cover a handful.", "anchors": ["src/ldl.c: LDL_symbolic, LDL_numeric", "src/Auxilary.c: ldlinitialsolve"]}
{"id": "C11", "title": "The factorisation is exact up to the documented pivot regularisation", "statement": "In exact arithmetic L*D*L' equals the permuted symmetric matrix plus a diagonal matrix that is zero at every pivot whose magnitude exceeds 1e-14 and that is otherwise the change that replaces the pivot by +-1e-7.", "quantifier": "all dimensions, symmetric matrices (given by the upper triangle actually read), permutations", "why_tests_cant": "Identity over all matrices; the sparse triangular solve order is only right because of elimination-tree theory.", "anchors": ["src/ldl.c: LDL_numeric"]}
{"id": "C12", "title": "No pivot is ever zero", "statement": "After every factorisation each diagonal entry of D is nonzero with magnitude above 1e-14, so no division by zero occurs in the solves, whatever the matrix.", "quantifier": "all matrices, including singular and zero ones", "why_tests_cant": "Must hold for every matrix, in particular singular ones.", "anchors": ["src/ldl.c: LDL_numeric, LDL_dsolve"]}
{"id": "C13", "title": "Triangular solves and permutations solve the linear system", "statement": "Applying the permutation, forward solve, diagonal solve, backward solve and inverse permutation to a right-hand side yields a vector v with (K+E) v = rhs exactly, where E is the regularisation of C11 (zero if no pivot was regularised).", "quantifier": "all dimensions, matrices, permutations, right-hand sides", "why_tests_cant": "Universal linear-algebra statement.", "anchors": ["src/ldl.c: LDL_perm, LDL_lsolve, LDL_dsolve, LDL_ltsolve, LDL_permt", "src/Auxilary.c: kktsolve_1, kktsolve_2, ldlinitialsolve"]}
{"id": "C14", "title": "The computed direction does not depend on the ordering", "statement": "For a symmetric KKT matrix, two different valid permutation vectors give the same solution of the linear system in exact arithmetic whenever neither factorisation had to regularise a pivot.", "quantifier": "all matrices, right-hand sides and pairs of permutations", "why_tests_cant": "Quantifies over pairs of permutations of any length.", "anchors": ["src/ldl.c", "src/qpSWIFT.c: QP_SETUP (Permut)"]}
{"id": "C15", "title": "Starting slacks and multipliers are strictly positive", "statement": "After setup every component of s and z is strictly positive in exact arithmetic.", "quantifier": "all QPs with at least one inequality constraint, whatever the linear solve returned", "why_tests_cant": "Holds for every vector Gx-h, including ties and all-positive / all-negative cases.", "anchors": ["src/Auxilary.c: kkt_initialize, findminmax"]}
{"id": "C16", "title": "Slacks and multipliers stay strictly positive", "statement": "At every iteration of every solve, s and z remain strictly positive in exact arithmetic, whatever search directions the linear algebra returns.", "quantifier": "all QPs, all iteration counts, all search directions", "why_tests_cant": "An invariant of an unbounded loop.", "anchors": ["src/Auxilary.c: findsteplength, updatevariables", "src/qpSWIFT.c: QP_SOLVE"]}
{"id": "C17", "title": "Step lengths: positive, at most one, as long as possible", "statement": "Each accepted primal and dual step length lies in (0,1] and is min(0.99 a, 1), where the full step a found by the ratio test never leaves the nonnegative orthant and either drives a component exactly to zero (a < 1e10) or is 1 because no component blocks before 1e10.", "quantifier": "all positive s, z and all directions", "why_tests_cant": "Universal over real vectors.", "anchors": ["src/Auxilary.c: findsteplength", "src/qpSWIFT.c: QP_SOLVE"]}
{"id": "C18", "title": "Residuals and gap are what the tolerances claim to measure", "statement": "The quantities compared with the tolerances are exactly the Euclidean norms of -(Px+G'z+A'y+c), b-Ax and h-s-Gx and the average complementarity s'z/m of the current iterate.", "quantifier": "all QPs and all iterates", "why_tests_cant": "Identity over all problem data.", "anchors": ["src/Auxilary.c: computeresiduals, norm, innerproduct"]}
{"id": "C19", "title": "Exit code 0 certifies approximate KKT conditions of the returned point", "statement": "If solving returns 0 then the x,y,z,s left in the structure satisfy ||Px+G'z+A'y+c||, ||Ax-b||, ||Gx+s-h|| < reltol/sqrt(3) and s'z/m < abstol, with s,z > 0.", "quantifier": "all QPs, all option values, all iteration histories of a first solve", "why_tests_cant": "Says that the tested iterate is the returned one on every path.", "anchors": ["src/qpSWIFT.c: QP_SOLVE"]}
{"id": "C20", "title": "Exit code 0 on a convex problem bounds the suboptimality", "statement": "If P is symmetric positive semidefinite and solving returns 0, then for every feasible point w the objective at the returned x exceeds that at w by at most m*abstol + reltol/sqrt(3)*(||x-w||+||y||+||z||), and x violates no constraint by more than reltol/sqrt(3). If the problem has a solution with multipliers y*, z*, the reported objective value is also at least the optimal value minus reltol/sqrt(3)*(||y*||+||z*||).", "quantifier": "all convex QPs, all feasible comparison points", "why_tests_cant": "Quantifies over all feasible points.", "anchors": ["src/qpSWIFT.c: QP_SOLVE", "src/Auxilary.c: computeresiduals"]}
{"id": "C21", "title": "Reported objective value belongs to the returned point on exit code 0", "statement": "On exit code 0 the reported objective equals 1/2 x'Px + c'x of the returned x; on exit code 2 it belongs to the iterate before the last step, so it may differ from the objective of the returned x.", "quantifier": "all QPs; the second half is an existence statement", "why_tests_cant": "Relates two fields over all executions.", "anchors": ["src/Auxilary.c: obj_value", "src/qpSWIFT.c: QP_SOLVE"]}
{"id": "C22", "title": "Exit codes of a first solve", "statement": "A first solve after setup terminates after at most maxit iterations, returns 0 or 2 if maxit >= 0 and 3 if maxit < 0; it returns 2 exactly when maxit iterations were performed without meeting the tolerances, and the iteration counter equals the number of steps taken.", "quantifier": "all QPs, all option values, any arithmetic", "why_tests_cant": "All executions of an unbounded loop with breaks.", "anchors": ["src/qpSWIFT.c: QP_SOLVE"]}
{"id": "C23", "title": "Factorisation failure is never reported", "statement": "Exit code 1 is never produced: no setup sets it and no solve returns it, whatever the data.", "quantifier": "all inputs for which setup and solve are defined, any arithmetic", "why_tests_cant": "Unreachability claim.", "anchors": ["src/ldl.c: LDL_numeric", "src/Auxilary.c: kktsolve_1, ldlinitialsolve", "src/qpSWIFT.c"]}
{"id": "C24", "title": "Solving again", "statement": "Calling solve again after exit code 0 leaves x,y,z,s unchanged and returns 0 without further steps, provided the number of iterations of the first call differs from maxit; however the iteration counter is never reset, so after an exit code 2 a second call that converges at once still reports 2, and after an exit code 0 a second call that fails to converge can report 0.", "quantifier": "all histories of repeated solves on one structure", "why_tests_cant": "Histories of calls.", "anchors": ["src/qpSWIFT.c: QP_SOLVE"]}
{"id": "C25", "title": "Caller's data are never modified", "statement": "Setup and solve leave the caller's P, c, A, b, G, h and permutation arrays unchanged.", "quantifier": "all inputs, all iteration counts", "why_tests_cant": "Frame property over all executions.", "anchors": ["src/qpSWIFT.c: QP_SETUP, QP_SETUP_dense, QP_SOLVE"]}
{"id": "C26", "title": "Setup and solve are memory safe on well-formed input", "statement": "For every well-formed QP (n >= 1, m >= 1, well-formed compressed-column P, G and optional A, every row of G non-empty, valid permutation) setup and any number of solve iterations never read or write outside an allocated array, never read an uninitialised cell and terminate.", "quantifier": "all well-formed QPs, any arithmetic (including NaN and infinities)", "why_tests_cant": "Memory safety over all inputs.", "anchors": ["src/qpSWIFT.c", "src/Auxilary.c", "src/ldl.c"]}
{"id": "C27", "title": "Equality constraints are used only when completely given", "statement": "If any of the A arrays or b is NULL or p is 0, the problem solved is the one without equality constraints: the internal p is 0 and the KKT system has dimension n+m.", "quantifier": "all combinations of NULL arguments and all p", "why_tests_cant": "Combination of argument cases times all data.", "anchors": ["src/qpSWIFT.c: QP_SETUP, QP_SETUP_dense"]}
{"id": "C28", "title": "Fallback ordering can overflow", "statement": "When p != 0 but A or b is NULL and the ordering routine reports an error, setup writes the identity permutation p cells past the end of the allocated array.", "quantifier": "all n, m, p > 0 with the given NULL pattern", "why_tests_cant": "Needs a failing ordering call, which tests cannot force.", "anchors": ["src/qpSWIFT.c: QP_SETUP lines 207-216, QP_SETUP_dense lines 429-438"]}
{"id": "C29", "title": "Setup and cleanup balance memory", "statement": "For every combination of options, setup followed by the matching cleanup frees every block setup allocated exactly once, frees no block owned by the caller, and dereferences no freed block.", "quantifier": "all configurations (with/without A, with/without Permut, sparse/dense), all interleavings of several QPs", "why_tests_cant": "Allocation histories, including interleaved ones.", "anchors": ["src/qpSWIFT.c: QP_SETUP, QP_SETUP_dense, QP_CLEANUP, QP_CLEANUP_dense", "src/Auxilary.c: ldlinitialsolve"]}
{"id": "C30", "title": "Primal residuals contract by exactly 1 minus the primal step", "statement": "In exact arithmetic and when no pivot is regularised, each iteration multiplies the equality residual b-Ax and the inequality residual h-s-Gx by (1-alpha_p); in particular they never grow and an equality-feasible point stays equality-feasible.", "quantifier": "all QPs with symmetric P and non-empty G rows, all iterations", "why_tests_cant": "Invariant over iterations and data.", "anchors": ["src/qpSWIFT.c: QP_SOLVE", "src/Auxilary.c: kktsolve_2, updatekktmatrix_b"]}
{"id": "C31", "title": "Search directions solve the linearised optimality conditions", "statement": "In exact arithmetic and when no pivot is regularised the direction satisfies P dx + A'dy + G'dz = rx, A dx = ry, G dx + ds = rz and z_i ds_i + s_i dz_i = the complementarity target, for the predictor and for the corrector.", "quantifier": "all QPs with symmetric P, non-empty G rows, all positive s,z", "why_tests_cant": "Universal over data and iterates.", "anchors": ["src/Auxilary.c: kktsolve_1, kktsolve_2, form_ds, updatekktmatrix_b"]}
{"id": "C32", "title": "The centering parameter stays in range", "statement": "From the first step on, the centering parameter lies between sigma_d and max(sigma_d,1), and once it is not above sigma_d it stays equal to sigma_d.", "quantifier": "all QPs, all iterations", "why_tests_cant": "Invariant over an unbounded loop.", "anchors": ["src/qpSWIFT.c: QP_SOLVE line 567, 574"]}
{"id": "C33", "title": "Dense and sparse entry points agree", "statement": "QP_SETUP_dense on a dense matrix and QP_SETUP on its compressed form (with sigma_d = 0) produce solver states that are identical, hence identical solves.", "quantifier": "all QPs, both orderings, any arithmetic", "why_tests_cant": "Equality of two executions for every input.", "anchors": ["src/qpSWIFT.c: QP_SETUP, QP_SETUP_dense"]}
{"id": "C34", "title": "Permutation validation accepts exactly permutations", "statement": "The permutation check returns 1 exactly when the vector is a permutation of 0..n-1 and 0 otherwise, without reading outside its arrays.", "quantifier": "all n and all integer vectors", "why_tests_cant": "Quantifies over all integer vectors.", "anchors": ["src/ldl.c: LDL_valid_perm"]}
{"id": "C35", "title": "Matrix validation accepts exactly well-formed patterns", "statement": "The matrix check returns 1 exactly when column pointers start at 0, are nondecreasing and all row indices lie in 0..n-1.", "quantifier": "all n and all integer arrays", "why_tests_cant": "Quantifies over all arrays.", "anchors": ["src/ldl.c: LDL_valid_matrix"]}
{"id": "C36", "title": "Permuting and un-permuting are inverse", "statement": "The two vector permutation routines are mutually inverse for every valid permutation and the inverse permutation computed at setup is the true inverse.", "quantifier": "all n, all permutations, all vectors", "why_tests_cant": "Universal over permutations.", "anchors": ["src/ldl.c: LDL_perm, LDL_permt, LDL_symbolic"]}
{"id": "C37", "title": "Verbose printing without equality constraints reads an uninitialised statistic", "statement": "With verbose > 0 and no equality constraints the first iteration prints the equality residual statistic, which has never been written; with equality constraints or verbose = 0 no uninitialised statistic is read.", "quantifier": "all QPs; option values", "why_tests_cant": "Initialisation status is not observable by a test run.", "anchors": ["src/qpSWIFT.c: QP_SOLVE line 515", "src/Auxilary.c: computeresiduals"]}
{"id": "C38", "title": "No inequality constraints is undefined", "statement": "Calling setup with m = 0 reads outside an array: the documented requirement m >= 1 is necessary.", "quantifier": "all QPs with m = 0", "why_tests_cant": "Undefined behaviour need not be visible in a run.", "anchors": ["src/Auxilary.c: findminmax, kkt_initialize"]}
{"id": "C39", "title": "The default ordering is a valid permutation", "statement": "When no permutation is given, the ordering routine either reports an error (negative status, and setup uses the identity) or produces a permutation of 0..n+m+p-1, without touching memory outside its workspace and always terminating.", "quantifier": "all well-formed KKT patterns", "why_tests_cant": "Graph algorithm with in-place garbage collection; only a proof covers all graphs.", "anchors": ["src/amd_order.c", "src/amd_1.c", "src/amd_2.c", "src/amd_postorder.c", "src/amd_post_tree.c"]}
{"id": "C40", "title": "Ordering input validation", "statement": "The ordering input check reports invalid exactly for malformed patterns, jumbled exactly when some column is unsorted or has duplicates, and OK otherwise; no status value is -3, the value setup uses to remember that the permutation belongs to the caller.", "quantifier": "all n and integer arrays", "why_tests_cant": "Quantifies over all arrays; ownership of the permutation array depends on it.", "anchors": ["src/amd_valid.c", "src/amd_order.c", "src/qpSWIFT.c: QP_CLEANUP line 722"]}
{"id": "C41", "title": "Ordering preprocessing", "statement": "For jumbled input the preprocessing step produces exactly the transposed pattern with sorted, duplicate-free columns.", "quantifier": "all well-formed patterns with duplicates/unsorted columns", "why_tests_cant": "Universal over patterns.", "anchors": ["src/amd_preprocess.c"]}
{"id": "C42", "title": "Postordering of the assembly tree is a permutation", "statement": "The depth-first postordering visits every node of any forest exactly once and places every child before its parent.", "quantifier": "all forests of any size and shape", "why_tests_cant": "Universal over forests; explicit-stack DFS must terminate for each.", "anchors": ["src/amd_postorder.c", "src/amd_post_tree.c"]}
{"id": "C43", "title": "Python options are validated", "statement": "The Python entry point accepts MAXITER only in 1..199, tolerances only strictly between 0 and 1, SIGMA only positive, VERBOSE only non-negative; any other value raises TypeError and no solve takes place; accepted values are the ones used by the solve.", "quantifier": "all option dictionaries", "why_tests_cant": "All combinations of option values and types.", "anchors": ["python/pyqpSWIFT.c: method_qpSWIFT"]}
{"id": "C44", "title": "Python result dictionary", "statement": "On success the result contains sol always, basicInfo exactly for OUTPUT 1 or 2 and advInfo exactly for OUTPUT 2, with y present exactly when both A and b were given.", "quantifier": "all argument and option combinations", "why_tests_cant": "Combination space.", "anchors": ["python/pyqpSWIFT.c: method_qpSWIFT"]}
{"id": "C45", "title": "MATLAB permutation option", "statement": "The MATLAB entry point accepts the Permut option exactly when it is a 1-based permutation of 1..n+m+p and passes its 0-based version on.", "quantifier": "all integer vectors", "why_tests_cant": "Universal over vectors.", "anchors": ["matlab/qpSWIFT_mex.c"]}
{"id": "C46", "title": "Elapsed time is computed correctly", "statement": "The POSIX timer returns exactly the difference of the two clock readings, in seconds, for every pair of readings in order, including nanosecond borrow.", "quantifier": "all pairs of clock readings", "why_tests_cant": "Borrow cases depend on the clock.", "anchors": ["src/timer.c: toc"]}
{"id": "C47", "title": "Simulink block reads x beyond its end for small problems", "statement": "The Simulink block copies a fixed number (3) of solution components, so for fewer than 3 decision variables it reads outside the solution array.", "quantifier": "all n < 3; safe for all n >= 3", "why_tests_cant": "Out-of-range reads are silent.", "anchors": ["simulink/qpSWIFT_sfunc.c", "simulink/qpSWIFT_sfunc_e.c"]}
{"id": "C48", "title": "Python arrays of wrong shape are rejected", "statement": "Arrays that are not floating point arrays of matching shapes c(n), h(m), P(n,n), G(m,n), A(p,n), b(p), for any n, m, p, raise TypeError before any element is read.", "quantifier": "all argument tuples whose vectors have at least one dimension", "why_tests_cant": "All combinations of shapes and types.", "anchors": ["python/pyqpSWIFT.c: method_qpSWIFT"]}
{"id": "C49", "title": "Python reads the first dimension before checking that there is one", "statement": "If c or h (or b, when A is given) is a zero-dimensional array, the Python entry point reads the dimension array outside its bounds before rejecting the argument.", "quantifier": "all calls with a zero-dimensional vector", "why_tests_cant": "Out-of-range reads are silent.", "anchors": ["python/pyqpSWIFT.c: method_qpSWIFT"]}
{"id": "C50", "title": "MATLAB option fields with other names are ignored", "statement": "Fields of the MATLAB options structure other than the six names, each all upper or all lower case, have no effect on the result; in particular the spelling Permut of the help text is ignored.", "quantifier": "all option structures and all problems", "why_tests_cant": "Universal over field names and problems.", "anchors": ["matlab/qpSWIFT_mex.c"]}
{"id": "C51", "title": "MATLAB call with MAXITER 0 and three outputs reads an uninitialised objective value", "statement": "A first solve with MAXITER truncating to 0, which the range check accepts, and three outputs returns an objective value that was never computed.", "quantifier": "all well-formed problems", "why_tests_cant": "Uninitialised reads are silent.", "anchors": ["matlab/qpSWIFT_mex.c", "src/qpSWIFT.c: QP_SOLVE"]}
{"id": "C52", "title": "MATLAB options are validated", "statement": "The MATLAB entry point rejects exactly the calls in which MAXITER compares below 0 or above 200, a tolerance below 0 or above 1, or SIGMA or VERBOSE below 0; otherwise the solve uses exactly the given values (integers truncated), the settings after setup for the others, and the outputs are copies of the final iterate.", "quantifier": "all option structures with non-empty values, any arithmetic", "why_tests_cant": "Combination space.", "anchors": ["matlab/qpSWIFT_mex.c"]}
{"id": "C53", "title": "Starting point", "statement": "With symmetric P, the x and y computed by setup solve, together with some w, P x + A'y + G'w = -c, A x = b, G x - w = h up to the diagonal perturbation of C11 (zero if no pivot was regularised); the slacks are r = h - G x shifted by 1 - min r unless min r > 0, the multipliers are -r shifted by 1 + max r unless max r < 0.", "quantifier": "all well-formed QPs, exact arithmetic", "why_tests_cant": "Unbounded data; a wrong right-hand side still converges on most samples.", "anchors": ["src/Auxilary.c:kkt_initialize", "src/qpSWIFT.c:QP_SETUP"]}
{"id": "C54", "title": "Ordering used", "statement": "A permutation given by the caller is used unchanged with status -3; otherwise the ordering routine is called once on the pattern of the KKT matrix, its result is used exactly when the status is not negative, else the identity permutation is used, and the status is the one reported.", "quantifier": "all well-formed QPs, all ordering routines, any arithmetic", "why_tests_cant": "Failure statuses of the ordering do not occur in samples.", "anchors": ["src/qpSWIFT.c:QP_SETUP lines 194-219"]}
{"id": "C55", "title": "Pivot signs on strongly convex problems", "statement": "Let P be symmetric and strongly convex with modulus above 1e-14. Whatever the ordering, in setup and in every iteration of every solve the pivots of the rows of variables are at least the modulus and are never changed by the regularisation rule, the pivots of constraint rows are negative, every change is a decrease by at most 1e-7 of a constraint pivot, an inequality's pivot is changed only if slack/multiplier is at most 1e-14 (never in setup). Hence without equality constraints the factorisation is exact in setup and in every iteration whose ratios exceed 1e-14.", "quantifier": "all well-formed strongly convex QPs, all orderings, all reachable iterations, exact arithmetic", "why_tests_cant": "Quantifies over all permutations of unbounded matrices and over all iterates.", "anchors": ["src/ldl.c:LDL_numeric", "src/Auxilary.c:kkt_initialize", "src/qpSWIFT.c:QP_SOLVE"]}
{"id": "C56", "title": "Zero diagonal entry of P eliminated first", "statement": "If the caller's ordering starts with a variable j with P[j,j] = 0 (for example any linear program), then in setup and in every iteration the first pivot is -1e-7, of the wrong sign: the factored matrix is that of the problem with P[j,j] = -1e-7, and the computed direction satisfies the linearised conditions of that problem instead.", "quantifier": "all well-formed QPs with such an ordering, all reachable iterations, exact arithmetic", "why_tests_cant": "Samples converge in spite of the perturbation; the sign of the pivot is internal.", "anchors": ["src/ldl.c:LDL_numeric regularisation of the pivot"]}
{"id": "C57", "title": "The elimination ordering does not change the result", "statement": "In exact arithmetic, two runs on the same problem (P symmetric) with the same options but different permutations (or different ordering routines), in which no pivot is regularised, return the same exit code, the same x, y, z, s and the same statistics (except the ordering's own status). For strongly convex problems without equality constraints it suffices that the first run keeps every ratio s_i/z_i above 1e-14.", "quantifier": "all well-formed QPs with symmetric P, all pairs of permutations, all options, any number of iterations", "why_tests_cant": "Factorials many permutations and floating-point noise; a bug that mixes up the permutation for one ordering only shows as a different iterate.", "anchors": ["src/qpSWIFT.c: QP_SETUP, QP_SOLVE", "src/Auxilary.c: kktsolve_1, kktsolve_2, permute"]}
{"id": "C58", "title": "No false OPTIMAL on infeasible or unbounded problems", "statement": "If there is a certificate of primal infeasibility (y, z >= 0 with A'y+G'z=0 and b'y+h'z=-1) with reltol/sqrt(3)*(|y|+|z|) <= 1, or P is symmetric and there is a direction of unboundedness (Pd=0, Ad=0, Gd<=0, c'd=-1) with reltol/sqrt(3)*|d| <= 1, a solve whose flag was not already 0 never returns 0; a first solve with maxit >= 0 runs to the iteration limit and returns 2 (MAXIT).", "quantifier": "all well-formed QPs with such a certificate, all options, all reachable states, any number of iterations", "why_tests_cant": "The code has no infeasibility detection; tests on infeasible problems only sample the iteration limit.", "anchors": ["src/qpSWIFT.c: QP_SOLVE exit test and flags"]}
{"id": "C59", "title": "Distance of the returned point to the solution", "statement": "If P is strongly convex with modulus eps and (x*,y*,z*,s*) satisfies the optimality conditions exactly, then exit code 0 implies eps*|x-x*|^2 <= m*abstol + reltol/sqrt(3)*(|x-x*|+|y-y*|+|z-z*|) for the returned x, y, z.", "quantifier": "all well-formed strongly convex QPs with a solution, all options, all reachable states", "why_tests_cant": "Tests compare with reference solutions of sample problems only.", "anchors": ["src/qpSWIFT.c: QP_SOLVE exit test", "src/Auxilary.c: computeresiduals"]}
{"id": "C60", "title": "Rounding errors in the termination test", "statement": "In every arithmetic whose operations are correct up to a relative error u and an underflow error eta (IEEE-754 with overflow and NaN), the residual norms and the gap recorded by an iteration, when finite, are the norms and gap of the iterate up to explicit rounding bounds (k rounded products for a row of k entries). If a solve whose flag was not already 0 returns 0 and the tolerance is finite, the recorded norms are finite, below reltol/sqrt(3) as numbers, and are such rounded norms of the returned point, so NaN or overflow in a residual never leads to exit code 0.", "quantifier": "all well-formed QPs, all reachable states, all options, all rounded arithmetics", "why_tests_cant": "Tests see one arithmetic and sample data, and cannot observe the exact residuals.", "anchors": ["src/Auxilary.c: computeresiduals, norm, innerproduct", "src/qpSWIFT.c: QP_SOLVE exit test"]}
{"id": "C61", "title": "Backward error of the factorisation", "statement": "In every arithmetic whose operations are correct up to a relative error u <= 1/4 and an underflow error eta <= 1e-15, with overflow and NaN, LDL_numeric after LDL_symbolic runs without error and, if all stored entries of L and D are finite, the pivots are nonzero and L D L^T equals the permuted matrix plus the diagonal change of small pivots (rounded thresholds 1e-14 and 1e-7) plus an error that is bounded entry by entry by an explicit small multiple of |A| and |L||D||L^T| (k = number of stored duplicates plus row index operations).", "quantifier": "all n, all sparsity patterns with duplicate entries, all permutations, all numeric values including those that overflow, all initial buffer contents", "why_tests_cant": "The claim is a bound on the accumulated rounding error for every matrix, size and elimination order; tests sample a few matrices and compare with another inexact computation.", "anchors": ["src/ldl.c:253-330"]}
{"id": "C62", "title": "Backward error of the solves", "statement": "In the same arithmetic (and (1+u)^(2n) < 2) the permutation, forward, diagonal and backward solves run without error; if the pivots are finite and nonzero and the computed solution x is finite, the residual of P^T L D L^T P x = b is bounded in every row by an explicit small multiple of |L||D||L^T||x|. For ldlinitialsolve and a symmetric matrix, the residual of (K + E) x = b, E the diagonal change of small pivots, is bounded by the factorisation error times |x| plus the error of the solves.", "quantifier": "all n, factors, permutations, right-hand sides, matrices and numeric values including those that overflow", "why_tests_cant": "Bound on rounding errors for all inputs and sizes; a test can only observe particular residuals, computed inexactly.", "anchors": ["src/ldl.c:495-600", "src/Auxilary.c:578-625"]}
{"id": "C63", "title": "Newton equations in rounded arithmetic", "statement": "In every arithmetic satisfying the rounding laws (u <= 1/4, eta <= 1e-15, (1+u)^(2N) < 2, overflow and NaN allowed) and for symmetric P, every iteration that takes a step from a reachable state records residuals that are those of the iterate up to explicit rounding errors, and, if the stored factor and direction are finite, the final search direction solves the Newton equations (P+e)dx + A'dy + G'dz = rx, A dx + e dy = ry, G dx + ds + e dz = rz, z ds + s dz = target for these residuals (with the sign of the code, e.g. ry = b - A x) up to the errors of the factorisation, the solves, the elimination of ds and the diagonal change e of small pivots. The new iterate is the old one plus rounded step length times direction.", "quantifier": "all well-formed QPs with symmetric P, all reachable states, all options, all orderings, all rounded arithmetics", "why_tests_cant": "Rounding error bound for every problem and every iteration; tests observe the residual of the direction only inexactly and on samples.", "anchors": ["src/qpSWIFT.c: QP_SOLVE loop", "src/Auxilary.c: kktsolve_1, kktsolve_2, form_ds, updatevariables"]}
{"id": "C64", "title": "Residual reduction in rounded arithmetic", "statement": "In the same arithmetic, if the numbers stored after the iteration are finite, a step multiplies the exact primal residuals A x - b and G x + s - h by 1 - alpha_p, and the exact dual residual by 1 - alpha_d plus the term (alpha_d - alpha_p) P dx due to different step lengths, up to explicit rounding errors of the residuals, the linear solver and the update.", "quantifier": "all well-formed QPs with symmetric P, all reachable states, all options, all orderings, all rounded arithmetics", "why_tests_cant": "A statement about exact residuals of rounded iterates for every iteration of every problem.", "anchors": ["src/qpSWIFT.c: QP_SOLVE loop", "src/Auxilary.c: updatevariables"]}
{"id": "C65", "title": "Meaning of OPTIMAL in double precision", "statement": "IEEE-754 binary64 arithmetic (round to nearest even, signed zeros, subnormals, infinities, NaN), defined bit-exactly on integers, satisfies all rounding laws used in C60 to C64. If a solve in double precision of a problem with fewer than 2^40 rows and stored entries returns 0 (and its flag was not 0 before), each residual vector of the returned point differs, in component i, by at most k 2^-51 times the sum of the absolute values of its terms (k terms, plus 2^-1000) from a vector of Euclidean norm at most 1.001 reltol/sqrt(3) + 2^-499, and all slacks are finite.", "quantifier": "all problems in double precision with fewer than 2^40 rows and entries, all data including values that overflow, all orderings, all options with finite tolerance", "why_tests_cant": "Tests compute residuals in the same arithmetic and on samples; the claim bounds the exact residuals for all data.", "anchors": ["src/qpSWIFT.c: QP_SOLVE exit test", "src/Auxilary.c: computeresiduals", "include/GlobalOptions.h: qp_real double"]}
{"id": "C66", "title": "Slacks and multipliers stay positive in floating point", "statement": "In rounded arithmetic (IEEE double precision in particular), whatever the problem, if a state holds positive slacks and multipliers well above the underflow threshold, then as long as the stored slacks and multipliers remain finite and the reported step lengths do not fall near the underflow threshold, every iteration leaves each slack and multiplier at least 1/200 of its previous value; in double precision 100 iterations from values of at least 1e-80 leave all of them positive. The starting slacks and multipliers made by setup are positive if their size is at most 2^50 in double precision (1/(8u) in general), and then all slacks or all multipliers are at least one half. The size bound cannot be dropped: for minimising x^2/2 subject to x <= -2^61 setup produces a slack that is exactly zero and the solve ends at the iteration limit with NaN.", "quantifier": "all problems, orderings, reachable states, numbers of iterations and all finite double-precision values", "why_tests_cant": "A rounding error that makes a slack zero or negative appears only for particular bit patterns among all doubles and iterates, and then the square root of a negative product gives NaN; no finite test set covers the values.", "anchors": ["src/Auxilary.c:359-392 (findsteplength)", "src/qpSWIFT.c:588-595", "src/Auxilary.c:1048-1083 (kkt_initialize)"]}
{"id": "C67", "title": "A MATLAB call solves the problem its arguments describe, and every other call is rejected", "statement": "Let qpSWIFT be called from MATLAB with one to three results. (a) With fewer than four or more than seven arguments, or with more than three results, the call ends with an error. (b) With the arguments P, c, G, h or P, c, A, b, G, h, possibly followed by the options, the call ends with an error unless P, G and A are real sparse matrices, c, h and b (and a permutation, if given) real dense row or column vectors with at least one element, and all sizes match; for this decision none of the stored numbers is read. (c) If the arguments hold the data of a well-formed problem, a permutation that is given is a permutation of 1..n+m+p and some option is out of range, the call ends with an error. (d) If all options are in range, the call returns, and its results are those of a solve of exactly this problem with exactly the options given and the defaults for the others: solution, exit code, number of iterations, objective value and multipliers after that solve.", "quantifier": "all argument lists, all sizes, all contents of the arrays, any number type, any ordering routine that is safe", "why_tests_cant": "Tests call the function with a few well-formed problems; that every wrongly shaped argument is caught before it is read, and that no argument is ever taken for another one, concerns all argument lists.", "anchors": ["matlab/qpSWIFT_mex.c:99-111", "matlab/qpSWIFT_mex.c:193-313", "matlab/qpSWIFT_mex.c:351-436", "matlab/qpSWIFT_mex.c:441-593"]}
{"id": "C68", "title": "Overwriting the problem data between solves", "statement": "QP_SETUP keeps pointers to the caller's arrays, so the caller may write new values (not new sparsity patterns) into P, A, G, c, b and h between iterations or solves. Whatever is written and however often: (a) the next iteration and the next solve return without an access outside an array or an uninitialised read; (b) in exact arithmetic slacks and multipliers stay strictly positive; (c) a solve that returns 0, started with a flag that is not 0, leaves a point that satisfies the optimality conditions of the data in the arrays at that time within the tolerances; (d) the search directions solve linear equations whose right-hand sides are the residuals of the new data but whose matrices are those that were there at setup, so they are directions for the new problem exactly when only c, b and h were overwritten; (e) the flag and the iteration counter are never reset: once a solve returned 0 after at least one step, no later solve reports a failure to converge, it returns 0, or 2 although its last test succeeded; there are problems where overwriting b and h makes the problem infeasible and the next solve, with unchanged options, reports 0 after maxit iterations none of whose tests succeeded.", "quantifier": "all problems, all histories of solves, iterations, option changes and writes of any length, all contents written", "why_tests_cant": "The histories and the written values are unbounded; tests solve each problem once after its own setup.", "anchors": ["src/qpSWIFT.c:91-112", "src/qpSWIFT.c:499-634", "src/Auxilary.c:660-669", "src/Auxilary.c:745-785"]}
{"id": "C69", "title": "Refactorising only the marked rows gives the full factorisation", "statement": "Let the LDL factor of a matrix A under a permutation have been computed, together with the row structure of the factor (pattern of its transpose), and let A' have the same sparsity pattern. Mark nodes such that the parent of a marked node in the elimination tree is marked, and such that the permuted A and A' have equal entries in the upper part of every column that is not marked. Then LDL_row_cache_numeric, which recomputes only the marked rows in place, stays inside all arrays, reads nothing uninitialised, returns n, and leaves in Lx and D exactly what LDL_numeric computes for A' from scratch, and LDL_numeric leaves Li unchanged.", "quantifier": "all sizes, patterns, permutations, values and sets of marked nodes closed under parents, exact arithmetic in any ordered field", "why_tests_cant": "No test calls this function, and whether a row may be kept depends on the whole elimination tree of an arbitrary pattern.", "anchors": ["src/ldl.c:431-489", "src/Auxilary.c:482"]}
{"id": "C70", "title": "Which nodes are marked as depending on the inequality block", "statement": "Let Parent be an elimination forest (every link goes to a larger index, roots hold -1) and let no cell of UPattern hold N = n+m+p at entry. (a) If the path from the permuted position of every inequality constraint reaches node N-1, test_reach succeeds and marks exactly node N-1 and the nodes on these paths; other cells keep their values. (b) If one of these paths ends in another root, test_reach reads UPattern[-1]. (c) With UPattern as QP_SETUP leaves it (allocated but never written) test_reach reads an uninitialised cell unless the first constraint sits at position N-1. (d) If (a) applies and a matrix differs from the factorised one only on the diagonal of the inequality block, as the KKT matrix does from one iteration to the next, then test_reach followed by LDL_row_cache_numeric computes exactly the factor and pivots of a full refactorisation.", "quantifier": "all forests, all problem sizes, all permutations, all initial contents of UPattern", "why_tests_cant": "No test calls this function; the failure depends on the shape of the elimination forest of an arbitrary pattern.", "anchors": ["src/Auxilary.c:1104-1119", "src/Auxilary.c:1026", "src/qpSWIFT.c:222", "src/qpSWIFT.c:444", "src/ldl.c:431-489"]}
{"id": "C71", "title": "Upper triangular KKT assembly of the inactive variant", "statement": "For P (n x n) and G (m x n, no empty row, with Gt its transpose) in compressed column form and a matrix with room for nnz(P)+nnz(G)+m entries, formkktmatrix_U runs inside all arrays and produces exactly the upper triangle of the matrix [P G'; G -I]: the entry at (r,c) with r <= c is that of the block matrix, and every stored entry has row <= column.", "quantifier": "all sizes, patterns and values", "why_tests_cant": "No test calls this function; it has to be right for every sparsity pattern of P and G.", "anchors": ["src/Auxilary.c:14-53"]}
{"id": "C72", "title": "Refactorising only the marked columns gives the full factorisation", "statement": "Let the LDL factor of a matrix A under a permutation have been computed, with the row structure of the factor, and let A' have the same pattern, be symmetric and store no entry twice. (a) If the marked columns are closed under parents in the elimination tree, every column that is not marked has a parent, and the lower part of the unmarked columns of the permuted matrix is unchanged, LDL_cache_numeric stays inside all arrays, reads nothing uninitialised, returns n, leaves in Lx and D exactly what LDL_numeric computes for A' from scratch, and leaves Y zero. (b) If an unmarked column is a root and no later column has entries, the function reads the cell of Li after the last entry, which is outside the array or was never written. (c) If the tree has the single root N-1 and the matrix changes only on the diagonal of the inequality block, test_reach followed by LDL_cache_numeric computes the factor and pivots of a full refactorisation.", "quantifier": "all sizes, patterns, permutations, values and sets of marked nodes, exact arithmetic in any ordered field", "why_tests_cant": "No test calls this function; the cursor kept for every column is right only because unmarked rows precede marked ones in each column, which depends on the whole elimination tree.", "anchors": ["src/ldl.c:342-415", "src/Auxilary.c:480"]}
{"id": "C73", "title": "Failing allocations in the ordering", "statement": "If any allocation the ordering routine needs for the given pattern fails, the routine reports status -1 without touching memory outside its arrays, frees what it had allocated, and setup continues with the natural order, status -1 and a state for which all solve properties hold; allocations needed only for unsorted patterns do not matter for sorted ones.", "quantifier": "all well-formed QPs and patterns, every subset of failing allocations in the ordering", "why_tests_cant": "Allocation failures are not produced by tests.", "anchors": ["src/amd_order.c lines 92-123, 151-175", "src/qpSWIFT.c: QP_SETUP lines 194-219"]}
{"id": "C74", "title": "Renumbering variables and constraints does not change the result", "statement": "If one problem is obtained from another by renumbering the variables, the equality constraints and the inequality constraints, or by storing the same matrices differently (order of entries, repeated entries, explicit zeros), then in exact arithmetic two solves with the same options return the same exit code and statistics and the same iterate up to the renumbering, whatever the orderings used, as long as no pivot is changed by the regularisation rule; for strongly convex problems without equality constraints this is implied by slack to multiplier ratios above 1e-14.", "quantifier": "all pairs of renumbered well-formed problems, all options and orderings, any number of iterations", "why_tests_cant": "Relation between two executions on every pair of equivalent inputs.", "anchors": ["src/qpSWIFT.c:QP_SOLVE", "src/Auxilary.c: kkt_initialize, kktsolve_1, kktsolve_2, updatevariables"]}
{"id": "C75", "title": "Reported objective value in floating point", "statement": "In rounded arithmetic the objective value stored by an iteration, if finite, differs from the objective value of the iterate at the start of the iteration by at most an explicit rounding error. If a solve in double precision (dimensions and numbers of entries below 2^40) returns 0 with positive slacks and multipliers, the returned point read as real numbers satisfies the optimality conditions with tolerances enlarged by a thousandth and by the rounding errors of the residuals, and on a convex problem with a solution the reported objective value differs from the optimal value by at most a bound made of the tolerances, the norms of the multipliers and the rounding errors.", "quantifier": "all well-formed problems, all reachable states, any number of iterations; any arithmetic with the IEEE properties for the first part, doubles for the second", "why_tests_cant": "A bound for every rounding error and every problem size; tests compare with another floating point computation at chosen sizes.", "anchors": ["src/Auxilary.c: obj_value", "src/qpSWIFT.c: QP_SOLVE", "src/Auxilary.c: SparseMatrixMultiply, innerproduct"]}
{"id": "C76", "title": "The interfaces agree with each other", "statement": "For a well-formed problem and the same options, (a) a Python call, (b) a MATLAB call without a permutation and (c) a C program that calls QP_SETUP with the compressed matrices, changes the options and calls QP_SOLVE give the same solution vector, exit code, number of iterations, objective value and multipliers, as far as each call was asked for them; (d) with default options and at least three variables the Simulink block outputs the first three components of this solution, the exit code and the number of iterations. The agreement is exact, for floating point numbers too. Arrays have no spare room, and A and b are passed exactly if there are equality constraints.", "quantifier": "all well-formed problems of any size, all admissible options, all output levels, all ordering routines that are safe, any number type (in particular IEEE doubles)", "why_tests_cant": "each interface converts matrices in its own way (row-major, column-major, compressed) and translates options in its own way; tests compare interfaces on a few problems, up to a tolerance", "anchors": ["python/pyqpSWIFT.c:87-442", "matlab/qpSWIFT_mex.c:102-606", "simulink/qpSWIFT_sfunc_e.c:101-179", "src/qpSWIFT.c: QP_SETUP, QP_SETUP_dense, QP_SOLVE"]}
{"id": "C77", "title": "Data with NaN or infinity are never reported as solved", "statement": "In IEEE arithmetic with finite tolerance reltol/sqrt(3): if a solve whose flag was not 0 before returns 0, then every stored entry of P, A, G and every component of c, b, h is finite, every returned slack and inequality multiplier is finite, every equality multiplier whose row of A has an entry is finite and every variable with an entry in its column is finite. Consequently the first solve with NaN or an infinite number anywhere in the data performs exactly maxit iterations and returns 2 (MAXIT); it does not crash.", "quantifier": "all well-formed problems of any size, all safe orderings, all settings, all states reachable after setup, any arithmetic with the IEEE rounding laws (in particular doubles)", "why_tests_cant": "a NaN may sit at any position of any array and comparisons with NaN are false, so whether a test catches it depends on the direction of each comparison; tests use finite data", "anchors": ["src/qpSWIFT.c:QP_SOLVE", "src/Auxilary.c:computeresiduals", "src/Auxilary.c:norm", "src/Auxilary.c:SparseMatrixMultiply"]}
{"id": "C78", "title": "Infeasible, unbounded and strongly convex problems in double precision", "statement": "Let a solve in IEEE double precision return 0 with positive slacks and multipliers, and let tol be 1.001 reltol/sqrt(3) plus an explicit bound of the rounding errors of the residuals. (a) If the problem, read as real numbers, has a certificate of infeasibility, its norm exceeds 1/tol. (b) If P is symmetric and there is a certificate of unboundedness, its norm exceeds 1/tol. (c) If the problem is strongly convex with constant eps and has a solution, then eps |x - x*|^2 <= m (1.001 abstol + 2^-1000) + tol (|x - x*| + |y - y*| + |z - z*|).", "quantifier": "all well-formed problems with dimensions and entry counts below 2^40, all safe orderings, all finite tolerances, all reachable states, all certificates and solutions", "why_tests_cant": "tests compare with a reference within a tolerance; they cannot show that no infeasible problem is reported as solved, and rounding depends on every input", "anchors": ["src/qpSWIFT.c:QP_SOLVE", "src/Auxilary.c:computeresiduals"]}
{"id": "C79", "title": "The C solver computes what the MATLAB prototype computes", "statement": "In exact arithmetic and where no pivot is perturbed: (a) setup leaves the starting point of the MATLAB prototype (qpSWIFT_init.m); (b) an iteration from the prototype's point and centering parameter leaves the prototype's next point, centering parameter and step lengths, if the ratio tests of the prototype find lengths below 1000; (c) hence k iterations leave the prototype's point after k passes; (d) where the C code stops, the norm of the prototype's residual vector is below reltol and its average complementarity below abstol, so with the default tolerances the prototype stops too; where the prototype's norm is below reltol/sqrt(3) and its complementarity below abstol the C code stops, so where the prototype stops the C code stops for reltol >= sqrt(3)*1e-6 and abstol > 1e-6; (e) they differ if no slack decreases along the step: the prototype takes the full step, the C code 0.99 of it.", "quantifier": "all well-formed problems with symmetric P, all orderings, all reachable states, all k", "why_tests_cant": "the two programs are in different languages, no test compares them; agreement at every iteration for every problem is a statement about two infinite families of runs", "anchors": ["matlab/prototype code/qpSWIFT_matlab.m", "matlab/prototype code/findsteplength.m", "matlab/prototype code/qpSWIFT_init.m", "src/qpSWIFT.c:QP_SOLVE", "src/Auxilary.c:findsteplength"]}
{"id": "C80", "title": "Fill-in of the factor is exactly the fill-path set", "statement": "The symbolic analysis predicts, and the numeric factorisation stores, an entry in row r and column c of L exactly if c < r and r can be reached from c in the graph of the permuted matrix along nodes eliminated before c. Lnz[c] is the number of such r, Parent[c] the smallest of them (-1 if there is none), Lp their running sums, and Lp[n] <= n(n-1)/2. For the solver the graph joins two variables that occur together in P, and a variable and a constraint if the variable occurs in it; the space reserved for L by setup is exactly the number of its entries.", "quantifier": "all square patterns, all permutations, all values; for the solver all well-formed problems whose P has a symmetric pattern and all orderings", "why_tests_cant": "fill-in depends on the graph and the ordering in a non-local way; tests check only the final solution, not that space and pattern are exact for every graph", "anchors": ["src/ldl.c:LDL_symbolic", "src/ldl.c:LDL_numeric", "src/Auxilary.c:ldlinitialsolve"]}
{"id": "C81", "title": "What a step does to the residuals and to the gap", "statement": "After an iteration that takes a step, each equality and inequality residual is (1 - alpha_p) times the old one and the dual residual is (1 - alpha_d) times the old one plus (alpha_d - alpha_p) P dx, all up to the step length times the pivot perturbation times the direction; the products s z follow the target of the corrector. With exact factorisations: for linear programs (or equal steps) the dual residual contracts by exactly 1 - alpha_d; from a feasible point the gap changes by the factor 1 - alpha_p (1 - sigma) up to curvature terms, exactly by that factor for linear programs with equal steps; and over a whole run from setup every iterate satisfies A x = b exactly and violates all equations G x + s = h by one common number, which never exceeds the shift made at setup and is zero, with all iterates strictly feasible, if the first point is strictly feasible.", "quantifier": "all well-formed problems with symmetric P, all reachable states, any number of iterations", "why_tests_cant": "a sign error in one block of the direction, or a step length applied to the wrong vector, still converges on easy problems; tests look at the final point only", "anchors": ["src/qpSWIFT.c:QP_SOLVE", "src/Auxilary.c:computeresiduals", "src/Auxilary.c:updatevariables", "src/Auxilary.c:form_ds"]}
{"id": "C82", "title": "Timers and output", "statement": "Neither the clock nor the printing has any influence on the result: setup and solve with both compute exactly what they compute without, failures included, whatever the clock returns. For a clock that does not run backwards the reported time of a solve is the time between the first and last reading made during it, the reported time for linear systems is not negative and at most that, and the time added for factorisations is not negative and at most the time for linear systems; exactly, the reported time for linear systems is the sum of the times between start and end of each of them (two per iteration with a predictor, one otherwise) and the time added for factorisations is that of each factorisation in an iteration with a predictor; once sigma has reached its desired value factorisations are no longer counted. The setup prints one message only, when compiled for MATLAB and the ordering it asked for failed. With verbose <= 0 a solve prints nothing; otherwise the heading, per iteration the number, objective, residual norms and complementarity of the current iterate and then the step lengths, and at the end the message belonging to the exit code with the reported numbers. The Windows and macOS timers return the elapsed time too, on macOS up to a nanosecond and as long as the scaled tick count fits 64 bits.", "quantifier": "all clocks, all reachable states, all options, any number of iterations; erasure for every arithmetic", "why_tests_cant": "times vary from run to run; a stale value printed, a missing toc or a read of an unset time shows only in output nobody compares", "anchors": ["src/qpSWIFT.c:QP_SETUP", "src/qpSWIFT.c:QP_SOLVE", "src/Auxilary.c:kktsolve_1", "src/timer.c:toc"]}
{"id": "C83", "title": "The run does not depend on the coordinates", "statement": "If one problem is another one written in the variables x' with x = T x' + v, T orthogonal (rotations, reflections, shifts of the origin), with its equality constraints replaced by orthogonal combinations of them and its inequality constraints renumbered, then in exact arithmetic two solves with the same options return the same exit code, the same slacks and inequality multipliers, points corresponding under the transformation, equality multipliers corresponding under the combination, and the same statistics, except that the objective values differ by the objective of v, whatever the orderings used, as long as no pivot is changed by the regularisation rule; for strongly convex problems without equality constraints this is implied by slack to multiplier ratios above 1e-14.", "quantifier": "all pairs of well-formed problems related by such a transformation, P symmetric, all options and orderings, any number of iterations", "why_tests_cant": "Relation between two executions on every pair of inputs; the transformed matrices have different sparsity, so nothing in the two factorisations agrees.", "anchors": ["src/qpSWIFT.c:QP_SETUP", "src/qpSWIFT.c:QP_SOLVE", "src/Auxilary.c: kkt_initialize, computeresiduals, kktsolve_1, kktsolve_2, updatevariables, obj_value"]}
{"id": "C84", "title": "No signed integer overflow in setup and solve", "statement": "With qp_int ranging over -B-1..B and size_t over 0..2B+1 (64-bit long: B = 2^63-1), no sum, difference or product of integers and no allocation size in setup (sparse or dense) or solve leaves its range, provided the KKT column pointers, the KKT entries and the factor entries have byte sizes that size_t holds (and the dense arrays, for dense input) and the iteration counter plus the iteration limit is in range; the results are those with unbounded integers. For a 64-bit long, n+p+m < 2^30 and fewer than 2^60 KKT entries suffice. If the pointers or the entries do not fit, setup does not return.", "quantifier": "all integer ranges B, all well-formed problems that fit, all options and orderings, all states reachable by solves, option changes and restarts, any scalar arithmetic", "why_tests_cant": "Overflow happens only at sizes no test machine can allocate; the bound must be shown for every intermediate value at every size.", "anchors": ["include/GlobalOptions.h: qp_int", "src/qpSWIFT.c:QP_SETUP, QP_SETUP_dense, QP_SOLVE", "src/Auxilary.c", "src/ldl.c"]}
{"id": "C85", "title": "No signed integer overflow in the ordering routine", "statement": "AMD_order returns without signed overflow of a 64-bit integer on every well-formed square pattern of any size, whichever allocations succeed and whatever the control parameters: no sum, difference, negation or FLIP leaves the range, in particular the flag wflg, the hash values and the degree bounds. Together with C84 the whole of setup and solve with the ordering of the repository has no overflow when n+p+m < 2^30, the KKT matrix has fewer than 2^60 entries and the iteration counter plus limit is below 2^63.", "quantifier": "all well-formed patterns (any size, unsorted or repeated entries), all allocation outcomes, all dense thresholds, aggressive absorption on or off; for the solver all problems below the size bounds and all reachable states", "why_tests_cant": "The flag wflg needs about 2^63 steps of growth before clear_flag matters and the sums overflow only at sizes no machine can hold; the bound must hold at every step of every elimination.", "anchors": ["src/amd_2.c", "src/amd_1.c", "src/amd_aat.c", "src/amd_preprocess.c", "src/amd_postorder.c", "src/amd_order.c"]}
{"id": "C86", "title": "Failed allocations outside the ordering routine", "statement": "No result of malloc is checked in QP_SETUP, QP_SETUP_dense and what they call. Whichever allocations fail, setup ends without undefined behaviour exactly if none of the failed ones is accessed during setup: all are, except eleven work arrays of the solver (rx, ry, rz, delta_x, delta_y, delta_z, delta_s, ds, lambda, temp, UPattern), those of absent equality constraints or of matrices without entries, and the permutation array when a permutation is given. The state is then that of a setup without failures but for these arrays. A following solve with at least one iteration either accesses a null pointer, or none of rx, rz, temp (ry with equality constraints) failed, nor, if it took a step, any of the direction arrays, and then exit code, iterate and statistics are those without failures. If only UPattern failed, everything is as without failures.", "quantifier": "all well-formed problems in sparse or dense form, all subsets of failing allocations, all options, any arithmetic", "why_tests_cant": "There are more than fifty allocation sites and so 2^50 subsets of failures, for every problem; and a null pointer that happens not to be accessed leaves no trace.", "anchors": ["src/qpSWIFT.c", "src/Auxilary.c", "src/ldl.c"]}
{"id": "C87", "title": "The statistics of the ordering are upper bounds for the factor", "statement": "Called with an Info array, amd_l_order returns the same status and order as without one. Unless the pattern is empty or memory runs out, Info[AMD_LNZ] and Info[AMD_NDIV] are at least the number of entries below the diagonal of the factor L of a matrix with the pattern of A + A' eliminated in the order returned (fill-in included), Info[AMD_NMULTSUBS_LU] and Info[AMD_NMULTSUBS_LDL] at least the number of multiply-subtract pairs of an LU and an LDL' factorisation, Info[AMD_DMAX] at least the number of entries of every column of L with its diagonal, and the last Info[AMD_NDENSE] rows of the order are exactly those with more than min(n, max(16, dense)) entries off the diagonal. Hence the counts Lp[n] and Lnz[j] + 1 found by LDL_symbolic in this order, and the sizes of the factor the solver works with after setup, are at most Info[AMD_LNZ] and Info[AMD_DMAX].", "quantifier": "all well-formed square patterns of any size, sorted or not, all control parameters, all outcomes of the allocations", "why_tests_cant": "The statistics are collected from approximate degrees of a quotient graph that changes with every pivot, element absorption and mass elimination; that they never fall below the true fill of the final postordered elimination is a global invariant over all graphs, which samples of small matrices do not establish.", "anchors": ["src/amd_2.c", "src/amd_order.c", "src/amd_1.c", "include/amd.h", "src/ldl.c"]}
{"id": "C88", "title": "The ordering reports correct statistics about its input", "statement": "Called with an Info array on a well-formed square pattern A, and unless A is empty or memory runs out, amd_l_order reports: Info[AMD_NZ], the number of entries of A without repetitions (less than Ap[n], which amd.h promises, if an entry occurs twice); Info[AMD_NZDIAG], the number of entries on the diagonal; Info[AMD_NZ_A_PLUS_AT], the number of entries of A + A' off the diagonal; Info[AMD_SYMMETRY], the number of entries A(i,j), i != j, for which A(j,i) is an entry, too, divided by the number of all entries off the diagonal, or 1 if there are none; Info[AMD_MEMORY], 8 times 9n + Info[AMD_NZ_A_PLUS_AT] + floor(Info[AMD_NZ_A_PLUS_AT]/5), plus n + 1 + max(Ap[n],1) integers that amd.h does not mention if the pattern is unsorted or has repetitions. Hence the symmetry lies in [0,1] and is 1 exactly for symmetric patterns, and Info[AMD_NZ_A_PLUS_AT] lies between nz - nzdiag and 2 (nz - nzdiag).", "quantifier": "all well-formed square patterns of any size, sorted or not, with or without repeated entries, all control parameters, all outcomes of the allocations", "why_tests_cant": "AMD_aat counts matched pairs in a single pass in which each column's scan position depends on the earlier columns; that every entry is met exactly once and every pair matched exactly if both halves are present is an invariant over all patterns.", "anchors": ["src/amd_aat.c", "src/amd_order.c", "src/amd_preprocess.c", "include/amd.h"]}
{"id": "C89", "title": "The Python entry point keeps its reference counts, except for rejected options", "statement": "For a call of the Python function qpSWIFT: if it returns a result, then every object of the caller has as many references as before, no object is used after its last reference was given up, and once the caller drops the result every object the call created is released. If the arrays are rejected, it returns NULL with an exception set, all counts are as before and nothing was created. If an option is rejected, it returns NULL with an exception set, nothing else is left behind, but the value of a rejected option keeps one reference that nobody owns, so it is never released. A result is returned with an exception set, which Python turns into a SystemError, exactly if the value of OUTPUT is an integer outside long, or is not a non-negative integer and warnings are turned into exceptions.", "quantifier": "all arguments, including arguments that are the same object and arrays that have to be copied to become contiguous, all option dictionaries, all output levels, all reference counts of the caller", "why_tests_cant": "A missing or surplus Py_DECREF does not change the result of a call; it shows as memory growth or as a crash in unrelated code later, depending on which of many paths through the options, copies and output levels was taken.", "anchors": ["python/pyqpSWIFT.c"]}
{"id": "C90", "title": "The other modes of updatekktmatrix write low-rank updates", "statement": "updatekktmatrix with indicator 1 writes, to the diagonal entries of the inequality block, the difference between -s/z and the initial diagonal -1, so that adding it to the KKT matrix made by setup gives the matrix that indicator 0 writes. With indicator 2, called after updatevariables moved s and z by the steps alpha_p and alpha_d along delta_s and delta_z, it writes the difference to the diagonal before the move, so that adding it to the earlier KKT matrix gives the one that indicator 0 writes now. All other entries keep their values, other indicators do nothing, and every call stays within the arrays.", "quantifier": "all well-formed problems, all states of the solver reachable after setup, all slacks, multipliers, directions, step lengths and indicators", "why_tests_cant": "The solver only passes 0; the other modes have no caller, and the relation to the matrix of the iterate before involves the order of two updates on every column.", "anchors": ["src/Auxilary.c"]}
{"id": "C91", "title": "Operation counts of the factorisation and of the solves", "statement": "If the symbolic analysis reports c_j entries in column j of the factor, LDL_numeric performs exactly the sum of the c_j divisions and the sum of c_j (c_j + 1) / 2 multiplications with a subtraction, whatever the values of the matrix and the ordering are. A forward or a backward solve performs as many multiplications with a subtraction as the factor has entries, the solve with the diagonal performs n divisions. If the matrix is factorised in the order returned by AMD, the counts are at most Info[AMD_NDIV] and Info[AMD_NMULTSUBS_LDL].", "quantifier": "all sizes, square matrices in compressed-column form with any values, orderings and right-hand sides; for the last part all memory conditions and control values of AMD", "why_tests_cant": "Operations are not observable from outside, and the counts are sums over all entries of a factor whose pattern arises from fill-in; the bound relates them to statistics that AMD computes on a different graph with merged variables.", "anchors": ["src/ldl.c", "src/amd_2.c", "include/amd.h"]}
{"id": "C92", "title": "AMD eliminates a group of least approximate degree, and approximate degrees never underestimate", "statement": "In every state of the main loop of AMD_2 each node that is not dense belongs to exactly one group, dense nodes to none, and Nv of a leader is the size of its group. The Degree of a group that is not yet eliminated is at least its true external degree: the number of nodes in other groups not yet eliminated that a path through eliminated nodes joins to it. At first each node has its exact degree. Each iteration eliminates exactly one group, and its Degree is smallest among the groups waiting; at the end none is waiting.", "quantifier": "all sizes, well-formed square patterns (sorted or not, with repeated entries), memory conditions, values of the dense-row limit, aggressive absorption on or off, all iterations of the run", "why_tests_cant": "The degrees live in work arrays that are freed before the ordering returns; a wrong degree still gives a valid permutation, only with more fill-in. The bound concerns reachable sets in the eliminated graph, which the code never forms.", "anchors": ["src/amd_2.c", "src/amd_1.c", "src/amd_order.c"]}
{"id": "C93", "title": "Approximate degrees are exact for groups adjacent to at most two elements", "statement": "If no node is dense, then in every state of the main loop of AMD_2 the Degree of a group that is not yet eliminated and whose list of elements has at most two entries (Elen <= 2) equals its true external degree: the number of nodes in other waiting groups that a path through eliminated nodes joins to it. A pivot has no more external neighbours than any waiting group with at most two elements, and since Elen is at most the number of steps done, each of the first three pivots has the least true external degree of all.", "quantifier": "all sizes, well-formed square patterns (sorted or not, with repeated entries) without dense nodes, memory conditions, values of the dense-row limit, aggressive absorption on or off, all iterations of the run", "why_tests_cant": "An overestimated degree still gives a valid permutation and is invisible from outside; exactness is a statement about the reachable sets in the eliminated graph in every state of every run.", "anchors": ["src/amd_2.c", "src/amd_1.c", "src/amd_order.c"]}
{"id": "C94", "title": "What the checks of the project's own tests accept", "statement": "validate_smat accepts exactly the matrices with positive dimensions, at least one and at most m*n entries, row indices in range, column pointers that do not decrease and end with nnz, and finite values; if the first column pointer (which it ignores) is 0, the matrix is well formed. On the result of either dense-to-sparse conversion the comparison with the dense matrix succeeds, and validate_smat accepts exactly if the dense matrix is not zero. If validate_smat_smatT accepts two well-formed matrices, the second is the transpose of the first; it accepts the result of SparseMatrixTranspose exactly if row indices do not decrease inside the columns of the input. check_updatekktmatrix_b never returns true, rejects every right-hand side that updatekktmatrix_b builds, and if there are inequalities and the part of the right-hand side for x is wrong while that for y is right, it leaves the bounds of an array. The test of formrho reads behind its arrays.", "quantifier": "all sizes, values and array contents; all arguments of check_updatekktmatrix_b; all step lengths and array contents of the formrho test", "why_tests_cant": "These are the tests: nothing checks that a check accepts exactly what it should. Each runs on two or three matrices, all with sorted columns and none zero.", "anchors": ["tests/include/test.hpp", "tests/stdaln.cpp", "tests/stdalnT.cpp", "src/Auxilary.c"]}
{"id": "C95", "title": "Simulink blocks rely on input signals that lie side by side in memory", "statement": "A Simulink input port is an array of pointers, one per element, and neither block asks for adjacent elements. If the elements of every signal are adjacent, a block with at least three variables solves the problem its signals describe. Otherwise it uses the memory behind the first element: for any two problems of the same size whose signals have equal first elements there are pointers that carry the first problem and make the block return the result of the second. Port widths of matrices are not checked: if the memory from the first element of P, G or A on holds fewer numbers than the matrix has entries, the block reads behind it.", "quantifier": "all problem sizes and values, all layouts of memory, with and without equality constraints, all ordering routines that are safe, any number type", "why_tests_cant": "Signals of a constant block or of one source are adjacent; signals merged by a multiplexer are not. The wrong problem is solved without any sign of an error.", "anchors": ["simulink/qpSWIFT_sfunc.c:98-180", "simulink/qpSWIFT_sfunc_e.c:101-179"]}
{"id": "C96", "title": "With equality constraints the factorisation is exact if variables are eliminated before them and the constraints are independent", "statement": "Let P be symmetric and strongly convex with modulus above 1e-14. If the elimination order takes every variable before every equality constraint, and no equality constraint is within 1e-14 (in the energy norm of P and the current weights s/z) of a combination of the others, then no pivot is changed: the factors stored by setup are an exact factorisation of the KKT matrix, and so are those of every iteration whose ratios of slack to multiplier exceed 1e-14. In such an iteration the residuals of all constraints shrink by exactly one minus the primal step. A bound from below on the rows of A with bounds from above on P and G suffices for the independence. Order and independence both matter: an equality constraint taken before all its variables always gets the pivot -1e-7 in place of 0, so that neither setup nor any iteration has an exact factorisation; and if the equality constraints are linearly dependent no ordering at all makes any factorisation exact.", "quantifier": "all problem sizes, all patterns and values, all orderings, all reachable states, every ordered field", "why_tests_cant": "A changed pivot gives a slightly wrong direction, not an error; iterations go on and mostly still converge. Whether the rule ever fires depends on all values and on the ordering.", "anchors": ["src/ldl.c:LDL_numeric", "src/Auxilary.c:kkt_initialize", "src/Auxilary.c:kktsolve_1", "src/qpSWIFT.c:QP_SOLVE"]}
{"id": "C97", "title": "Runs with equality constraints: exactness, feasibility and independence of the ordering", "statement": "Let P be symmetric and strongly convex (modulus above 1e-14), let om be between 1e-14 and 1, let the equality constraints be independent for the weight om in the sense of C96, let the ordering take every variable before every equality constraint, and let no point visited have a ratio of slack to multiplier below om. Then setup and all iterations of the run factor the KKT matrix exactly; every iterate satisfies A x = b exactly and violates all equations G x + s = h by one common number, which is at most the shift made at setup and is zero if the first point is strictly feasible; and a second run with any other such ordering returns the same exit code, the same x, y, z, s and the same statistics.", "quantifier": "all problem sizes, all patterns and values, all pairs of orderings that take variables before equality constraints, all options, runs of any length, every ordered field (with square roots for the last two)", "why_tests_cant": "Agreement of two orderings on samples says nothing about others; the differences caused by a changed pivot are small.", "anchors": ["src/ldl.c:LDL_numeric", "src/qpSWIFT.c:QP_SETUP", "src/qpSWIFT.c:QP_SOLVE"]}
{"id": "C98", "title": "Exactly when the factorisation is exact, for any ordering", "statement": "Let P be symmetric and strongly convex with modulus above 1e-14. For an equality constraint at position r of the elimination order call (x, y, z) its elimination vector if it is one at the constraint, zero outside the rows that come before position r, and annihilated by those rows of the KKT matrix. The factors stored by setup are an exact factorisation if and only if for every equality constraint the energy x'Px + sum z_i^2 of its elimination vector exceeds 1e-14. The same holds for every iteration from a point whose ratios s_i/z_i exceed 1e-14, with the energy x'Px + sum (s_i/z_i) z_i^2.", "quantifier": "all problem sizes, all patterns and values, all orderings (given, computed or natural), all reachable states, every ordered field", "why_tests_cant": "The condition depends on the values of all data and on the order; a test sees single cases, and a changed pivot is not reported.", "anchors": ["src/ldl.c:LDL_numeric", "src/Auxilary.c:kkt_initialize", "src/Auxilary.c:kktsolve_1", "src/qpSWIFT.c:QP_SOLVE"]}
{"id": "C99", "title": "Exactly when the factorisation is exact, for any symmetric P", "statement": "For P symmetric, convex or not, call a vector the elimination vector of the row at position r of the elimination order if it is one at that row, zero at all later rows, and annihilated by all earlier rows of the KKT matrix. In setup and in every iteration that takes a step, the factors stored are an exact factorisation of the KKT matrix if and only if the product of every row with its elimination vector exceeds 1e-14 in magnitude; the pivots stored are then these products. No condition on slacks and multipliers is needed.", "quantifier": "all problem sizes, all patterns and values (linear programs and non-convex P included), all orderings, all reachable states, every ordered field", "why_tests_cant": "The condition depends on the values of all data and on the order; a changed pivot is not reported.", "anchors": ["src/ldl.c:LDL_numeric", "src/Auxilary.c:kkt_initialize", "src/Auxilary.c:kktsolve_1", "src/qpSWIFT.c:QP_SOLVE"]}
{"id": "C100", "title": "The product of the pivots is the determinant of the KKT matrix", "statement": "For P symmetric, in setup and in every iteration that takes a step, the product of the pivots stored is the determinant of the KKT matrix with the changes made to the pivots added to its diagonal; if the factorisation is exact it is the determinant of the KKT matrix itself, whatever the ordering.", "quantifier": "all problem sizes, all patterns and values, all orderings, all reachable states, every ordered field", "why_tests_cant": "The product relates all pivots and all entries at once; it is never computed by the code.", "anchors": ["src/ldl.c:LDL_numeric", "src/Auxilary.c:kkt_initialize", "src/Auxilary.c:kktsolve_1", "src/qpSWIFT.c:QP_SOLVE"]}
{"id": "C101", "title": "Renumbering problems with equality constraints", "statement": "Let one problem be obtained from another by renumbering variables, equality constraints and inequality constraints or by storing the same matrices differently. Let P be symmetric and strongly convex (modulus above 1e-14), let om be above 1e-14 and at most 1, let the equality constraints of the first problem be independent for the weight om in the sense of C96, let both orderings take every variable before every equality constraint, and let no point visited by the first run have a ratio of slack to multiplier below om. Then two solves with the same options return the same exit code and statistics and the same iterate up to the renumbering. Nothing is assumed about the points of the second run or about its pivots.", "quantifier": "all pairs of renumbered well-formed problems, all orderings that take variables before equality constraints, all options, runs of any length, every ordered field with square roots", "why_tests_cant": "Relation between two executions on every pair of equivalent inputs.", "anchors": ["src/ldl.c:LDL_numeric", "src/qpSWIFT.c:QP_SETUP", "src/qpSWIFT.c:QP_SOLVE"]}
{"id": "C102", "title": "Sign of the determinant of the factored matrix; product of the pivots of two orderings", "statement": "Let P be symmetric and strongly convex (modulus above 1e-14). Whatever the ordering, in setup and in every iteration that takes a step, the matrix factored is the KKT matrix with at most 1e-7 taken from diagonal entries of constraints, and its determinant has the sign of (-1)^(p+m), so it is never singular. For any symmetric P, if the factorisations of two setups of the same problem with different orderings are exact, the products of the stored pivots agree; the same holds for iterations from points with the same s and z.", "quantifier": "all problem sizes, all patterns and values, all orderings, all reachable states, every ordered field", "why_tests_cant": "A statement about all orderings and all points; the determinant is never computed by the code.", "anchors": ["src/ldl.c:LDL_numeric", "src/Auxilary.c:kkt_initialize", "src/Auxilary.c:kktsolve_1", "src/qpSWIFT.c:QP_SOLVE"]}
