# Formal model of qpSWIFT in Lean 4

Source: `/repo` (qpSWIFT at the pinned commit), read as text, never built or run.
Lean project: `/verif/lean`, modules under `Verif/`.

## 1. Approach

**Model.** Each C function is transcribed into a total Lean function in a small
error monad `M α = Except Err α`. `Err` makes every kind of undefined behaviour
that matters here a distinct outcome:

* `oob`      – read or write outside an allocated block (also negative indices),
* `uninit`   – read of a cell that was `malloc`ed and never written,
* `diverge`  – a `while`/`for(;cond;)` loop exceeded an explicit step budget,
* `null`     – dereference of a NULL pointer.

An array is a `Buf α = List (Option α)`: its length is the size of the allocation
and `none` is an uninitialised cell. `malloc n` produces `n` uninitialised cells.
Array accesses in the model go through `rd`/`wr`, which take an `Int` index (the
C type is `long`) and fail as above. A theorem of the form
`∃ r, f args = .ok r ∧ …` therefore says "no undefined behaviour, terminates, and …".

**Numbers.** The model is generic in the number type `K`: it only uses the
operations `+ - * / neg 0 1`, and a class `Scalar` with `sqrt`, the comparisons as
Boolean functions, conversion of integers and of decimal literals. *No law is
assumed* in the structural theorems (memory safety, control flow, frame, exit codes,
equality of two executions), so these hold for IEEE doubles including NaN and
infinities, for whatever rounding. Theorems about numerical meaning (residual =
`b-Ax`, `LDL' = PAP'`, positivity, optimality) are proved for exact arithmetic:
an arbitrary ordered field with `LawfulScalar`, or `ℝ` when `sqrt` matters.
C60 and later rounding theorems assume only the class `Ieee` (`SpecRound.lean`): every finite result is
correct up to a relative error `u` (and an absolute error `eta` for products and quotients), as in IEEE-754
without fused multiply-add or extended precision; overflow and NaN are allowed. Exact reals, a 53-bit
arithmetic with overflow (`Fl.lean`) and binary64 with round to nearest even, signed zeros and subnormals
(`Double.lean`, executable; NaN payloads are not represented) are shown to be instances. Compiled code
has the behaviour of the binary64 instance if the compiler neither fuses nor reorders operations nor uses
extended precision, and `sqrt` is correctly rounded.

**Proof method.** For every transcribed routine a refinement lemma shows that the
checked, imperative version succeeds and equals a pure function (generic in `K`,
same order of operations). Loops are handled by one invariant rule (`forI`), while
loops by a budgeted loop whose budget is proved never to be exhausted. Mathematical
properties are then proved about the pure functions by induction. Property
theorems live in `Verif/Props/*.lean`, state their claim in terms of the model's
entry points and of the independent specification in `Verif/Spec.lean` (dense
entry of a compressed matrix, matrix-vector product, feasibility, objective, …),
and are followed by an `example` showing a concrete non-trivial instance.

**Pointers.** The `QP` structure is modelled as a Lean structure whose fields are
the arrays. User arrays that the C code aliases (`P->pr = Ppr`, `kkt->P = Permut`, …)
are fields as well, so "never modifies the caller's arrays" is a theorem about these
fields. Distinct fields are assumed not to alias (the caller does not pass the same
array for two arguments that are both written; the code writes no user array at all).
Ownership (malloc/free) is a separate model, `Verif/Model/Heap.lean`, in which blocks have
identities and `free` of a dead or caller-owned block, or a dereference through a
dead block, is an error.

## 2. Files

| module | content |
| --- | --- |
| `Verif/Basic.lean` | error monad, checked buffers, loops |
| `Verif/Scalar.lean` | number interface, exact instances |
| `Verif/Spec.lean` | mathematical vocabulary used in property statements |
| `Verif/Model/Auxilary.lean` | `src/Auxilary.c` |
| `Verif/Model/Ldl.lean` | `src/ldl.c` |
| `Verif/Model/Solver.lean` | `src/qpSWIFT.c` setup and solve |
| `Verif/Model/Heap.lean` | allocation, free and pointer use of setup, solve and cleanup (C29) |
| `Verif/Model/Front.lean` | `src/timer.c` (POSIX branch), the Simulink block, the Python module, the MATLAB gateway |
| `Verif/Model/MexEntry.lean` | `matlab/qpSWIFT_mex.c` lines 102-111, 193-247: number, order and meaning of the MATLAB arguments |
| `Verif/Model/Amd.lean` | `src/amd_*.c` (the ordering) |
| `Verif/SpecQp.lean` | what setup and solve are supposed to do: well-formed problem, started state, reachable state, permutation |
| `Verif/Demo.lean`, `Verif/DemoQp.lean` | concrete matrices and problems used in the examples |
| `Verif/Lemmas/*.lean` | refinement and mathematical lemmas (not meant to be read as claims) |
| `Verif/Props/MatVec, Dense, Transpose` | C01–C05 |
| `Verif/Props/Kkt` | C06–C08 |
| `Verif/Props/LdlBasic, Ldl` | C09–C14, C34–C36 |
| `Verif/Props/Setup, Safety` | C15, C25–C28, C33, C37, C38 |
| `Verif/Props/Iterates, Directions, Tiny` | C16–C24, C30–C32 |
| `Verif/Props/Memory` | C29 |
| `Verif/Props/Front, Python, Matlab, MatlabCall` | C43–C52, C67 |
| `Verif/Props/AmdInput, AmdPost` | C40–C42 |
| `Verif/Props/AmdOrder` | C39 |
| `Verif/Props/Start` | C53, C54 |
| `Verif/Props/Pivots` | C55, C56 |
| `Verif/Props/Order` | C57 |
| `Verif/Props/Certify` | C58, C59 |
| `Verif/SpecData`, `Verif/Props/Updates` | C68: the caller overwrites data between calls |
| `Verif/Model/Inactive`, `Verif/Lemmas/Cache`, `Verif/Lemmas/LeftCache`, `Verif/Props/Inactive`, `Verif/Props/InactiveKkt`, `Verif/Props/InactiveLeft` | C69 to C72: exported functions that the solver does not call |
| `Verif/Props/Renumber` | C74: renumbered problems |
| `Verif/Props/RoundValue`, `Verif/Props/DoubleValue` | C75: objective value in floating point |
| `Verif/Props/Interfaces` | C76: the interfaces agree |
| `Verif/Props/NonFinite` | C77: data that are not finite |
| `Verif/Props/DoubleCert` | C78: certificates and distance in double precision |
| `Verif/Model/Prototype.lean`, `Verif/Props/Prototype.lean` | the MATLAB prototype and its relation to the C code (C79) |
| `Verif/Props/FillPath.lean` | the pattern of the factor by paths (C80) |
| `Verif/Props/StepEffect.lean` | effect of a step on residuals and gap, feasibility along a run (C81) |
| `Verif/Model/Timed.lean`, `Verif/Props/Timed.lean` | timers and printed output (C82) |
| `Verif/Props/Value` | C20: reported value and optimal value |
| `Verif/Props/Isometry` | C83: rotated, reflected and shifted problems |
| `Verif/Model/Checked`, `Verif/Lemmas/Checked`, `Verif/Lemmas/CheckedRun`, `Verif/Lemmas/CheckedSetup`, `Verif/Lemmas/CheckedDense`, `Verif/Props/Overflow` | C84: bounded integers, no overflow |
| `Verif/Props/AmdOverflow` | C85: no overflow in AMD |
| `Verif/Model/Alloc`, `Verif/Lemmas/Null*`, `Verif/Props/Alloc` | C86: failing allocations |
| `Verif/Model/AmdInfo`, `Verif/Props/AmdFill` | C87: statistics of the ordering |
| `Verif/Props/AmdStats`, `Verif/Props/AmdFill` | C88: statistics of the ordering about its input |
| `Verif/Model/PyRefs`, `Verif/Props/PyRefs`, `Verif/Props/PyRefs2` | C89: reference counts of the Python entry point |
| `Verif/Model/KktUpdate`, `Verif/Props/KktUpdate` | C90: the modes of `updatekktmatrix` the solver does not use |
| `Verif/Model/LdlOps`, `Verif/Lemmas/LdlOps`, `Verif/Props/LdlOps` | C91: operation counts of factorisation and solves |
| `Verif/SpecOrder`, `Verif/Model/AmdTrace`, `Verif/Lemmas/AmdTrace`, `Verif/Props/AmdMinDeg` | C92: pivot of least approximate degree |
| `Verif/SpecOrder`, `Verif/Lemmas/AmdSem`, `Verif/Lemmas/AmdInv`, `Verif/Lemmas/AmdTrace`, `Verif/Props/AmdExact` | C93: exact degrees |
| `Verif/Model/TestHelpers`, `Verif/Props/TestHelpers` | C94: checks of the project's tests |
| `Verif/Model/Ports`, `Verif/Props/Ports` | C95: Simulink input ports |
| `Verif/Lemmas/QuasiEq`, `Verif/Props/EqPivots` | C96: pivots of equality constraints |
| `Verif/Props/EqRun` | C97: runs with equality constraints |
| `Verif/Lemmas/QuasiAny`, `Verif/Props/EqExact` | C98: exactly when a factorisation is exact |
| `Verif/Props/AnyExact` | C99: exact factorisations for any symmetric `P` |
| `Verif/Props/Det` | C100: determinant |
| `Verif/Props/EqRenumber` | C101: renumbering with equality constraints |
| `Verif/Props/DetSign` | C102: sign of the determinant |
| `Verif/Props/AmdMemory` | C73: failing allocations in the ordering |
| `Verif/SpecRound`, `Verif/Fl`, `Verif/Props/Round` | C60: the laws of rounded arithmetic, two instances, the theorems |
| `Verif/Props/RoundLdl` | C61, C62: factorisation and solves in rounded arithmetic |
| `Verif/Props/RoundStep` | C63, C64: search directions and residual reduction in rounded arithmetic |
| `Verif/Double`, `Verif/Props/DoubleRun` | binary64 arithmetic on integers (executable), proof that it satisfies the class `Ieee`; C65, runs of the solver in double precision |
| `Verif/SpecRatio`, `Verif/Props/Interior`, `Verif/Props/DoubleInterior` | further laws of rounded arithmetic (signs, overflow of quotients), C66 and its instance for binary64 |
| `Verif/RepoTests` | tests, not proofs: the expected values of `/repo/tests` computed by the model in binary64 |
| `Verif/Cases, CasesFront` | concrete cases of the theorems that have no example in their own file |

**Reachable states.** `Started amd a pb q0` says that a setup routine returned `q0` for problem `pb`;
`Iterations k a b` says that `k` iterations of the main loop lead from `a` to `b`; `Reach q0 qp` is the
closure of these under repeated calls of `QP_SOLVE`. Theorems about iterates are stated for all reachable
states, not for arbitrary ones.

**The ordering as a parameter.** Setup takes the ordering routine as an argument `amd`. Theorems about
setup hold for every `amd` with `AmdSafe amd`: given a well-formed square pattern it terminates without
undefined behaviour and returns either a negative status or a permutation. `C39_safe` shows that the
transcribed `AMD_order` is such a routine, for every value of its control parameters.

**Simplifications of the ordering model** (`Model/Amd.lean`). Debug code is left
out. The statistics that `AMD_aat`, `AMD_order` and `AMD_2` write to `Info` are added in `Model/AmdInfo.lean`
(C87, C88), as exact numbers instead of doubles and without the number of garbage collections. The six work arrays that `AMD_1` carves out of one block are separate buffers, so a stray access
into a neighbour is an error of the model although it would stay inside the C block. The
floating-point computation of the dense-row threshold is an arbitrary function `dense0 : Int → Int`.
The hash value wraps around like the unsigned integer of the code. Which of the allocations of `AMD_order` succeed is a
parameter (`AmdMem`).

**Simplifications of the reference counts** (`Model/PyRefs.lean`). Calls of the Python and NumPy API succeed.
The objects of the caller are numbered, and two arguments may be the same object. Which arrays are contiguous and
whether warnings are exceptions are parameters (`PyEnv`). `PyArray_Cast` makes a new array. Keys and numbers in a
dictionary are counted as fresh objects, though Python may share them. References that the argument parser
borrows are not counted. A use of an object without references is the error `null`.

## 3. Plan per property

| id | model | method |
| --- | --- | --- |
| C01–C03 | `densetosparse`, `densetosparse_ROWMAJOR` | refinement to the list of nonzeros of each column, induction over columns/rows; both equal the same pure matrix |
| C04 | `SparseMatrixTranspose` | counting-sort invariant: cell positions = prefix sum + number of earlier entries of that row |
| C05 | `SparseMatrixMultiply`, `…TransMultiply` | loop invariant, then sums over a commutative ring |
| C06, C07 | `formkktmatrix_full`, `updatekktmatrix` | running-counter invariant; counterexample by evaluation of the model |
| C08 | `updatekktmatrix` | loop invariant, uses "last entry of the column is the diagonal" |
| C09, C10 | `LDL_symbolic`, `LDL_numeric` | elimination-tree invariant: visited set of step k is closed under the final parent function; counts agree |
| C11, C12 | `LDL_numeric` | row-by-row induction over the pure factorisation |
| C13, C14 | solves, permutations | forward/backward substitution invariants; uniqueness from invertible `LDL'` |
| C15 | `kkt_initialize`, `findminmax` | min/max invariant |
| C16, C17, C32 | `findsteplength`, `QP_SOLVE` | ratio-test invariant, induction over iterations |
| C18, C21 | `computeresiduals`, `obj_value` | algebra on top of C05 |
| C19, C20 | `QP_SOLVE` | control-flow invariant; convexity inequality |
| C22–C24 | `QP_SOLVE` | loop invariant on flag and counter; evaluation for the negative halves |
| C25, C26 | setup and solve | composition of all refinement lemmas |
| C27, C28 | setup | case analysis; failing-ordering oracle |
| C29 | heap model | symbolic execution of the allocation traces; induction over histories |
| C30, C31 | `QP_SOLVE` step | algebra from C13 |
| C33 | both setups | equality of the two executions |
| C34–C36 | `LDL_valid_perm`, `LDL_valid_matrix`, `LDL_perm(t)` | loop invariants |
| C37, C38 | `QP_SOLVE`, `kkt_initialize` | evaluation of the model to the error outcome for every such input |
| C39 | `amd_order` and callees | the traversal of `A + A'` shared by `AMD_aat` and `AMD_1` visits every pair once; quotient-graph invariant of `AMD_2` (`Lemmas/AmdInv`) kept by every pivot (`AmdIter*`, `AmdConstruct`, `AmdScan*`, `AmdDetect`, `AmdRestore`, garbage collection in `AmdGc`); the assembly tree at the end is a forest whose postorder gives the permutation (`AmdTree`, `AmdPath`, `AmdOutput*`) |
| C40–C42 | `amd_valid`, `amd_preprocess`, `amd_postorder`, `amd_post_tree` | loop invariants, forest induction |
| C43–C45, C47 | option/argument handling | decision logic |
| C46 | `toc` | arithmetic |
| C48–C52 | Python module, MATLAB gateway | decision logic, evaluation of the model |
| C53, C54 | `kkt_initialize`, setup | solve lemma of C13 applied to the starting system; case analysis |
| C55 | `LDL_numeric` in setup and iterations | induction over pivots: a vector mapped by the leading block to a multiple of the last unit vector turns the pivot into a quadratic form (`Lemmas/Quasi`) |
| C56 | same | the first pivot is the first diagonal entry |
| C57 | `QP_SETUP`, `QP_SOLVE` | an exact factorisation makes the KKT system injective, so directions, steps and starting points are determined by the problem; induction over the two runs |
| C58, C59 | `QP_SOLVE` | C19 and C22, then linear algebra on the residuals (Farkas; monotonicity of the optimality conditions) |
| C60 | `computeresiduals`, exit test of `QP_SOLVE` | running error analysis of the pure functions (`Lemmas/Round`), exit test from C22 |
| C61 | `LDL_symbolic`, `LDL_numeric` | invariant of the row loop with accumulated error bounds (`Lemmas/RoundLdl`), then algebra to express them by `L` and `D` |
| C62 | solve routines, `ldlinitialsolve` | error of each accumulation (`Lemmas/RoundSolve`), combined with C61 |
| C63 | `solveBody` (iteration of `QP_SOLVE`) | C62 for the second solve, KKT matrix by blocks, rounded elimination of `ds` |
| C64 | `solveBody` | C63 and the rounding of the update |
| C65 | `QP_SOLVE` in binary64 | `instance : Ieee F64`, C60 with numeric constants |
| C66 | ratio test, update and starting point in rounded arithmetic | fold invariant of the ratio test with rounding, induction over iterations |
| C67 | `mexEntry`: from the argument list to the results | case analysis of the checks, refinement to C26, C45, C52 |
| C68 | `QP_SOLVE`, histories with writes of the caller | invariant that separates the data from the KKT copy, induction over histories |
| C69 | `LDL_row_cache_numeric` | loop invariant: rows done hold the new factor, marked rows contain all dependent ones (fill path closure), uniqueness of the factorisation |
| C70 | `test_reach` | induction along tree paths; together with C69 |
| C71 | `formkktmatrix_U` | loop invariants over columns, entries of the assembled matrix |
| C72 | `LDL_cache_numeric` | unmarked rows of a column form a prefix, column cursors, columns done or unmarked hold the new factor; first failing column for the read after the end |
| C73 | `AMD_order` with failing `malloc`, `QP_SETUP` | case analysis of the failure exits on top of C39, C54; heap paths in C29 |
| C74 | two runs of `QP_SETUP`, `QP_SOLVE` | relational invariant over the iterations; uniqueness of the Newton direction (C31), step lengths (C17) and starting point (C53) transported along the renumbering |
| C75 | `obj_value`, `QP_SOLVE` | rounding-error analysis of the three sums, triangle inequality for the residual norms, weak duality in both directions |
| C76 | `method_qpSWIFT`, `mexFunction`, `mdlOutputs`, `QP_SETUP` | every interface is reduced to one call of `QP_SETUP`; equality of the two runs is then literal |
| C77 | `QP_SOLVE`, `computeresiduals`, `norm`, `SparseMatrixMultiply` | a finite rounded sum has finite terms; induction over columns and entries, from the norm back to the data |
| C78 | `QP_SOLVE` in double precision | C75 gives the approximate optimality conditions over the reals; the arguments of C58, C59 apply to them |
| C79 | `QP_SETUP`, `QP_SOLVE` against the MATLAB prototype | both directions solve the linearised optimality conditions of C31, which have one solution; the ratio tests agree below 1000 |
| C80 | `LDL_symbolic`, `LDL_numeric` | fill path theorem by induction over the largest inner node of a path |
| C81 | `QP_SOLVE` loop, `updatevariables`, `computeresiduals` | linear algebra on the linearised conditions (C31) and induction over iterations |
| C82 | clock and `PRINT` in `QP_SETUP`, `QP_SOLVE`, `kktsolve_1`; timers of Windows and macOS | equations between the two versions, induction over the loop |
| C83 | two runs of `QP_SETUP`, `QP_SOLVE` | relational invariant over the iterations; uniqueness of the Newton direction (C31), step lengths (C17) and starting point (C53) transported along the transformation |
| C84 | `QP_SETUP`, `QP_SETUP_dense`, `QP_SOLVE` with checked integers | a second model of every function with range checks (`Model/Checked.lean`); a judgment saying that the checked function returns what the unchecked one returns, function by function, with bounds on the intermediate values |
| C85 | `AMD_order` and all it calls, with checked integers | bounds on every integer of the elimination added to the invariants of C39: degrees of elements exact, total weight of the lists at most the workspace, flag below `Int_MAX - n` |
| C86 | `QP_SETUP`, `QP_SETUP_dense`, `QP_SOLVE` with failing `malloc` | a second model with one Boolean per allocation (`Model/Alloc.lean`); simulation between runs with and without null arrays (`Lemmas/Null*`), first access of each array |
| C87 | `AMD_2` with `Info`, `amd_order`, `LDL_symbolic`, `QP_SETUP` | the elements of the quotient graph are shown to cover every fill path of the eliminated graph (`Lemmas/AmdSem`, kept by every step); at the end each column of the factor fits into the front of the pivot that represents it (`AmdFill`), and the statistics are sums over fronts (`AmdStat`); the run with statistics refines that without (`AmdRel`) |
| C88 | `AMD_aat`, `amd_order` | the traversal invariant of C41 counts the entries visited and the diagonal ones (`Lemmas/AmdTrav`); the counters satisfy 2 (nz - nzdiag - nzboth) = nzaat, and inclusion and exclusion on the set of index pairs turns them into the numbers stated (`Props/AmdStats`) |
| C89 | `method_qpSWIFT`, `getptr` | each object carries its count and the references it owns, a use of a released object is an error; option blocks by cases, the tail of the call does not touch the caller's objects (`Free`), which reduces it to finitely many concrete runs over copied/contiguous arrays and output levels |
| C90 | `updatekktmatrix` | loop invariant on the diagonal entries as for C08, with any value written; field arithmetic |
| C91 | `LDL_numeric`, `LDL_lsolve`, `LDL_dsolve`, `LDL_ltsolve`, AMD statistics | counting versions of the routines, shown to compute the same; loop invariant of C10 with the counts of the columns so far; fill bound of C87 |
| C92 | `AMD_2` (degrees, choice of the pivot) | version of the routine that records its states, shown to compute the same; the loop invariant of C39 extended by the exact sums of both scans and by a bound of the external degree; paths through eliminated nodes traced in the quotient graph of C87 |
| C93 | `AMD_2` (exactness of the degrees) | loop invariant of C92 extended by the reverse inequality, by the disjointness of a variable's list from the lists of its elements, and by soundness of the quotient graph (its edges are paths through eliminated nodes) |
| C94 | `tests/include/test.hpp` | loop invariants; buckets of C04 for the transposition check, lists sorted by a key are determined by their parts of equal key |
| C95 | `mdlOutputs` (ports) | memory as a list of objects, pointers as places in them; reduction to C47; first read behind a short array by a loop invariant |
| C96 | pivots of `LDL_numeric` for rows of `A` | Schur complement of the rows before an equality constraint as a minus sum of energies (`eq_pivot`), strong induction over the elimination order |
| C97 | `QP_SETUP`, `QP_SOLVE` with equality constraints | C96 at every point of the run, then C57 and C81 |
| C98 | pivots of `LDL_numeric`, both directions | pivot of a row as the product of the row with its elimination vector, unique by symmetry; energy identity; strong induction over the order |
| C99 | pivots of `LDL_numeric`, any symmetric `P` | as C98, without the energy identity |
| C100 | pivots of `LDL_numeric` and the determinant | the factorisation as a product of matrices, determinants of triangular matrices and of permuted ones |
| C101 | `QP_SETUP`, `QP_SOLVE` on renumbered problems with equality constraints | the independence of C96 does not depend on the numbering; C96 at every point of both runs, then C74 |
| C102 | pivots of `LDL_numeric`, sign of the determinant | C100 with the signs of C55; C100 for both orderings |

## 4. Trusted base

* Lean 4.33.0 kernel; axioms `propext`, `Classical.choice`, `Quot.sound` only.
* Mathlib definitions used in statements (ordered fields, `ℝ`, finite sums, `Real.sqrt`).
* The transcription C → Lean (each definition cites file and lines). Integers are unbounded in the
  model of setup and solve and bounded in `Model/Checked.lean` (C84, taking 8 bytes for both `qp_int` and
  `qp_real`) and in the model of AMD (C85).

Not modelled: rounding
(except in C60 and later rounding theorems), the format strings of the output (C82 has the
lines and the values printed), aliasing between caller arrays (harmless as
they are never written, C25), the entry `AMD_NCMPA` of the statistics array `Info` of
AMD, and the functions of AMD the solver does not call (`amd_control.c`, `amd_info.c`, `amd_dump.c`), and of the test
helpers (C94) `check_matrix_symmetric` and `validate_kktmatrix` (only called in commented-out tests), the stub
`check_updatekktmatrix` and `print_smat`.
