# fbstab: formal model and proofs — design

## 1. Model

`lean/Verif/Model` is an executable model of the C++ code, function by function, written for an arbitrary
scalar type `K` with the operations the code uses and *no laws* (`class Scalar`).

* theorems about control flow (limits, flags, staleness, history, exceptions, printing) hold for *every* `K`,
  therefore also for IEEE doubles with rounding and NaN;
* theorems about mathematics are stated at `K = ℝ`;
* special values (NaN, infinities) are treated at `K = XReal` (ℝ + nan + ±inf);
* `K = Float` is only used to run the repository's unit tests on the model (tests, not proofs):
  `lake env lean --run Verif/Tests/Conformance.lean` replays the ten solver tests of fbstab/test and eighteen checks of
  components/test with the inputs, options and tolerances of /repo; 28 of 28 pass.  No theorem imports that file.

| Module | Code |
|---|---|
| Model/Scalar, Vec | double, Eigen vectors and matrices, tools/utilities.h |
| Model/EigenTri | Eigen triangular solves, LLT, LDLT with pivoting (as read from Eigen's documentation) |
| Model/Params | AlgorithmParameters, ValidateOptions |
| Model/Data | abstract Data, dense_data.{h,cc}, mpc_data.{h,cc} |
| Model/Components | full_variable, full_residual, full_feasibility |
| Model/DenseSolver, Riccati | dense_cholesky_solver, riccati_linear_solver |
| Model/Algorithm | fbstab_algorithm{.h,-impl.h} |
| Model/MatrixSequence | tools/matrix_sequence.h |
| Model/Api | fbstab_dense.{h,cc}, fbstab_mpc.{h,cc} |
| Model/OcpGen | test/ocp_generator.{h,cc}: all four problem creators, the getters |

The algorithm is an imperative program over the object's memory (`EStateM Err Run`): the four variables, two
residuals, the linear solver's and feasibility checker's workspaces, counters, merit buffer, the caller's
vectors and the list of printed messages.  Freshly allocated memory has arbitrary contents.  Loops are
recursions on the loop bound, so totality of the Lean functions is termination of the loops.

A pure version (`Proofs/Core`) is proved to be simulated by the imperative one for every initial memory;
this gives history independence and reduces the remaining properties to inductions over the pure loops.

## 2. Specifications

`lean/Verif/Spec` says what the properties mean and does not use the proofs:

| File | Content |
|---|---|
| Spec/QP, Spec/Ocp | quadratic programs, optimal control problems (Mathlib matrices), KKT conditions, minimisers |
| Spec/Residual, Spec/RealApi | the residual norm and the stopping tolerance, the QP held by a call's data |
| Spec/Options, Spec/Outcome, Spec/Api | ranges of options, results, reachable objects, histories |
| Spec/Newton, Gradient, LineSearch, Log | Newton system, generalised gradients, Armijo steps, printed lines |
| Spec/Convergence | explicit iteration counts for convergence |
| Spec/Finite | which memory and data are finite |
| Spec/Method | the whole method as a relation between problem, options, guess and result |
| Spec/Benchmarks | the generated benchmark problems as plants |
| Spec/Dual | the dual problem |
| Spec/Shift | the least shift that makes a problem solvable; when the solver must notice |
| Spec/Symmetry | the same problem with unknowns and constraints listed in another order |
| Spec/Special | inputs that contain NaN or infinities |
| Spec/Rounding | what is assumed of rounded arithmetic, and KKT conditions with rounding errors |
| Spec/RoundedCertificates | certificates of infeasibility with rounding errors |
| Spec/RoundedMargin | when `y` is the margin b - A z, and when z satisfies Az <= b, up to rounding |
| Spec/Decoupled | problems whose infeasibility shows at the cold start |
| Spec/Comparisons | arithmetics whose comparisons and literals behave as those of IEEE 754; options that are numbers |
| Spec/Text | `%e` of a binary64, the text of the final summary |
| Spec/Binary64 | IEEE binary64: 53 bits, ties to even, overflow, underflow, infinities, NaN |

## 3. Plan and proof per property

The theorems of property Cnn are named `Cnn_*` (MANIFEST.json lists them); `_dense` and `_mpc` are the two solvers.

| | Modelled by | Proof | Non-trivial case |
|---|---|---|---|
| C01 C02 C41 | `AlgorithmParameters.validate`, `saturate` | case analysis at ℝ and XReal, NaN by a witness; in any arithmetic whose comparisons are those of IEEE 754 (`Comparisons`), hence in binary64 (OptionsBinary64.lean, also C03, C04) | presets; C01 NaN witness |
| C03 | `UpdateOptions`, `Solve` as steps on objects | induction on histories | any history |
| C04 C05 C06 C07 C08 C12 | `Core.solve` | invariants of the loops, any scalar; C07_stale by a run computed in ℝ | Examples.lean (dense and MPC runs) |
| C09 C10 C39 C40 | memory of the object as state | simulation by `Core`, induction on histories; C39_not_dense by a run in XReal; C40_memory_*/C40_returned_*: the data, guess and answer against a column-major memory specification (Spec/Memory.lean) | Examples.lean, Memory.lean |
| C09_finite_dense C49_history_dense | what a call leaves in the workspaces of the feasibility checker (`Core.solveWs`), reals with infinities and NaN | corresponding runs leave corresponding workspaces (Proofs/UpWs), induction on histories; then C09 over the reals | NonFiniteHistory.lean |
| C09_blind_dense C09_not_dense | the same | the last check leaves `b` behind, `0 * inf` is NaN, NaN fails the comparison; two concrete histories | NonFiniteHistory.lean |
| C11 C20 C21 | same | invariants at ℝ | Examples.lean, FalseAlarms.lean |
| C13 | Cholesky/LDLT/Riccati never fail for convex data | positive definiteness by induction over columns and stages; C13_throws_* are runs; C13_not_binary64_* are runs in IEEE arithmetic (Singular.lean, SingularMpc.lean) | Examples.lean |
| C14 C46 | list of messages | trace of the loops; C14_parts_* and C66_parts_*: whose residual the summary shows (Proofs/Parts) | Examples.lean |
| C15 | the line search's log lines | trace | Examples.lean |
| C09_binary64_* C09_history_unchecked_dense C10_binary64_mpc C15_binary64_* | the same in IEEE double precision, dot products in any order; for FBstabDense with the check switched off | the theorems for an arbitrary scalar; validation is total for doubles (C01_binary64) | DoubleHistory.lean |
| C16 C17 C18 C19 C43 | `pfb`, residuals | analysis of the penalised Fischer-Burmeister function, convexity | Examples.lean |
| C57_rounded_* C57_binary64_lastBit | how unsolvable a problem can be if SUCCESS is reported, in any rounded arithmetic; a problem without feasible points that is solved in `double` with residual 0 | C62 and the algebra of C57; a run in binary64 with one rounded product | UnsolvableRounded.lean |
| C22 C23 | certificates | algebra; negations by complete runs (FalseAlarms.lean) | Examples.lean, FalseAlarms.lean |
| C22_false_alarms_* C23_false_alarms_* | the failures of C22 and C23 for whole families of problems (Spec/Boxes.lean): all convex problems with symmetric bounds at equilibrium; all convex problems with a slope of curvature at most 1e-8; any dimensions and horizon, both solvers, default options | an invariant of the iterates of the first subproblem (on a line through the guess), then the certificate (Proofs/Boxes, Proofs/Slopes) | FalseAlarmsAll.lean |
| C24 C31 C32 | LDLT/LLT, `pfbGradient`, Newton step | factorisation identities with pivoting, derivative along the direction | Newton.lean examples |
| C25 C26 | Riccati recursion | block elimination by induction on the horizon; both solvers run the same `Core` | Examples.lean |
| C27 C28 C29 C30 | flattened vectors of mpc_data.cc | index arithmetic, block matrices | Mpc.lean |
| C33 C34 C35 C36 C37 | validation, bounds-checked accesses | exact characterisation of throwing | Sizes.lean, Examples.lean |
| C38 | MatrixSequence, Map | index arithmetic; `int` overflow with the limit 2^31 | Sequences.lean |
| C42 | OcpGenerator | shapes, convexity, explicit trajectories for every horizon | for each generator |
| C44 | stall exit | quantitative residual bounds | Stall.lean |
| C45 | void inequalities | Fejér monotonicity and exact Newton steps | C45_example |
| C47 C48 | outer and inner loop | quantitative proximal point and damped Newton analysis | C48_example, MPC example |
| C49 | XReal run = lifted real run | simulation of the two arithmetics | Finite.lean |
| C50 | Newton limit | trace of the last subproblem | NewtonLimit.lean |
| C51 C52 C53 | two calls | congruence of the loops in options and guess | Examples.lean |
| C54 | whole `Solve` | equality with the relation `Method.Run`, which has one result | Props/Method.lean |
| C55 | OcpGenerator's numbers | evaluation of the stage matrices against the plants of Spec/Benchmarks | Benchmarks.lean |
| C56 C57 | results over ℝ | duality, Farkas-type bounds from the residual | Duality.lean |
| C58 | runs over ℝ on problems without a solution | least shift exists (limit of proximal points along an ultrafilter); inexact proximal steps are firmly nonexpansive, so their differences approach shift/sigma; Newton counts as in C48 on the shifted problem; C58_minimiser: KKT point iff minimiser iff feasible and bounded below | Detection.lean, Existence.lean |
| C59 | pairs of runs over ℝ | the method of C54 commutes with signed permutations (all norms it uses are invariant), and it is deterministic | Symmetry.lean |
| C60 | runs over XReal | NaN persists through each entry of residuals, Newton steps (Cholesky substitutions, Riccati recursion) and iterates; only this is used, so skipped zeros or the order of sums in Eigen do not matter; no claim about infinity norms of NaN vectors, which Eigen leaves unspecified | NaNExamples.lean; C60_not_dense is a run |
| C61 | runs over XReal | 0 * inf is NaN in the residual of a pair with infinite margin, then as C60; or residual and tolerance are both inf, then C12 | InfiniteExamples.lean |
| C62 | runs over any `K` with a `Rounding`; `Binary64.rounding_of_order` shows that binary64 is one, whatever the order of summation | a finite residual has finite inputs (NaN and infinities propagate); running error analysis of the residual's entries, of its norm and of the tolerance | RoundingExamples.lean, RoundingExamplesMpc.lean: default solvers in binary64 |
| C63 | runs over any `K` with a `Rounding` | running error analysis of the sums, norms and dot products of the last check; the flag of a call is the verdict of its last check; DenseData multiplies old workspace contents by 0, so these must be finite (C39_not_dense shows the need), MpcData does not | RoundedCertificatesExamples.lean |
| C64 | runs over ℝ from the cold start | closed form of the Newton iterates of the first subproblem, invariant under every step length | DecoupledExamples.lean: both flags, dense and MPC |
| C65 | runs over any `K` with a `Rounding`; C65_not_dense over binary64 | error analysis of b - A z; the counterexample is a run of a new solver evaluated operation by operation in binary64 (Proofs/Binary64Eval) | RoundedMarginExamples.lean: default solvers in binary64; C65_not_dense is a run |
| C66 | Model/Print: the texts, field widths and the 100 byte buffer, for any text of numbers; Spec/Printf: a reader of `printf` format strings and, for each message, the format string and arguments of the source; Spec/Text: `%.4e` and `%e` of a binary64 | bound on counts by the limits, on exponents by the format, hence 97 characters per message; each text of the model equals the `printf` of its format (Proofs/Printf) | TextExamples.lean: numbers, and the text printed by a run in binary64 |
| C67 | Model/Qdldl: `QdldlWrapper`, with the external library QDLDL as a parameter; Spec/Qdldl: what its header promises | invariant over histories of `Factor`; quasi-definite matrices have regular leading submatrices | a library that keeps the promises (dense inverse) and a 2 x 2 matrix |
| C68 | nothing new; Spec/Quadratic: what quadratic convergence looks like in the log, the explicit neighbourhood `Basin` | linearisation error of the penalized Fischer-Burmeister function seen from a strictly complementary pair, error bound for subproblems, induction over the method (C54); the constants are explicit because `exists delta` would be met by guesses that are already within the tolerance | a run with `sigma0 = 1` from `z = 1 + 1e-10`, whose log contains a Newton step; the same for an optimal control problem |
| C69 | nothing new; Spec/Sensitivity: the gap left open by residuals and multipliers | monotonicity of the KKT operator between two approximate solutions | two calls from different guesses, and an optimal control problem |
| C70 | nothing new; Spec/Accuracy: distances and objective errors from residuals without `v >= 0` | C62, then monotonicity of the KKT operator and weak duality with inexact complementarity and a drifting margin | binary64 runs of a dense and an optimal control problem |
| C71 | nothing new; Spec/Origin: the problem in moved coordinates, also stage by stage | the method of C54 commutes with translations of z and l, and it is deterministic; C53 for runs with infeasibility checks | a moved run with one proximal iteration, every optimal control problem, every solution |
| C71_not | nothing new | translations make |(f,h,b)| as large as one likes when H, G or A is nonzero (in MPC the initial state alone does it) and leave the residual of the guess alone, so C12 applies; C12_only in the given coordinates | default options, guess 1 for a scalar problem; every optimal control problem and guess |
| C72 | nothing new; Spec/Padding: where the constraints go among more constraints, `0 z <= bound` for the others | the method of C54 commutes with adding them (a new pair (bound, 0) has residual 0 and its Newton equation is solved by 0, so its multiplier stays 0), flags included; uniqueness. C72_not: the bounds enter \|(f, h, b)\| but not the residual, then C12 | a run with one proximal iteration and two constraints more; every optimal control problem with vacuous rows, against FBstabDense; default options |
| C73 | nothing new; Spec/Tolerance: `Looser` (every norm within one tolerance is within the other; over the reals and for finite floating point numbers this is `<=`, C73_looser_*) | simulation of the two functional main loops: the options enter the subproblems without the three tolerances, so the runs agree until the looser one stops; messages rendered from the traces |
| C74 | nothing new | as C73, with the limits: the two main loops agree until the smaller limit stops one of them, which may be in the middle of a subproblem (its trace is then an initial part of the other's) |
| C75 | nothing new; over the reals | as C73, with infeas_tol: a certificate at one tolerance is one at every larger tolerance (checkFeasibility_real), so the runs agree until the larger tolerance reports infeasibility |
| C76 | nothing new; Spec/Widening: where the unknowns and equations go among more of them, `H` extended by a nonnegative diagonal, everything else by zeros | as C72: the method of C54 commutes with it (the Newton equations of the new unknowns and equations are solved by 0, all norms, certificates and \|(f, h, b)\| are unchanged), uniqueness; C76_drop: what is idle or empty can be taken out; C76_ragged: idle inputs and vacuous constraints together | a run with one proximal iteration, two unknowns and three equations more; every optimal control problem with idle inputs (Ocp.idle), against FBstabDense |

No property is "cannot be expressed".  Properties whose English statement is false of the code are proved in
the part that is true and their negation is a theorem (C01 NaN, C07, C09, C13, C22, C23, C28, C31, C35, C37, C39, C60, C61, C65).

## 4. Trusted base

* Lean's kernel; every theorem depends only on propext, Classical.choice, Quot.sound (checked by vcheck).
* The reading of the code by the model: every definition cites the file and lines it models, and says what is
  simplified.
* Modelled from documentation, not from source (Eigen is not in /repo): `LLT`, `LDLT` (with its pivoting,
  transpositions and the threshold on the pivots in `solve`), triangular solves, the comma initialiser.
  Theorems over ℝ about the factorisations hold for these definitions; theorems for any `K` do not depend on them.
* Order of summation: the dot product (inside norms, products, factorisations and triangular solves) is an operation
  of the scalar type, so the theorems for any `K` hold for every order of the additions and also if products and
  additions are fused; C62, C63 and C65 hold for binary64 in any such order (`Binary64.rounding_of_order`, with
  `SumOrder` in Spec/SumOrder.lean; proved).  What the model does fix: `y + a * (A x)` is a dot product followed by a
  product and an addition, the order is the same for equal operands, and there is one zero instead of +0 and -0.  The witnesses over `XReal` and binary64
  add from left to right.
* Not modelled: the clock (`solve_time`), how `%f` writes the elapsed time (a parameter of C66), failing
  allocation, threads, compiler optimisations, Eigen assertions other than the size checks made explicit.
  `int` counters and options are unbounded integers (options are bounded by the caller; sizes of sequences are
  checked against 2^31).  The C library QDLDL is not in the repository: C67 holds for every library that
  keeps the promises written down in Spec/Qdldl.lean.  `std::sin` values in CopolymerizationReactor are a parameter.

## 5. Findings about the code

1. NaN options pass ValidateOptions (C01).
2. Options that pass validation make Solve throw from `saturate`: inner_tol_min > inner_tol_max or > tolerance (C13).
3. On the proximal limit the reported residual belongs to an earlier iterate (C07_stale).
4. Feasible problems are reported PRIMAL_INFEASIBLE: the sign of v is not checked (C22_false_alarm); problems
   with minimisers are reported DUAL_INFEASIBLE with default options (C23_false_alarm).  Both happen for whole families of
   problems, with FBstabDense and with FBstabMpc (C22_false_alarms_*, C23_false_alarms_*).
5. `MpcData::gemvGT` omits B'v for a not in {1, -1} (C28).
6. Inside the disc of radius 1e-13 the generalised gradient is a constant that is not a gradient (C31).
7. Columns of q, r, c, d are not checked (C35); y is not checked by FBstabDense (C37): out of bounds accesses.
8. FBstabDense's feasibility workspace is not initialised: NaN there changes results (C39_not_dense).
9. stall_tol >= ||ones|| makes Solve return SUCCESS for any guess (C44).
10. At a simultaneous Newton and inner limit the best-of comparison uses a stale residual (C50).
11. SpacecraftRelativeMotion uses 2 n^2 where the Clohessy-Wiltshire equations have 3 n^2 (C55).
12. The README's dual objective has b'l + h'v; the dual that the returned multipliers solve has h'l + b'v (C56).
13. A NaN in FBstabDense's Hessian is masked by the pivot threshold of `LDLT::solve`: default options return
    SUCCESS with residual NaN (C60_not_dense).
14. Infinite bounds do not work: with the guess 0 they never lead to SUCCESS, with a positive multiplier the
    residual and the tolerance are both inf and any guess is returned as SUCCESS (C61).
15. Documentation: the header says rel_tol scales ||pi(x0)||, the code 1 + ||(f, h, b)||; the first ITER line
    prints a stale inner residual; after a failed line search the printed inner residual is that of the last
    tried step; InnerResidual's documentation claims exceptions that are not thrown.
16. The returned `y` is updated by increments and never recomputed from `z`, so in floating point arithmetic
    the residual that is tested uses a margin that may differ from b - A z; C62 is therefore about the returned
    `y` (over the reals they agree, C11).
17. Hence SUCCESS does not imply feasibility in double precision: on `min 2^29 z^2 s.t. 2^41 z <= -8` from the
    guess z = -2^17, a new solver with the default options reports SUCCESS with residual 0 and returns z = 0,
    y = 8, although b - A z = -8 (C65_not_dense).  The residual of the returned variables evaluated anew is above
    7, so a second call does not return at once: the warm start of C51 holds over the reals only.
18. In double precision Solve throws "LinearSolver::Initialize failed." on convex problems that have a solution,
    with a new solver, default options and guess 0: sigma0 = 1e-8 is absorbed when it is added to entries of size
    2^30 and the singular Hessian stays singular (C13_not_binary64_dense, C13_not_binary64_mpc).

19. FBstabDense remembers infinities and NaN of earlier calls: a feasibility check leaves `b` and `h` in the workspaces,
   and the first check of the next call computes `A z + 0.0 * b_old`. After a call with a bound of infinity (a usual
   way to switch a bound off) the next call, with finite data, misses dual infeasibility at its first check
   (C09_blind_dense, C09_not_dense).

20. A default-constructed `AlgorithmParameters` has sigma_max = 1e-8, outside the range [1e-6, 1e2] that validation
    enforces: UpdateOptions silently raises it to 1e-6 (C02_fresh).
21. `QdldlWrapper::Factor` drops the error code of `QDLDL_factor`: after a matrix with a zero pivot `Solve` runs on what
    is left in the arrays; `Factor` does not check that the pattern is the one of the constructor (C67 assumes it).
22. With rel_tol > 0 (the default) the answer depends on the origin of the coordinates, without limit: for every problem with
    a nonzero matrix and every guess, some translation of the unknowns makes Solve return SUCCESS at once with the guess
    unchanged, because the tolerance grows with |(f, h, b)| (C71_not). For MPC a far-away initial state is enough.
23. Padding the stages of an MPC problem with `0 <= b` is harmless only if the bounds are moderate: they enter the tolerance
    (rel_tol > 0), and with bounds of 1e12 times the residual every guess is accepted at once (C72_not_mpc).

## 6. Wrong programs

seeded/LOG.jsonl: edits of the model (and, where an internal lemma mirrors the edited code, of the pure
version as well, so that the property itself is tested), the claims they break and the theorems that failed.
