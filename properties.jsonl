{"id": "C01", "title": "Validated options are always in range", "statement": "After UpdateOptions(o), every numeric option the solver will use lies in its documented range (sigma_min<=sigma0<=sigma_max, 0.001<=alpha<=0.999, 0.1<=beta<=0.99, positive tolerances, iteration limits >= 1, ...), and UpdateOptions never throws. NaN options are the exception: they are stored as they are (negation proved).", "quantifier": "all option structs whose numeric fields are real numbers, binary64 numbers or +-infinity (range part); all option structs at all, including NaN (never throws part)", "why_tests_cant": "the option space is an unbounded product of doubles and ints; clamping bounds that depend on other options (sigma0) can invert only for unlucky combinations", "anchors": ["fbstab/fbstab_algorithm-impl.h:AlgorithmParameters::ValidateOptions", "fbstab/fbstab_algorithm-impl.h:UpdateParameters", "tools/utilities.h:saturate"]}
{"id": "C02", "title": "Options that are already valid are kept", "statement": "UpdateOptions keeps every option that is already in range exactly as given, validating twice is the same as validating once, and the Default and Reliable presets pass through unchanged. A default-constructed AlgorithmParameters is not in range: only its sigma_max (1e-8) is changed, to 1e-6.", "quantifier": "all option structs over the reals and in binary64, including NaN among the other options (each option that is in range is kept; validating twice)", "why_tests_cant": "needs every in-range combination of 21 options", "anchors": ["fbstab/fbstab_algorithm-impl.h:ValidateOptions,DefaultParameters,ReliableParameters", "fbstab/fbstab_dense.cc:UpdateOptions", "fbstab/fbstab_mpc.cc:UpdateOptions"]}
{"id": "C03", "title": "The last UpdateOptions wins and Solve never changes options", "statement": "After any history of UpdateOptions and Solve calls (including Solve calls that threw) the options in force are the validated argument of the last UpdateOptions, or the default options if there was none.", "quantifier": "all histories of API calls on one solver object, any arithmetic", "why_tests_cant": "quantifies over unbounded call histories", "anchors": ["fbstab/fbstab_dense.h:FBstabDense", "fbstab/fbstab_mpc.h:FBstabMpc", "fbstab/fbstab_algorithm-impl.h:UpdateParameters"]}
{"id": "C04", "title": "Iteration limits are respected and Solve terminates", "statement": "Every Solve call returns or throws after finitely many steps; on return prox_iters <= max_prox_iters, newton_iters <= max_newton_iters and newton_iters <= max_inner_iters * (prox_iters + 1).", "quantifier": "all data, guesses, options, solver states and any floating point behaviour", "why_tests_cant": "the bound must hold whatever the numerical values do (NaN, stagnation, rounding)", "anchors": ["fbstab/fbstab_algorithm-impl.h:Solve,SolveProximalSubproblem"]}
{"id": "C05", "title": "Meaning of the exit flag", "statement": "The flag is SUCCESS, MAXITERATIONS or an infeasibility flag, never DIVERGENCE; infeasibility flags only occur when check_feasibility is on; MAXITERATIONS only when newton_iters reached max_newton_iters or prox_iters reached max_prox_iters.", "quantifier": "all data, guesses, options, solver states, any arithmetic", "why_tests_cant": "all execution paths", "anchors": ["fbstab/fbstab_algorithm-impl.h:Solve", "fbstab/fbstab_algorithm.h:ExitFlag"]}
{"id": "C06", "title": "SUCCESS means the stopping test holds at the returned point", "statement": "When Solve returns SUCCESS the residual in the output is the norm of the penalized natural residual of the returned (z,l,v,y), and either it is <= abs_tol + rel_tol*(1+||(f,h,b)||), or the last proximal step (the all-ones vector before the first step) has norm <= stall_tol.", "quantifier": "all data, guesses, options, solver states, any arithmetic", "why_tests_cant": "the residual object is shared by the loops, so staleness depends on the execution path", "anchors": ["fbstab/fbstab_algorithm-impl.h:Solve", "fbstab/components/full_residual.cc"]}
{"id": "C07", "title": "The reported residual belongs to the returned point", "statement": "The residual field of the output is the residual at the returned point. True on SUCCESS and when the Newton limit stops the solver; FALSE when the proximal iteration limit stops it (negation proved: the code reports the residual of an earlier iterate).", "quantifier": "all data, guesses, options, solver states, any arithmetic", "why_tests_cant": "which iterate was evaluated last depends on the path through both loops", "anchors": ["fbstab/fbstab_algorithm-impl.h:Solve lines 187-223, PrepareOutput"]}
{"id": "C08", "title": "initial_residual is the residual of the initial guess", "statement": "initial_residual in the output always equals the penalized natural residual norm of (z,l,v) as passed in with y = b - A z, whatever y the caller passed.", "quantifier": "all calls that return, any arithmetic", "why_tests_cant": "all execution paths", "anchors": ["fbstab/fbstab_algorithm-impl.h:Solve lines 139-147"]}
{"id": "C09", "title": "A Solve call does not depend on the solver's history", "statement": "The outcome of Solve (flag, counts, residuals, z, l, v, y, exception) is a function of options, problem data and (z,l,v): it does not depend on previous Solve/UpdateOptions calls on the same object, on the contents of its workspaces, or on the y passed in. For FBstabMpc with any arithmetic; for FBstabDense over the reals, and in arithmetic with infinities and NaN as long as every number passed to the object so far was finite. One earlier FBstabDense call with an infinite or NaN bound breaks it: the first feasibility check of the next call cannot report dual infeasibility any more, although a fresh object does (see also C39).", "quantifier": "all pairs of reachable solver states, all data and guesses", "why_tests_cant": "workspace reuse bugs only show for particular call sequences", "anchors": ["fbstab/fbstab_mpc.h:Solve", "fbstab/fbstab_dense.h:Solve", "fbstab/components/riccati_linear_solver.cc", "fbstab/components/dense_cholesky_solver.cc"]}
{"id": "C10", "title": "Exceptions leave the caller's vectors and options alone", "statement": "If Solve throws, the caller's z, l, v and y are exactly as before the call and the options are unchanged; the next call behaves as on a fresh object.", "quantifier": "all data, guesses, options, states, any arithmetic", "why_tests_cant": "needs every throwing path at every iteration", "anchors": ["fbstab/fbstab_algorithm-impl.h:Solve,SolveProximalSubproblem"]}
{"id": "C11", "title": "Returned y is the constraint margin", "statement": "On every normal return y = b - A z for the returned z (for infeasibility exits too, where z is the certificate direction).", "quantifier": "all data, guesses, options over the reals", "why_tests_cant": "y is updated incrementally by axpy and never recomputed; drift along some path would break it", "anchors": ["fbstab/components/full_variable.cc:axpy,InitializeConstraintMargin", "fbstab/fbstab_algorithm-impl.h:WriteVariable"]}
{"id": "C12", "title": "A guess that is already good enough is returned untouched", "statement": "If the initial guess meets the stopping test, Solve returns SUCCESS with 0 proximal and 0 Newton iterations and z, l, v bit-identical to the guess.", "quantifier": "all data, guesses, options, any arithmetic in which the inner tolerance can be initialised", "why_tests_cant": "all inputs", "anchors": ["fbstab/fbstab_algorithm-impl.h:Solve lines 158-170"]}
{"id": "C13", "title": "Solve does not throw on convex problems", "statement": "For symmetric positive semidefinite H (MPC: each stage Hessian) and validated options with inner_tol_min <= inner_tol_max and inner_tol_min <= the stopping tolerance abs_tol + rel_tol*(1+||(f,h,b)||), Solve returns normally. Without the inner tolerance conditions this is FALSE (negations proved): options that pass validation make Solve throw from tools::saturate. In IEEE double precision it is FALSE as well (negation proved): the regularisation sigma0 can be absorbed by rounding and Initialize then fails on a convex problem that has a solution.", "quantifier": "all convex data of any dimension, all guesses, all such options, over the reals", "why_tests_cant": "the factorisation must succeed at every iterate of every run", "anchors": ["fbstab/fbstab_algorithm-impl.h:Solve lines 148-180, 263-273", "tools/utilities.h:saturate", "fbstab/components/riccati_linear_solver.cc:Initialize"]}
{"id": "C14", "title": "Display level only affects printing", "statement": "With Display::OFF nothing is printed; with FINAL exactly the 8 summary messages of the returned output are printed, last; nothing is printed by FINAL if Solve throws. The columns |rz|, |rl|, |rv| of the summary are the norms of the Lagrangian gradient, of the equality defect and of the complementarity residual of one point, which is the returned point on SUCCESS and at the Newton limit. The returned output, z, l, v, y do not depend on display_level.", "quantifier": "all data, guesses, options, states, any arithmetic", "why_tests_cant": "all paths", "anchors": ["fbstab/fbstab_algorithm-impl.h:Print*", "tools/output_stream.h"]}
{"id": "C15", "title": "Line search: accepted steps", "statement": "The Newton iterations of a Solve call, as its detailed log reports them: each accepted step length is t = beta^j with j <= max_linesearch_iters; either the Armijo test against the current merit (or, nonmonotone, the largest of the last 5 merits of the subproblem) holds at x + t*dx, or j = max_linesearch_iters and the step is taken without the test; no larger tried step length passed the test.", "quantifier": "all iterates of all runs, any arithmetic", "why_tests_cant": "the step is taken inside nested loops on shared residual workspaces", "anchors": ["fbstab/fbstab_algorithm-impl.h:SolveProximalSubproblem,InsertMerit,MaxMerit"]}
{"id": "C16", "title": "Zero residual is equivalent to the KKT conditions", "statement": "The residual norm reported by the solver is 0 exactly when (z,l,v) satisfies Hz+f+G'l+A'v=0, Gz=h, Az<=b, v>=0, (b-Az)'v=0.", "quantifier": "all QPs and points over the reals, all alpha in (0,1)", "why_tests_cant": "all points of R^n", "anchors": ["fbstab/components/full_residual.cc:PenalizedNaturalResidual,NaturalResidual"]}
{"id": "C17", "title": "What a small residual guarantees", "statement": "If the reported residual is <= eps then ||Hz+f+G'l+A'v|| <= eps, ||Gz-h|| <= eps, each (Az-b)_i <= eps/alpha, each v_i >= -eps/alpha and |min(y_i, v_i)| <= eps/alpha.", "quantifier": "all QPs, points and eps", "why_tests_cant": "all points", "anchors": ["fbstab/components/full_residual.cc"]}
{"id": "C18", "title": "Solutions are global minimisers", "statement": "If H is symmetric positive semidefinite, a point with zero residual minimises 1/2 z'Hz+f'z over the feasible set; and a point with residual eps returned by SUCCESS is eps-suboptimal with an explicit constant against every feasible point.", "quantifier": "all convex QPs, all feasible competitors", "why_tests_cant": "optimality quantifies over the whole feasible set", "anchors": ["fbstab/components/full_residual.cc", "fbstab/fbstab_dense.h"]}
{"id": "C19", "title": "Proximal subproblem residual", "statement": "The inner residual R(x,xbar,sigma) is zero exactly when x satisfies the KKT system of the proximally regularised problem; for convex H and sigma>0 it has at most one zero; and R(x,x,sigma)=0 iff x solves the QP.", "quantifier": "all QPs, points, sigma>0", "why_tests_cant": "all points", "anchors": ["fbstab/components/full_residual.cc:InnerResidual,pfb"]}
{"id": "C20", "title": "Returned multipliers are nonnegative", "statement": "On SUCCESS or MAXITERATIONS, either the initial z,l,v is returned unchanged or v >= 0 componentwise.", "quantifier": "all data, guesses, options over the reals", "why_tests_cant": "all paths", "anchors": ["fbstab/components/full_variable.cc:ProjectDuals", "fbstab/fbstab_algorithm-impl.h"]}
{"id": "C21", "title": "Infeasibility flags come with a certificate", "statement": "If Solve returns PRIMAL_INFEASIBLE (or PRIMAL_DUAL), the returned (l,v) satisfies |A'v+G'l|_inf <= infeas_tol*|(v,l)|_inf and b'v+h'l < 0; if DUAL_INFEASIBLE (or PRIMAL_DUAL), the returned z satisfies max(Az) <= tol|z|, |Gz| <= tol|z|, |Hz| <= tol|z|, f'z<0, |z|>1e-14. Otherwise feasibility flags are not raised.", "quantifier": "all data, guesses, options over the reals (flag logic: any arithmetic)", "why_tests_cant": "all runs", "anchors": ["fbstab/components/full_feasibility.cc:CheckFeasibility", "fbstab/fbstab_algorithm-impl.h:CheckForInfeasibility"]}
{"id": "C22", "title": "PRIMAL_INFEASIBLE means the constraints are inconsistent", "statement": "A certificate with v>=0 and A'v+G'l=0, b'v+h'l<0 proves that no z satisfies Gz=h, Az<=b; with tolerance, every feasible point has 1-norm at least |b'v+h'l|/(tol*|(v,l)|). FALSE as implemented: v>=0 is not checked, and a feasible problem is reported PRIMAL_INFEASIBLE (end-to-end negation proved).", "quantifier": "all QPs and certificates", "why_tests_cant": "all feasible points", "anchors": ["fbstab/components/full_feasibility.cc"]}
{"id": "C23", "title": "DUAL_INFEASIBLE means the objective is unbounded", "statement": "An exact certificate direction makes the objective tend to -infinity from every feasible point. FALSE as implemented with a positive tolerance: with the default options a convex problem with a minimiser is reported DUAL_INFEASIBLE (end-to-end negation proved).", "quantifier": "all QPs, certificates and feasible points", "why_tests_cant": "unbounded domains", "anchors": ["fbstab/components/full_feasibility.cc"]}
{"id": "C24", "title": "Dense Newton step is exact", "statement": "For H symmetric positive semidefinite, sigma greater than the smallest normal double (2.2250738585072014e-308) and alpha in (0,1), DenseCholeskySolver::Initialize returns true at every x, xbar, and Solve returns the unique solution of the Newton system V(x,xbar,sigma) dx = r with dx.y = b - A dx.z.", "quantifier": "all dense QPs of all dimensions, all points and right hand sides, over the reals", "why_tests_cant": "all dimensions and data", "anchors": ["fbstab/components/dense_cholesky_solver.cc"]}
{"id": "C25", "title": "Riccati Newton step is exact", "statement": "For stage Hessians positive semidefinite, sigma>0, alpha in (0,1), RiccatiLinearSolver::Initialize returns true, and Solve returns the unique solution of V dx = r for the compact form of the problem.", "quantifier": "all horizons, dimensions, data, points and right hand sides, over the reals", "why_tests_cant": "unbounded horizon and dimensions", "anchors": ["fbstab/components/riccati_linear_solver.cc:Initialize,Solve"]}
{"id": "C26", "title": "FBstabMpc and FBstabDense agree", "statement": "On a convex optimal control problem FBstabMpc returns exactly what FBstabDense returns for the compact form (same flag, counts, residuals, z, l, v, y), and prints exactly the same messages with the same numbers, except that the subproblem residual shown in the first ITER line is left over from the previous call (equal if both objects are new).", "quantifier": "all convex OCPs, guesses, options over exact reals", "why_tests_cant": "all horizons and data; every iterate must agree", "anchors": ["fbstab/fbstab_mpc.h", "fbstab/fbstab_dense.h"]}
{"id": "C27", "title": "MPC operators implement the compact matrices", "statement": "gemvH, gemvA, gemvG, gemvAT (any a, b) and gemvGT (a = +-1) of MpcData equal y <- a*M*x+b*y for the compact H, A, G of the documented block structure; axpyf/h/b add a*f, a*h, a*b; gemvA/gemvAT and gemvG/gemvGT are adjoint.", "quantifier": "all horizons, dimensions, vectors, scalars over the reals", "why_tests_cant": "block index arithmetic for every size", "anchors": ["fbstab/components/mpc_data.cc"]}
{"id": "C28", "title": "gemvGT with general scaling", "statement": "gemvGT computes y <- a*G'*x + b*y. FALSE for a not in {1,-1} (negation proved): the control part B'v is omitted. Proved for a = 1, a = -1 and for the state part for every a.", "quantifier": "all scalars a", "why_tests_cant": "the solver itself only uses a = 1, so its tests never reach the branch", "anchors": ["fbstab/components/mpc_data.cc:gemvGT lines 186-194"]}
{"id": "C29", "title": "The compact QP is the optimal control problem", "statement": "z satisfies Gz=h iff x(0)=x0 and x(i+1)=A(i)x(i)+B(i)u(i)+c(i); Az<=b iff E(i)x(i)+L(i)u(i)+d(i)<=0; 1/2z'Hz+f'z is the stage cost sum. Hence points returned with zero residual are optimal trajectories.", "quantifier": "all OCPs and trajectories over the reals", "why_tests_cant": "all horizons", "anchors": ["fbstab/components/mpc_data.h", "fbstab/components/mpc_data.cc"]}
{"id": "C30", "title": "ForcingNorm is the norm of (f,h,b)", "statement": "ForcingNorm() of DenseData and MpcData is sqrt(|f|^2+|h|^2+|b|^2) for the (compact) problem, so the relative tolerance has the same meaning in both solvers.", "quantifier": "all data over the reals", "why_tests_cant": "all sizes", "anchors": ["fbstab/components/mpc_data.h:62-98", "fbstab/components/dense_data.h"]}
{"id": "C31", "title": "Generalised gradient of the penalized Fischer-Burmeister function", "statement": "PFBGradient(a,b) is the gradient of the residual function pfb wherever |(a,b)| >= 1e-13 and pfb is differentiable, and at the kinks it is a limit of gradients of nearby points; its entries are nonnegative and gamma, mu+sigma*gamma > 0 keep the Newton system nonsingular. Inside the disc |(a,b)| < 1e-13 it is a fixed vector that is not the gradient (negation proved).", "quantifier": "all a, b, alpha in (0,1), sigma > 0", "why_tests_cant": "all reals", "anchors": ["fbstab/components/riccati_linear_solver.cc:PFBGradient", "fbstab/components/dense_cholesky_solver.cc:PFBGradient", "fbstab/components/full_residual.cc:pfb"]}
{"id": "C32", "title": "Newton directions are descent directions", "statement": "Where the residual is differentiable the Newton direction computed by the solver satisfies grad(merit)'dx = -2*merit, so the line search stops with an Armijo step for small enough steps.", "quantifier": "all convex QPs, points, over the reals", "why_tests_cant": "all points", "anchors": ["fbstab/fbstab_algorithm-impl.h:SolveProximalSubproblem", "fbstab/components/full_residual.cc:Merit"]}
{"id": "C33", "title": "Constructors reject exactly the bad sizes", "statement": "FBstabDense(nz,nl,nv) throws iff nz<=0 or nl<0 or nv<=0; FBstabMpc(N,nx,nu,nc) throws iff one of them is < 1; otherwise all internal components are constructed without throwing.", "quantifier": "all ints", "why_tests_cant": "all ints", "anchors": ["fbstab/fbstab_dense.cc:FBstabDense", "fbstab/fbstab_mpc.cc:FBstabMpc"]}
{"id": "C34", "title": "Data validation is exact", "statement": "FBstabDense::Solve throws a size error before touching anything iff the data are inconsistent or do not match the solver, or z,l,v have the wrong size.", "quantifier": "all run-time sizes of data and guesses", "why_tests_cant": "all sizes", "anchors": ["fbstab/components/dense_data.h:DenseData", "fbstab/fbstab_dense.h:ValidateInputs"]}
{"id": "C35", "title": "MPC data validation", "statement": "FBstabMpc::Solve throws a size error iff the sequences' lengths, row counts and column counts do not match the documented shapes. FALSE as implemented: the column counts of q, r, c, d are not checked and such data leads to undefined behaviour (negation proved); true when those four are column sequences.", "quantifier": "all run-time sizes", "why_tests_cant": "all sizes", "anchors": ["fbstab/components/mpc_data.cc:ValidateInputs", "fbstab/fbstab_mpc.h:ValidateInputSizes"]}
{"id": "C36", "title": "No undefined behaviour after validation", "statement": "Once a Solve call has passed validation (and y has the right size or is an owning vector) no size mismatch, out of range access, null data access or other undefined behaviour occurs, and only std::runtime_error can be thrown.", "quantifier": "all data, guesses, options, histories, any arithmetic", "why_tests_cant": "all paths", "anchors": ["fbstab/fbstab_dense.h", "fbstab/fbstab_mpc.h", "fbstab/fbstab_algorithm-impl.h"]}
{"id": "C37", "title": "FBstabDense does not check the size of y", "statement": "FBstabDense::Solve is safe for every x it accepts. FALSE (negation proved): a VariableRef with a wrong-size y passes validation and is written out of bounds.", "quantifier": "all guesses", "why_tests_cant": "needs the bad size and the successful path", "anchors": ["fbstab/fbstab_dense.h:ValidateInputs", "fbstab/fbstab_algorithm-impl.h:WriteVariable"]}
{"id": "C38", "title": "Matrix sequences", "statement": "MatrixSequence/MapMatrixSequence: construction throws iff sizes are bad (and is undefined from 2^31 elements on); operator()(k) throws out_of_range iff k is out of [0,N); element (i,j) of matrix k is data[k*nr*nc + j*nr + i]; writes to one matrix are read back and do not affect others; a Map of a MatrixSequence reads the same values.", "quantifier": "all lengths, sizes, indices and write histories (without int overflow)", "why_tests_cant": "all sizes and histories", "anchors": ["tools/matrix_sequence.h"]}
{"id": "C39", "title": "Uninitialised workspaces never influence results", "statement": "The outcome of any sequence of calls on a solver does not depend on what its freshly allocated memory contained. This holds, with infinities and NaN in the arithmetic and in the memory, for FBstabMpc and for FBstabDense with feasibility checking off, and over the reals for FBstabDense; it FAILS for FBstabDense with default options if the memory holds NaN: there is a problem for which a fresh object reports DUAL_INFEASIBLE after the first subproblem when the memory holds zeros and does not when it holds NaN.", "quantifier": "all memory contents", "why_tests_cant": "malloc contents are not controllable by tests", "anchors": ["fbstab/components/full_feasibility.cc:12-25,33-41", "fbstab/components/dense_data.cc:gemv*"]}
{"id": "C40", "title": "Owning and reference inputs give the same result", "statement": "Solve gives the same result for ProblemData and ProblemDataRef, and for Variable and VariableRef, holding the same values. The problem it solves and the guess it starts from consist of exactly the numbers in the caller's memory (matrices stored by columns, sequences one matrix after the other), and after a call that returns the caller's vectors z, l, v and y have the sizes of the problem and hold the returned point.", "quantifier": "all data and guesses, any arithmetic", "why_tests_cant": "all data and all layouts of it; a test with symmetric or square matrices does not see a transposition", "anchors": ["fbstab/fbstab_dense.h", "fbstab/fbstab_mpc.h"]}
{"id": "C41", "title": "saturate", "statement": "saturate(x,a,b) returns the point of [a,b] closest to x and throws iff a > b.", "quantifier": "all reals", "why_tests_cant": "all reals", "anchors": ["tools/utilities.h:saturate"]}
{"id": "C42", "title": "Generated OCPs are well formed and solvable", "statement": "For every horizon N >= 1 that fits an int the data produced by OcpGenerator passes FBstabMpc validation, repeats the given stage matrices over the horizon (no state constraint at stage 0), has convex stage costs and an admissible trajectory, and FBstabMpc::Solve returns on it for every guess; N <= 0 throws.", "quantifier": "all horizons and stage sizes", "why_tests_cant": "all horizons", "anchors": ["fbstab/test/ocp_generator.cc:CopyOverHorizon", "fbstab/test/ocp_generator.cc:DoubleIntegrator, ServoMotor, SpacecraftRelativeMotion, CopolymerizationReactor"]}
{"id": "C43", "title": "Exact proximal steps never move away from a solution", "statement": "If x+ solves the proximal subproblem at x exactly (inner residual zero) then for every KKT point x*, |x+ - x*|^2 + |x+ - x|^2 <= |x - x*|^2 in (z,l,v), for convex H.", "quantifier": "all convex QPs with a solution, all sigma>0", "why_tests_cant": "all points", "anchors": ["fbstab/components/full_residual.cc:InnerResidual"]}
{"id": "C44", "title": "SUCCESS by stall", "statement": "If SUCCESS is reported because the last proximal step was <= stall_tol (residual above the stopping tolerance, prox_iters >= 1, newton_iters < max_inner_iters), the KKT violations of the returned point are bounded by t + sigma*stall_tol and a multiple of t/alpha with t = max(inner_tol_min, inner_tol_max*delta^prox_iters), up to a change of v of size 2t/alpha. With stall_tol >= ||ones|| every guess is reported as SUCCESS at once, with an arbitrarily large residual (proved; validation accepts such options).", "quantifier": "all runs over the reals", "why_tests_cant": "all runs", "anchors": ["fbstab/fbstab_algorithm-impl.h:Solve line 164"]}
{"id": "C45", "title": "Problems without inequality constraints are solved", "statement": "A convex problem whose inequality constraints are void (A = 0, b >= 0) and which has a solution is solved: with check_feasibility off and tolerances ordered, from any guess with v = 0, Solve returns SUCCESS after at most K proximal iterations, with exactly one Newton iteration each, and no farther from the solution than the guess, whenever sigma^2*|x0 - x*|^2 <= K*tol^2 and K is below the iteration limits.", "quantifier": "all problem sizes, convex data with A = 0 and b >= 0, guesses with v = 0, solutions, validated options and K; both solvers", "why_tests_cant": "It is a convergence statement for every problem of the class, every guess and every option; tests only sample them.", "anchors": ["fbstab/fbstab_algorithm.h: FBstabAlgorithm::Solve, SolveSubproblem", "fbstab/components/dense_cholesky_solver.cc: Initialize, Solve", "fbstab/components/riccati_linear_solver.cc: Initialize, Solve"]}
{"id": "C46", "title": "The progress log is truthful", "statement": "With Display::ITER, Solve prints a header and one line per proximal iterate k = 0, 1, ...: its number, the number of Newton steps that led to it (the count Solve reports when stopped after k proximal iterations), the norms of the three parts of the KKT residual of that iterate, and the tolerance in force (initial residual clamped to [inner_tol_min, inner_tol_max], then times delta and clamped to [inner_tol_min, residual]); there is one line more than the reported prox_iters unless the proximal limit ended the run. With Display::ITER_DETAILED it prints one block per subproblem, headed by the iterate's number, Newton count and residual; each listed iterate that is not accepted costs exactly one Newton step of the reported total, unaccepted iterates have inner residual above inner_tol_min, and the block has a footer exactly if an iterate was accepted.", "quantifier": "all scalar arithmetics, problem sizes, data, guesses, options and prior histories of the solver object; both solvers; all runs that return", "why_tests_cant": "The log must agree with the iterates for every run; tests capture no output.", "anchors": ["fbstab/fbstab_algorithm-impl.h: PrintIterLine, PrintIterHeader, PrintDetailedHeader, PrintDetailedLine, PrintDetailedFooter, Solve, SolveSubproblem"]}
{"id": "C47", "title": "The proximal iteration converges", "statement": "Let a convex problem have a solution at distance at most D from the guess, with slacks and multipliers at most M. If K proximal iterations are enough in an explicit sense (room for steps of the length a residual above tolerance implies, inner tolerances small against that length) and max_prox_iters > K, max_inner_iters >= max_newton_iters, then Solve returns SUCCESS after at most K proximal iterations and no farther than an explicit bound from that solution, unless it has used exactly max_newton_iters Newton iterations, or feasibility checking is on and it returned an infeasibility flag.", "quantifier": "all convex problems with a solution, all guesses, all options in range meeting the inequality, dense and MPC, all histories", "why_tests_cant": "a convergence guarantee over all convex data and starting points", "anchors": ["fbstab/fbstab_algorithm-impl.h:Solve", "fbstab/fbstab_algorithm-impl.h:SolveProximalSubproblem"]}
{"id": "C48", "title": "Solve converges", "statement": "Let a convex problem have a primal-dual solution at distance at most D from the guess, with slacks and multipliers at most M. There are explicit numbers, computed from the Frobenius norms of H, G and A, from D, M, the tolerances and the options, such that if the iteration limits exceed them (and inner_tol_min is not too small compared with the 1e-13 threshold used in the Newton matrix) Solve does not throw and returns SUCCESS after at most K proximal iterations with a point within a stated distance of the solution (with checking on it may instead report an infeasibility code).", "quantifier": "all convex problems with a solution, all guesses, all options in range meeting the stated inequalities, solver histories; dense and MPC; real arithmetic", "why_tests_cant": "a convergence theorem: it must hold for every problem and guess, through every inner, Newton and line search iteration", "anchors": ["fbstab/fbstab_algorithm-impl.h:Solve", "fbstab/fbstab_algorithm-impl.h:SolveProximalSubproblem", "fbstab/components/dense_cholesky_solver.cc", "fbstab/components/riccati_linear_solver.cc"]}
{"id": "C49", "title": "Finite data never produce infinities or NaN", "statement": "In arithmetic with infinities and NaN (but no rounding), Solve on finite data with options in the documented ranges returns or throws, and writes to the caller's vectors, exactly the finite numbers that real arithmetic gives: no division by zero and no square root of a negative number ever happens. For FBstabDense with checking on, the memory of the feasibility checker must be free of infinities and NaN when the object is constructed; it then stays so through every history of calls with finite data.", "quantifier": "all finite problem data (convex or not), guesses, options in range, histories; dense and MPC", "why_tests_cant": "every pivot, square root and division of every iteration must be checked for every input", "anchors": ["fbstab/components/dense_cholesky_solver.cc", "fbstab/components/riccati_linear_solver.cc", "fbstab/fbstab_algorithm-impl.h"]}
{"id": "C50", "title": "What is returned at the Newton limit", "statement": "When max_newton_iters stops Solve during its subproblem number prox_iters, the returned point is the last proximal iterate, or, if that has a smaller residual, the last Newton iterate with negative multipliers replaced by zero; over the reals the reported residual is at most (1 + ||A||_F/alpha) times that of the last proximal iterate. (Exception stated: if max_inner_iters is reached in the same step, the comparison uses an older point's residual.)", "quantifier": "all data, guesses, options, solver histories, any arithmetic (characterisation) / reals (bound); dense and MPC", "why_tests_cant": "which of two iterates is kept depends on the whole path", "anchors": ["fbstab/fbstab_algorithm-impl.h:Solve lines 187-199", "fbstab/fbstab_algorithm-impl.h:SolveProximalSubproblem"]}
{"id": "C51", "title": "Warm starting from a solution is free and idempotent", "statement": "If Solve returned SUCCESS with a residual within the stopping tolerance, calling it again on the same object with the same data and the variables it wrote back returns SUCCESS at once with the same residual, zero iterations, and leaves the variables unchanged.", "quantifier": "all data, guesses, options with max_prox_iters >= 1, solver histories; real arithmetic; dense and MPC", "why_tests_cant": "relates two consecutive calls for every problem and every way the first one converged", "anchors": ["fbstab/fbstab_algorithm-impl.h:Solve", "fbstab/fbstab_dense.h:Solve", "fbstab/fbstab_mpc.h:Solve"]}
{"id": "C52", "title": "Iteration limits that are not reached have no effect", "statement": "A call that did not return MAXITERATIONS and took fewer Newton iterations in total than max_inner_iters returns the same result and variables under any limits that exceed the reported iteration counts.", "quantifier": "all data, guesses, options, new limits, solver histories, any arithmetic; dense and MPC", "why_tests_cant": "compares two runs step by step for every path length", "anchors": ["fbstab/fbstab_algorithm-impl.h:Solve", "fbstab/fbstab_algorithm-impl.h:SolveProximalSubproblem"]}
{"id": "C53", "title": "Feasibility checking changes nothing unless infeasibility is reported", "statement": "A call that returned SUCCESS or MAXITERATIONS returns the same result, the same variables and the same printed text with check_feasibility off and any infeas_tol.", "quantifier": "all data, guesses, options, infeasibility tolerances, solver histories, any arithmetic; dense and MPC", "why_tests_cant": "compares two runs for every path; the checker has its own memory that could leak into the solve", "anchors": ["fbstab/fbstab_algorithm-impl.h:Solve", "fbstab/components/dense_feasibility.cc", "fbstab/components/mpc_feasibility.cc"]}
{"id": "C54", "title": "Solve performs exactly the FBstab method", "statement": "On convex problems and in exact arithmetic, what Solve returns, reports, prints and throws is the only result of the proximally stabilised Fischer-Burmeister method started at the guess: Newton directions solve the linearised subproblem, the step is the first power of beta passing the (non)monotone decrease test, a subproblem ends at the first acceptable iterate or a limit, multipliers are clipped, certificates are tested on every proximal step, tolerances follow the documented schedule, and every printed number is the number it is said to be.", "quantifier": "all convex QPs and optimal control problems, all validated options, all guesses, all display levels, all solver histories", "why_tests_cant": "it fixes the whole behaviour on every path; tests compare final answers of a few runs", "anchors": ["fbstab/fbstab_algorithm-impl.h:Solve", "fbstab/fbstab_algorithm-impl.h:SolveProximalSubproblem", "fbstab/fbstab_dense.cc", "fbstab/fbstab_mpc.cc"]}
{"id": "C55", "title": "The generated benchmark problems are the documented ones", "statement": "For every horizon, the data and the simulation inputs obtained from OcpGenerator after DoubleIntegrator, ServoMotor, SpacecraftRelativeMotion or CopolymerizationReactor pose exactly the regulation problem described: initial state, dynamics (double integrator; geared servo motor by forward Euler 0.05; relative orbital motion with velocity impulses, 30 s; the modal reactor model), input limits at every stage, state limits at every stage but the first, running cost, outputs and simulation length. The getters throw iff no problem was created. (The spacecraft equations have 2n^2 where Clohessy-Wiltshire has 3n^2.)", "quantifier": "all horizons that fit an int, all trajectories, any previous use of the generator", "why_tests_cant": "tests compare a few solver outputs for one horizon; a wrong sign or entry in one stage passes them", "anchors": ["fbstab/test/ocp_generator.cc:DoubleIntegrator", "fbstab/test/ocp_generator.cc:ServoMotor", "fbstab/test/ocp_generator.cc:SpacecraftRelativeMotion", "fbstab/test/ocp_generator.cc:CopolymerizationReactor", "fbstab/test/ocp_generator.cc:CopyOverHorizon", "fbstab/test/ocp_generator.cc:GetSimulationInputs"]}
{"id": "C56", "title": "The returned multipliers solve the dual problem", "statement": "For a convex problem the dual is: minimise 1/2 z'Hz + h'l + b'v subject to Hz + f + G'l + A'v = 0, v >= 0. If a call returns SUCCESS with residual 0, the returned (z,l,v) minimises the dual, z minimises the primal, and the two objectives sum to zero. For any residual, SUCCESS from a guess with nonnegative multipliers bounds the duality gap, on both sides, by the residual times an explicit multiple of the size of the returned point. (The dual objective printed in the README, with b and h exchanged, is not this problem.)", "quantifier": "all convex problems, sizes, guesses, options, solver histories; dense and MPC interfaces, over the reals", "why_tests_cant": "tests never look at the multipliers as a dual solution, and a gap bound is a statement about all problems", "anchors": ["README.md", "fbstab/fbstab_algorithm-impl.h:Solve", "fbstab/components/full_residual.cc"]}
{"id": "C57", "title": "Problems without solutions are not reported as solved", "statement": "If a combination of the constraints is contradictory (G'l + A'v = 0, v >= 0, h'l + b'v < 0) or there is a recession direction of descent (Hd = 0, Gd = 0, Ad <= 0, f'd < 0), a call that returns SUCCESS (or stops at the Newton limit) reports a residual at least |h'l + b'v| / (|l| + sum v / alpha), resp. |f'd| / (|d| + sum(-Ad) / alpha). Hence SUCCESS is never reported on such a problem when the tolerances are below explicit thresholds and the Newton total stayed below max_inner_iters.", "quantifier": "all infeasible or unbounded problems, all certificates, guesses, options, solver histories", "why_tests_cant": "tests run a few infeasible problems from one guess", "anchors": ["fbstab/fbstab_algorithm-impl.h:Solve", "fbstab/components/full_feasibility.cc"]}
{"id": "C58", "title": "Problems without solutions are noticed", "statement": "Every convex problem has a least shift of (f, h, b) that makes it solvable; it is zero exactly for problems with a KKT point, so a convex problem has a KKT point iff it and its dual are feasible, and iff it has a minimiser, and iff it is feasible and its cost is bounded below; otherwise a contradictory combination of the constraints or a recession direction of descent exists. With check_feasibility on, if the limiting step (the least shift divided by sigma) passes a test for infeasibility with a margin r, Solve returns within an explicit number K of proximal iterations: with explicit bounds on the iteration limits it does not return MAXITERATIONS, and if the tolerances are too small for the problem to be taken for solved it returns an infeasibility flag.", "quantifier": "all convex problems without a solution, all guesses within a distance D, options, solver histories; dense and MPC interfaces, over the reals", "why_tests_cant": "tests run two infeasible problems from one guess; the claim is about all problems and needs convergence of the differences of the iterates", "anchors": ["fbstab/fbstab_algorithm-impl.h:Solve", "fbstab/fbstab_algorithm-impl.h:CheckForInfeasibility", "fbstab/components/full_feasibility.cc"]}
{"id": "C59", "title": "The order in which a problem is written down does not matter", "statement": "Listing unknowns, equations and inequalities in another order (columns and rows of H, G, A and entries of f, h, b and of the guess), and changing signs of unknowns and equations, changes nothing but the order and signs of the returned vectors: the report (flag, residuals, iteration counts), an exception, and everything printed are the same. For FBstabMpc: the same for states, controls and constraints within each stage.", "quantifier": "all convex problems, all orders and signs, all guesses, options and solver histories; dense and MPC interfaces, over the reals", "why_tests_cant": "a statement about all pairs of runs on n! * 2^n versions of every problem", "anchors": ["fbstab/fbstab_dense.cc:Solve", "fbstab/fbstab_mpc.cc:Solve", "fbstab/fbstab_algorithm-impl.h:Solve"]}
{"id": "C60", "title": "NaN in the inputs is never reported as a solved problem", "statement": "If some number of the problem or of the initial guess is NaN, Solve does not return SUCCESS; in any case SUCCESS is never accompanied by a residual that met the tolerance.", "quantifier": "all problems and guesses with a NaN anywhere (matrices, vectors, initial state, guess), all reachable solvers and options whose stall tolerance is below the norm of the vector of ones; dense and MPC interfaces, arithmetic with NaN and infinities", "why_tests_cant": "a NaN at any position of any problem, for every continuation of the run", "anchors": ["fbstab/fbstab_algorithm-impl.h:Solve", "fbstab/fbstab_algorithm-impl.h:SolveProximalSubproblem", "fbstab/components/dense_cholesky_solver.cc:Initialize", "fbstab/components/riccati_linear_solver.cc:Initialize", "fbstab/components/full_residual.h"]}
{"id": "C61", "title": "What Solve does with bounds at infinity", "statement": "A bound at infinity (b(i) = +inf, d(i) = -inf in an MPC problem) is not treated as an absent constraint. If the guess has a multiplier that is not positive there (such as the guess 0), Solve never returns SUCCESS. If all multipliers at infinite bounds are positive, data and guess are finite otherwise and rel_tol > 0, Solve returns SUCCESS at once with residual +inf and the guess as answer, whatever the problem is.", "quantifier": "all problems with at least one infinite bound, all guesses, reachable solvers and options; dense and MPC interfaces, arithmetic with NaN and infinities", "why_tests_cant": "ranges over all problems, all positions of infinite bounds and all continuations of the run", "anchors": ["fbstab/components/full_residual.cc:PenalizedNaturalResidual", "fbstab/components/full_residual.cc:InnerResidual", "fbstab/components/dense_data.h:ForcingNorm", "fbstab/components/mpc_data.h:ForcingNorm", "fbstab/fbstab_algorithm-impl.h:Solve"]}
{"id": "C62", "title": "SUCCESS means an approximate KKT point in floating point arithmetic too", "statement": "In IEEE binary64 arithmetic (and any arithmetic with relative rounding error u, overflow, underflow, infinities and NaN): if the problem data, options and the tolerance abs_tol + rel_tol (1 + |(f, h, b)|) are finite and Solve returns SUCCESS by the residual test, then the returned z, l, v, y are finite, and their exact real values satisfy the KKT conditions of the exact problem: |Hz + f + G'l + A'v| and |h - Gz| are at most the tolerance plus about (4 (nz + nl + nv) + 8) u times the sizes of the terms, and alpha |min(y_i, v_i)| is at most the tolerance (with a relative error of that order). No matter how inaccurate the factorisations and steps were.", "quantifier": "all arithmetics with the stated rounding properties (binary64 with every order of summation in dot products, with or without fused multiply-add), all problems with finite data, guesses, solver objects and options with 0 <= alpha <= 1; dense and MPC interfaces", "why_tests_cant": "ranges over all data, all rounding errors of all operations and all executions", "anchors": ["fbstab/fbstab_algorithm-impl.h:Solve", "fbstab/components/full_residual.cc:PenalizedNaturalResidual", "fbstab/components/full_residual.cc:Norm", "fbstab/components/dense_data.cc:gemvH", "fbstab/components/mpc_data.cc:gemvH", "fbstab/components/mpc_data.cc:gemvGT"]}
{"id": "C63", "title": "Infeasibility flags are certificates in floating point arithmetic too", "statement": "In IEEE binary64 arithmetic (and any arithmetic with relative rounding error u, overflow, underflow, infinities and NaN): if the data are finite and the sums in the last infeasibility check do not overflow, then a flag that claims primal infeasibility means that the exact values of the returned (l, v) satisfy |A'v + G'l| <= infeas_tol max(|v|, |l|) and b'v + h'l < 0 up to the rounding error of evaluating them once, and a flag that claims dual infeasibility means that the exact value of the returned z satisfies Az <= tol, |Gz| <= tol, |Hz| <= tol (tol = infeas_tol |z|), f'z < 0 and z != 0 up to the same error. No matter how inaccurate the steps were. Such certificates bound feasible (dual feasible) points away: they must be large.", "quantifier": "all arithmetics with the stated rounding properties, all problems with finite data, guesses, solver objects and options; dense and MPC interfaces", "why_tests_cant": "ranges over all data, all rounding errors of all operations and all executions", "anchors": ["fbstab/components/full_feasibility.cc:CheckFeasibility", "fbstab/fbstab_algorithm-impl.h:CheckForInfeasibility", "fbstab/components/dense_data.cc:gemvAT", "fbstab/components/mpc_data.cc:gemvGT", "fbstab/components/mpc_data.cc:axpyh"]}
{"id": "C64", "title": "Infeasibility that shows at the cold start is reported in the first proximal iteration", "statement": "With exact arithmetic, from the guess 0: if f is a direction that H, G and A do not see, h is orthogonal to the range of G, negative bounds occur only in rows that read 0 <= b_i, the problem is convex and its residual at 0 is above the tolerances, then Solve returns after the first proximal iteration, reports primal infeasibility if and only if h != 0 or some b_i < 0, and dual infeasibility if and only if f != 0; both verdicts are right.", "quantifier": "all convex problems of the stated form and any size, reachable solvers and options with max_inner_iters < max_newton_iters; dense and MPC interfaces", "why_tests_cant": "ranges over all problems of the form, all sizes and options, and all sequences of line search steps of the subproblem", "anchors": ["fbstab/fbstab_algorithm-impl.h:Solve", "fbstab/fbstab_algorithm-impl.h:SolveProximalSubproblem", "fbstab/components/full_feasibility.cc:CheckFeasibility"]}
{"id": "C65", "title": "SUCCESS without iterating means the inequality constraints hold, also in floating point", "statement": "In any arithmetic with bounded rounding errors, in particular IEEE double precision: if Solve returns SUCCESS without a proximal iteration, the returned y is b - A z up to the rounding error of evaluating it once, and A z <= b holds up to the tolerance and that error. After iterations this is false: y is updated by increments, and with default options a new solver can return SUCCESS with residual 0 at a point that violates a constraint by 8.", "quantifier": "all problems, sizes, guesses, options with alpha in [0,1] and non-negative finite tolerances, and all rounded arithmetics; dense and MPC interfaces; the counterexample for every initial content of the memory", "why_tests_cant": "ranges over all data, guesses and rounding behaviours; a test compares a few runs with a tolerance", "anchors": ["fbstab/components/full_variable.cc:InitializeConstraintMargin", "fbstab/components/full_variable.cc:axpy", "fbstab/fbstab_algorithm-impl.h:Solve"]}
{"id": "C66", "title": "Nothing that is printed is cut off", "statement": "Each message is formatted into a buffer of 100 characters. For all data, options with int limits, guesses and values of the residuals (finite, infinite or NaN), every message that Solve prints, whether it returns or throws, fits: the text on the output is the text that the format strings describe. At level FINAL a call that returns prints exactly the summary: the flag in words, the two counts with their limits, and the three parts of the returned residual with the stopping tolerance in scientific notation.", "quantifier": "all problems, sizes, guesses, options with int limits and display levels; for binary64 every value of every printed number; elapsed times whose text has at most 40 characters; dense and MPC interfaces", "why_tests_cant": "ranges over all counts up to the limits and all values of the printed numbers, including extreme exponents", "anchors": ["fbstab/fbstab_algorithm-impl.h:PrintIterLine", "fbstab/fbstab_algorithm-impl.h:PrintDetailedLine", "fbstab/fbstab_algorithm-impl.h:PrintFinal", "tools/output_stream.h:StandardOutput"]}
{"id": "C67", "title": "The sparse factorisation wrapper solves the last factored system", "statement": "QdldlWrapper: the constructor accepts exactly the compressed upper triangular patterns with an entry in every column (unless the factor overflows int) and throws otherwise; after Factor(A) with a symmetric quasi-definite A of that pattern, Solve replaces x by the solution of A y = x, whatever was factored before, also matrices that cannot be factored; the arrays handed to the library always have the sizes it needs.", "quantifier": "all patterns, all matrices with the pattern, all histories of Factor and Solve calls, over the reals, for every library that keeps the promises of the header of QDLDL", "why_tests_cant": "the only test factors one 10 x 10 matrix once", "anchors": ["tools/qdldl/qdldl_wrapper.h:QdldlWrapper"]}
{"id": "C68", "title": "Quadratic convergence from a good guess", "statement": "Let the problem be convex and let the guess be close to a strictly complementary solution (no constraint is active with multiplier zero); how close is an explicit condition on the sizes of H, G, A, the margin of complementarity and the options. Then every Newton step of every subproblem is a full step, the residual of the subproblem after the step is at most a constant times the square of the residual before it, the i-th Newton iterate of every subproblem has a residual of at most (1/2)^(2^i) divided by that constant, and no subproblem takes more than N Newton iterations, where N is the number of squarings needed to get below inner_tol_min. At the display level ITER_DETAILED this is visible in the log.", "quantifier": "all convex problems of all sizes with a strictly complementary solution, all guesses in the explicit neighbourhood, all validated options and display levels, all solver objects with any history; over the reals; dense and MPC interfaces", "why_tests_cant": "the rate of convergence is a statement about all iterates from all guesses in a neighbourhood; a test sees one run", "anchors": ["fbstab/fbstab_algorithm-impl.h:SolveProximalSubproblem", "fbstab/components/dense_cholesky_solver.cc:DenseCholeskySolver::Initialize", "fbstab/components/riccati_linear_solver.cc:RiccatiLinearSolver::Initialize"]}
{"id": "C69", "title": "How far results can be apart, and from the solution", "statement": "If two calls of Solve (of the same or different objects, with any histories, options and nonnegative multiplier guesses) return SUCCESS for problems with the same H, G and A, then d'Hd, for the difference d of the two returned z, is at most (eps + eps' + |f-f'|) |d| + g, where g is computed from the reported residuals eps, eps', the returned multipliers and the changes of h and b; if the objective is strongly convex with modulus mu then |d| <= (eps + eps' + |f-f'|)/mu + sqrt(g/mu). Against an exact solution (z*,l*,v*) of the KKT conditions the same holds with g = eps (|l-l*| + nv/(1-alpha) + sum v* / alpha): the returned z tends to the minimiser as the residual tends to zero.", "quantifier": "all pairs of problems with common H, G, A, all guesses, options and histories, all exact solutions", "why_tests_cant": "The exact minimiser is not available to a test, and the bound must hold for every pair of problems, guesses and options.", "anchors": ["fbstab/fbstab_dense.h:FBstabDense::Solve", "fbstab/fbstab_mpc.h:FBstabMpc::Solve", "fbstab/fbstab_algorithm-impl.h:FBstabAlgorithm::Solve", "fbstab/components/full_residual.cc:FullResidual::PenalizedNaturalResidual"]}
{"id": "C70", "title": "SUCCESS means close to the minimiser and to the optimal value, in floating point too", "statement": "In any arithmetic with rounding, overflow and underflow (binary64 among them), if the problem data and the stopping tolerance are finite and Solve reports SUCCESS by its residual test, then the returned z, l, v, y are finite and, for every exact solution (z*,l*,v*) of the quadratic program, (z-z*)'H(z-z*) is at most S|z-z*| + T|l-l*| + D|v-v*| + c sum_i(|y_i|+|v_i|+(b-Az*)_i+v*_i); the objective at z exceeds that of any feasible point, and falls below the optimal value, by at most similar expressions. S, T, c are the tolerance of the options plus the rounding error of evaluating the residual once, and D = |y-(b-Az)| is the drift of the returned margin.", "quantifier": "all arithmetics with relative rounding error u and underflow eta, all problems, options, guesses, histories and exact solutions", "why_tests_cant": "The exact minimiser is not available to a test; the claim ranges over all problems and all roundings of all operations of the run.", "anchors": ["fbstab/fbstab_dense.h:FBstabDense::Solve", "fbstab/fbstab_mpc.h:FBstabMpc::Solve", "fbstab/fbstab_algorithm-impl.h:FBstabAlgorithm::Solve", "fbstab/components/full_residual.cc:FullResidual::PenalizedNaturalResidual"]}
{"id": "C71", "title": "The origin of the coordinates does not matter", "statement": "Measure the unknowns and the multipliers of the equations from another origin: let f' = f - Hc - G'd, h' = h + Gc, b' = b + Ac and let the guess be (z+c, l+d, v). For a convex problem, when the tolerance does not depend on the coordinates (rel_tol = 0, or |(f',h',b')| = |(f,h,b)|) and infeasibility checks are off, Solve prints exactly the same, returns the same report or throws the same exception, and returns (z+c, l+d, v, y). With checks on (they compare f'dz and b'dv + h'dl with zero and so do depend on the origin) the same holds whenever both calls return and neither reports infeasibility. For optimal control problems the origin is a reference trajectory with multipliers, stage by stage. The condition on the tolerance cannot be dropped: with rel_tol > 0, for every problem with a nonzero H, G or A (every optimal control problem) and every guess, in some coordinates Solve returns SUCCESS with zero iterations and the guess unchanged, even where in the given coordinates it does not.", "quantifier": "all convex problems, all translations of z and l (of states, controls and costates), all guesses, options with the stated tolerance, histories", "why_tests_cant": "A relation between two complete runs, for every problem, guess and real translation; floating point tests see rounding instead.", "anchors": ["fbstab/fbstab_algorithm-impl.h:FBstabAlgorithm::Solve", "fbstab/fbstab_dense.h:FBstabDense::Solve", "fbstab/fbstab_mpc.h:FBstabMpc::Solve", "fbstab/components/full_feasibility.cc:FullFeasibility::CheckFeasibility"]}
{"id": "C72", "title": "Constraints that restrict nothing change nothing, unless their bounds are large", "statement": "Add to a convex problem, anywhere among its inequalities, constraints 0 z <= b with b >= 0 (FBstabMpc wants the same number of constraints in every stage, so users do this), with guess 0 for their multipliers. With rel_tol = 0, Solve returns the same report or throws the same exception, prints the same lines (up to the leftover shown for iterate 0 at level ITER) and returns the same point, with multiplier 0 and y = b for the new constraints; infeasibility checks included. So FBstabMpc with padded stages does what FBstabDense does with the problem without the padding. With rel_tol > 0, as by default, this is false without limit: the bounds of the padding enter the tolerance, and for every problem and every guess, sufficiently large bounds make Solve return SUCCESS with zero iterations and the guess unchanged.", "quantifier": "all convex problems, all numbers and places of the additional constraints, all bounds, guesses and histories", "why_tests_cant": "A relation between two complete runs of two objects of different sizes, for every problem and every padding.", "anchors": ["fbstab/fbstab_algorithm-impl.h:FBstabAlgorithm::Solve", "fbstab/fbstab_mpc.h:FBstabMpc::Solve", "fbstab/fbstab_dense.h:FBstabDense::Solve", "fbstab/components/full_residual.cc:FullResidual::PenalizedNaturalResidual", "fbstab/components/riccati_linear_solver.cc:RiccatiLinearSolver::PFBGradient", "fbstab/components/full_feasibility.cc:FullFeasibility::CheckFeasibility"]}
{"id": "C73", "title": "The tolerances only decide when to stop", "statement": "abs_tol, rel_tol and stall_tol influence nothing but the moment at which Solve stops. If the same call is made with looser tolerances, then either everything observable is the same (result or exception, variables, and every printed line except the tolerance in the summary), or the looser call returns SUCCESS with a residual above the tighter tolerance (and within the looser one, if stall_tol was not loosened), after at most as many proximal and Newton iterations as the tighter call, with the same initial_residual, and everything it printed before its summary is an initial part of what the tighter call prints. In particular MAXITERATIONS, an infeasibility flag or an exception obtained with loose tolerances is obtained, unchanged, with every tighter one.", "quantifier": "all data, guesses, options, looser tolerances, solver histories, any arithmetic; dense and MPC", "why_tests_cant": "A relation between two complete runs for every pair of tolerances and every path.", "anchors": ["fbstab/fbstab_algorithm-impl.h:FBstabAlgorithm::Solve", "fbstab/fbstab_algorithm-impl.h:FBstabAlgorithm::SolveProximalSubproblem", "fbstab/fbstab_algorithm-impl.h:FBstabAlgorithm::PrintFinal"]}
{"id": "C74", "title": "Larger iteration limits only continue the run", "statement": "If the same call is made with larger max_prox_iters and max_newton_iters, then either everything observable is the same (result or exception, variables, and every printed line except the limits in the summary), or the call with the smaller limits returned MAXITERATIONS, with at most as many proximal and Newton iterations as the call with the larger limits and the same initial_residual, and everything it printed before its summary is an initial part of what the call with the larger limits prints. In particular SUCCESS, an infeasibility flag or an exception is never lost or altered by larger limits.", "quantifier": "all data, guesses, options, larger limits, solver histories, any arithmetic; dense and MPC", "why_tests_cant": "A relation between two complete runs for every pair of limits and every path; one of the runs stops in the middle of a subproblem.", "anchors": ["fbstab/fbstab_algorithm-impl.h:FBstabAlgorithm::Solve", "fbstab/fbstab_algorithm-impl.h:FBstabAlgorithm::SolveProximalSubproblem"]}
{"id": "C75", "title": "The infeasibility tolerance only decides when infeasibility is reported", "statement": "Over the reals: if the same call is made with a larger infeas_tol, then either everything observable is the same (result or exception, variables, printed text), or the call with the larger tolerance reports infeasibility (one of the three flags), after at most as many proximal and Newton iterations and with the same initial_residual, and everything it printed before its summary is an initial part of what the other call prints. In particular SUCCESS, MAXITERATIONS or an exception obtained with a large infeas_tol is obtained, unchanged, with every smaller one.", "quantifier": "all data, guesses, options, larger tolerances, solver histories; dense and MPC", "why_tests_cant": "A relation between two complete runs for every pair of tolerances and every path; it rests on the certificates of the checker being monotone in the tolerance.", "anchors": ["fbstab/fbstab_algorithm-impl.h:FBstabAlgorithm::Solve", "fbstab/fbstab_algorithm-impl.h:FBstabAlgorithm::CheckForInfeasibility", "fbstab/components/full_feasibility.cc:FullFeasibility::CheckFeasibility"]}
{"id": "C76", "title": "Unknowns and equations that play no role change nothing", "statement": "Add to a convex problem, anywhere among the others, unknowns that occur nowhere except with a nonnegative quadratic cost of their own, and equations 0 z = 0 (whoever keeps one solver object for problems of several sizes, or has fewer inputs in some stages of an MPC problem, does this), with guess 0 for them and their multipliers. Then Solve returns the same report or throws the same exception, prints the same lines (up to the leftover shown for iterate 0 at level ITER) and returns the same point, with 0 for the new unknowns and multipliers; v and y are the same. This holds for all tolerances, unlike C72, and with infeasibility checks. So FBstabMpc with idle inputs does what FBstabDense does with the problem without them; with rel_tol = 0 it may have both idle inputs and constraints that restrict nothing (C72), in any stages.", "quantifier": "all convex problems, all numbers and places of the additional unknowns and equations, all nonnegative costs, options with stall_tol < 1, guesses and histories", "why_tests_cant": "A relation between two complete runs of two objects of different sizes, for every problem and every way of filling it up.", "anchors": ["fbstab/fbstab_algorithm-impl.h:FBstabAlgorithm::Solve", "fbstab/fbstab_mpc.h:FBstabMpc::Solve", "fbstab/fbstab_dense.h:FBstabDense::Solve", "fbstab/components/full_residual.cc:FullResidual::InnerResidual", "fbstab/components/riccati_linear_solver.cc:RiccatiLinearSolver::Solve", "fbstab/components/dense_cholesky_solver.cc:DenseCholeskySolver::Solve", "fbstab/components/full_feasibility.cc:FullFeasibility::CheckFeasibility"]}
