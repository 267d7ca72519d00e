import Verif.Spec.Api

/-!
# Comparing outcomes, and the documented error messages
-/

namespace Fbstab

/-- The run `o'` went the same way as `o`: it returned the same values in the same caller vectors,
or it threw the same `std::runtime_error`. -/
structure Outcome.SameAs {K S S' : Type} (o : Outcome K S) (o' : Outcome K S') : Prop where
  ok : ∀ out, o.result = .ok out → o'.result = .ok out ∧ o'.x = o.x
  error : ∀ m, o.result = .error (.runtimeError m) → o'.result = .error (.runtimeError m)

/-- The outcome is one C++ defines: no undefined behaviour was reached. -/
def Outcome.Defined {K S : Type} (o : Outcome K S) : Prop :=
  ∀ w, o.result ≠ .error (.undefinedBehaviour w)

/-- The messages of the exceptions that `FBstabAlgorithm::Solve` throws, with the message of the
linear solver. -/
def algorithmErrors (linear : String) : List String :=
  ["In tools::saturate: upper bound must be larger than the lower bound",
   "In FBstabAlgorithm::Solve: LinearSolver::Initialize failed.", linear]

/-- dense_cholesky_solver.cc:39-42 -/
def denseErrors : List String :=
  algorithmErrors "In DenseCholeskySolver::Factor: sigma must be positive."

/-- riccati_linear_solver.cc:81-84 -/
def mpcErrors : List String :=
  algorithmErrors "In RiccatiLinearSolver::Initialize: sigma must be positive."

/-- The size errors of `FBstabDense::Solve`: dense_data.h:50-64, fbstab_dense.h:169-180. -/
def denseSizeErrors : List String :=
  ["In DenseData::DenseData: H must be square and the same size as f",
   "In DenseData::DenseData: Sizing of data defining Az <= b is inconsistent.",
   "In DenseData::DenseData: Sizing of Gz = h is inconsistent.",
   "In FBstabDense::Solve: mismatch between *this and data dimensions.",
   "In FBstabDense::Solve: mismatch between *this and initial guess dimensions."]

/-- The size errors of `FBstabMpc::Solve`: mpc_data.cc:291-363, fbstab_mpc.h:229-242. -/
def mpcSizeErrors : List String :=
  ["Horizon length must be at least 1.", "Sequence length mismatch in input data to MpcData.",
   "Size mismatch in x0 input to MpcData.", "Size mismatch in Q input to MpcData.",
   "Size mismatch in S input to MpcData.", "Size mismatch in q input to MpcData.",
   "Size mismatch in E input to MpcData.", "Size mismatch in A input to MpcData.",
   "Size mismatch in B input to MpcData.", "Size mismatch in c input to MpcData.",
   "Size mismatch in R input to MpcData.", "Size mismatch in r input to MpcData.",
   "Size mismatch in L input to MpcData.", "Size mismatch in d input to MpcData.",
   "In FBstabMpc::Solve: mismatch between *this and data dimensions.",
   "In FBstabMpc::Solve: mismatch between *this and initial guess dimensions."]

/-- Two sequences with the same sizes in which every read gives the same. -/
structure MapSequence.SameValues {K : Type} [Zero K] (s s' : MapSequence K) : Prop where
  N : s'.N = s.N
  nr : s'.nr = s.nr
  nc : s'.nc = s.nc
  read : ∀ k i j, s'.read k i j = s.read k i j

/-- Two MPC problems with the same sizes and values. -/
structure MpcProblem.SameValues {K : Type} [Scalar K] (p p' : MpcProblem K) : Prop where
  Q : p.Q.SameValues p'.Q
  R : p.R.SameValues p'.R
  S : p.S.SameValues p'.S
  q : p.q.SameValues p'.q
  r : p.r.SameValues p'.r
  A : p.A.SameValues p'.A
  B : p.B.SameValues p'.B
  c : p.c.SameValues p'.c
  E : p.E.SameValues p'.E
  L : p.L.SameValues p'.L
  d : p.d.SameValues p'.d
  x0 : p'.x0 = p.x0

/-- The summary that is printed at the end of a run: impl:492-541. -/
def summary {K : Type} (o : Params K) (out : SolverOut K) (rz rl rv tol : K) : List (Msg K) :=
  [.finalBanner, .finalFlag out.eflag, .finalTime, .finalProx out.proxIters o.maxProxIters,
    .finalNewton out.newtonIters o.maxNewtonIters, .finalColumns, .finalNorms rz rl rv tol,
    .finalBlank]

end Fbstab
