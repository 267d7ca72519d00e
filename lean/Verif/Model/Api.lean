import Verif.Model.Algorithm
import Verif.Model.MatrixSequence

/-!
# The public classes `FBstabDense` and `FBstabMpc`

Construction, option updates and `Solve` with run-time sized inputs: fbstab_dense.{h,cc},
fbstab_mpc.{h,cc} and the validation in dense_data.h, mpc_data.{h,cc}.

Memory that the code allocates without initialising it (the linear solvers' and the feasibility
checker's workspaces) is given by an argument of the constructors.
-/

namespace Fbstab
variable {K : Type} [Scalar K]

/-- `Variable` (`isMap = false`) or `VariableRef` (`isMap = true`) as the user passes it to `Solve`:
fbstab_dense.h:84-107, fbstab_mpc.h:122-150. -/
structure CallerVar (K : Type) where
  isMap : Bool
  z : DVec K
  l : DVec K
  v : DVec K
  y : DVec K

/-- What a call of `Solve` does: the new state of the solver object, the caller's vectors, the
messages printed, and the returned value or exception. -/
structure Outcome (K S : Type) where
  solver : S
  x : CallerVar K
  log : List (Msg K)
  result : Except Err (SolverOut K)

/-- The size check of the constructors of `FullVariable` (full_variable.cc:15-18), `FullResidual`
(full_residual.cc:13-16) and `FullFeasibility` (full_feasibility.cc:13-15). -/
def componentCheck (msg : String) (nz nl nv : Int) : Except Err Unit :=
  if nz ≤ 0 ∨ nl < 0 ∨ nv ≤ 0 then .error (.runtimeError msg) else .ok ()

/-- The memory of a freshly constructed `FBstabAlgorithm` (impl:76-108) and of the components
passed to it. -/
def AlgMem.fresh {D : Type} {nz nl nv : Nat} {ls : LinearSolver K D nz nl nv} (lin : ls.St)
    (ws : FeasWs K nz nl nv) : AlgMem K D nz nl nv ls where
  opts := Params.defaults
  comboTol := 0
  newtonIters := 0
  proxIters := 0
  xk := FullVariable.init
  xi := FullVariable.init
  xp := FullVariable.init
  dx := FullVariable.init
  rk := FullResidual.init
  ri := FullResidual.init
  lin := lin
  feas := ⟨ws, none⟩
  meritBuffer := Vec.const 0

/-- Runs `algorithm_->Solve(data, &x->z, &x->l, &x->v, &x->y, os)` on vectors whose sizes (except
that of `y`) have been checked. -/
def runSolve {D : Type} {nz nl nv : Nat} {ls : LinearSolver K D nz nl nv} (d : D)
    (ops : QPOps K nz nl nv) (mem : AlgMem K D nz nl nv ls) (x : CallerVar K) :
    Outcome K (AlgMem K D nz nl nv ls) :=
  let run : Run K D nz nl nv ls :=
    { mem with z0 := x.z.toVec nz, l0 := x.l.toVec nl, v0 := x.v.toVec nv
               y0 := ⟨x.isMap, x.y.data⟩, log := [] }
  let back (r : Run K D nz nl nv ls) : CallerVar K :=
    ⟨x.isMap, DVec.ofVec r.z0, DVec.ofVec r.l0, DVec.ofVec r.v0, ⟨r.y0.data⟩⟩
  match Alg.solve d ops run with
  | .ok out r => ⟨r.toAlgMem, back r, r.log, .ok out⟩
  | .error e r => ⟨r.toAlgMem, back r, r.log, .error e⟩

/-! ## FBstabDense -/

/-- `FBstabDense::ProblemData` or `ProblemDataRef`, fbstab_dense.h:54-82.  `DenseData` only takes
pointers to the six objects, so that owning and mapped inputs are the same thing to it. -/
structure DenseProblem (K : Type) where
  H : DMat K
  f : DVec K
  G : DMat K
  h : DVec K
  A : DMat K
  b : DVec K

/-- The checks of the `DenseData` constructor, dense_data.h:50-64. -/
def DenseProblem.validate (qp : DenseProblem K) : Except Err Unit :=
  if qp.H.rows ≠ qp.H.cols ∨ qp.H.rows ≠ qp.f.size then
    .error (.runtimeError "In DenseData::DenseData: H must be square and the same size as f")
  else if qp.A.cols ≠ qp.H.rows ∨ qp.A.rows ≠ qp.b.size then
    .error (.runtimeError
      "In DenseData::DenseData: Sizing of data defining Az <= b is inconsistent.")
  else if qp.G.cols ≠ qp.H.rows ∨ qp.G.rows ≠ qp.h.size then
    .error (.runtimeError "In DenseData::DenseData: Sizing of Gz = h is inconsistent.")
  else .ok ()

/-- The validated data, `DenseData::DenseData`, dense_data.h:42-49. -/
def DenseProblem.toData (nz nl nv : Nat) (qp : DenseProblem K) : DenseData K nz nl nv where
  H := qp.H.toMat nz nz
  f := qp.f.toVec nz
  G := qp.G.toMat nl nz
  h := qp.h.toVec nl
  A := qp.A.toMat nv nz
  b := qp.b.toVec nv

/-- `FBstabDense`, fbstab_dense.h:164-193. -/
structure FBstabDense (K : Type) [Scalar K] where
  nz : Nat
  nl : Nat
  nv : Nat
  mem : AlgMem K (DenseData K nz nl nv) nz nl nv (denseSolver K nz nl nv)

/-- Contents of uninitialised memory for `FBstabDense` objects of every size. -/
structure DenseJunk (K : Type) where
  lin : (nz nl nv : Nat) → DenseWs K nz nl nv
  feas : (nz nl nv : Nat) → FeasWs K nz nl nv

namespace FBstabDense

/-- The constructor, fbstab_dense.cc:18-42.  `int` overflow of `nz + nl`
(dense_cholesky_solver.cc:13) is undefined behaviour. -/
def new (junk : DenseJunk K) (nz nl nv : Int) : Except Err (FBstabDense K) := do
  if nz ≤ 0 ∨ nv ≤ 0 ∨ nl < 0 then
    throw (.runtimeError
      "In FBstabDense::FBstabDense: nz and nv must be positive, nl nonnegative")
  -- x1_ ... x4_, r1_, r2_, feasibility_checker_
  componentCheck "All size inputs to FullVariable::FullVariable must be >= 1." nz nl nv
  componentCheck "All size inputs to FullVariable::FullVariable must be >= 1." nz nl nv
  componentCheck "All size inputs to FullVariable::FullVariable must be >= 1." nz nl nv
  componentCheck "All size inputs to FullVariable::FullVariable must be >= 1." nz nl nv
  componentCheck "All inputs to FullResidual::FullResidual must be >= 1." nz nl nv
  componentCheck "All inputs to FullResidual::FullResidual must be >= 1." nz nl nv
  componentCheck "Incorrect size inputs to FullFeasibility." nz nl nv
  -- linear_solver_
  if (intLimit : Int) ≤ nz + nl then
    throw (.undefinedBehaviour "int overflow in DenseCholeskySolver")
  componentCheck "In DenseCholeskySolver: nz and nv must be > 0 and nl >= 0" nz nl nv
  let lin : DenseWs K nz.toNat nl.toNat nv.toNat :=
    { junk.lin nz.toNat nl.toNat nv.toNat with alpha := 0.95, data := none }
  return ⟨nz.toNat, nl.toNat, nv.toNat,
    AlgMem.fresh (ls := denseSolver K nz.toNat nl.toNat nv.toNat) lin
      (junk.feas nz.toNat nl.toNat nv.toNat)⟩

/-- `UpdateOptions`, fbstab_dense.cc:44-48. -/
def updateOptions (o : Params K) (s : FBstabDense K) : Except Err Unit × FBstabDense K :=
  match AlgMem.updateParameters o s.mem with
  | .ok _ m => (.ok (), { s with mem := m })
  | .error e m => (.error e, { s with mem := m })

/-- `ValidateInputs`, fbstab_dense.h:169-180.  The size of `y` is not checked. -/
def validateInputs (s : FBstabDense K) (qp : DenseProblem K) (x : CallerVar K) : Except Err Unit :=
  if s.nz ≠ qp.f.size ∨ s.nv ≠ qp.b.size ∨ s.nl ≠ qp.h.size then
    .error (.runtimeError "In FBstabDense::Solve: mismatch between *this and data dimensions.")
  else if s.nz ≠ x.z.size ∨ x.l.size ≠ s.nl ∨ s.nv ≠ x.v.size then
    .error (.runtimeError
      "In FBstabDense::Solve: mismatch between *this and initial guess dimensions.")
  else .ok ()

/-- `Solve`, fbstab_dense.h:136-142. -/
def solve (qp : DenseProblem K) (x : CallerVar K) (s : FBstabDense K) :
    Outcome K (FBstabDense K) :=
  match qp.validate with
  | .error e => ⟨s, x, [], .error e⟩
  | .ok _ =>
    match s.validateInputs qp x with
    | .error e => ⟨s, x, [], .error e⟩
    | .ok _ =>
      let d := qp.toData s.nz s.nl s.nv
      let o := runSolve d d.ops s.mem x
      ⟨{ s with mem := o.solver }, o.x, o.log, o.result⟩

end FBstabDense

/-! ## FBstabMpc -/

/-- `FBstabMpc::ProblemDataRef`, fbstab_mpc.h:90-120. -/
structure MpcProblem (K : Type) where
  Q : MapSequence K
  R : MapSequence K
  S : MapSequence K
  q : MapSequence K
  r : MapSequence K
  A : MapSequence K
  B : MapSequence K
  c : MapSequence K
  E : MapSequence K
  L : MapSequence K
  d : MapSequence K
  x0 : DVec K

/-- `FBstabMpc::ProblemData`, fbstab_mpc.h:67-81. -/
structure MpcProblemData (K : Type) where
  Q : MatrixSequence K
  R : MatrixSequence K
  S : MatrixSequence K
  q : MatrixSequence K
  r : MatrixSequence K
  A : MatrixSequence K
  B : MatrixSequence K
  c : MatrixSequence K
  E : MatrixSequence K
  L : MatrixSequence K
  d : MatrixSequence K
  x0 : DVec K

/-- `ProblemDataRef::ProblemDataRef`, fbstab_mpc.cc:18-36; also what the initialisers of `MpcData`
(mpc_data.h:67-78) do with owning sequences. -/
def MpcProblemData.toRef (p : MpcProblemData K) : MpcProblem K where
  Q := .ofSequence p.Q
  R := .ofSequence p.R
  S := .ofSequence p.S
  q := .ofSequence p.q
  r := .ofSequence p.r
  A := .ofSequence p.A
  B := .ofSequence p.B
  c := .ofSequence p.c
  E := .ofSequence p.E
  L := .ofSequence p.L
  d := .ofSequence p.d
  x0 := p.x0

/-- `throw std::runtime_error(msg)` unless the condition holds. -/
def require (c : Prop) [Decidable c] (msg : String) : Except Err Unit :=
  if c then .ok () else .error (.runtimeError msg)

/-- `MpcData::ValidateInputs`, mpc_data.cc:291-363, in the order of the code. -/
def MpcProblem.validate (p : MpcProblem K) : Except Err Unit := do
  let N := p.Q.N
  require (0 < N) "Horizon length must be at least 1."
  require (N = p.R.N ∧ N = p.S.N ∧ N = p.q.N ∧ N = p.r.N ∧ N - 1 = p.A.N ∧ N - 1 = p.B.N ∧
    N - 1 = p.c.N ∧ N = p.E.N ∧ N = p.L.N ∧ N = p.d.N)
    "Sequence length mismatch in input data to MpcData."
  let nx := p.Q.nr
  require (p.x0.size = nx) "Size mismatch in x0 input to MpcData."
  require (p.Q.nc = nx) "Size mismatch in Q input to MpcData."
  require (p.S.nc = nx) "Size mismatch in S input to MpcData."
  require (p.q.nr = nx) "Size mismatch in q input to MpcData."
  require (p.E.nc = nx) "Size mismatch in E input to MpcData."
  require (p.A.nr = nx ∧ p.A.nc = nx) "Size mismatch in A input to MpcData."
  require (p.B.nr = nx) "Size mismatch in B input to MpcData."
  require (p.c.nr = nx) "Size mismatch in c input to MpcData."
  let nu := p.R.nr
  require (p.R.nc = nu) "Size mismatch in R input to MpcData."
  require (p.S.nr = nu) "Size mismatch in S input to MpcData."
  require (p.r.nr = nu) "Size mismatch in r input to MpcData."
  require (p.L.nc = nu) "Size mismatch in L input to MpcData."
  require (p.B.nc = nu) "Size mismatch in B input to MpcData."
  let nc := p.E.nr
  require (p.L.nr = nc) "Size mismatch in L input to MpcData."
  require (p.d.nr = nc) "Size mismatch in d input to MpcData."

/-- The validated data, `MpcData::MpcData`, mpc_data.h:62-78. -/
def MpcProblem.toData (N nx nu nc : Nat) (p : MpcProblem K) : MpcData K N nx nu nc where
  Q := Vec.ofFn fun i => p.Q.toMat nx nx i
  R := Vec.ofFn fun i => p.R.toMat nu nu i
  S := Vec.ofFn fun i => p.S.toMat nu nx i
  q := Vec.ofFn fun i => p.q.toVec nx i
  r := Vec.ofFn fun i => p.r.toVec nu i
  A := Vec.ofFn fun i => p.A.toMat nx nx i
  B := Vec.ofFn fun i => p.B.toMat nx nu i
  c := Vec.ofFn fun i => p.c.toVec nx i
  E := Vec.ofFn fun i => p.E.toMat nc nx i
  L := Vec.ofFn fun i => p.L.toMat nc nu i
  d := Vec.ofFn fun i => p.d.toVec nc i
  x0 := p.x0.toVec nx

/-- `FBstabMpc`, fbstab_mpc.h:209-227. -/
structure FBstabMpc (K : Type) [Scalar K] where
  N : Nat
  nx : Nat
  nu : Nat
  nc : Nat
  mem : AlgMem K (MpcData K N nx nu nc) ((N + 1) * (nx + nu)) ((N + 1) * nx) ((N + 1) * nc)
    (riccatiSolver K N nx nu nc)

/-- Contents of uninitialised memory for `FBstabMpc` objects of every size. -/
structure MpcJunk (K : Type) where
  lin : (N nx nu nc : Nat) → RiccatiWs K N nx nu nc
  feas : (nz nl nv : Nat) → FeasWs K nz nl nv

namespace FBstabMpc

/-- The constructor, fbstab_mpc.cc:61-89.  `int` overflow in lines 70-72 is undefined behaviour. -/
def new (junk : MpcJunk K) (N nx nu nc : Int) : Except Err (FBstabMpc K) := do
  if N < 1 ∨ nx < 1 ∨ nu < 1 ∨ nc < 1 then
    throw (.runtimeError "In FBstabMpc::FBstabMpc: problem sizes must be positive.")
  let nz := (nx + nu) * (N + 1)
  let nl := nx * (N + 1)
  let nv := nc * (N + 1)
  if (intLimit : Int) ≤ nz ∨ (intLimit : Int) ≤ nl ∨ (intLimit : Int) ≤ nv then
    throw (.undefinedBehaviour "int overflow in FBstabMpc::FBstabMpc")
  componentCheck "All size inputs to FullVariable::FullVariable must be >= 1." nz nl nv
  componentCheck "All size inputs to FullVariable::FullVariable must be >= 1." nz nl nv
  componentCheck "All size inputs to FullVariable::FullVariable must be >= 1." nz nl nv
  componentCheck "All size inputs to FullVariable::FullVariable must be >= 1." nz nl nv
  componentCheck "All inputs to FullResidual::FullResidual must be >= 1." nz nl nv
  componentCheck "All inputs to FullResidual::FullResidual must be >= 1." nz nl nv
  componentCheck "Incorrect size inputs to FullFeasibility." nz nl nv
  -- linear_solver_, riccati_linear_solver.cc:18-22
  if N ≤ 0 ∨ nx ≤ 0 ∨ nu ≤ 0 ∨ nc ≤ 0 then
    throw (.runtimeError
      "In RiccatiLinearSolver::RiccatiLinearSolver: all inputs must be positive.")
  let N := N.toNat
  let nx := nx.toNat
  let nu := nu.toNat
  let nc := nc.toNat
  let lin : RiccatiWs K N nx nu nc := { junk.lin N nx nu nc with alpha := 0.95, data := none }
  return ⟨N, nx, nu, nc,
    AlgMem.fresh (ls := riccatiSolver K N nx nu nc) lin (junk.feas _ _ _)⟩

/-- `UpdateOptions`, fbstab_mpc.cc:94-98. -/
def updateOptions (o : Params K) (s : FBstabMpc K) : Except Err Unit × FBstabMpc K :=
  match AlgMem.updateParameters o s.mem with
  | .ok _ m => (.ok (), { s with mem := m })
  | .error e m => (.error e, { s with mem := m })

/-- `ValidateInputSizes`, fbstab_mpc.h:229-242; the sizes of the data are those of mpc_data.h:81-84. -/
def validateInputSizes (s : FBstabMpc K) (p : MpcProblem K) (x : CallerVar K) : Except Err Unit :=
  if p.B.N ≠ s.N ∨ p.B.nr ≠ s.nx ∨ p.B.nc ≠ s.nu ∨ p.E.nr ≠ s.nc then
    .error (.runtimeError "In FBstabMpc::Solve: mismatch between *this and data dimensions.")
  else if x.z.size ≠ (s.N + 1) * (s.nx + s.nu) ∨ x.l.size ≠ (s.N + 1) * s.nx ∨
      x.v.size ≠ (s.N + 1) * s.nc ∨ x.y.size ≠ (s.N + 1) * s.nc then
    .error (.runtimeError
      "In FBstabMpc::Solve: mismatch between *this and initial guess dimensions.")
  else .ok ()

/-- `Solve`, fbstab_mpc.h:181-188.  `q`, `r`, `c`, `d` are added to column blocks
(mpc_data.cc:255-256,272,287); if they have more than one column Eigen's precondition is violated:
undefined behaviour, at the latest when `axpyb`, `axpyf`, `axpyh` are first called. -/
def solve (p : MpcProblem K) (x : CallerVar K) (s : FBstabMpc K) : Outcome K (FBstabMpc K) :=
  match p.validate with
  | .error e => ⟨s, x, [], .error e⟩
  | .ok _ =>
    match s.validateInputSizes p x with
    | .error e => ⟨s, x, [], .error e⟩
    | .ok _ =>
      if p.q.nc ≠ 1 ∨ p.r.nc ≠ 1 ∨ p.c.nc ≠ 1 ∨ p.d.nc ≠ 1 then
        ⟨s, x, [], .error (.undefinedBehaviour
          "column block and matrix with more than one column added")⟩
      else
        let d := p.toData s.N s.nx s.nu s.nc
        let o := runSolve d d.ops s.mem x
        ⟨{ s with mem := o.solver }, o.x, o.log, o.result⟩

end FBstabMpc

end Fbstab
