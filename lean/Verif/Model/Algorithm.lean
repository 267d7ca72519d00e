import Verif.Model.Params
import Verif.Model.Riccati

/-!
# The FBstab algorithm

`FBstabAlgorithm<FullVariable, FullResidual, LinearSolver, FullFeasibility>`,
fbstab_algorithm.h:113-276 and fbstab_algorithm-impl.h, as an imperative program over the memory of
the object, the caller's vectors and the list of printed messages.

Not modelled: the clock (`solve_time`).  A message is recorded with the values that are formatted; its text is in
`Model/Print.lean`.
-/

namespace Fbstab

/-- `enum class ExitFlag`, fbstab_algorithm.h:17-24. -/
inductive ExitFlag where
  | success | divergence | maxIterations | primalInfeasible | dualInfeasible | primalDualInfeasible
deriving DecidableEq, Repr

/-- `struct SolverOut`, fbstab_algorithm.h:30-37, without `solve_time`. -/
structure SolverOut (K : Type) where
  eflag : ExitFlag
  residual : K
  newtonIters : Nat
  proxIters : Nat
  initialResidual : K

/-- One call of `os.Print`. -/
inductive Msg (K : Type) where
  /-- impl:436-439 -/
  | iterHeader
  /-- impl:422-425 -/
  | iterLine (proxIters newtonIters : Nat) (rz rl rv ri itol : K)
  /-- impl:451-454 -/
  | detailedHeader (proxIters newtonIters : Nat) (residual : K)
  /-- impl:455-457 -/
  | detailedColumns
  /-- impl:468-470 -/
  | detailedLine (iter : Nat) (step rz rl rv : K)
  /-- impl:483-487 -/
  | detailedFooter (ri tol : K)
  /-- impl:498-499 -/
  | finalBanner
  /-- impl:500-522 -/
  | finalFlag (e : ExitFlag)
  /-- impl:523-525, the time is not modelled -/
  | finalTime
  /-- impl:526-528 -/
  | finalProx (proxIters : Nat) (limit : Int)
  /-- impl:529-531 -/
  | finalNewton (newtonIters : Nat) (limit : Int)
  /-- impl:532-534 -/
  | finalColumns
  /-- impl:535-537 -/
  | finalNorms (rz rl rv tol : K)
  /-- impl:538-539 -/
  | finalBlank

/-- The caller's vector `*y0`.  An owning `VectorXd` is resized by assignment, an `Eigen::Map` is
not. -/
structure YBuf (K : Type) where
  isMap : Bool
  data : Array K

/-- The members of `FBstabAlgorithm` (fbstab_algorithm.h:156-181) with the objects they point to. -/
structure AlgMem (K : Type) (D : Type) (nz nl nv : Nat) (ls : LinearSolver K D nz nl nv) where
  opts : Params K
  comboTol : K
  newtonIters : Nat
  proxIters : Nat
  xk : FullVariable K nz nl nv
  xi : FullVariable K nz nl nv
  xp : FullVariable K nz nl nv
  dx : FullVariable K nz nl nv
  rk : FullResidual K nz nl nv
  ri : FullResidual K nz nl nv
  lin : ls.St
  feas : FullFeasibility K nz nl nv
  meritBuffer : Vec K 5

/-- The state during a call of `Solve`: the object, the caller's vectors, the messages printed so
far. -/
structure Run (K : Type) (D : Type) (nz nl nv : Nat) (ls : LinearSolver K D nz nl nv) extends
    AlgMem K D nz nl nv ls where
  z0 : Vec K nz
  l0 : Vec K nl
  v0 : Vec K nv
  y0 : YBuf K
  log : List (Msg K)

namespace Alg
variable {K : Type} [Scalar K] {D : Type} {nz nl nv : Nat} {ls : LinearSolver K D nz nl nv}

/-- Programs that may throw and act on a `Run`. -/
abbrev M (ls : LinearSolver K D nz nl nv) := EStateM Err (Run K D nz nl nv ls)

/-- Runs a component method that may throw. -/
def liftE {α : Type} (e : Except Err α) : M ls α :=
  match e with
  | .ok a => pure a
  | .error e => throw e

/-- `os.Print` -/
def emit (m : Msg K) : M ls Unit := modify fun s => { s with log := s.log ++ [m] }

/-- `PrintIterHeader`, impl:429-441. -/
def printIterHeader : M ls Unit := do
  if (← get).opts.displayLevel = .iter then emit .iterHeader

/-- `PrintIterLine(prox_iters_, newton_iters_, *rk_, *ri_, itol, os)`, impl:411-427. -/
def printIterLine (itol : K) : M ls Unit := do
  let s ← get
  if s.opts.displayLevel = .iter then
    emit (.iterLine s.proxIters s.newtonIters s.rk.r.znorm s.rk.r.lnorm s.rk.r.vnorm s.ri.norm itol)

/-- `PrintDetailedHeader(prox_iters_, newton_iters_, *rk_, os)`, impl:443-459. -/
def printDetailedHeader : M ls Unit := do
  let s ← get
  if s.opts.displayLevel = .iterDetailed then
    emit (.detailedHeader s.proxIters s.newtonIters s.rk.norm)
    emit .detailedColumns

/-- `PrintDetailedLine(i, t, *ri_, os)`, impl:461-472. -/
def printDetailedLine (i : Nat) (t : K) : M ls Unit := do
  let s ← get
  if s.opts.displayLevel = .iterDetailed then
    emit (.detailedLine i t s.ri.r.znorm s.ri.r.lnorm s.ri.r.vnorm)

/-- `PrintDetailedFooter(tol, *ri_, os)`, impl:474-489. -/
def printDetailedFooter (tol : K) : M ls Unit := do
  let s ← get
  if s.opts.displayLevel = .iterDetailed then emit (.detailedFooter s.ri.norm tol)

/-- `PrintFinal(prox_iters, newton_iters, e, *rk_, time, os)`, impl:491-541. -/
def printFinal (e : ExitFlag) : M ls Unit := do
  let s ← get
  if Display.final.toNat ≤ s.opts.displayLevel.toNat then
    emit .finalBanner
    emit (.finalFlag e)
    emit .finalTime
    emit (.finalProx s.proxIters s.opts.maxProxIters)
    emit (.finalNewton s.newtonIters s.opts.maxNewtonIters)
    emit .finalColumns
    emit (.finalNorms s.rk.r.znorm s.rk.r.lnorm s.rk.r.vnorm s.comboTol)
    emit .finalBlank

/-- `PrepareOutput(e, prox_iters_, newton_iters_, *rk_, start_time, E0, os)`, impl:362-383. -/
def prepareOutput (e : ExitFlag) (E0 : K) : M ls (SolverOut K) := do
  let s ← get
  printFinal e
  return ⟨e, s.rk.norm, s.newtonIters, s.proxIters, E0⟩

/-- `CopyIntoVariable(*z0, *l0, *v0, *y0, xk_)`, impl:334-347.  `*y0` is ignored. -/
def copyIntoVariable : M ls Unit := do
  modify fun s => { s with xk := { s.xk with pt := { s.xk.pt with z := s.z0 } } }
  modify fun s => { s with xk := { s.xk with pt := { s.xk.pt with l := s.l0 } } }
  modify fun s => { s with xk := { s.xk with pt := { s.xk.pt with v := s.v0 } } }
  let xk ← liftE (← get).xk.initializeConstraintMargin
  modify fun s => { s with xk := xk }

/-- `WriteVariable(x, z0, l0, v0, y0)`, impl:349-360.  Assigning to a `Map` of another size is
undefined behaviour. -/
def writeVariable (x : FullVariable K nz nl nv) : M ls Unit := do
  modify fun s => { s with z0 := x.pt.z }
  modify fun s => { s with l0 := x.pt.l }
  modify fun s => { s with v0 := x.pt.v }
  let s ← get
  if s.y0.isMap && s.y0.data.size != nv then
    throw (.undefinedBehaviour "assignment to an Eigen::Map of a different size")
  else
    modify fun s => { s with y0 := ⟨s.y0.isMap, x.pt.y.toVector.toArray⟩ }

/-- `InsertMerit`, impl:402-409. -/
def insertMerit (x : K) (b : Vec K 5) : Vec K 5 :=
  (forFinRev 4 (fun i b => b.set i.succ (b i.castSucc)) b).set 0 x

/-- `MaxMerit`, fbstab_algorithm.h:241-244. -/
def maxMerit (b : Vec K 5) : K := b.maxCoeff

/-- `rk_->PenalizedNaturalResidual(x)` -/
def updateRk (x : FullVariable K nz nl nv) : M ls Unit := do
  let rk ← liftE ((← get).rk.penalizedNaturalResidual x)
  modify fun s => { s with rk := rk }

/-- `ri_->InnerResidual(x, *xbar, sigma)` with `xbar = xk_` -/
def updateRi (x : FullVariable K nz nl nv) (sigma : K) : M ls Unit := do
  let s ← get
  let ri ← liftE (s.ri.innerResidual x s.xk sigma)
  modify fun s => { s with ri := ri }

/-- The line search loop, impl:282-297, from the trial step `t`; `fuel` is the number of iterations
left.  Here and below `x` is `xi_` and `xbar` is `xk_`, as in the only call, impl:185. -/
def lineSearch (sigma m0 currentMerit : K) : Nat → K → M ls K
  | 0, t => pure t
  | fuel + 1, t => do
    modify fun s => { s with xp := FullVariable.copy s.xi s.xp }
    let s ← get
    let xp ← liftE (FullVariable.axpy t s.dx s.xp)
    modify fun s => { s with xp := xp }
    updateRi xp sigma
    let s ← get
    let mp := s.ri.merit
    if mp ≤ m0 - 2.0 * t * s.opts.eta * currentMerit then
      pure t
    else
      lineSearch sigma m0 currentMerit fuel (t * s.opts.beta)

/-- `linear_solver_->Initialize(*x, *xbar, sigma)` -/
def linInit (sigma : K) : M ls Bool := fun s =>
  match ls.init s.xi.pt s.xk.pt sigma s.lin with
  | .ok b lin => .ok b { s with lin := lin }
  | .error e lin => .error e { s with lin := lin }

/-- `linear_solver_->Solve(*ri_, dx_)` -/
def linSolve : M ls Bool := fun s =>
  match ls.solve s.ri.r s.dx.pt s.lin with
  | .ok (b, p) lin => .ok b { s with lin := lin, dx := { s.dx with pt := p } }
  | .error e lin => .error e { s with lin := lin }

/-- One Newton step of the inner loop, impl:262-298, returns the accepted step length. -/
def newtonStep (sigma : K) : M ls K := do
  let initializeFlag ← linInit sigma
  if initializeFlag != true then
    throw (.runtimeError "In FBstabAlgorithm::Solve: LinearSolver::Initialize failed.")
  modify fun s => { s with ri := s.ri.negate }
  let solveFlag ← linSolve
  if solveFlag != true then
    throw (.runtimeError "In FBstabAlgorithm::Solve: LinearSolver::Solve failed.")
  modify fun s => { s with newtonIters := s.newtonIters + 1 }
  let currentMerit := (← get).ri.merit
  modify fun s => { s with meritBuffer := insertMerit currentMerit s.meritBuffer }
  let s ← get
  let m0 := if s.opts.nonmonotoneLinesearch then maxMerit s.meritBuffer else currentMerit
  let t ← lineSearch sigma m0 currentMerit s.opts.maxLinesearchIters.toNat 1
  let s ← get
  let xi ← liftE (FullVariable.axpy t s.dx s.xi)
  modify fun s => { s with xi := xi }
  return t

/-- The loop of `SolveProximalSubproblem`, impl:237-299; `fuel` is the number of iterations left,
`i` the iteration number.  Returns `Eo`. -/
def innerLoop (tol sigma currentOuterResidual : K) : Nat → Nat → K → K → M ls K
  | 0, _, _, Eo => pure Eo
  | fuel + 1, i, t, _ => do
    updateRi (← get).xi sigma
    let Ei := (← get).ri.norm
    updateRk (← get).xi
    let s ← get
    let Eo := s.rk.norm
    if (Ei ≤ tol ∧ Eo < currentOuterResidual) ∨ Ei ≤ s.opts.innerTolMin then
      printDetailedLine i t
      printDetailedFooter tol
      pure Eo
    else
      printDetailedLine i t
      if s.opts.maxNewtonIters ≤ (s.newtonIters : Int) then pure Eo
      else
        let t ← newtonStep sigma
        innerLoop tol sigma currentOuterResidual fuel (i + 1) t Eo

/-- `SolveProximalSubproblem(xi_, xk_, tol, sigma, current_outer_residual, os)`, impl:226-304. -/
def solveProximalSubproblem (tol sigma currentOuterResidual : K) : M ls K := do
  modify fun s => { s with meritBuffer := Vec.const 0 }
  let Eo ← innerLoop tol sigma currentOuterResidual (← get).opts.maxInnerIters.toNat 0 1 0
  modify fun s => { s with xi := s.xi.projectDuals }
  return Eo

/-- `CheckForInfeasibility(*dx_)`, impl:385-400. -/
def checkForInfeasibility : M ls ExitFlag := do
  let s ← get
  let (status, feas) ← liftE (s.feas.check s.dx s.opts.infeasTol)
  modify fun s => { s with feas := feas }
  match status with
  | .feasible => return .success
  | .primalInfeasible => return .primalInfeasible
  | .dualInfeasible => return .dualInfeasible
  | .both => return .primalDualInfeasible

/-- The main loop, impl:158-223; `fuel` is the number of iterations left. -/
def proxLoop (sigma E0 : K) : Nat → K → M ls (SolverOut K)
  | 0, _ => do
    -- Timeout exit, impl:220-223.
    let output ← prepareOutput .maxIterations E0
    writeVariable (← get).xk
    return output
  | fuel + 1, innerTol => do
    updateRk (← get).xk
    let s ← get
    let Ek := s.rk.norm
    if Ek ≤ s.comboTol ∨ s.dx.norm ≤ s.opts.stallTol then
      printIterLine innerTol
      let output ← prepareOutput .success E0
      writeVariable (← get).xk
      return output
    else
      printDetailedHeader
      printIterLine innerTol
      let innerTol ← liftE (saturate (innerTol * s.opts.delta) s.opts.innerTolMin Ek)
      modify fun s => { s with xi := FullVariable.copy s.xk s.xi }
      let Eo ← solveProximalSubproblem innerTol sigma Ek
      let s ← get
      if s.opts.maxNewtonIters ≤ (s.newtonIters : Int) then
        if Eo < Ek then
          writeVariable s.xi
          updateRk s.xi
        else
          writeVariable s.xk
          updateRk s.xk
        prepareOutput .maxIterations E0
      else
        modify fun s => { s with dx := FullVariable.copy s.xi s.dx }
        let s ← get
        let dx ← liftE (FullVariable.axpy (-1) s.xk s.dx)
        modify fun s => { s with dx := dx }
        let eflag ← if s.opts.checkFeasibility then checkForInfeasibility else pure .success
        if eflag ≠ .success then
          let output ← prepareOutput eflag E0
          writeVariable (← get).dx
          return output
        else
          modify fun s => { s with xk := FullVariable.copy s.xi s.xk }
          modify fun s => { s with proxIters := s.proxIters + 1 }
          proxLoop sigma E0 fuel innerTol

/-- `FBstabAlgorithm::Solve`, impl:110-224, for the data `d` seen through the interface `ops`. -/
def solve (d : D) (ops : QPOps K nz nl nv) : M ls (SolverOut K) := do
  modify fun s => { s with rk := s.rk.setAlpha s.opts.alpha }
  modify fun s => { s with ri := s.ri.setAlpha s.opts.alpha }
  modify fun s => { s with lin := ls.setAlpha s.opts.alpha s.lin }
  modify fun s => { s with xk := s.xk.linkData ops }
  modify fun s => { s with xi := s.xi.linkData ops }
  modify fun s => { s with dx := s.dx.linkData ops }
  modify fun s => { s with xp := s.xp.linkData ops }
  modify fun s => { s with rk := s.rk.linkData ops }
  modify fun s => { s with ri := s.ri.linkData ops }
  modify fun s => { s with feas := s.feas.linkData ops }
  modify fun s => { s with lin := ls.linkData d s.lin }
  let sigma := (← get).opts.sigma0
  modify fun s => { s with comboTol := s.opts.absTol + s.opts.relTol * (1 + ops.forcingNorm) }
  copyIntoVariable
  modify fun s => { s with xi := FullVariable.copy s.xk s.xi }
  let dx ← liftE ((← get).dx.fill 1)
  modify fun s => { s with dx := dx }
  updateRk (← get).xk
  modify fun s => { s with ri := s.ri.fill 0 }
  let s ← get
  let E0 := s.rk.norm
  let innerTol ← liftE (saturate E0 s.opts.innerTolMin s.opts.innerTolMax)
  modify fun s => { s with newtonIters := 0 }
  modify fun s => { s with proxIters := 0 }
  printIterHeader
  proxLoop sigma E0 s.opts.maxProxIters.toNat innerTol

end Alg

/-- `UpdateParameters`, impl:306-332: every field is copied, then validated in place.  (If
validation threw, the copied but unvalidated options would remain; it never throws, C01.) -/
def AlgMem.updateParameters {K : Type} [Scalar K] {D : Type} {nz nl nv : Nat}
    {ls : LinearSolver K D nz nl nv} (options : Params K) :
    EStateM Err (AlgMem K D nz nl nv ls) Unit := fun m =>
  match options.validate with
  | .ok o => .ok () { m with opts := o }
  | .error e => .error e { m with opts := options }

end Fbstab
