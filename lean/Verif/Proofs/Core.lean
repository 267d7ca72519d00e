import Verif.Model.Algorithm
import Verif.Spec.Residual

/-!
# A purely functional version of the algorithm

The imperative model `Alg.solve` acts on the memory of the solver object.  `Core.solve` computes
the same thing as a function of options, data, initial guess and the contents of the feasibility
checker's workspaces, together with a trace of events from which the printed messages can be
rendered.  `Proofs/Simulation.lean` proves that the imperative model does exactly this.
-/

namespace Fbstab.Core
variable {K : Type} [Scalar K] {nz nl nv : Nat}

/-- What is constant during a call of `Solve`. -/
structure Env (K : Type) (nz nl nv : Nat) where
  opts : Params K
  ops : QPOps K nz nl nv
  /-- What the linear solver does at `x`, `xbar`, `sigma`: throw, report failure, or provide the
  solution map of the Newton system. -/
  factor : Point K nz nl nv → Point K nz nl nv → K →
    Except Err (Option (Resid K nz nl nv → Point K nz nl nv))

/-- Events of a run. -/
inductive Event (K : Type) (nz nl nv : Nat) where
  | header
  | outerDetailed (prox newton : Nat) (rk : Resid K nz nl nv)
  | outer (prox newton : Nat) (rk : Resid K nz nl nv) (itol : K)
  /-- start of an inner iteration, with the inner residual -/
  | inner (i : Nat) (t : K) (ri : Resid K nz nl nv)
  | footer (tol : K)
  /-- a trial point of the line search, with its inner residual -/
  | trial (t : K) (x : Point K nz nl nv) (ri : Resid K nz nl nv)
  | final (e : ExitFlag) (prox newton : Nat) (rk : Resid K nz nl nv)

def Resid.norm (r : Resid K nz nl nv) : K :=
  Scalar.sqrt (r.znorm * r.znorm + r.lnorm * r.lnorm + r.vnorm * r.vnorm)

def Resid.merit (r : Resid K nz nl nv) : K := 0.5 * Resid.norm r * Resid.norm r

def Resid.negate (r : Resid K nz nl nv) : Resid K nz nl nv :=
  { r with
      z := Vec.ofFn fun i => r.z i * (-1)
      l := Vec.ofFn fun i => r.l i * (-1)
      v := Vec.ofFn fun i => r.v i * (-1) }

def mkResid (z : Vec K nz) (l : Vec K nl) (v : Vec K nv) : Resid K nz nl nv :=
  ⟨z, l, v, z.norm, l.norm, v.norm⟩

namespace Env
variable (E : Env K nz nl nv)

def comboTol : K := stoppingTol E.ops E.opts

def penRes (x : Point K nz nl nv) : Resid K nz nl nv :=
  mkResid (gradLagrangian E.ops x.z x.l x.v) (eqDefect E.ops x.z)
    (penalizedMin E.opts.alpha x.y x.v)

def innerRes (x xbar : Point K nz nl nv) (sigma : K) : Resid K nz nl nv :=
  mkResid (gradLagrangian E.ops x.z x.l x.v + sigma * (x.z - xbar.z))
    (eqDefect E.ops x.z + sigma * (x.l - xbar.l))
    (Vec.ofFn fun i => pfb (x.y i + sigma * (x.v i - xbar.v i)) (x.v i) E.opts.alpha)

def axpy (a : K) (x this : Point K nz nl nv) : Point K nz nl nv :=
  ⟨this.z + a * x.z, this.l + a * x.l, this.v + a * x.v,
    E.ops.axpyb (-a) (this.y + a * x.y)⟩

end Env

def projectDuals (x : Point K nz nl nv) : Point K nz nl nv := { x with v := x.v.cwiseMax 0 }

def normPt (x : Point K nz nl nv) : K := norm3 x.z x.l x.v

/-- The line search: the accepted step and the trials. -/
def lineSearch (E : Env K nz nl nv) (sigma m0 cm : K) (x xbar dx : Point K nz nl nv) :
    Nat → K → K × List (Event K nz nl nv)
  | 0, t => (t, [])
  | n + 1, t =>
    let xp := E.axpy t dx x
    let r := E.innerRes xp xbar sigma
    if Resid.merit r ≤ m0 - 2.0 * t * E.opts.eta * cm then (t, [.trial t xp r])
    else
      let q := lineSearch E sigma m0 cm x xbar dx n (t * E.opts.beta)
      (q.1, .trial t xp r :: q.2)

/-- Result of the inner loop. -/
structure InnerOut (K : Type) (nz nl nv : Nat) where
  x : Point K nz nl nv
  Eo : K
  newton : Nat
  rk : Resid K nz nl nv

def mZero (E : Env K nz nl nv) (buf : Vec K 5) (cm : K) : K :=
  if E.opts.nonmonotoneLinesearch then Alg.maxMerit buf else cm

/-- One Newton step: new point, step length, merit buffer, trials. -/
def newtonStep (E : Env K nz nl nv) (sigma : K) (xbar : Point K nz nl nv)
    (g : Resid K nz nl nv → Point K nz nl nv) (x : Point K nz nl nv) (ri : Resid K nz nl nv)
    (buf : Vec K 5) : Point K nz nl nv × K × Vec K 5 × List (Event K nz nl nv) :=
  let dx := g (Resid.negate ri)
  let cm := Resid.merit (Resid.negate ri)
  let buf := Alg.insertMerit cm buf
  let q := lineSearch E sigma (mZero E buf cm) cm x xbar dx E.opts.maxLinesearchIters.toNat 1
  (E.axpy q.1 dx x, q.1, buf, q.2)

def factorFailed : Err :=
  .runtimeError "In FBstabAlgorithm::Solve: LinearSolver::Initialize failed."

/-- The loop of `SolveProximalSubproblem`. -/
def innerLoop (E : Env K nz nl nv) (tol sigma Ek : K) (xbar : Point K nz nl nv) :
    Nat → Nat → K → K → Point K nz nl nv → Nat → Vec K 5 → Resid K nz nl nv →
    List (Event K nz nl nv) × Except Err (InnerOut K nz nl nv)
  | 0, _, _, Eo, x, newton, _, rk => ([], .ok ⟨x, Eo, newton, rk⟩)
  | fuel + 1, i, t, _, x, newton, buf, _ =>
    let ri := E.innerRes x xbar sigma
    let rk := E.penRes x
    let Ei := Resid.norm ri
    let Eo := Resid.norm rk
    if (Ei ≤ tol ∧ Eo < Ek) ∨ Ei ≤ E.opts.innerTolMin then
      ([.inner i t ri, .footer tol], .ok ⟨x, Eo, newton, rk⟩)
    else if E.opts.maxNewtonIters ≤ (newton : Int) then
      ([.inner i t ri], .ok ⟨x, Eo, newton, rk⟩)
    else match E.factor x xbar sigma with
      | .error e => ([.inner i t ri], .error e)
      | .ok none => ([.inner i t ri], .error factorFailed)
      | .ok (some g) =>
        let s := newtonStep E sigma xbar g x ri buf
        let q := innerLoop E tol sigma Ek xbar fuel (i + 1) s.2.1 Eo s.1 (newton + 1) s.2.2.1 rk
        (.inner i t ri :: (s.2.2.2 ++ q.1), q.2)

/-- `SolveProximalSubproblem` at `xk`. -/
def subproblem (E : Env K nz nl nv) (tol Ek : K) (xk : Point K nz nl nv) (newton : Nat)
    (rk : Resid K nz nl nv) : List (Event K nz nl nv) × Except Err (InnerOut K nz nl nv) :=
  let q := innerLoop E tol E.opts.sigma0 Ek xk E.opts.maxInnerIters.toNat 0 1 0 xk newton
    (Vec.const 0) rk
  (q.1, q.2.map fun o => { o with x := projectDuals o.x })

/-- Result of a run: the returned value, the point written to the caller. -/
structure Final (K : Type) (nz nl nv : Nat) where
  out : SolverOut K
  x : Point K nz nl nv

def flagOf : FeasStatus → ExitFlag
  | .feasible => .success
  | .primalInfeasible => .primalInfeasible
  | .dualInfeasible => .dualInfeasible
  | .both => .primalDualInfeasible

/-- State of the outer loop. -/
structure Outer (K : Type) (nz nl nv : Nat) where
  innerTol : K
  xk : Point K nz nl nv
  dx : Point K nz nl nv
  prox : Nat
  newton : Nat
  rk : Resid K nz nl nv
  ws : FeasWs K nz nl nv

def mkFinal (E0 : K) (e : ExitFlag) (prox newton : Nat) (rk : Resid K nz nl nv)
    (x : Point K nz nl nv) : Final K nz nl nv :=
  ⟨⟨e, Resid.norm rk, newton, prox, E0⟩, x⟩

/-- What happens after the subproblem solver returned `o`: stop, or go on with a new state. -/
def afterInner (E : Env K nz nl nv) (E0 Ek tol : K) (s : Outer K nz nl nv)
    (o : InnerOut K nz nl nv) :
    (List (Event K nz nl nv) × Final K nz nl nv) ⊕ Outer K nz nl nv :=
  if E.opts.maxNewtonIters ≤ (o.newton : Int) then
    let x := if o.Eo < Ek then o.x else s.xk
    .inl ([.final .maxIterations s.prox o.newton (E.penRes x)],
      mkFinal E0 .maxIterations s.prox o.newton (E.penRes x) x)
  else
    let dx := E.axpy (-1) s.xk o.x
    let f := if E.opts.checkFeasibility then
        let c := checkFeasibility E.ops dx E.opts.infeasTol s.ws
        (flagOf c.1, c.2)
      else (.success, s.ws)
    if f.1 ≠ .success then
      .inl ([.final f.1 s.prox o.newton o.rk], mkFinal E0 f.1 s.prox o.newton o.rk dx)
    else .inr ⟨tol, o.x, dx, s.prox + 1, o.newton, o.rk, f.2⟩

/-- The main loop. -/
def proxLoop (E : Env K nz nl nv) (E0 : K) :
    Nat → Outer K nz nl nv → List (Event K nz nl nv) × Except Err (Final K nz nl nv)
  | 0, s =>
    ([.final .maxIterations s.prox s.newton s.rk],
      .ok (mkFinal E0 .maxIterations s.prox s.newton s.rk s.xk))
  | fuel + 1, s =>
    let rk := E.penRes s.xk
    let Ek := Resid.norm rk
    if Ek ≤ E.comboTol ∨ normPt s.dx ≤ E.opts.stallTol then
      ([.outer s.prox s.newton rk s.innerTol, .final .success s.prox s.newton rk],
        .ok (mkFinal E0 .success s.prox s.newton rk s.xk))
    else
      let pre := [Event.outerDetailed s.prox s.newton rk, .outer s.prox s.newton rk s.innerTol]
      match saturate (s.innerTol * E.opts.delta) E.opts.innerTolMin Ek with
      | .error e => (pre, .error e)
      | .ok tol =>
        let q := subproblem E tol Ek s.xk s.newton rk
        match q.2 with
        | .error e => (pre ++ q.1, .error e)
        | .ok o =>
          match afterInner E E0 Ek tol s o with
          | .inl (ev, fin) => (pre ++ q.1 ++ ev, .ok fin)
          | .inr s' =>
            let p := proxLoop E E0 fuel s'
            (pre ++ q.1 ++ p.1, p.2)

/-- The workspaces of the feasibility checker after the subproblem solver returned `o`. -/
def afterWs (E : Env K nz nl nv) (s : Outer K nz nl nv) (o : InnerOut K nz nl nv) :
    FeasWs K nz nl nv :=
  if E.opts.maxNewtonIters ≤ (o.newton : Int) then s.ws
  else if E.opts.checkFeasibility then
    (checkFeasibility E.ops (E.axpy (-1) s.xk o.x) E.opts.infeasTol s.ws).2
  else s.ws

/-- The workspaces of the feasibility checker that the main loop leaves behind. -/
def proxWs (E : Env K nz nl nv) (E0 : K) : Nat → Outer K nz nl nv → FeasWs K nz nl nv
  | 0, s => s.ws
  | fuel + 1, s =>
    let rk := E.penRes s.xk
    let Ek := Resid.norm rk
    if Ek ≤ E.comboTol ∨ normPt s.dx ≤ E.opts.stallTol then s.ws
    else
      match saturate (s.innerTol * E.opts.delta) E.opts.innerTolMin Ek with
      | .error _ => s.ws
      | .ok tol =>
        match (subproblem E tol Ek s.xk s.newton rk).2 with
        | .error _ => s.ws
        | .ok o =>
          match afterInner E E0 Ek tol s o with
          | .inl _ => afterWs E s o
          | .inr s' => proxWs E E0 fuel s'

/-- The initial point of a run. -/
def startPt (E : Env K nz nl nv) (z : Vec K nz) (l : Vec K nl) (v : Vec K nv) :
    Point K nz nl nv := ⟨z, l, v, margin E.ops z⟩

/-- `dx_->Fill(1.0)` -/
def onesPt (E : Env K nz nl nv) : Point K nz nl nv :=
  ⟨Vec.const 1, Vec.const 1, Vec.const 1, margin E.ops (Vec.const 1)⟩

/-- `FBstabAlgorithm::Solve` -/
def solve (E : Env K nz nl nv) (ws : FeasWs K nz nl nv) (z : Vec K nz) (l : Vec K nl)
    (v : Vec K nv) : List (Event K nz nl nv) × Except Err (Final K nz nl nv) :=
  let x := startPt E z l v
  let rk := E.penRes x
  let E0 := Resid.norm rk
  match saturate E0 E.opts.innerTolMin E.opts.innerTolMax with
  | .error e => ([], .error e)
  | .ok tol =>
    let p := proxLoop E E0 E.opts.maxProxIters.toNat ⟨tol, x, onesPt E, 0, 0, rk, ws⟩
    (.header :: p.1, p.2)

/-- The workspaces of the feasibility checker that `FBstabAlgorithm::Solve` leaves behind. -/
def solveWs (E : Env K nz nl nv) (ws : FeasWs K nz nl nv) (z : Vec K nz) (l : Vec K nl)
    (v : Vec K nv) : FeasWs K nz nl nv :=
  let x := startPt E z l v
  let rk := E.penRes x
  let E0 := Resid.norm rk
  match saturate E0 E.opts.innerTolMin E.opts.innerTolMax with
  | .error _ => ws
  | .ok tol => proxWs E E0 E.opts.maxProxIters.toNat ⟨tol, x, onesPt E, 0, 0, rk, ws⟩

/-- The messages printed for a trace; `ri` are the norms in the inner residual object. -/
def render (o : Params K) (comboTol : K) : Resid K nz nl nv → List (Event K nz nl nv) → List (Msg K)
  | _, [] => []
  | ri, e :: es =>
    match e with
    | .header => (if o.displayLevel = .iter then [.iterHeader] else []) ++ render o comboTol ri es
    | .outerDetailed p n rk =>
      (if o.displayLevel = .iterDetailed then
        [.detailedHeader p n (Resid.norm rk), .detailedColumns] else []) ++ render o comboTol ri es
    | .outer p n rk tol =>
      (if o.displayLevel = .iter then
        [.iterLine p n rk.znorm rk.lnorm rk.vnorm (Resid.norm ri) tol] else [])
        ++ render o comboTol ri es
    | .inner i t r =>
      (if o.displayLevel = .iterDetailed then [.detailedLine i t r.znorm r.lnorm r.vnorm] else [])
        ++ render o comboTol r es
    | .footer tol =>
      (if o.displayLevel = .iterDetailed then [.detailedFooter (Resid.norm ri) tol] else [])
        ++ render o comboTol ri es
    | .trial _ _ r => render o comboTol r es
    | .final f p n rk =>
      (if Display.final.toNat ≤ o.displayLevel.toNat then
        [.finalBanner, .finalFlag f, .finalTime, .finalProx p o.maxProxIters,
          .finalNewton n o.maxNewtonIters, .finalColumns,
          .finalNorms rk.znorm rk.lnorm rk.vnorm comboTol, .finalBlank] else [])
        ++ render o comboTol ri es

/-- The inner residual object after a trace. -/
def lastRi : Resid K nz nl nv → List (Event K nz nl nv) → Resid K nz nl nv
  | r, [] => r
  | _, .inner _ _ r :: es => lastRi r es
  | _, .trial _ _ r :: es => lastRi r es
  | r, .header :: es => lastRi r es
  | r, .outerDetailed _ _ _ :: es => lastRi r es
  | r, .outer _ _ _ _ :: es => lastRi r es
  | r, .footer _ :: es => lastRi r es
  | r, .final _ _ _ _ :: es => lastRi r es

end Fbstab.Core
