import Verif.Spec.Outcome

/-!
# What the progress log of `Solve` says

With `Display::ITER` one line is printed for every proximal iterate; with `Display::ITER_DETAILED`
one block for every proximal subproblem, with one line for every Newton iterate.  This file says
which numbers must stand there.  `x`, `newtons`, `tol` are the proximal iterates, the numbers of
Newton steps taken to reach them, and the tolerances for the subproblems.
-/

namespace Fbstab
variable {K : Type} [Scalar K] {nz nl nv : Nat}

/-- The tolerances of a run whose proximal iterates have the residuals `res`: the first is the
initial residual clamped to `[inner_tol_min, inner_tol_max]`, each of the following is the previous
one times `delta`, clamped to `[inner_tol_min, res k]`.  Subproblem `k` is solved with tolerance
number `k + 1`. -/
def tolAt (o : Params K) (res : Nat → K) : Nat → K
  | 0 => cmax (cmin (res 0) o.innerTolMax) o.innerTolMin
  | k + 1 => cmax (cmin (tolAt o res k * o.delta) (res k)) o.innerTolMin

/-- The lines about proximal iterates `k`, ..., `n - 1`.  (The last column but one is left open.) -/
inductive IterLines (q : QPOps K nz nl nv) (alpha : K) (x : Nat → Point K nz nl nv)
    (newtons : Nat → Nat) (tol : Nat → K) : Nat → Nat → List (Msg K) → Prop
  | nil (k) : IterLines q alpha x newtons tol k k []
  | cons {k n ri log} (h : IterLines q alpha x newtons tol (k + 1) n log) :
      IterLines q alpha x newtons tol k n
        (.iterLine k (newtons k) (gradLagrangian q (x k).z (x k).l (x k).v).norm
          (eqDefect q (x k).z).norm (penalizedMin alpha (x k).y (x k).v).norm ri (tol k) :: log)

/-- What is printed about a Newton iterate: the step that led to it and the norms of the parts of
its residual. -/
structure IterateLog (K : Type) where
  step : K
  rz : K
  rl : K
  rv : K

/-- The norm of the residual, from the norms of its parts. -/
def IterateLog.norm (p : IterateLog K) : K :=
  Scalar.sqrt (p.rz * p.rz + p.rl * p.rl + p.rv * p.rv)

/-- `Iterates o tol fuel n ps footer n'`: with `fuel` inner iterations and after `n` Newton steps,
the iterates `ps` and the footer (norm and tolerance) may be printed, and `n'` is the number of
Newton steps at the end. -/
inductive Iterates (o : Params K) (tol : K) :
    Nat → Nat → List (IterateLog K) → Option (K × K) → Nat → Prop
  /-- the limit on inner iterations is reached -/
  | innerLimit (n) : Iterates o tol 0 n [] none n
  /-- an iterate is accepted -/
  | accepted {fuel n p} (h : p.norm ≤ tol ∨ p.norm ≤ o.innerTolMin) :
      Iterates o tol (fuel + 1) n [p] (some (p.norm, tol)) n
  /-- an iterate is not accepted, and the Newton limit is reached -/
  | newtonLimit {fuel : Nat} {n : Nat} {p} (h : ¬p.norm ≤ o.innerTolMin) (hn : o.maxNewtonIters ≤ (n : Int)) :
      Iterates o tol (fuel + 1) n [p] none n
  /-- an iterate is not accepted, and one Newton step leads to the next -/
  | step {fuel : Nat} {n : Nat} {p ps footer n'} (h : ¬p.norm ≤ o.innerTolMin) (hn : (n : Int) < o.maxNewtonIters)
      (hs : Iterates o tol fuel (n + 1) ps footer n') :
      Iterates o tol (fuel + 1) n (p :: ps) footer n'

/-- The lines about Newton iterates, numbered from `i`. -/
def iterateMsgs : Nat → List (IterateLog K) → List (Msg K)
  | _, [] => []
  | i, p :: ps => .detailedLine i p.step p.rz p.rl p.rv :: iterateMsgs (i + 1) ps

def footerMsgs : Option (K × K) → List (Msg K)
  | none => []
  | some (r, t) => [.detailedFooter r t]

/-- The log of the subproblems number `k`, `k + 1`, ... of a run that made `total` Newton steps. -/
inductive SubproblemLog (o : Params K) (res : Nat → K) (newtons : Nat → Nat) (tol : Nat → K)
    (total : Nat) : Nat → Nat → List (Msg K) → Prop
  | nil (k) : SubproblemLog o res newtons tol total k k []
  /-- the last subproblem -/
  | last {k ps footer} (h : Iterates o (tol (k + 1)) o.maxInnerIters.toNat (newtons k) ps footer
      total) : SubproblemLog o res newtons tol total k (k + 1)
        (.detailedHeader k (newtons k) (res k) :: .detailedColumns ::
          (iterateMsgs 0 ps ++ footerMsgs footer))
  | cons {k n ps footer log} (h : Iterates o (tol (k + 1)) o.maxInnerIters.toNat (newtons k) ps
      footer (newtons (k + 1))) (hs : SubproblemLog o res newtons tol total (k + 1) n log) :
      SubproblemLog o res newtons tol total k n
        (.detailedHeader k (newtons k) (res k) :: .detailedColumns ::
          (iterateMsgs 0 ps ++ footerMsgs footer ++ log))

/-- The run was stopped by the limit on proximal iterations. -/
def ProxLimited (o : Params K) (out : SolverOut K) : Prop :=
  out.eflag = .maxIterations ∧ (out.newtonIters : Int) < o.maxNewtonIters

/-- The number of Newton steps that lead to the `k`-th proximal iterate: what is reported when
`max_prox_iters` is set to `k`. -/
def FBstabDense.newtonsAt (s : FBstabDense K) (qp : DenseProblem K) (x : CallerVar K) (k : Nat) :
    Nat :=
  if k = 0 then 0
  else match ((s.withOptions { s.options with maxProxIters := k }).solve qp x).result with
    | .ok out => out.newtonIters
    | .error _ => 0

/-- The same for `FBstabMpc`. -/
def FBstabMpc.newtonsAt (s : FBstabMpc K) (p : MpcProblem K) (x : CallerVar K) (k : Nat) : Nat :=
  if k = 0 then 0
  else match ((s.withOptions { s.options with maxProxIters := k }).solve p x).result with
    | .ok out => out.newtonIters
    | .error _ => 0

end Fbstab
