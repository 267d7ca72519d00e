import Verif.Spec.Api

/-!
# What the detailed log says about the line search

With `Display::ITER_DETAILED` the solver prints, for every Newton iterate of every proximal
subproblem, its number, the length of the step that led to it and the norms of the three parts of
its residual.  `LineSearchLog` says what must be true of such a log.
-/

namespace Fbstab
variable {K : Type} [Scalar K]

/-- The merit function `1/2 |r|^2`, from the norms of the three parts. -/
def meritOf (rz rl rv : K) : K :=
  let n := Scalar.sqrt (rz * rz + rl * rl + rv * rv)
  0.5 * n * n

/-- The step after `j` reductions: `1 * beta * ... * beta`. -/
def backtracked (beta : K) : Nat → K
  | 0 => 1
  | j + 1 => backtracked beta j * beta

/-- The largest of the (at most five) newest merits, newest first; 0 stands for missing ones. -/
def largestRecent (ms : List K) : K :=
  cmax (cmax (cmax (cmax (ms.getD 0 0) (ms.getD 1 0)) (ms.getD 2 0)) (ms.getD 3 0)) (ms.getD 4 0)

/-- The value the merit of the new iterate is compared with. -/
def meritReference (o : Params K) (ms : List K) : K :=
  if o.nonmonotoneLinesearch then largestRecent ms else ms.getD 0 0

/-- The step `t` from an iterate, with the merits `ms` so far (its own first), to an iterate with
merit `m` is what the line search may return: `t` is a power of `beta`, and the sufficient decrease
condition holds at the new iterate unless the limit on reductions was reached. -/
def StepAccepted (o : Params K) (ms : List K) (t m : K) : Prop :=
  ∃ j : Nat, t = backtracked o.beta j ∧ (j : Int) ≤ o.maxLinesearchIters ∧
    ((j : Int) < o.maxLinesearchIters →
      m ≤ meritReference o ms - 2.0 * t * o.eta * ms.getD 0 0)

/-- The log of a run at level ITER_DETAILED, from a place where the iterates of the current
subproblem had the merits `ms` (newest first).  Every subproblem starts with a header; its iterates
are numbered from 0; the first has step length 1. -/
def LineSearchLog (o : Params K) : List K → List (Msg K) → Prop
  | _, [] => True
  | _, .detailedHeader _ _ _ :: log => LineSearchLog o [] log
  | ms, .detailedLine i t rz rl rv :: log =>
    i = ms.length ∧ (if ms = [] then t = 1 else StepAccepted o ms t (meritOf rz rl rv)) ∧
      LineSearchLog o (meritOf rz rl rv :: ms) log
  | ms, _ :: log => LineSearchLog o ms log

end Fbstab
