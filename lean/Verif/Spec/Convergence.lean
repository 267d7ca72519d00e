import Verif.Spec.RealApi
import Mathlib.Analysis.SpecialFunctions.Log.Basic

/-!
# How many proximal iterations are enough

The quantities in the convergence theorems (C47, C48).  `D` bounds the distance of the initial guess from
a solution, `M` bounds the slacks and multipliers of that solution, `tol` is the stopping tolerance.
-/

namespace Fbstab
open Matrix

namespace QP
variable {nz nl nv : Nat}

/-- The size of `A`: its Frobenius norm. -/
noncomputable def sizeA (q : QP nz nl nv) : ℝ := √(∑ i, ∑ j, q.A i j ^ 2)

/-- How far a residual of size 1 of a proximal subproblem can displace the step. -/
noncomputable def errFactor (q : QP nz nl nv) (alpha sigma : ℝ) : ℝ :=
  (1 + 2 * (q.sizeA + 1 + sigma) / alpha) / sigma + 2 / alpha

/-- A bound for the sum of the tolerances of `K` subproblems. -/
noncomputable def tolSum (o : Params ℝ) (K : Nat) : ℝ :=
  o.innerTolMax * o.delta / (1 - o.delta) + K * o.innerTolMin

/-- A bound for the distance of the first `K` proximal iterates from the solution. -/
noncomputable def reach (q : QP nz nl nv) (o : Params ℝ) (D : ℝ) (K : Nat) : ℝ :=
  D + q.errFactor o.alpha o.sigma0 * tolSum o K

/-- The length of step that a residual above `tol` implies. -/
noncomputable def stepNeeded (q : QP nz nl nv) (o : Params ℝ) (tol D M : ℝ) (K : Nat) : ℝ :=
  tol / (2 * (1 + M + (1 + q.sizeA) * q.reach o D K) * o.sigma0)

/-- `K` proximal iterations are enough: after `k0` of them the tolerances of the subproblems are small
compared with the steps needed, and there is no room for `K - k0` steps of that length. -/
structure Enough (q : QP nz nl nv) (o : Params ℝ) (tol D M : ℝ) (k0 K : Nat) : Prop where
  small : q.errFactor o.alpha o.sigma0 * (o.innerTolMax * o.delta ^ (k0 + 1) + o.innerTolMin) ≤
    q.stepNeeded o tol D M K
  room : 2 * q.reach o D K ^ 2 < ((K : ℝ) - k0) * q.stepNeeded o tol D M K ^ 2

/-! ## How many Newton iterations a proximal subproblem needs (C48)

`rho` bounds the distance of the centre of the subproblem from the solution. -/

/-- Frobenius norm of `H`. -/
noncomputable def sizeH (q : QP nz nl nv) : ℝ := √(∑ i, ∑ j, q.H i j ^ 2)

/-- Frobenius norm of `G`. -/
noncomputable def sizeG (q : QP nz nl nv) : ℝ := √(∑ i, ∑ j, q.G i j ^ 2)

/-- A bound for the residual of the subproblem at its starting point. -/
noncomputable def startResidual (q : QP nz nl nv) (M rho : ℝ) : ℝ :=
  (q.sizeH + 2 * q.sizeG + q.sizeA + (4 + 2 * (M + (1 + q.sizeA) * rho)) * (1 + q.sizeA)) * rho

/-- How fast the complementarity pairs move, per unit of residual, along a Newton direction. -/
noncomputable def pairSpeed (q : QP nz nl nv) (o : Params ℝ) : ℝ :=
  (1 + q.sizeA + o.sigma0) * q.errFactor o.alpha o.sigma0

/-- A bound for the complementarity pairs the line search looks at. -/
noncomputable def pairBound (q : QP nz nl nv) (o : Params ℝ) (M rho : ℝ) : ℝ :=
  M + (1 + q.sizeA + 2 * o.sigma0) * (rho + q.errFactor o.alpha o.sigma0 * q.startResidual M rho) +
    q.pairSpeed o * q.startResidual M rho

/-- A step length that passes the test of sufficient decrease. -/
noncomputable def safeStep (q : QP nz nl nv) (o : Params ℝ) (M rho : ℝ) : ℝ :=
  (1 - o.eta) / (1 + 22 * nv * (1 + q.pairBound o M rho) ^ 2 * q.pairSpeed o ^ 2)

/-- The factor by which a Newton step reduces the merit function, below its reference value. -/
noncomputable def newtonRate (q : QP nz nl nv) (o : Params ℝ) (M rho : ℝ) : ℝ :=
  2 * o.beta * q.safeStep o M rho * o.eta

/-- A bound for the number of Newton iterations of one subproblem: logarithmic in the reduction of the
residual for the monotone line search. -/
noncomputable def newtonPerProx (q : QP nz nl nv) (o : Params ℝ) (M rho : ℝ) : ℝ :=
  let reduction := q.startResidual M rho ^ 2 / o.innerTolMin ^ 2
  if o.nonmonotoneLinesearch then 5 * reduction / q.newtonRate o M rho
  else 1 + max 0 (Real.log reduction / q.newtonRate o M rho)

/-- The limits on line search, inner and Newton iterations allow `K` subproblems to be solved, and
`inner_tol_min` is not so small that the constant slopes, which the linear solvers use for complementarity
pairs of norm below 1e-13, spoil the Newton direction. -/
structure NewtonEnough (q : QP nz nl nv) (o : Params ℝ) (M rho : ℝ) (K : Nat) : Prop where
  band : 36 * 1e-13 * nv * (1 + q.pairBound o M rho) * q.pairSpeed o ≤ (1 - o.eta) * o.innerTolMin
  linesearch : o.beta ^ (o.maxLinesearchIters.toNat - 1) ≤ q.safeStep o M rho
  inner : q.newtonPerProx o M rho < o.maxInnerIters
  newton : K * q.newtonPerProx o M rho < o.maxNewtonIters

end QP
end Fbstab
