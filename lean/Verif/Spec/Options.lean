import Verif.Spec.Api

/-!
# What valid options are

The ranges that `ValidateOptions` (fbstab_algorithm-impl.h:7-31) is meant to establish.
-/

namespace Fbstab
variable {K : Type} [Scalar K]

/-- `lo <= a <= hi` -/
def Between (lo a hi : K) : Prop := lo ≤ a ∧ a ≤ hi

/-- Every option is in its range. -/
structure Params.InRange (o : Params K) : Prop where
  sigmaMax : Between 1e-6 o.sigmaMax 1e2
  sigmaMin : Between 1e-13 o.sigmaMin 1e-8
  sigma0 : Between o.sigmaMin o.sigma0 o.sigmaMax
  sigma0_pos : 1e-10 ≤ o.sigma0
  alpha : Between 0.001 o.alpha 0.999
  beta : Between 0.1 o.beta 0.99
  eta : Between 1e-12 o.eta 0.499
  delta : Between 0.0001 o.delta 0.99
  gamma : Between 0.001 o.gamma 0.9
  absTol : 1e-14 ≤ o.absTol
  relTol : 0 ≤ o.relTol
  stallTol : 1e-14 ≤ o.stallTol
  infeasTol : 1e-14 ≤ o.infeasTol
  innerTolMax : Between 1e-8 o.innerTolMax 1e2
  innerTolMin : Between 1e-14 o.innerTolMin 1e-2
  maxNewtonIters : 1 ≤ o.maxNewtonIters
  maxProxIters : 1 ≤ o.maxProxIters
  maxInnerIters : 1 ≤ o.maxInnerIters
  maxLinesearchIters : 1 ≤ o.maxLinesearchIters

/-- The iteration limits are positive. -/
structure Params.Limits (o : Params K) : Prop where
  maxNewtonIters : 1 ≤ o.maxNewtonIters
  maxProxIters : 1 ≤ o.maxProxIters
  maxInnerIters : 1 ≤ o.maxInnerIters
  maxLinesearchIters : 1 ≤ o.maxLinesearchIters

/-- Validation of options never throws in this arithmetic (proved for reals, for reals with
infinities and NaN and for binary64, C01). -/
def ValidationTotal (K : Type) [Scalar K] : Prop :=
  ∀ o : Params K, ∃ o', o.validate = .ok o'

/-- The argument of the last `UpdateOptions` of a history. -/
def DenseCall.lastOptions : List (DenseCall K) → Option (Params K)
  | [] => none
  | .solve _ _ :: h => lastOptions h
  | .updateOptions o :: h => (lastOptions h).or (some o)

/-- The argument of the last `UpdateOptions` of a history. -/
def MpcCall.lastOptions : List (MpcCall K) → Option (Params K)
  | [] => none
  | .solve _ _ :: h => lastOptions h
  | .updateOptions o :: h => (lastOptions h).or (some o)

end Fbstab
