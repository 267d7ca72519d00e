import Verif.Spec.Options
import Verif.Spec.RealScalar

/-!
# Comparisons

What `ValidateOptions` needs of the comparisons of an arithmetic; `double` has these properties, NaN included.
-/

namespace Fbstab

/-- `<=` and `<` compare as IEEE 754 says: a NaN is the value that is not `<=` itself, it compares with nothing, and
the other values are totally ordered.  Literals are rounded monotonically, and not below 0. -/
structure Comparisons (K : Type) [Scalar K] : Prop where
  left : ∀ {a b : K}, a ≤ b → a ≤ a
  right : ∀ {a b : K}, a ≤ b → b ≤ b
  trans : ∀ {a b c : K}, a ≤ b → b ≤ c → a ≤ c
  total : ∀ {a b : K}, a ≤ a → b ≤ b → a ≤ b ∨ b ≤ a
  lt_iff : ∀ {a b : K}, a < b ↔ a ≤ b ∧ ¬b ≤ a
  zero : (0 : K) ≤ 0
  literal_nonneg : ∀ (m : Nat) (s : Bool) (e : Nat), (0 : K) ≤ OfScientific.ofScientific m s e
  literal : ∀ (m : Nat) (s : Bool) (e : Nat) (m' : Nat) (s' : Bool) (e' : Nat),
    (OfScientific.ofScientific m s e : ℝ) ≤ OfScientific.ofScientific m' s' e' →
    (OfScientific.ofScientific m s e : K) ≤ OfScientific.ofScientific m' s' e'

/-- No numeric option is NaN. -/
structure Params.Numbers {K : Type} [Scalar K] (o : Params K) : Prop where
  sigma0 : o.sigma0 ≤ o.sigma0
  sigmaMax : o.sigmaMax ≤ o.sigmaMax
  sigmaMin : o.sigmaMin ≤ o.sigmaMin
  alpha : o.alpha ≤ o.alpha
  beta : o.beta ≤ o.beta
  eta : o.eta ≤ o.eta
  delta : o.delta ≤ o.delta
  gamma : o.gamma ≤ o.gamma
  absTol : o.absTol ≤ o.absTol
  relTol : o.relTol ≤ o.relTol
  stallTol : o.stallTol ≤ o.stallTol
  infeasTol : o.infeasTol ≤ o.infeasTol
  innerTolMax : o.innerTolMax ≤ o.innerTolMax
  innerTolMin : o.innerTolMin ≤ o.innerTolMin

/-- `o'` keeps every option of `o` that is in its own range. -/
def Params.Keeps {K : Type} [Scalar K] (o o' : Params K) : Prop :=
    (Between 1e-6 o.sigmaMax 1e2 → o'.sigmaMax = o.sigmaMax) ∧
    (Between 1e-13 o.sigmaMin 1e-8 → o'.sigmaMin = o.sigmaMin) ∧
    (1e-10 ≤ o.sigma0 → Between o'.sigmaMin o.sigma0 o'.sigmaMax → o'.sigma0 = o.sigma0) ∧
    (Between 0.001 o.alpha 0.999 → o'.alpha = o.alpha) ∧
    (Between 0.1 o.beta 0.99 → o'.beta = o.beta) ∧
    (Between 1e-12 o.eta 0.499 → o'.eta = o.eta) ∧
    (Between 0.0001 o.delta 0.99 → o'.delta = o.delta) ∧
    (Between 0.001 o.gamma 0.9 → o'.gamma = o.gamma) ∧
    (1e-14 ≤ o.absTol → o'.absTol = o.absTol) ∧
    (0 ≤ o.relTol → o'.relTol = o.relTol) ∧
    (1e-14 ≤ o.stallTol → o'.stallTol = o.stallTol) ∧
    (1e-14 ≤ o.infeasTol → o'.infeasTol = o.infeasTol) ∧
    (Between 1e-8 o.innerTolMax 1e2 → o'.innerTolMax = o.innerTolMax) ∧
    (Between 1e-14 o.innerTolMin 1e-2 → o'.innerTolMin = o.innerTolMin) ∧
    (1 ≤ o.maxNewtonIters → o'.maxNewtonIters = o.maxNewtonIters) ∧
    (1 ≤ o.maxProxIters → o'.maxProxIters = o.maxProxIters) ∧
    (1 ≤ o.maxInnerIters → o'.maxInnerIters = o.maxInnerIters) ∧
    (1 ≤ o.maxLinesearchIters → o'.maxLinesearchIters = o.maxLinesearchIters) ∧
    o'.checkFeasibility = o.checkFeasibility ∧
    o'.nonmonotoneLinesearch = o.nonmonotoneLinesearch ∧ o'.displayLevel = o.displayLevel

end Fbstab
