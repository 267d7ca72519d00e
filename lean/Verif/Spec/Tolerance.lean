import Verif.Spec.Residual
import Verif.Spec.Outcome

/-!
# Comparing tolerances
-/

namespace Fbstab

/-- The tolerance `t'` is at least as loose as `t`: every norm (that is, every square root) within `t` is within `t'`.
Over the reals, and for finite floating point numbers, this follows from `t <= t'`. -/
def Looser {K : Type} [Scalar K] (t t' : K) : Prop := ∀ w : K, Scalar.sqrt w ≤ t → Scalar.sqrt w ≤ t'

/-- The options with other tolerances for stopping. -/
def Params.tolerant {K : Type} (o : Params K) (a r st : K) : Params K :=
  { o with absTol := a, relTol := r, stallTol := st }

/-- The options with other limits for the proximal and the Newton iterations. -/
def Params.limited {K : Type} (o : Params K) (P N : Int) : Params K := { o with maxProxIters := P, maxNewtonIters := N }

/-- The options with another tolerance for infeasibility. -/
def Params.suspicious {K : Type} (o : Params K) (c : K) : Params K := { o with infeasTol := c }

/-- What is printed at the end of a run with the options `o`, at the levels FINAL, ITER_DETAILED and ITER. -/
def summaryAt {K : Type} (o : Params K) (out : SolverOut K) (rz rl rv tol : K) : List (Msg K) :=
  if 1 ≤ o.displayLevel.toNat then summary o out rz rl rv tol else []

end Fbstab
