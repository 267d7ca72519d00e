import Verif.Spec.Dual
import Verif.Spec.RealApi

/-!
# Problems whose infeasibility shows at the cold start
-/

namespace Fbstab.QP
open Matrix
variable {nz nl nv : Nat} (q : QP nz nl nv)

/-- The gradient `f` is a direction that neither the quadratic part nor the constraints see, `h` is
orthogonal to the range of `G`, and negative bounds occur only in rows `0 <= b_i`. -/
structure Decoupled : Prop where
  flat : q.H *ᵥ q.f = 0
  eq : q.G *ᵥ q.f = 0
  ineq : q.A *ᵥ q.f = 0
  range : q.Gᵀ *ᵥ q.h = 0
  void : ∀ i, q.b i < 0 → ∀ j, q.A i j = 0

/-- The size of the residual at `z = 0`, `l = 0`, `v = 0`, for the weight `alpha`. -/
noncomputable def coldResidual (alpha : ℝ) : ℝ :=
  √(q.f ⬝ᵥ q.f + q.h ⬝ᵥ q.h + ∑ i, (alpha * min (q.b i) 0) ^ 2)

end Fbstab.QP
