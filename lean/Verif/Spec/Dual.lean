import Verif.Spec.QP

/-!
# The dual problem, and proofs that a problem has no solution

    minimise 1/2 z'Hz + h'l + b'v   subject to   Hz + f + G'l + A'v = 0, v >= 0

(README.md; the objective printed there, `1/2 z'Hz + b'l + h'v`, has `b` and `h` exchanged.)
-/

namespace Fbstab
open Matrix
namespace QP
variable {nz nl nv : Nat} (q : QP nz nl nv)

/-- The objective of the dual problem. -/
noncomputable def dualObjective (z : Fin nz → ℝ) (l : Fin nl → ℝ) (v : Fin nv → ℝ) : ℝ :=
  (1 / 2) * (z ⬝ᵥ q.H *ᵥ z) + q.h ⬝ᵥ l + q.b ⬝ᵥ v

/-- The constraints of the dual problem. -/
structure DualFeasible (z : Fin nz → ℝ) (l : Fin nl → ℝ) (v : Fin nv → ℝ) : Prop where
  stationary : q.H *ᵥ z + q.f + q.Gᵀ *ᵥ l + q.Aᵀ *ᵥ v = 0
  sign : ∀ i, 0 ≤ v i

/-- Solutions of the dual problem. -/
structure DualMinimiser (z : Fin nz → ℝ) (l : Fin nl → ℝ) (v : Fin nv → ℝ) : Prop where
  feasible : q.DualFeasible z l v
  le : ∀ z' l' v', q.DualFeasible z' l' v' → q.dualObjective z l v ≤ q.dualObjective z' l' v'

/-- A nonnegative combination of the constraints that reads `0 <= negative`: there is no feasible
point. -/
structure Contradiction (l : Fin nl → ℝ) (v : Fin nv → ℝ) : Prop where
  cancel : q.Gᵀ *ᵥ l + q.Aᵀ *ᵥ v = 0
  sign : ∀ i, 0 ≤ v i
  neg : q.h ⬝ᵥ l + q.b ⬝ᵥ v < 0

/-- A direction along which feasible points stay feasible and the objective decreases linearly. -/
structure Recession (d : Fin nz → ℝ) : Prop where
  flat : q.H *ᵥ d = 0
  eq : q.G *ᵥ d = 0
  ineq : ∀ i, (q.A *ᵥ d) i ≤ 0
  descent : q.f ⬝ᵥ d < 0

end QP
end Fbstab
