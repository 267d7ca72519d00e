import Verif.Spec.Rounding

/-!
# The constraint margins in rounded arithmetic
-/

namespace Fbstab
namespace QP
variable {nz nl nv : Nat} (q : QP nz nl nv)

/-- The sizes of the terms that are added in `b - A z`: `|b| + |A| |z|`. -/
def marginSize (z : Fin nz → ℝ) : Fin nv → ℝ := fun i => |q.b i| + ∑ j, |q.A i j| * |z j|

/-- `y` is the margin `b - A z` of the point `z`, up to the rounding error of evaluating it once. -/
def IsMargin (g w : ℝ) (z : Fin nz → ℝ) (y : Fin nv → ℝ) : Prop :=
  ∀ i, |y i - (q.b i - (q.A.mulVec z) i)| ≤ g * q.marginSize z i + w

/-- `z` satisfies the inequality constraints up to the bound that `QP.RoundedKKT` puts on the margins and the
rounding error of evaluating `b - A z` once. -/
def RoundedFeasible (alpha tol g w : ℝ) (z : Fin nz → ℝ) : Prop :=
  ∀ i, alpha * ((q.A.mulVec z) i - q.b i) ≤
    (√(tol ^ 2 + w) / (1 - g) ^ 4 + w) / (1 - g) ^ 2 + alpha * (g * q.marginSize z i + w)

end QP
end Fbstab
