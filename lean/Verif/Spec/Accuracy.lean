import Verif.Spec.Rounding
import Verif.Spec.QP

/-!
# Accuracy of a result

What residuals say about the minimiser and the optimal value.  `(z, l, v)` is a result with residuals `S` for
stationarity, `T` for the equations and `c` for complementarity; `y` is the margin the solver keeps.
-/

namespace Fbstab
open Matrix

namespace QP
variable {nz nl nv : Nat} (q : QP nz nl nv)

/-- By how much the margin `y` differs from the true margin `b - A z`. -/
noncomputable def drift (z : Fin nz → ℝ) (y : Fin nv → ℝ) : ℝ := euclid (y - (q.b - q.A *ᵥ z))

/-- The result is close to every solution, measured with `H`, and its objective is close to the optimal value.  All
numbers on the right hand sides vanish with `S`, `T`, `c` and the drift of the margin. -/
structure Accurate (S T c : ℝ) (z : Fin nz → ℝ) (l : Fin nl → ℝ) (v y : Fin nv → ℝ) : Prop where
  /-- the distance from a solution `(z*, l*, v*)` of the KKT conditions -/
  distance : ∀ zs ls vs, q.KKT zs ls vs →
    (z - zs) ⬝ᵥ q.H *ᵥ (z - zs) ≤ S * euclid (z - zs) + T * euclid (l - ls) + q.drift z y * euclid (v - vs) +
      c * ∑ i, (|y i| + |v i| + (q.b i - (q.A *ᵥ zs) i) + vs i)
  /-- the objective, compared with that of any feasible point `z'` -/
  objective : q.Convex → ∀ z', q.Feasible z' →
    q.objective z ≤ q.objective z' + S * euclid (z' - z) + T * euclid l + q.drift z y * euclid v +
      c * ∑ i, (|y i| + |v i| + (q.b i - (q.A *ᵥ z') i))
  /-- the optimal value, compared with the objective: the result is not much better, by violating constraints -/
  value : q.Convex → ∀ zs ls vs, q.KKT zs ls vs →
    q.objective zs ≤ q.objective z + T * euclid ls + q.drift z y * euclid vs + c * ∑ i, vs i

end QP

/-- The bounds of `QP.RoundedKKT` for the residuals of stationarity and equations ... -/
noncomputable def QP.statBound {nz nl nv : Nat} (q : QP nz nl nv) (tol g w : ℝ) (z : Fin nz → ℝ) (l : Fin nl → ℝ)
    (v : Fin nv → ℝ) : ℝ := √(tol ^ 2 + w) / (1 - g) ^ 4 + g * euclid (q.gradSize z l v) + w * √nz

noncomputable def QP.eqBound {nz nl nv : Nat} (q : QP nz nl nv) (tol g w : ℝ) (z : Fin nz → ℝ) : ℝ :=
  √(tol ^ 2 + w) / (1 - g) ^ 4 + g * euclid (q.eqSize z) + w * √nl

/-- ... and for complementarity. -/
noncomputable def compBound (alpha tol g w : ℝ) : ℝ := (√(tol ^ 2 + w) / (1 - g) ^ 4 + w) / (1 - g) ^ 2 / alpha

end Fbstab
