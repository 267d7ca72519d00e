import Verif.Spec.Method
import Verif.Spec.Convergence

/-!
# Quadratic convergence, as it shows in the log

At the display level ITER_DETAILED, `Solve` prints one line for every Newton iterate of a subproblem: its
number, counted from zero in every subproblem, the length of the step that led to it and the norms of the three
parts of the residual of the subproblem.
-/

namespace Fbstab
open Matrix

/-- A line about a Newton iterate shows a full step, and the residual is as small as quadratic convergence with the
constant `K` makes it: at most `1 / (2 K)`, `1 / (4 K)`, `1 / (16 K)`, `1 / (256 K)`, ... for the iterates 0, 1,
2, 3, ... -/
def Msg.FullStep (K : ℝ) : Msg ℝ → Prop
  | .detailedLine i t rz rl rv => t = 1 ∧ K * √(rz ^ 2 + rl ^ 2 + rv ^ 2) ≤ (1 / 2) ^ 2 ^ i
  | _ => True

/-- Of two lines about Newton iterates, the second shows a residual of at most `K` times the square of the
residual of the first. -/
def Msg.Squared (K : ℝ) : Msg ℝ → Msg ℝ → Prop
  | .detailedLine _ _ rz rl rv, .detailedLine _ _ rz' rl' rv' =>
    √(rz' ^ 2 + rl' ^ 2 + rv' ^ 2) ≤ K * √(rz ^ 2 + rl ^ 2 + rv ^ 2) ^ 2
  | _, _ => True

/-- Every line about a Newton iterate shows a full step, and every line which follows such a line immediately shows
the square of its residual, up to the factor `K`.  (Lines about different subproblems do not follow each other
immediately: a new subproblem is announced by a heading.) -/
structure QuadraticLog (K : ℝ) (log : List (Msg ℝ)) : Prop where
  full : ∀ m ∈ log, m.FullStep K
  squared : log.IsChain (Msg.Squared K)

namespace QP
variable {nz nl nv : Nat} (q : QP nz nl nv)

/-- The solution `(z, l, v)` is strictly complementary with margin `m`: every constraint is inactive by at least
`m` or has a multiplier of at least `m`.  `M` bounds margins and multipliers. -/
structure StrictlyComplementary (m M : ℝ) (z : Fin nz → ℝ) (v : Fin nv → ℝ) : Prop where
  margin : ∀ i, m ≤ max (q.b i - (q.A *ᵥ z) i) (v i)
  bound : ∀ i, q.b i - (q.A *ᵥ z) i ≤ M ∧ v i ≤ M
  nonneg : 0 ≤ M

/-- By how much the distance from the solution of a subproblem is squared in a Newton step. -/
noncomputable def distFactor (alpha sigma m : ℝ) : ℝ :=
  q.errFactor alpha sigma *
    ((1 / ((m + 1e-13) / 2) + 1) * ((1 + q.sizeA + sigma) * q.errFactor alpha sigma) ^ 2)

/-- By how much the residual of a subproblem is squared in a Newton step: the constant of quadratic convergence. -/
noncomputable def squareFactor (alpha sigma m M : ℝ) : ℝ :=
  (4 + 2 * (M + m)) * ((1 + q.sizeA + sigma) * q.distFactor alpha sigma m)

/-- How far from the solution the iterates can get, when the guess is at the distance `D` and has the residual
`E0`. -/
noncomputable def localReach (o : Params ℝ) (D E0 : ℝ) : ℝ :=
  D + q.errFactor o.alpha o.sigma0 * (E0 * o.delta / (1 - o.delta) + o.maxProxIters * o.innerTolMin)

/-- The iterates stay in the region of quadratic convergence, around a solution with margin `m` and bound `M`, if
they stay within the distance `rho`.  The number 1e-13 is the one below which the linear solvers do not use the
derivative of the Fischer-Burmeister function; `N` Newton iterations are enough for every subproblem. -/
structure Basin (o : Params ℝ) (m M : ℝ) (N : Nat) (rho : ℝ) : Prop where
  margin : 1e-13 < m
  centres : (1 + q.sizeA + 2 * o.sigma0) * rho ≤ (m - 1e-13) / 4
  pairs : (1 + q.sizeA + o.sigma0) * q.errFactor o.alpha o.sigma0 * q.startResidual M rho ≤ (m - 1e-13) / 4
  square : q.squareFactor o.alpha o.sigma0 m M * q.startResidual M rho ≤ 1 / 25
  steps : (1 / 2) ^ 2 ^ N ≤ q.squareFactor o.alpha o.sigma0 m M * o.innerTolMin
  inner : N < o.maxInnerIters

end QP
end Fbstab
