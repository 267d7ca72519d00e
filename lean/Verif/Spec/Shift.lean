import Verif.Spec.Dual
import Verif.Spec.Convergence

/-!
# Problems without a solution: the nearest solvable problem, and when the solver notices (C58)

A convex problem without a KKT point has inconsistent constraints or an objective that decreases linearly
along a direction of the feasible set, or both.  The data `f`, `h`, `b` can be shifted so that it becomes
solvable, and there is a smallest such shift.
-/

namespace Fbstab
open Matrix
namespace QP
variable {nz nl nv : Nat} (q : QP nz nl nv)

/-- The problem with `f`, `h`, `b` shifted. -/
def shifted (sz : Fin nz → ℝ) (sl : Fin nl → ℝ) (sv : Fin nv → ℝ) : QP nz nl nv :=
  { q with f := q.f + sz, h := q.h + sl, b := q.b + sv }

/-- The smallest shift: `sz` is a direction of recession along which the objective has slope `-|sz|^2`,
and `(sl, sv)` combines the constraints to `0 <= -|(sl, sv)|^2`.  (Zero for a solvable problem.) -/
structure LeastShift (sz : Fin nz → ℝ) (sl : Fin nl → ℝ) (sv : Fin nv → ℝ) : Prop where
  flat : q.H *ᵥ sz = 0
  eq : q.G *ᵥ sz = 0
  ineq : ∀ i, (q.A *ᵥ sz) i ≤ 0
  slope : q.f ⬝ᵥ sz = -(sz ⬝ᵥ sz)
  cancel : q.Gᵀ *ᵥ sl + q.Aᵀ *ᵥ sv = 0
  sign : ∀ i, 0 ≤ sv i
  violation : q.h ⬝ᵥ sl + q.b ⬝ᵥ sv = -(sl ⬝ᵥ sl + sv ⬝ᵥ sv)

/-- Every `(l, v)` within `r` of `(ul, uv)` passes the test for primal infeasibility, if `(ul, uv)`
combines the constraints to `0 <= -sigma |(ul, uv)|^2`. -/
structure PrimalMargin (tol sigma r : ℝ) (ul : Fin nl → ℝ) (uv : Fin nv → ℝ) : Prop where
  small : (q.sizeA + q.sizeG) * r ≤ tol * (max ‖uv‖ ‖ul‖ - r)
  neg : (euclid q.b + euclid q.h) * r < sigma * (ul ⬝ᵥ ul + uv ⬝ᵥ uv)

/-- Every `z` within `r` of `uz` passes the test for dual infeasibility, if `uz` is a direction of
recession with slope `-sigma |uz|^2`. -/
structure DualMargin (tol sigma r : ℝ) (uz : Fin nz → ℝ) : Prop where
  ineq : q.sizeA * r ≤ tol * (‖uz‖ - r)
  eq : q.sizeG * r ≤ tol * (‖uz‖ - r)
  flat : q.sizeH * r ≤ tol * (‖uz‖ - r)
  descent : euclid q.f * r < sigma * (uz ⬝ᵥ uz)
  nonzero : 1e-14 < ‖uz‖ - r

/-- `K` proximal iterations are enough to notice: after `k0` of them the tolerances of the subproblems
are below `r / 2` (up to `errFactor`), and there is no room for `K - k0` steps that differ from the
limiting step by `r / 2`. -/
structure NoticedWithin (o : Params ℝ) (D r : ℝ) (k0 K : Nat) : Prop where
  small : q.errFactor o.alpha o.sigma0 * (o.innerTolMax * o.delta ^ (k0 + 1) + o.innerTolMin) ≤ r / 2
  room : 2 * q.reach o D K ^ 2 < ((K : ℝ) - k0) * (r / 2) ^ 2

/-- The assumptions on the problem, the guess `(z0, l0, v0)` and the options under which `K` proximal
iterations are enough to notice that there is no solution: `(sz, sl, sv)` is the least shift, `(zs, ls, vs)`
a solution of the shifted problem at distance at most `D` from the guess, and the limiting step passes a test
for infeasibility with the margin `r`. -/
structure Noticeable (o : Params ℝ) (z0 : Fin nz → ℝ) (l0 : Fin nl → ℝ) (v0 : Fin nv → ℝ)
    (sz : Fin nz → ℝ) (sl : Fin nl → ℝ) (sv : Fin nv → ℝ) (zs : Fin nz → ℝ) (ls : Fin nl → ℝ)
    (vs : Fin nv → ℝ) (D r : ℝ) (k0 K : Nat) : Prop where
  checked : o.checkFeasibility = true
  least : q.LeastShift sz sl sv
  solved : (q.shifted sz sl sv).KKT zs ls vs
  nonneg : 0 ≤ D
  near : QP.dist2 z0 l0 v0 zs ls vs ≤ D ^ 2
  margin : q.PrimalMargin o.infeasTol o.sigma0 r (o.sigma0⁻¹ • sl) (o.sigma0⁻¹ • sv) ∨
    q.DualMargin o.infeasTol o.sigma0 r (o.sigma0⁻¹ • sz)
  within : q.NoticedWithin o D r k0 K
  limit : (K : Int) ≤ o.maxProxIters

/-- A bound for the distance of the centres of the subproblems from solutions of the subproblems. -/
noncomputable def driftReach (o : Params ℝ) (D : ℝ) (K : Nat) (sz : Fin nz → ℝ) (sl : Fin nl → ℝ)
    (sv : Fin nv → ℝ) : ℝ :=
  q.reach o D K + (1 + o.sigma0⁻¹) * √(sz ⬝ᵥ sz + sl ⬝ᵥ sl + sv ⬝ᵥ sv)

/-- `M` bounds the slacks and multipliers of the shifted problem at the solution `(zs, vs)` and at the
solution `K` limiting steps farther on. -/
def DriftBound (o : Params ℝ) (K : Nat) (sz : Fin nz → ℝ) (sv : Fin nv → ℝ) (zs : Fin nz → ℝ)
    (vs : Fin nv → ℝ) (M : ℝ) : Prop :=
  ∀ i, q.b i + sv i - (q.A *ᵥ (zs + (K * o.sigma0⁻¹) • sz)) i ≤ M ∧ vs i + K * o.sigma0⁻¹ * sv i ≤ M

/-- The tolerances are too small for an infeasible problem to be taken for solved (C57): `tol` is the
stopping tolerance. -/
structure TightPrimal (o : Params ℝ) (tol : ℝ) (l : Fin nl → ℝ) (v : Fin nv → ℝ) : Prop where
  stopping : tol * (euclid l + (∑ i, v i) / o.alpha) < -(q.h ⬝ᵥ l + q.b ⬝ᵥ v)
  stalling : let c := 2 * o.innerTolMax / o.alpha
    (o.innerTolMax + o.sigma0 * o.stallTol) * euclid l + (c + o.sigma0 * (o.stallTol + c)) * ∑ i, v i <
      -(q.h ⬝ᵥ l + q.b ⬝ᵥ v)

/-- The same for an unbounded problem. -/
structure TightDual (o : Params ℝ) (tol : ℝ) (d : Fin nz → ℝ) : Prop where
  stopping : tol * (euclid d + (∑ i, -(q.A *ᵥ d) i) / o.alpha) < -(q.f ⬝ᵥ d)
  stalling : let c := 2 * o.innerTolMax / o.alpha
    (o.innerTolMax + o.sigma0 * o.stallTol) * euclid d +
      (c + o.sigma0 * (o.stallTol + c)) * ∑ i, -(q.A *ᵥ d) i < -(q.f ⬝ᵥ d)

end QP
end Fbstab
