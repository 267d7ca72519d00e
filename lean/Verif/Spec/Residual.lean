import Verif.Model.Params
import Verif.Model.Components

/-!
# Residual functions, in any arithmetic

What the reported numbers mean, as plain functions of problem data and points (no objects, no
workspaces).  `Verif/Spec/QP.lean` says what they are over the reals.
-/

namespace Fbstab
variable {K : Type} [Scalar K] {nz nl nv : Nat}

/-- The constraint margin `b - A z`. -/
def margin (q : QPOps K nz nl nv) (z : Vec K nz) : Vec K nv :=
  q.gemvA z (-1) 1 (q.axpyb 1 (Vec.const 0))

/-- `H z + f + G' l + A' v` -/
def gradLagrangian (q : QPOps K nz nl nv) (z : Vec K nz) (l : Vec K nl) (v : Vec K nv) :
    Vec K nz :=
  q.gemvAT v 1 1 (q.gemvGT l 1 1 (q.gemvH z 1 1 (q.axpyf 1 (Vec.const 0))))

/-- `h - G z` -/
def eqDefect (q : QPOps K nz nl nv) (z : Vec K nz) : Vec K nl :=
  q.gemvG z (-1) 1 (q.axpyh 1 (Vec.const 0))

/-- The norm `sqrt(|z|^2 + |l|^2 + |v|^2)` of a triple of vectors. -/
def norm3 (z : Vec K nz) (l : Vec K nl) (v : Vec K nv) : K :=
  Scalar.sqrt (z.norm * z.norm + l.norm * l.norm + v.norm * v.norm)

/-- The penalized natural residual of the complementarity pairs: `alpha * min(y, v) +
(1 - alpha) * max(0, y) * max(0, v)`. -/
def penalizedMin (alpha : K) (y v : Vec K nv) : Vec K nv :=
  Vec.ofFn fun i => alpha * cmin (y i) (v i) + (1 - alpha) * cmax 0 (y i) * cmax 0 (v i)

/-- The norm of the penalized natural residual of the point `(z, l, v, y)`: what the solver reports
as `residual` and compares with its tolerance. -/
def residualNorm (q : QPOps K nz nl nv) (alpha : K) (x : Point K nz nl nv) : K :=
  norm3 (gradLagrangian q x.z x.l x.v) (eqDefect q x.z) (penalizedMin alpha x.y x.v)

/-- The tolerance the residual is compared with: `abs_tol + rel_tol * (1 + |(f, h, b)|)`. -/
def stoppingTol (q : QPOps K nz nl nv) (o : Params K) : K :=
  o.absTol + o.relTol * (1 + q.forcingNorm)

end Fbstab
