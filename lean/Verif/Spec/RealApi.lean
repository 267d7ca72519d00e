import Verif.Spec.Api
import Verif.Spec.Ocp
import Mathlib.Analysis.Normed.Group.Constructions
import Mathlib.Analysis.Normed.Group.Real

/-!
# The mathematical problem behind a call, and certificates of infeasibility, over the reals
-/

namespace Fbstab
open Matrix

/-- The quadratic program a call of `FBstabDense::Solve` is about. -/
noncomputable def FBstabDense.qp (s : FBstabDense ℝ) (p : DenseProblem ℝ) : QP s.nz s.nl s.nv :=
  QP.ofDense (p.toData s.nz s.nl s.nv)

/-- The optimal control problem a call of `FBstabMpc::Solve` is about. -/
noncomputable def FBstabMpc.ocp (s : FBstabMpc ℝ) (p : MpcProblem ℝ) : Ocp s.N s.nx s.nu s.nc :=
  Ocp.ofMpc (p.toData s.N s.nx s.nu s.nc)

/-- The quadratic program a call of `FBstabMpc::Solve` is about. -/
noncomputable def FBstabMpc.qp (s : FBstabMpc ℝ) (p : MpcProblem ℝ) :
    QP ((s.N + 1) * (s.nx + s.nu)) ((s.N + 1) * s.nx) ((s.N + 1) * s.nc) := (s.ocp p).toQP

namespace QP
variable {nz nl nv : Nat} (q : QP nz nl nv)

/-- What the code accepts as a proof of primal infeasibility: `|A'v + G'l| <= tol * |(v, l)|` and
`b'v + h'l < 0`, in the maximum norm. -/
structure PrimalCertificate (tol : ℝ) (l : Fin nl → ℝ) (v : Fin nv → ℝ) : Prop where
  small : ‖q.Aᵀ *ᵥ v + q.Gᵀ *ᵥ l‖ ≤ tol * max ‖v‖ ‖l‖
  neg : q.b ⬝ᵥ v + q.h ⬝ᵥ l < 0

/-- What the code accepts as a proof of dual infeasibility: a direction `z` with `Az <= tol * |z|`,
`|Gz| <= tol * |z|`, `|Hz| <= tol * |z|`, `f'z < 0` and `|z| > 1e-14`, in the maximum norm. -/
structure DualCertificate (tol : ℝ) (z : Fin nz → ℝ) : Prop where
  ineq : ∀ i, (q.A *ᵥ z) i ≤ tol * ‖z‖
  eq : ‖q.G *ᵥ z‖ ≤ tol * ‖z‖
  flat : ‖q.H *ᵥ z‖ ≤ tol * ‖z‖
  descent : q.f ⬝ᵥ z < 0
  nonzero : 1e-14 < ‖z‖

end QP
end Fbstab
