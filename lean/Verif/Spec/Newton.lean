import Verif.Spec.QP

/-!
# The Newton system of the proximal subproblem

The residual of the subproblem at `(zb, lb, vb)` is

    Hz + f + G'l + A'v + sigma (z - zb)
    h - Gz + sigma (l - lb)
    phi(b - Az + sigma (v - vb), v)           entry by entry

Its (generalised) derivative, with slopes `g1 i`, `g2 i` of `phi` in its first and second argument
at the `i`-th pair, maps a direction `(dz, dl, dv)` to the left-hand sides below.
-/

namespace Fbstab
open Matrix

/-- `(dz, dl, dv)` solves the Newton system with right-hand side `(rz, rl, rv)`. -/
structure QP.NewtonSystem {nz nl nv : Nat} (q : QP nz nl nv) (sigma : ℝ) (g1 g2 : Fin nv → ℝ)
    (rz : Fin nz → ℝ) (rl : Fin nl → ℝ) (rv : Fin nv → ℝ)
    (dz : Fin nz → ℝ) (dl : Fin nl → ℝ) (dv : Fin nv → ℝ) : Prop where
  grad : q.H *ᵥ dz + q.Gᵀ *ᵥ dl + q.Aᵀ *ᵥ dv + sigma • dz = rz
  eq : -(q.G *ᵥ dz) + sigma • dl = rl
  compl : ∀ i, g1 i * (-(q.A *ᵥ dz) i + sigma * dv i) + g2 i * dv i = rv i

end Fbstab
