import Verif.Spec.Method

/-!
# How far apart two results can be

Two results `(z, l, v)` and `(z', l', v')` with residuals `e` and `e'`, for two quadratic programs with the same
matrices `H`, `G` and `A`.
-/

namespace Fbstab
open Matrix

namespace QP
variable {nz nl nv : Nat}

/-- The part of the bound which does not depend on `z`: changes of `h` and `b` weighted with the changes of the
multipliers, and what the tolerances leave open.  `alpha` and `alpha'` are the options of the two calls. -/
noncomputable def resultGap (q q' : QP nz nl nv) (alpha alpha' e e' : ℝ) (x x' : PD nz nl nv) : ℝ :=
  (e + e' + euclid (q.h - q'.h)) * euclid (x.l - x'.l) + euclid (q.b - q'.b) * euclid (x.v - x'.v) +
    nv * (e / (1 - alpha) + e' / (1 - alpha')) + e' / alpha' * ∑ i, x.v i + e / alpha * ∑ i, x'.v i

/-- The matrices are the same; `f`, `h` and `b` may differ. -/
structure SameMatrices (q q' : QP nz nl nv) : Prop where
  H : q.H = q'.H
  G : q.G = q'.G
  A : q.A = q'.A

/-- The objective is strongly convex, with the modulus `mu`. -/
def StronglyConvex (q : QP nz nl nv) (mu : ℝ) : Prop := ∀ w, mu * euclid w ^ 2 ≤ w ⬝ᵥ q.H *ᵥ w

end QP
end Fbstab
