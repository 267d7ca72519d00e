import Verif.Spec.Rounding
import Verif.Spec.RealApi

/-!
# What an infeasibility flag means in rounded arithmetic
-/

namespace Fbstab

section
variable {K : Type} [Scalar K] {nz nl nv : Nat}

/-- `A'v + G'l`, as the code adds it up. -/
def multiplierSum (ops : QPOps K nz nl nv) (l : Vec K nl) (v : Vec K nv) : Vec K nz :=
  ops.gemvGT l 1 1 (ops.gemvAT v 1 1 (Vec.const 0))

/-- `h'l + b'v`, as the code adds it up. -/
def certificateValue (ops : QPOps K nz nl nv) (l : Vec K nl) (v : Vec K nv) : K :=
  (ops.axpyh 1 (Vec.const 0)).dot l + (ops.axpyb 1 (Vec.const 0)).dot v

/-- `f'z`, as the code adds it up. -/
def slope (ops : QPOps K nz nl nv) (z : Vec K nz) : K := (ops.axpyf 1 (Vec.const 0)).dot z

/-- The sums in the test for a primal certificate do not overflow (and are not NaN). -/
structure Rounding.PrimalFinite {u eta : ℝ} (F : Rounding K u eta) (ops : QPOps K nz nl nv) (tol : K)
    (l : Vec K nl) (v : Vec K nv) : Prop where
  sum : ∃ r, F.Reads (multiplierSum ops l v) r
  value : ∃ r, F.toReal (certificateValue ops l v) = some r
  bound : ∃ r, F.toReal (tol * cmax v.lpNormInf l.lpNormInf) = some r

/-- The sums in the test for a dual certificate do not overflow (and are not NaN). -/
structure Rounding.DualFinite {u eta : ℝ} (F : Rounding K u eta) (ops : QPOps K nz nl nv) (tol : K)
    (z : Vec K nz) : Prop where
  A : ∃ r, F.Reads (ops.gemvA z 1 0 (Vec.const 0)) r
  G : ∃ r, F.Reads (ops.gemvG z 1 0 (Vec.const 0)) r
  H : ∃ r, F.Reads (ops.gemvH z 1 0 (Vec.const 0)) r
  value : ∃ r, F.toReal (slope ops z) = some r
  bound : ∃ r, F.toReal (tol * z.lpNormInf) = some r

/-- The checker's workspaces hold finite numbers.  (`DenseData` multiplies their old contents by 0.) -/
structure Rounding.WsFinite {u eta : ℝ} (F : Rounding K u eta) (ws : FeasWs K nz nl nv) : Prop where
  tz : ∃ r, F.Reads ws.tz r
  tl : ∃ r, F.Reads ws.tl r
  tv : ∃ r, F.Reads ws.tv r

end

namespace QP
variable {nz nl nv : Nat} (q : QP nz nl nv)
open Matrix

/-- `|A'| |v| + |G'| |l|` -/
def multiplierSize (l : Fin nl → ℝ) (v : Fin nv → ℝ) : Fin nz → ℝ := fun i =>
  (∑ j, |q.A j i| * |v j|) + ∑ j, |q.G j i| * |l j|

/-- `QP.PrimalCertificate` with the rounding error `g` (relative) and `w` (from underflow) of one
evaluation of the sums. -/
structure RoundedPrimalCertificate (tol g w : ℝ) (l : Fin nl → ℝ) (v : Fin nv → ℝ) : Prop where
  small : ∀ i, |(q.Aᵀ *ᵥ v + q.Gᵀ *ᵥ l) i| ≤ (1 + g) * (tol * max ‖v‖ ‖l‖) + g * q.multiplierSize l v i + w
  neg : q.b ⬝ᵥ v + q.h ⬝ᵥ l < g * ((∑ i, |q.b i| * |v i|) + ∑ i, |q.h i| * |l i|) + w

/-- `QP.DualCertificate` with the rounding error `g` (relative) and `w` (from underflow) of one
evaluation of the sums. -/
structure RoundedDualCertificate (tol eps g w : ℝ) (z : Fin nz → ℝ) : Prop where
  ineq : ∀ i, (q.A *ᵥ z) i ≤ (1 + g) * (tol * ‖z‖) + g * (∑ j, |q.A i j| * |z j|) + w
  eq : ∀ i, |(q.G *ᵥ z) i| ≤ (1 + g) * (tol * ‖z‖) + g * (∑ j, |q.G i j| * |z j|) + w
  flat : ∀ i, |(q.H *ᵥ z) i| ≤ (1 + g) * (tol * ‖z‖) + g * (∑ j, |q.H i j| * |z j|) + w
  descent : q.f ⬝ᵥ z < g * (∑ i, |q.f i| * |z i|) + w
  nonzero : eps < ‖z‖

end QP
end Fbstab
