import Verif.Spec.RealScalar
import Verif.Spec.Residual
import Mathlib.LinearAlgebra.Matrix.Symmetric
import Mathlib.Data.Matrix.ColumnRowPartitioned
import Mathlib.Data.Fintype.BigOperators

/-!
# The quadratic program, over the reals

    minimise 1/2 z'Hz + f'z   subject to   Gz = h, Az <= b

with Mathlib's matrices; nothing here refers to the solver.
-/

namespace Fbstab
open Matrix

/-- A quadratic program with `nz` unknowns, `nl` equations and `nv` inequalities. -/
structure QP (nz nl nv : Nat) where
  H : Matrix (Fin nz) (Fin nz) ℝ
  f : Fin nz → ℝ
  G : Matrix (Fin nl) (Fin nz) ℝ
  h : Fin nl → ℝ
  A : Matrix (Fin nv) (Fin nz) ℝ
  b : Fin nv → ℝ

/-- The Euclidean norm. -/
noncomputable def euclid {n : Nat} (x : Fin n → ℝ) : ℝ := √(x ⬝ᵥ x)

namespace QP
variable {nz nl nv : Nat} (q : QP nz nl nv)

/-- The objective. -/
noncomputable def objective (z : Fin nz → ℝ) : ℝ := (1 / 2) * (z ⬝ᵥ q.H *ᵥ z) + q.f ⬝ᵥ z

/-- The constraints. -/
structure Feasible (z : Fin nz → ℝ) : Prop where
  eq : q.G *ᵥ z = q.h
  ineq : ∀ i, (q.A *ᵥ z) i ≤ q.b i

/-- The Hessian is symmetric positive semidefinite. -/
structure Convex : Prop where
  symm : q.H.IsSymm
  nonneg : ∀ z, 0 ≤ z ⬝ᵥ q.H *ᵥ z

/-- A feasible point with the smallest objective. -/
structure Minimiser (z : Fin nz → ℝ) : Prop where
  feasible : q.Feasible z
  le : ∀ z', q.Feasible z' → q.objective z ≤ q.objective z'

/-- The gradient of the Lagrangian. -/
def lagrangeGrad (z : Fin nz → ℝ) (l : Fin nl → ℝ) (v : Fin nv → ℝ) : Fin nz → ℝ :=
  q.H *ᵥ z + q.f + q.Gᵀ *ᵥ l + q.Aᵀ *ᵥ v

/-- The Karush-Kuhn-Tucker conditions. -/
structure KKT (z : Fin nz → ℝ) (l : Fin nl → ℝ) (v : Fin nv → ℝ) : Prop where
  stationary : q.lagrangeGrad z l v = 0
  feasible : q.Feasible z
  dual : ∀ i, 0 ≤ v i
  complementary : ∀ i, v i = 0 ∨ (q.A *ᵥ z) i = q.b i

/-- The KKT conditions of the proximally regularised problem at `(zb, lb, vb)`:
`Hz + f + G'l + A'v + sigma (z - zb) = 0`, `h - Gz + sigma (l - lb) = 0` and
`0 <= v  ⟂  b - Az + sigma (v - vb) >= 0`. -/
structure ProxKKT (sigma : ℝ) (zb : Fin nz → ℝ) (lb : Fin nl → ℝ) (vb : Fin nv → ℝ)
    (z : Fin nz → ℝ) (l : Fin nl → ℝ) (v : Fin nv → ℝ) : Prop where
  stationary : q.lagrangeGrad z l v + sigma • (z - zb) = 0
  eq : q.h - q.G *ᵥ z + sigma • (l - lb) = 0
  margin : ∀ i, 0 ≤ q.b i - (q.A *ᵥ z) i + sigma * (v i - vb i)
  dual : ∀ i, 0 ≤ v i
  complementary : ∀ i, v i = 0 ∨ q.b i - (q.A *ᵥ z) i + sigma * (v i - vb i) = 0

/-- The KKT conditions up to `eps` (stationarity and equations in the Euclidean norm) and `epsc`
(inequalities, signs and complementarity, entry by entry). -/
structure NearKKT (eps epsc : ℝ) (z : Fin nz → ℝ) (l : Fin nl → ℝ) (v : Fin nv → ℝ) : Prop where
  stationary : euclid (q.lagrangeGrad z l v) ≤ eps
  eq : euclid (q.G *ᵥ z - q.h) ≤ eps
  ineq : ∀ i, (q.A *ᵥ z) i - q.b i ≤ epsc
  dual : ∀ i, -epsc ≤ v i
  complementary : ∀ i, |min (q.b i - (q.A *ᵥ z) i) (v i)| ≤ epsc

/-- Squared distance of two primal-dual points. -/
def dist2 (z : Fin nz → ℝ) (l : Fin nl → ℝ) (v : Fin nv → ℝ) (z' : Fin nz → ℝ) (l' : Fin nl → ℝ)
    (v' : Fin nv → ℝ) : ℝ :=
  (z - z') ⬝ᵥ (z - z') + (l - l') ⬝ᵥ (l - l') + (v - v') ⬝ᵥ (v - v')

/-- The relation the interface `Data` documents between its methods and a quadratic program: `y <-
a*M*x + b*y` and so on.  For `gemvGT` only the scaling `a = 1` used by the solver is demanded. -/
structure Implements (ops : QPOps ℝ nz nl nv) : Prop where
  gemvH : ∀ x a b y, (ops.gemvH x a b y).fn = a • (q.H *ᵥ x.fn) + b • y.fn
  gemvA : ∀ x a b y, (ops.gemvA x a b y).fn = a • (q.A *ᵥ x.fn) + b • y.fn
  gemvG : ∀ x a b y, (ops.gemvG x a b y).fn = a • (q.G *ᵥ x.fn) + b • y.fn
  gemvAT : ∀ x a b y, (ops.gemvAT x a b y).fn = a • (q.Aᵀ *ᵥ x.fn) + b • y.fn
  gemvGT : ∀ x b y, (ops.gemvGT x 1 b y).fn = q.Gᵀ *ᵥ x.fn + b • y.fn
  axpyf : ∀ a y, (ops.axpyf a y).fn = a • q.f + y.fn
  axpyh : ∀ a y, (ops.axpyh a y).fn = a • q.h + y.fn
  axpyb : ∀ a y, (ops.axpyb a y).fn = a • q.b + y.fn
  forcingNorm : ops.forcingNorm = √(q.f ⬝ᵥ q.f + q.h ⬝ᵥ q.h + q.b ⬝ᵥ q.b)

/-- The quadratic program held in a `DenseData`. -/
def ofDense (d : DenseData ℝ nz nl nv) : QP nz nl nv := ⟨d.H.fn, d.f.fn, d.G.fn, d.h.fn, d.A.fn, d.b.fn⟩

end QP

end Fbstab
