import Verif.Spec.Method

/-!
# Unknowns and equations that play no role

Whoever has fewer unknowns or equations than the solver was made for fills up with unknowns that occur nowhere, except
with a cost `w z^2 / 2` of their own, and with equations `0 z = 0`.
-/

namespace Fbstab
open Matrix

/-- How `nz` unknowns are put among `nz'` unknowns and `nl` equations among `nl'` equations: where each of them goes, and
the costs of the other unknowns. -/
structure Widening (nz nz' nl nl' : Nat) where
  unknown : Fin nz → Fin nz'
  uinj : Function.Injective unknown
  equation : Fin nl → Fin nl'
  einj : Function.Injective equation
  cost : Fin nz' → ℝ
  nonneg : ∀ i, 0 ≤ cost i

namespace Widening
variable {nz nz' nl nl' nv : Nat} (g : Widening nz nz' nl nl')

/-- Numbers belonging to the unknowns, with zeros for the new ones. -/
noncomputable def uvec (x : Fin nz → ℝ) : Fin nz' → ℝ := Function.extend g.unknown x 0

/-- Numbers belonging to the equations, with zeros for the new ones. -/
noncomputable def evec (x : Fin nl → ℝ) : Fin nl' → ℝ := Function.extend g.equation x 0

/-- The costs of the new unknowns; zeros for the old ones. -/
noncomputable def costs : Fin nz' → ℝ := Function.extend g.unknown 0 g.cost

/-- The quadratic program with additional unknowns and equations. -/
noncomputable def qp (q : QP nz nl nv) : QP nz' nl' nv where
  H := (of fun i j => g.uvec (fun a => g.uvec (fun b => q.H a b) j) i) + diagonal g.costs
  f := g.uvec q.f
  G := of fun i j => g.evec (fun k => g.uvec (fun b => q.G k b) j) i
  h := g.evec q.h
  A := of fun i j => g.uvec (fun b => q.A i b) j
  b := q.b

/-- A primal-dual point, zero for the new unknowns and equations. -/
noncomputable def point (x : PD nz nl nv) : PD nz' nl' nv := ⟨g.uvec x.z, g.evec x.l, x.v⟩

/-- The result of a call: nothing changes but the point. -/
noncomputable def result (r : Method.Result nz nl nv) : Method.Result nz' nl' nv :=
  ⟨r.log, r.value.map fun w => (w.1, g.point w.2)⟩

end Widening

namespace QP
variable {nz nl nv : Nat} (q : QP nz nl nv)

/-- Unknown `i` occurs nowhere except with a nonnegative quadratic cost of its own. -/
structure Idle (i : Fin nz) : Prop where
  cost : 0 ≤ q.H i i
  row : ∀ j, j ≠ i → q.H i j = 0
  column : ∀ j, j ≠ i → q.H j i = 0
  linear : q.f i = 0
  equations : ∀ k, q.G k i = 0
  inequalities : ∀ k, q.A k i = 0

/-- Equation `i` is `0 z = 0`. -/
structure Empty (i : Fin nl) : Prop where
  row : ∀ j, q.G i j = 0
  rhs : q.h i = 0

/-- The quadratic program with the unknowns `unknown 0, unknown 1, ...` and the equations `equation 0, equation 1, ...`
only. -/
def restrict {nz' nl' : Nat} (q : QP nz' nl' nv) (unknown : Fin nz → Fin nz') (equation : Fin nl → Fin nl') :
    QP nz nl nv where
  H := of fun a b => q.H (unknown a) (unknown b)
  f := fun a => q.f (unknown a)
  G := of fun k b => q.G (equation k) (unknown b)
  h := fun k => q.h (equation k)
  A := of fun i b => q.A i (unknown b)
  b := q.b

end QP
end Fbstab
