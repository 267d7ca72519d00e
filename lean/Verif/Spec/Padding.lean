import Verif.Spec.Method

/-!
# Constraints that restrict nothing

`FBstabMpc` wants the same number of constraints in every stage; whoever has fewer in some stage adds rows
`0 x + 0 u <= b` with a nonnegative `b`.
-/

namespace Fbstab
open Matrix

/-- How `nv` constraints are put among `nv'` constraints: where each of them goes, and the right-hand sides of the others. -/
structure Padding (nv nv' : Nat) where
  row : Fin nv → Fin nv'
  inj : Function.Injective row
  bound : Fin nv' → ℝ
  pos : ∀ i, 0 ≤ bound i

namespace Padding
variable {nz nl nv nv' : Nat} (g : Padding nv nv')

/-- Numbers belonging to the constraints, with zeros for the new ones. -/
noncomputable def vec (x : Fin nv → ℝ) : Fin nv' → ℝ := Function.extend g.row x 0

/-- The quadratic program with additional constraints `0 z <= bound`. -/
noncomputable def qp (q : QP nz nl nv) : QP nz nl nv' where
  H := q.H
  f := q.f
  G := q.G
  h := q.h
  A := of fun i j => g.vec (fun k => q.A k j) i
  b := Function.extend g.row q.b g.bound

/-- A primal-dual point with multipliers zero for the new constraints. -/
noncomputable def point (x : PD nz nl nv) : PD nz nl nv' := ⟨x.z, x.l, g.vec x.v⟩

/-- The result of a call: nothing changes but the point. -/
noncomputable def result (r : Method.Result nz nl nv) : Method.Result nz nl nv' :=
  ⟨r.log, r.value.map fun w => (w.1, g.point w.2)⟩

end Padding

/-- Row `i` of the inequalities restricts nothing: `0 z <= b` with a nonnegative `b`. -/
def QP.Vacuous {nz nl nv : Nat} (q : QP nz nl nv) (i : Fin nv) : Prop := (∀ j, q.A i j = 0) ∧ 0 ≤ q.b i

/-- The quadratic program with the inequalities `row 0, row 1, ...` only. -/
def QP.keep {nz nl nv nv' : Nat} (q : QP nz nl nv') (row : Fin nv → Fin nv') : QP nz nl nv :=
  { q with A := of fun k j => q.A (row k) j, b := fun k => q.b (row k) }

end Fbstab
