import Verif.Spec.Method
import Verif.Spec.Ocp

/-!
# Moving the origin

The same quadratic program in other coordinates: the unknowns and the multipliers of the equations are measured from
another origin.
-/

namespace Fbstab
open Matrix

/-- By how much unknowns and multipliers of equations move. -/
structure Origin (nz nl : Nat) where
  z : Fin nz → ℝ
  l : Fin nl → ℝ

namespace Origin
variable {nz nl nv : Nat} (g : Origin nz nl)

/-- The quadratic program of which `z + g.z` is a solution with multipliers `(l + g.l, v)`, whenever `z` is a solution of
`q` with multipliers `(l, v)`. -/
def qp (q : QP nz nl nv) : QP nz nl nv :=
  { q with
    f := q.f - q.H *ᵥ g.z - q.Gᵀ *ᵥ g.l
    h := q.h + q.G *ᵥ g.z
    b := q.b + q.A *ᵥ g.z }

/-- A primal-dual point, moved. -/
def point (x : PD nz nl nv) : PD nz nl nv := ⟨x.z + g.z, x.l + g.l, x.v⟩

/-- The result of a call, moved. -/
def result (r : Method.Result nz nl nv) : Method.Result nz nl nv :=
  ⟨r.log, r.value.map fun w => (w.1, g.point w.2)⟩

end Origin

/-- By how much states, controls and multipliers of the dynamics of an optimal control problem move. -/
structure StageOrigin (N nx nu : Nat) where
  x : Fin (N + 1) → Fin nx → ℝ
  u : Fin (N + 1) → Fin nu → ℝ
  l : Fin (N + 1) → Fin nx → ℝ

namespace StageOrigin
variable {N nx nu nc : Nat} (g : StageOrigin N nx nu)

/-- The optimal control problem for the deviations from a reference trajectory, backwards: of which `(x + g.x, u + g.u)`
is a solution whenever `(x, u)` is a solution of `p`. -/
def ocp (p : Ocp N nx nu nc) : Ocp N nx nu nc :=
  { p with
    q := fun i => p.q i - (p.Q i *ᵥ g.x i + (p.S i)ᵀ *ᵥ g.u i) -
      Fin.lastCases (motive := fun _ => Fin nx → ℝ) (-g.l (Fin.last N))
        (fun i => (p.A i)ᵀ *ᵥ g.l i.succ - g.l i.castSucc) i
    r := fun i => p.r i - (p.S i *ᵥ g.x i + p.R i *ᵥ g.u i) -
      Fin.lastCases (motive := fun _ => Fin nu → ℝ) 0 (fun i => (p.B i)ᵀ *ᵥ g.l i.succ) i
    c := fun i => p.c i + g.x i.succ - (p.A i *ᵥ g.x i.castSucc + p.B i *ᵥ g.u i.castSucc)
    d := fun i => p.d i - (p.E i *ᵥ g.x i + p.L i *ᵥ g.u i)
    x0 := p.x0 + g.x 0 }

/-- The same for stacked vectors. -/
def stacked : Origin ((N + 1) * (nx + nu)) ((N + 1) * nx) where
  z := Ocp.stack g.x g.u
  l a := g.l (Ocp.block a).1 (Ocp.block a).2

end StageOrigin
end Fbstab
