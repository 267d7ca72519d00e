import Verif.Spec.Method

/-!
# Renaming unknowns and constraints

The same quadratic program, written down differently: the unknowns, the equations and the inequalities are
listed in another order, and unknowns and equations may change their sign.
-/

namespace Fbstab
open Matrix

/-- A new order, and signs, for `n` numbers. -/
structure Signed (n : Nat) where
  order : Equiv.Perm (Fin n)
  sign : Fin n → ℝ
  unit : ∀ i, sign i = 1 ∨ sign i = -1

namespace Signed
variable {n m : Nat}

/-- A new order without changes of sign. -/
def ofPerm (p : Equiv.Perm (Fin n)) : Signed n := ⟨p, fun _ => 1, fun _ => .inl rfl⟩

/-- The numbers in the new order. -/
def vec (s : Signed n) (x : Fin n → ℝ) : Fin n → ℝ := fun i => s.sign i * x (s.order i)

/-- Rows and columns in their new orders. -/
def mat (s : Signed n) (t : Signed m) (M : Matrix (Fin n) (Fin m) ℝ) : Matrix (Fin n) (Fin m) ℝ :=
  of fun i j => s.sign i * M (s.order i) (t.order j) * t.sign j

end Signed

/-- New orders of unknowns, equations and inequalities. -/
structure Relabel (nz nl nv : Nat) where
  z : Signed nz
  l : Signed nl
  v : Equiv.Perm (Fin nv)

namespace Relabel
variable {nz nl nv : Nat} (g : Relabel nz nl nv)

/-- The quadratic program in the new order. -/
def qp (q : QP nz nl nv) : QP nz nl nv where
  H := g.z.mat g.z q.H
  f := g.z.vec q.f
  G := g.l.mat g.z q.G
  h := g.l.vec q.h
  A := (Signed.ofPerm g.v).mat g.z q.A
  b := q.b ∘ g.v

/-- A primal-dual point in the new order. -/
def point (x : PD nz nl nv) : PD nz nl nv := ⟨g.z.vec x.z, g.l.vec x.l, x.v ∘ g.v⟩

/-- The result of a call in the new order: nothing changes but the point. -/
def result (r : Method.Result nz nl nv) : Method.Result nz nl nv :=
  ⟨r.log, r.value.map fun w => (w.1, g.point w.2)⟩

end Relabel

/-- New orders for an optimal control problem, within the stages: the states, controls and constraints of
every stage are listed in another order, and states and controls may change their signs. -/
structure StageRelabel (N nx nu nc : Nat) where
  x : Fin (N + 1) → Signed nx
  u : Fin (N + 1) → Signed nu
  c : Fin (N + 1) → Equiv.Perm (Fin nc)

namespace StageRelabel
variable {N nx nu nc : Nat} (g : StageRelabel N nx nu nc)

/-- The optimal control problem in the new order. -/
def ocp (p : Ocp N nx nu nc) : Ocp N nx nu nc where
  Q i := (g.x i).mat (g.x i) (p.Q i)
  R i := (g.u i).mat (g.u i) (p.R i)
  S i := (g.u i).mat (g.x i) (p.S i)
  q i := (g.x i).vec (p.q i)
  r i := (g.u i).vec (p.r i)
  A i := (g.x i.succ).mat (g.x i.castSucc) (p.A i)
  B i := (g.x i.succ).mat (g.u i.castSucc) (p.B i)
  c i := (g.x i.succ).vec (p.c i)
  E i := (Signed.ofPerm (g.c i)).mat (g.x i) (p.E i)
  L i := (Signed.ofPerm (g.c i)).mat (g.u i) (p.L i)
  d i := p.d i ∘ g.c i
  x0 := (g.x 0).vec p.x0

/-- The new orders of stacked vectors: unknowns `(x(0), u(0), x(1), ...)`; one equation for every state;
constraints. -/
def stacked : Relabel ((N + 1) * (nx + nu)) ((N + 1) * nx) ((N + 1) * nc) where
  z :=
    { order := (finProdFinEquiv.symm.trans (Equiv.prodShear (Equiv.refl _) fun i =>
        (finSumFinEquiv.symm.trans (Equiv.sumCongr (g.x i).order (g.u i).order)).trans
          finSumFinEquiv)).trans finProdFinEquiv
      sign := Ocp.stack (fun i => (g.x i).sign) (fun i => (g.u i).sign)
      unit := fun a => by
        unfold Ocp.stack
        rcases (Ocp.stage a).2 with j | j
        · exact (g.x _).unit j
        · exact (g.u _).unit j }
  l :=
    { order := (finProdFinEquiv.symm.trans (Equiv.prodShear (Equiv.refl _) fun i => (g.x i).order)).trans
        finProdFinEquiv
      sign := fun a => (g.x (Ocp.block a).1).sign (Ocp.block a).2
      unit := fun a => (g.x _).unit _ }
  v := (finProdFinEquiv.symm.trans (Equiv.prodShear (Equiv.refl _) g.c)).trans finProdFinEquiv

end StageRelabel
end Fbstab
