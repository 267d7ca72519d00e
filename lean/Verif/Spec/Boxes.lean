import Verif.Spec.Ocp

/-!
# Problems with symmetric bounds, at equilibrium
-/

namespace Fbstab
open Matrix

/-- minimise `z'Hz/2` subject to `G z = 0`, `A z <= 1`, where the rows of `A` add up to zero.  For instance
`-1 <= M z <= 1`, written as `M z <= 1` and `-M z <= 1`. -/
structure QP.SymmetricBox {nz nl nv : Nat} (q : QP nz nl nv) : Prop where
  f : q.f = 0
  h : q.h = 0
  b : q.b = fun _ => 1
  rows : q.Aᵀ *ᵥ (fun _ => 1) = 0

/-- An optimal control problem at equilibrium: the initial state is the origin, the costs have no linear terms, the
dynamics have no constant term, and in every stage the constraints `E x + L u <= 1` are such that the rows of `[E L]` add
up to zero.  For instance `-1 <= M x + K u <= 1`. -/
structure Ocp.SymmetricBox {N nx nu nc : Nat} (p : Ocp N nx nu nc) : Prop where
  q : ∀ i, p.q i = 0
  r : ∀ i, p.r i = 0
  c : ∀ i, p.c i = 0
  x0 : p.x0 = 0
  d : ∀ i, p.d i = fun _ => -1
  rowsE : ∀ i, (p.E i)ᵀ *ᵥ (fun _ => 1) = 0
  rowsL : ∀ i, (p.L i)ᵀ *ᵥ (fun _ => 1) = 0

/-- minimise `z'Hz/2 + f'z` subject to `G z = 0`, `A z <= b` with `b >= 0`, where the direction of steepest descent `-f`
keeps every constraint and the curvature `eps` along it is tiny, but not zero: the minimiser is far away, at `-f / eps`. -/
structure QP.FlatSlope {nz nl nv : Nat} (q : QP nz nl nv) (eps : ℝ) : Prop where
  h : q.h = 0
  b : ∀ i, 0 ≤ q.b i
  curvature : q.H *ᵥ q.f = eps • q.f
  pos : 0 < eps
  eq : q.G *ᵥ q.f = 0
  ineq : q.A *ᵥ q.f = 0

/-- The same for an optimal control problem: the system starts at the origin, the linear terms `q`, `r` of the costs form a
trajectory of the homogeneous dynamics along which the constraints do not change, and the curvature of the costs along it
is `eps`.  The optimal trajectory is `-q / eps`, `-r / eps`. -/
structure Ocp.FlatSlope {N nx nu nc : Nat} (p : Ocp N nx nu nc) (eps : ℝ) : Prop where
  pos : 0 < eps
  x0 : p.x0 = 0
  c : ∀ i, p.c i = 0
  d : ∀ i j, p.d i j ≤ 0
  curvatureX : ∀ i, p.Q i *ᵥ p.q i + (p.S i)ᵀ *ᵥ p.r i = eps • p.q i
  curvatureU : ∀ i, p.S i *ᵥ p.q i + p.R i *ᵥ p.r i = eps • p.r i
  init : p.q 0 = 0
  dynamics : ∀ i : Fin N, p.q i.succ = p.A i *ᵥ p.q i.castSucc + p.B i *ᵥ p.r i.castSucc
  constraints : ∀ i, p.E i *ᵥ p.q i + p.L i *ᵥ p.r i = 0

end Fbstab
