import Verif.Spec.QP

/-!
# Optimal control problems, over the reals

    minimise  sum_{i=0}^{N} 1/2 [x(i)] [Q(i) S(i)'] [x(i)] + [q(i)]' [x(i)]
                                [u(i)] [S(i) R(i) ] [u(i)]   [r(i)]  [u(i)]
    s.t.  x(i+1) = A(i) x(i) + B(i) u(i) + c(i), i = 0 ... N-1,   x(0) = x0
          E(i) x(i) + L(i) u(i) + d(i) <= 0,     i = 0 ... N

(fbstab_mpc.h:34-66), and the block form of the corresponding quadratic program as documented in
components/mpc_data.h.  Nothing here refers to the solver's code: the entries of the stacked vectors
are addressed with Mathlib's `finProdFinEquiv` (block, position in block) and `finSumFinEquiv`
(state or control).
-/

namespace Fbstab
open Matrix

/-- An optimal control problem with horizon `N`, `nx` states, `nu` controls and `nc` constraints per
stage. -/
structure Ocp (N nx nu nc : Nat) where
  Q : Fin (N + 1) → Matrix (Fin nx) (Fin nx) ℝ
  R : Fin (N + 1) → Matrix (Fin nu) (Fin nu) ℝ
  S : Fin (N + 1) → Matrix (Fin nu) (Fin nx) ℝ
  q : Fin (N + 1) → Fin nx → ℝ
  r : Fin (N + 1) → Fin nu → ℝ
  A : Fin N → Matrix (Fin nx) (Fin nx) ℝ
  B : Fin N → Matrix (Fin nx) (Fin nu) ℝ
  c : Fin N → Fin nx → ℝ
  E : Fin (N + 1) → Matrix (Fin nc) (Fin nx) ℝ
  L : Fin (N + 1) → Matrix (Fin nc) (Fin nu) ℝ
  d : Fin (N + 1) → Fin nc → ℝ
  x0 : Fin nx → ℝ

namespace Ocp
variable {N nx nu nc : Nat} (p : Ocp N nx nu nc)

/-! ### Stage form -/

/-- The cost of a trajectory. -/
noncomputable def cost (x : Fin (N + 1) → Fin nx → ℝ) (u : Fin (N + 1) → Fin nu → ℝ) : ℝ :=
  ∑ i, ((1 / 2) * (x i ⬝ᵥ p.Q i *ᵥ x i + 2 * (u i ⬝ᵥ p.S i *ᵥ x i) + u i ⬝ᵥ p.R i *ᵥ u i) +
    p.q i ⬝ᵥ x i + p.r i ⬝ᵥ u i)

/-- Trajectories that satisfy dynamics, initial condition and constraints. -/
structure Admissible (x : Fin (N + 1) → Fin nx → ℝ) (u : Fin (N + 1) → Fin nu → ℝ) : Prop where
  init : x 0 = p.x0
  dynamics : ∀ i : Fin N, x i.succ = p.A i *ᵥ x i.castSucc + p.B i *ᵥ u i.castSucc + p.c i
  constraints : ∀ i j, (p.E i *ᵥ x i) j + (p.L i *ᵥ u i) j + p.d i j ≤ 0

/-- Optimal trajectories. -/
structure Optimal (x : Fin (N + 1) → Fin nx → ℝ) (u : Fin (N + 1) → Fin nu → ℝ) : Prop where
  admissible : p.Admissible x u
  le : ∀ x' u', p.Admissible x' u' → p.cost x u ≤ p.cost x' u'

/-- Every stage Hessian is symmetric positive semidefinite. -/
structure Convex : Prop where
  Qsymm : ∀ i, (p.Q i).IsSymm
  Rsymm : ∀ i, (p.R i).IsSymm
  nonneg : ∀ i x u, 0 ≤ x ⬝ᵥ p.Q i *ᵥ x + 2 * (u ⬝ᵥ p.S i *ᵥ x) + u ⬝ᵥ p.R i *ᵥ u

/-! ### Stacked form -/

/-- Block and position of an entry of a vector of `k` blocks of length `m`. -/
def block {k m : Nat} (a : Fin (k * m)) : Fin k × Fin m := finProdFinEquiv.symm a

/-- Stage, and state or control, of an entry of `z = (x(0), u(0), x(1), u(1), ...)`. -/
def stage {k nx nu : Nat} (a : Fin (k * (nx + nu))) : Fin k × (Fin nx ⊕ Fin nu) :=
  ((block a).1, finSumFinEquiv.symm (block a).2)

/-- `z = (x(0), u(0), x(1), u(1), ...)` -/
def stack {k nx nu : Nat} (x : Fin k → Fin nx → ℝ) (u : Fin k → Fin nu → ℝ) :
    Fin (k * (nx + nu)) → ℝ :=
  fun a => Sum.elim (x (stage a).1) (u (stage a).1) (stage a).2

/-- `x(i)` in `z` -/
def states {k nx nu : Nat} (z : Fin (k * (nx + nu)) → ℝ) (i : Fin k) (j : Fin nx) : ℝ :=
  z (finProdFinEquiv (i, Fin.castAdd nu j))

/-- `u(i)` in `z` -/
def controls {k nx nu : Nat} (z : Fin (k * (nx + nu)) → ℝ) (i : Fin k) (j : Fin nu) : ℝ :=
  z (finProdFinEquiv (i, Fin.natAdd nx j))

/-- The quadratic program: `H` is block diagonal with blocks `[Q S'; S R]`; block row `0` of `G` is
`[-I 0 ...]`, block row `i + 1` has `[A(i) B(i)]` in block column `i` and `[-I 0]` in block column
`i + 1`; `A` is block diagonal with blocks `[E L]`; `f = (q, r)`, `h = -(x0, c)`, `b = -d`. -/
noncomputable def toQP : QP ((N + 1) * (nx + nu)) ((N + 1) * nx) ((N + 1) * nc) where
  H := of fun a a' =>
    if (stage a).1 = (stage a').1 then
      fromBlocks (p.Q (stage a).1) (p.S (stage a).1)ᵀ (p.S (stage a).1) (p.R (stage a).1)
        (stage a).2 (stage a').2
    else 0
  f := stack p.q p.r
  G := of fun a a' =>
    if (stage a').1 = (block a).1 then
      fromCols (-1 : Matrix (Fin nx) (Fin nx) ℝ) (0 : Matrix (Fin nx) (Fin nu) ℝ) (block a).2
        (stage a').2
    else Fin.cases 0 (fun i : Fin N => if (stage a').1 = i.castSucc then
      fromCols (p.A i) (p.B i) (block a).2 (stage a').2 else 0) (block a).1
  h a := -Fin.cases (p.x0 (block a).2) (fun i : Fin N => p.c i (block a).2) (block a).1
  A := of fun a a' =>
    if (stage a').1 = (block a).1 then
      fromCols (p.E (block a).1) (p.L (block a).1) (block a).2 (stage a').2
    else 0
  b a := -p.d (block a).1 (block a).2

/-- The optimal control problem held in an `MpcData`. -/
def ofMpc (d : MpcData ℝ N nx nu nc) : Ocp N nx nu nc where
  Q i := (d.Q i).fn
  R i := (d.R i).fn
  S i := (d.S i).fn
  q i := (d.q i).fn
  r i := (d.r i).fn
  A i := (d.A i).fn
  B i := (d.B i).fn
  c i := (d.c i).fn
  E i := (d.E i).fn
  L i := (d.L i).fn
  d i := (d.d i).fn
  x0 := d.x0.fn

end Ocp
end Fbstab
