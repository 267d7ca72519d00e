import Verif.Model.Api
import Verif.Spec.Residual

/-!
# Vocabulary for statements about the public classes

What it means that inputs have the right sizes, histories of calls on one object, and the point a
caller's `Variable` holds.
-/

namespace Fbstab
variable {K : Type} [Scalar K]

/-- The point held in the caller's vectors, read with the sizes of the problem. -/
def CallerVar.point (nz nl nv : Nat) (x : CallerVar K) : Point K nz nl nv :=
  ⟨x.z.toVec nz, x.l.toVec nl, x.v.toVec nv, x.y.toVec nv⟩

/-- The initial guess seen as a point: `(z, l, v)` as passed, with `y = b - A z`. -/
def CallerVar.guess {nz nl nv : Nat} (q : QPOps K nz nl nv) (x : CallerVar K) : Point K nz nl nv :=
  ⟨x.z.toVec nz, x.l.toVec nl, x.v.toVec nv, margin q (x.z.toVec nz)⟩

/-- A vector the code may assign `nv` numbers to: an owning vector, or a map of the right size. -/
def CallerVar.YWritable (nv : Nat) (x : CallerVar K) : Prop := x.isMap = true → x.y.size = nv

/-- The norm of the step from `p` to `x`, as the code computes it. -/
def stepNorm {nz nl nv : Nat} (x p : Point K nz nl nv) : K :=
  norm3 (x.z + (-1 : K) * p.z) (x.l + (-1 : K) * p.l) (x.v + (-1 : K) * p.v)

/-- The norm of the all-ones vector, which `Solve` uses as the zeroth step. -/
def onesNorm (K : Type) [Scalar K] (nz nl nv : Nat) : K :=
  norm3 (Vec.const 1 : Vec K nz) (Vec.const 1 : Vec K nl) (Vec.const 1 : Vec K nv)

/-! ## FBstabDense -/

/-- The sizes documented for `FBstabDense::Solve`: all data for `nz` unknowns, `nl` equations and
`nv` inequalities, and a guess of the same sizes (`y` excepted). -/
structure DenseFits (nz nl nv : Nat) (qp : DenseProblem K) (x : CallerVar K) : Prop where
  Hr : qp.H.rows = nz
  Hc : qp.H.cols = nz
  f : qp.f.size = nz
  Gr : qp.G.rows = nl
  Gc : qp.G.cols = nz
  h : qp.h.size = nl
  Ar : qp.A.rows = nv
  Ac : qp.A.cols = nz
  b : qp.b.size = nv
  z : x.z.size = nz
  l : x.l.size = nl
  v : x.v.size = nv

/-- A call on an `FBstabDense` object. -/
inductive DenseCall (K : Type) where
  | updateOptions (o : Params K)
  | solve (qp : DenseProblem K) (x : CallerVar K)

/-- The object after the call (also when the call threw). -/
def DenseCall.apply : DenseCall K → FBstabDense K → FBstabDense K
  | .updateOptions o, s => (s.updateOptions o).2
  | .solve qp x, s => (s.solve qp x).solver

/-- The object after a history of calls, oldest first. -/
def FBstabDense.after (s : FBstabDense K) (h : List (DenseCall K)) : FBstabDense K :=
  h.foldl (fun s c => c.apply s) s

/-- An object that was constructed and then used in any way. -/
def FBstabDense.Reachable (s : FBstabDense K) : Prop :=
  ∃ junk nz nl nv s0 h, FBstabDense.new junk nz nl nv = .ok s0 ∧ s = s0.after h

/-- The options in force. -/
def FBstabDense.options (s : FBstabDense K) : Params K := s.mem.opts

/-- The problem as the solver sees it. -/
def FBstabDense.problem (s : FBstabDense K) (qp : DenseProblem K) : QPOps K s.nz s.nl s.nv :=
  (qp.toData s.nz s.nl s.nv).ops

/-- The point in the caller's vectors after a call of `Solve`. -/
def FBstabDense.returnedPoint (s : FBstabDense K) (qp : DenseProblem K) (x : CallerVar K) :
    Point K s.nz s.nl s.nv := (s.solve qp x).x.point s.nz s.nl s.nv

/-- The object with other options in force. -/
def FBstabDense.withOptions (s : FBstabDense K) (o : Params K) : FBstabDense K :=
  { s with mem := { s.mem with opts := o } }

/-- The `k`-th proximal iterate of a call: the initial guess for `k = 0`, otherwise the point that
the call returns when `max_prox_iters` is set to `k`. -/
def FBstabDense.proxIterate (s : FBstabDense K) (qp : DenseProblem K) (x : CallerVar K) (k : Nat) :
    Point K s.nz s.nl s.nv :=
  if k = 0 then x.guess (s.problem qp)
  else ((s.withOptions { s.options with maxProxIters := k }).solve qp x).x.point s.nz s.nl s.nv

/-! ## FBstabMpc -/

/-- The sizes documented for `FBstabMpc::Solve` (fbstab_mpc.h:34-66): `Q, R, S, q, r, E, L, d` of
length `N + 1`, `A, B, c` of length `N`, with the documented shapes. -/
structure MpcFits (N nx nu nc : Nat) (p : MpcProblem K) (x : CallerVar K) : Prop where
  Q : p.Q.N = N + 1 ∧ p.Q.nr = nx ∧ p.Q.nc = nx
  R : p.R.N = N + 1 ∧ p.R.nr = nu ∧ p.R.nc = nu
  S : p.S.N = N + 1 ∧ p.S.nr = nu ∧ p.S.nc = nx
  q : p.q.N = N + 1 ∧ p.q.nr = nx
  r : p.r.N = N + 1 ∧ p.r.nr = nu
  A : p.A.N = N ∧ p.A.nr = nx ∧ p.A.nc = nx
  B : p.B.N = N ∧ p.B.nr = nx ∧ p.B.nc = nu
  c : p.c.N = N ∧ p.c.nr = nx
  E : p.E.N = N + 1 ∧ p.E.nr = nc ∧ p.E.nc = nx
  L : p.L.N = N + 1 ∧ p.L.nr = nc ∧ p.L.nc = nu
  d : p.d.N = N + 1 ∧ p.d.nr = nc
  x0 : p.x0.size = nx
  z : x.z.size = (N + 1) * (nx + nu)
  l : x.l.size = (N + 1) * nx
  v : x.v.size = (N + 1) * nc
  y : x.y.size = (N + 1) * nc

/-- `q`, `r`, `c`, `d` are sequences of column vectors, as documented; this is not checked by the
code. -/
def MpcProblem.Columns (p : MpcProblem K) : Prop :=
  p.q.nc = 1 ∧ p.r.nc = 1 ∧ p.c.nc = 1 ∧ p.d.nc = 1

/-- A call on an `FBstabMpc` object. -/
inductive MpcCall (K : Type) where
  | updateOptions (o : Params K)
  | solve (p : MpcProblem K) (x : CallerVar K)

/-- The object after the call (also when the call threw). -/
def MpcCall.apply : MpcCall K → FBstabMpc K → FBstabMpc K
  | .updateOptions o, s => (s.updateOptions o).2
  | .solve p x, s => (s.solve p x).solver

/-- The object after a history of calls, oldest first. -/
def FBstabMpc.after (s : FBstabMpc K) (h : List (MpcCall K)) : FBstabMpc K :=
  h.foldl (fun s c => c.apply s) s

/-- An object that was constructed and then used in any way. -/
def FBstabMpc.Reachable (s : FBstabMpc K) : Prop :=
  ∃ junk N nx nu nc s0 h, FBstabMpc.new junk N nx nu nc = .ok s0 ∧ s = s0.after h

/-- The options in force. -/
def FBstabMpc.options (s : FBstabMpc K) : Params K := s.mem.opts

/-- The problem as the solver sees it. -/
def FBstabMpc.problem (s : FBstabMpc K) (p : MpcProblem K) :
    QPOps K ((s.N + 1) * (s.nx + s.nu)) ((s.N + 1) * s.nx) ((s.N + 1) * s.nc) :=
  (p.toData s.N s.nx s.nu s.nc).ops

/-- The point in the caller's vectors after a call of `Solve`. -/
def FBstabMpc.returnedPoint (s : FBstabMpc K) (p : MpcProblem K) (x : CallerVar K) :
    Point K ((s.N + 1) * (s.nx + s.nu)) ((s.N + 1) * s.nx) ((s.N + 1) * s.nc) :=
  (s.solve p x).x.point _ _ _

/-- The object with other options in force. -/
def FBstabMpc.withOptions (s : FBstabMpc K) (o : Params K) : FBstabMpc K :=
  { s with mem := { s.mem with opts := o } }

/-- The `k`-th proximal iterate of a call: the initial guess for `k = 0`, otherwise the point that
the call returns when `max_prox_iters` is set to `k`. -/
def FBstabMpc.proxIterate (s : FBstabMpc K) (p : MpcProblem K) (x : CallerVar K) (k : Nat) :
    Point K ((s.N + 1) * (s.nx + s.nu)) ((s.N + 1) * s.nx) ((s.N + 1) * s.nc) :=
  if k = 0 then x.guess (s.problem p)
  else ((s.withOptions { s.options with maxProxIters := k }).solve p x).x.point _ _ _

end Fbstab
