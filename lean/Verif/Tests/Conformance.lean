import Verif.Model.OcpGen

/-!
# Running the repository's unit tests on the model

These are *tests of the model*, not proofs, and no theorem depends on this file.  The model is
instantiated with `Float` (IEEE doubles) and the unit tests of /repo/fbstab/test are replayed with the
same inputs, options and tolerances:

    cd /verif/lean && lake env lean --run Verif/Tests/Conformance.lean

fbstab_dense_unit_tests.cc: FeasibleQP, FeasibleQPwithEQ, DegenerateQP, InfeasibleQP, UnboundedQP;
fbstab_mpc_unit_tests.cc: DoubleIntegrator, DoubleIntegratorLongHorizon, ServoMotor,
SpacecraftRelativeMotion, CopolymerizationReactor;
components/test/{dense,mpc_component}_unit_tests.h (written for an earlier class layout, but the
functions they test are still there): the hand-calculated values of the products with the data, of the
residuals, of `axpy` and of the feasibility check, and the residuals of the two linear solvers.
-/

namespace Fbstab.Conformance

/-- IEEE doubles. -/
instance : Scalar Float where
  zero := 0.0
  one := 1.0
  sqrt := Float.sqrt
  decLt := fun a b => inferInstanceAs (Decidable (a < b))
  decLe := fun a b => inferInstanceAs (Decidable (a ≤ b))

/-- A matrix of uninitialised memory: a recognisable number. -/
def junkMat {r c : Nat} : Mat Float r c := .ofFn fun _ _ => 77.0

/-- A vector of uninitialised memory. -/
def junkVec {n : Nat} : Vec Float n := .const 77.0

/-- Uninitialised memory of the dense solver. -/
def denseJunk : DenseJunk Float where
  lin _ _ _ := {
    alpha := 77.0, data := none, K_ := junkMat, E := junkMat, ldlt := ⟨.ofFn id, junkMat, false⟩
    r1 := junkVec, r2 := junkVec, Gamma := junkVec, mus := junkVec, gamma := junkVec, B := junkMat }
  feas _ _ _ := ⟨junkVec, junkVec, junkVec⟩

/-- Uninitialised memory of the MPC solver. -/
def mpcJunk : MpcJunk Float where
  lin _ _ _ _ := {
    Q := .const junkMat, R := .const junkMat, S := .const junkMat, P := .const junkMat
    SG := .const junkMat, M := .const junkMat, L := .const junkMat, SM := .const junkMat
    AM := .const junkMat, h := .const junkVec, th := .const junkVec, gamma := junkVec
    mus := junkVec, Gamma := junkVec, Etemp := junkMat, Ltemp := junkMat, Linv := junkMat
    tx := junkVec, tl := junkVec, tu := junkVec, r1 := junkVec, r2 := junkVec, r3 := junkVec
    data := none, alpha := 77.0 }
  feas _ _ _ := ⟨junkVec, junkVec, junkVec⟩

/-- A vector of zeros: the initial guess of every test. -/
def zeros (n : Nat) : DVec Float := ⟨Array.replicate n 0.0⟩

/-- `EXPECT_NEAR` entry by entry. -/
def near (x : DVec Float) (e : List Float) (tol : Float) : Bool :=
  x.size == e.length && (x.data.toList.zip e).all fun p => (p.1 - p.2).abs ≤ tol

/-- The options of all the tests. -/
def options : Params Float := { Params.defaults with absTol := 1e-8, displayLevel := .off }

/-- What a test looks at. -/
structure Seen where
  x : CallerVar Float
  out : SolverOut Float
  printed : Nat

def denseRun (n m q : Nat) (H f G h A b : List Float) : Except Err Seen := do
  let s ← FBstabDense.new denseJunk n m q
  let (r, s) := s.updateOptions options
  r
  let qp : DenseProblem Float :=
    ⟨.comma n n H, .comma f, .comma m n G, .comma h, .comma q n A, .comma b⟩
  let o := s.solve qp ⟨false, zeros n, zeros m, zeros q, zeros q⟩
  return ⟨o.x, ← o.result, o.log.length⟩

def mpcRun (gen : OcpGen Float → Except Err (OcpGen Float)) : Except Err Seen := do
  let g ← gen OcpGen.new
  let p ← g.getFBstabInput
  let (N, nx, nu, nc) := g.problemSize
  let s ← FBstabMpc.new mpcJunk N nx nu nc
  let (r, s) := s.updateOptions options
  r
  let o := s.solve p.toRef
    ⟨false, zeros g.nz, zeros g.nl, zeros g.nv, zeros g.nv⟩
  return ⟨o.x, ← o.result, o.log.length⟩

def report (name : String) (r : Except Err Seen) (ok : Seen → Bool) : IO Bool := do
  match r with
  | .error e => IO.println s!"FAILED {name}: {repr e}"; return false
  | .ok s =>
    let good := ok s && s.printed == 0
    IO.println s!"{if good then "ok    " else "FAILED"} {name}: {repr s.out.eflag}, residual \
      {s.out.residual}, initial residual {s.out.initialResidual}, {s.out.newtonIters} Newton, \
      {s.out.proxIters} proximal"
    return good

/-- `ASSERT_EQ(eflag, SUCCESS); ASSERT_LE(residual, 1e-6)` -/
def solved (s : Seen) : Bool := s.out.eflag == .success && s.out.residual ≤ 1e-6

/-- KKT residual as checked by `DegenerateQP`. -/
def degenerateKkt (s : Seen) : Float :=
  let z := fun i => s.x.z.data.getD i 0
  let v := fun i => s.x.v.data.getD i 0
  let y := fun i => s.x.y.data.getD i 0
  let r1 := z 0 + 1 + v 1 - v 3
  let r2 := v 2 - v 4
  let m := (List.range 5).map fun i => cmin (y i) (v i)
  (r1 * r1 + r2 * r2).sqrt + (m.foldl (fun a x => a + x * x) 0).sqrt

def tests : IO (List Bool) := do
  let a ← report "FBstabDense.FeasibleQP"
    (denseRun 2 0 2 [3, 1, 1, 1] [10, 5] [] [] [-1, 0, 0, 1] [0, 0])
    fun s => s.out.eflag == .success && near s.x.z [0, -5] 1e-8 && near s.x.v [5, 0] 1e-8
  let b ← report "FBstabDense.FeasibleQPwithEQ"
    (denseRun 2 1 2 [4, 1, 1, 2] [1, 1] [1, 1] [1] [-1, 0, 0, -1] [0, 0])
    fun s => s.out.eflag == .success && near s.x.z [2.5e-1, 7.5e-1] 1e-8
  let c ← report "FBstabDense.DegenerateQP"
    (denseRun 2 0 5 [1, 0, 0, 0] [1, 0] [] [] [0, 0, 1, 0, 0, 1, -1, 0, 0, -1] [0, 3, 3, -1, -1])
    fun s => s.out.eflag == .success && (s.x.z.data.getD 0 0 - 1).abs ≤ 1e-8 &&
      1 ≤ s.x.z.data.getD 1 0 && s.x.z.data.getD 1 0 ≤ 3 && degenerateKkt s ≤ 1e-6
  let d ← report "FBstabDense.InfeasibleQP"
    (denseRun 2 0 5 [1, 0, 0, 0] [1, -1] [] [] [1, 1, 1, 0, 0, 1, -1, 0, 0, -1] [0, 3, 3, -1, -1])
    fun s => s.out.eflag == .primalInfeasible
  let e ← report "FBstabDense.UnboundedQP"
    (denseRun 2 0 4 [1, 0, 0, 0] [1, -1] [] [] [0, 0, 1, 0, -1, 0, 0, -1] [0, 3, -1, -1])
    fun s => s.out.eflag == .dualInfeasible
  let f ← report "FBstabMpc.DoubleIntegrator" (mpcRun (OcpGen.doubleIntegrator 2))
    fun s => solved s &&
      near s.x.z [-5.31028204670497e-14, 5.02854354118183e-13, 0.311688311338095,
        5.35637944798588e-13, 0.311688311339015, -0.0779220779990502, 0.311688311339667,
        0.233766233340057, -0.103896103779874] 1e-8 &&
      near s.x.l [-5.24675324688535, -4.49350649223710, -3.55844155822323, -0.935064934014372,
        -1.48051948022526, 0.233766233996585] 1e-8 &&
      near s.x.v [1.06213597221667e-13, -1.41190425869539e-21, 0, 0, 0, 0, -1.50393600622818e-21,
        -8.75144622575045e-10, 0, 0, 0, 0, -8.75144611157041e-10, -6.56358459377444e-10, 0, 0, 0, 0]
        1e-8
  let g ← report "FBstabMpc.DoubleIntegratorLongHorizon" (mpcRun (OcpGen.doubleIntegrator 20)) solved
  let h ← report "FBstabMpc.ServoMotor" (mpcRun (OcpGen.servoMotor 25)) solved
  let i ← report "FBstabMpc.SpacecraftRelativeMotion" (mpcRun (OcpGen.spacecraft 40)) solved
  let j ← report "FBstabMpc.CopolymerizationReactor"
    (mpcRun (OcpGen.copolymerization (fun k => Float.sin k.toFloat) 80)) solved
  return [a, b, c, d, e, f, g, h, i, j]

/-! ## The component tests -/

/-- The data of dense_unit_tests.h:31-44. -/
def denseData : DenseData Float 2 0 2 where
  H := (DMat.comma 2 2 [3, 1, 1, 1]).toMat 2 2
  f := (DVec.comma [1, 6]).toVec 2
  G := .ofFn fun i _ => i.elim0
  h := .const 0
  A := (DMat.comma 2 2 [-1, 0, 0, 1]).toMat 2 2
  b := (DVec.comma [0, -1]).toVec 2

/-- The data of mpc_component_unit_tests.h:38-97. -/
def mpcData : MpcData Float 2 2 1 6 :=
  let g : StageInputs Float := doubleIntegratorStage
  { Q := .const (g.Q.toMat 2 2), R := .const (g.R.toMat 1 1), S := .const (g.S.toMat 1 2)
    q := .const (g.q.toVec 2), r := .const (g.r.toVec 1), A := .const (g.A.toMat 2 2)
    B := .const (g.B.toMat 2 1), c := .const (g.c.toVec 2), E := .const (g.E.toMat 6 2)
    L := .const (g.L.toMat 6 1), d := .const (g.d.toVec 6), x0 := .const 0 }

def vec {n : Nat} (l : List Float) : Vec Float n := (DVec.comma l).toVec n

/-- 1, 2, 3, ... -/
def counting {n : Nat} : Vec Float n := .ofFn fun i => (i.1 + 1).toFloat

def close {n : Nat} (x : Vec Float n) (e : List Float) (tol : Float) : Bool := near (.ofVec x) e tol

def check (name : String) (ok : Bool) : IO Bool := do
  IO.println s!"{if ok then "ok    " else "FAILED"} {name}"
  return ok

/-- A variable with the given vectors, linked, with its margin. -/
def mkVar {nz nl nv : Nat} (d : QPOps Float nz nl nv) (z : Vec Float nz) (l : Vec Float nl)
    (v : Vec Float nv) : Except Err (FullVariable Float nz nl nv) :=
  FullVariable.initializeConstraintMargin ⟨⟨z, l, v, junkVec⟩, some d⟩

def residual {nz nl nv : Nat} (d : QPOps Float nz nl nv) : FullResidual Float nz nl nv :=
  ⟨⟨junkVec, junkVec, junkVec, 77, 77, 77⟩, 0.95, some d⟩

/-- `true` only if no exception is thrown and the condition holds. -/
def holds (r : Except Err Bool) : Bool := match r with | .ok b => b | .error _ => false

/-- Largest entry of the three residuals of the linear system of the header comments, for the step
`dx` computed by a linear solver with weights `gamma`, `mus` and right hand side `rhs`. -/
def newtonError {nz nl nv : Nat} (d : QPOps Float nz nl nv) (sigma : Float)
    (gamma mus : Vec Float nv) (rhs : Float) (dx : Point Float nz nl nv) : Float :=
  let r1 := d.gemvAT dx.v 1 1 (d.gemvGT dx.l 1 1 (d.gemvH dx.z 1 1 (.const 0))) + sigma * dx.z
  let r2 := d.gemvG dx.z (-1) 1 (.const 0) + sigma * dx.l
  let r3 := gamma.cwiseProduct (d.gemvA dx.z (-1) 1 (.const 0)) + mus.cwiseProduct dx.v
  let r4 := d.axpyb 1 (d.gemvA dx.z (-1) 1 (.const 0))
  cmax (r1 - .const rhs).lpNormInf (cmax (r2 - .const rhs).lpNormInf
    (cmax (r3 - .const rhs).lpNormInf (dx.y - r4).lpNormInf))

def componentTests : IO (List Bool) := do
  let dd := denseData.ops
  let md := mpcData.ops
  let a ← check "DenseVariable" <| holds do
    let x ← mkVar dd (.const 1) (.const 1) (.const 1)
    let y ← mkVar dd (.const (-1)) (.const (-1)) (.const (-1))
    let w ← FullVariable.axpy 0.35 x y
    return close x.pt.y [1, -2] 0 && close y.pt.y [-1, 0] 0 && close w.pt.z [-0.65, -0.65] 1e-15 &&
      close w.pt.v [-0.65, -0.65] 1e-15 && close w.pt.y [-0.65, -0.35] 1e-15
  let b ← check "Dense InnerResidualCalculation" <| holds do
    let x ← mkVar dd (vec [1, 5]) (.const 0) (vec [0.4, 2])
    let y ← mkVar dd (vec [-5, 6]) (.const 0) (vec [-9, 1])
    let r ← (residual dd).innerResidual x y 0.5
    return close r.r.z [11.6, 13.5] 1e-14 && close r.r.v [0.480683041678573, -8.88473245759182] 1e-14
  let c ← check "Dense NaturalResidualCalculation" <| holds do
    let x ← mkVar dd (vec [1, 5]) (.const 0) (vec [0.4, 2])
    let r ← (residual dd).naturalResidual x
    return close r.r.z [8.6, 14.0] 1e-14 && close r.r.v [0.4, -6] 1e-14
  let d ← check "Dense LinearSolverResidual" <| holds do
    let x ← mkVar dd (vec [1, 5]) (.const 0) (vec [0.4, 2])
    let y ← mkVar dd (vec [-5, 6]) (.const 0) (vec [-9, 1])
    let w := { denseJunk.lin 2 0 2 with alpha := 0.95, data := some denseData }
    match DenseWs.init x.pt y.pt 0.5 w with
    | .error e _ => throw e
    | .ok ok w =>
      match DenseWs.solve ⟨.const 1, .const 1, .const 1, 77, 77, 77⟩ y.pt w with
      | .error e _ => throw e
      | .ok (ok2, dx) w => return ok && ok2 && newtonError dd 0.5 w.gamma w.mus 1 dx ≤ 1e-12
  let e ← check "Dense PrimalInfeasibilityDetection" <|
    let d : DenseData Float 2 0 5 :=
      ⟨(DMat.comma 2 2 [1, 0, 0, 0]).toMat 2 2, vec [1, -1], .ofFn fun i _ => i.elim0, .const 0,
        (DMat.comma 5 2 [1, 1, 1, 0, 0, 1, -1, 0, 0, -1]).toMat 5 2, vec [0, 3, 3, -1, -1]⟩
    (checkFeasibility d.ops ⟨.const 0, .const 0, vec [1, 0, 0, 1, 1], .const 0⟩ 1e-8
      ⟨.const 0, .const 0, .const 0⟩).1 == .primalInfeasible
  let f ← check "Dense DualInfeasibilityDetection" <|
    let d : DenseData Float 2 0 4 :=
      ⟨(DMat.comma 2 2 [1, 0, 0, 0]).toMat 2 2, vec [1, -1], .ofFn fun i _ => i.elim0, .const 0,
        (DMat.comma 4 2 [0, 0, 1, 0, -1, 0, 0, -1]).toMat 4 2, vec [0, 3, -1, -1]⟩
    (checkFeasibility d.ops ⟨vec [0, 1], .const 0, .const 0, .const 0⟩ 1e-8
      ⟨.const 0, .const 0, .const 0⟩).1 == .dualInfeasible
  let g ← check "Mpc GEMVH" <|
    close (md.gemvH counting 1 0 junkVec) [5, 2, 10, 14, 5, 22, 23, 8, 34] 0
  let h ← check "Mpc GEMVA" <| close (md.gemvA counting 1 0 junkVec)
    [-1, -2, 1, 2, -3, 3, -4, -5, 4, 5, -6, 6, -7, -8, 7, 8, -9, 9] 0
  let i ← check "Mpc GEMVG" <| close (md.gemvG counting 1 0 junkVec) [-1, -2, -1, 0, 2, 3] 0
  let j ← check "Mpc GEMVGT" <|
    close (md.gemvGT counting 1 0 junkVec) [2, 5, 4, 2, 7, 6, -5, -6, 0] 0
  let k ← check "Mpc GEMVAT" <|
    close (md.gemvAT counting 1 0 junkVec) [2, 2, 1, 2, 2, 1, 2, 2, 1] 0
  let l ← check "Mpc AXPYF" <|
    close (md.axpyf 2 (vec [5, 2, 10, 14, 5, 22, 23, 8, 34])) [1, 2, 10, 10, 5, 22, 19, 8, 34] 0
  let m ← check "Mpc AXPYH" <|
    close (md.axpyh 2 (vec [-1, -2, -1, 0, 2, 3])) [-1, -2, -1, 0, 2, 3] 0
  let n ← check "Mpc AXPYB" <|
    close (md.axpyb 2 (vec [-1, -2, 1, 2, -3, 3, -4, -5, 4, 5, -6, 6, -7, -8, 7, 8, -9, 9]))
      [-1, -2, 5, 6, -1, 5, -4, -5, 8, 9, -4, 8, -7, -8, 11, 12, -7, 11] 0
  let o ← check "Mpc Variable" <| holds do
    let x ← FullVariable.fill 1 (FullVariable.init.linkData md)
    let y ← FullVariable.fill 1 (FullVariable.init.linkData md)
    let w ← FullVariable.axpy (-2.0) y x
    return close w.pt.z (List.replicate 9 (-1)) 0 && close w.pt.l (List.replicate 6 (-1)) 0 &&
      close w.pt.v (List.replicate 18 (-1)) 0 &&
      close w.pt.y [-1, -1, 3, 3, 0, 2, -1, -1, 3, 3, 0, 2, -1, -1, 3, 3, 0, 2] 0
  let p ← check "Mpc InnerResidual" <| holds do
    let x ← FullVariable.fill 2 (FullVariable.init.linkData md)
    let y ← FullVariable.fill (-2.0) (FullVariable.init.linkData md)
    let r ← (residual md).innerResidual x y 1
    let st := [2.19167244568008, 2.19167244568008, 1.85147084275040, 1.85147084275040,
      2.33389560518351, 1.62472628830921]
    return close r.r.z [8, 8, 14, 8, 8, 14, 6, 4, 12] 1e-14 && close r.r.l [6, 6, 2, 2, 2, 2] 1e-14 &&
      close r.r.v (st ++ st ++ st) 1e-14
  let q ← check "Mpc FeasibilitySanityCheck" <|
    (checkFeasibility md ⟨.const 0, .const 0, .const 0, .const 0⟩ 1e-8
      ⟨.const 0, .const 0, .const 0⟩).1 == .feasible
  let r ← check "Mpc RiccatiRecursion" <| holds do
    let x ← mkVar md (.const 1) (.const 2) (.const 4)
    let y ← mkVar md (.const 2) (.const 1) (.const 3)
    let w := { mpcJunk.lin 2 2 1 6 with alpha := 0.95, data := some mpcData }
    match RiccatiWs.init x.pt y.pt 1 w with
    | .error e _ => throw e
    | .ok ok w =>
      match RiccatiWs.solve ⟨.const 2.5, .const 2.5, .const 2.5, 77, 77, 77⟩ y.pt w with
      | .error e _ => throw e
      | .ok (ok2, dx) w => return ok && ok2 && newtonError md 1 w.gamma w.mus 2.5 dx ≤ 1e-14
  return [a, b, c, d, e, f, g, h, i, j, k, l, m, n, o, p, q, r]

end Fbstab.Conformance

def main : IO UInt32 := do
  let c ← Fbstab.Conformance.componentTests
  let r ← Fbstab.Conformance.tests
  let r := c ++ r
  IO.println s!"{r.count true} of {r.length} tests pass"
  return if r.all id then 0 else 1
