import Verif.Model.Data

/-!
# Variable, residual and feasibility components

`FullVariable`, `FullResidual`, `FullFeasibility` (fbstab/components/full_*.{h,cc}).  Methods that
call `NullDataCheck()` throw when no data is linked.
-/

namespace Fbstab

/-- The four vectors of a `FullVariable`, full_variable.h:128-131. -/
structure Point (K : Type) (nz nl nv : Nat) where
  z : Vec K nz
  l : Vec K nl
  v : Vec K nv
  y : Vec K nv

/-- `FullVariable`, full_variable.h:31-149.  `data` is the pointer `data_`; sizes are static. -/
structure FullVariable (K : Type) (nz nl nv : Nat) where
  pt : Point K nz nl nv
  data : Option (QPOps K nz nl nv)

section
variable {K : Type} [Scalar K] {nz nl nv : Nat}

namespace FullVariable

/-- The state after the constructor, full_variable.cc:14-38 (argument checks are in
`Model/Api.lean`). -/
def init : FullVariable K nz nl nv :=
  ⟨⟨Vec.const 0, Vec.const 0, Vec.const 0, Vec.const 0⟩, none⟩

/-- `LinkData`, full_variable.h:50. -/
def linkData (d : QPOps K nz nl nv) (x : FullVariable K nz nl nv) : FullVariable K nz nl nv :=
  { x with data := some d }

/-- `NullDataCheck`, full_variable.cc:89-95. -/
def nullDataCheck (x : FullVariable K nz nl nv) : Except Err (QPOps K nz nl nv) :=
  match x.data with
  | some d => .ok d
  | none => .error (.runtimeError
      "FullVariable tried to access problem data before it's linked.")

/-- `InitializeConstraintMargin`, full_variable.cc:47-53. -/
def initializeConstraintMargin (x : FullVariable K nz nl nv) :
    Except Err (FullVariable K nz nl nv) := do
  let d ← x.nullDataCheck
  let y : Vec K nv := Vec.const 0
  let y := d.axpyb 1 y
  let y := d.gemvA x.pt.z (-1) 1 y
  return { x with pt := { x.pt with y := y } }

/-- `Fill`, full_variable.cc:40-45. -/
def fill (a : K) (x : FullVariable K nz nl nv) : Except Err (FullVariable K nz nl nv) :=
  let x := { x with pt := { x.pt with z := Vec.const a, l := Vec.const a, v := Vec.const a } }
  x.initializeConstraintMargin

/-- `axpy`, full_variable.cc:55-65: `*this <- *this + a*x` with the margin `y + a*(x.y - b)`. -/
def axpy (a : K) (x : FullVariable K nz nl nv) (this : FullVariable K nz nl nv) :
    Except Err (FullVariable K nz nl nv) := do
  let d ← this.nullDataCheck
  let z := this.pt.z + a * x.pt.z
  let l := this.pt.l + a * x.pt.l
  let v := this.pt.v + a * x.pt.v
  let y := this.pt.y + a * x.pt.y
  let y := d.axpyb (-a) y
  return { this with pt := ⟨z, l, v, y⟩ }

/-- `Copy`, full_variable.cc:67-73. -/
def copy (x : FullVariable K nz nl nv) (_this : FullVariable K nz nl nv) :
    FullVariable K nz nl nv := ⟨x.pt, x.data⟩

/-- `ProjectDuals`, full_variable.cc:75. -/
def projectDuals (x : FullVariable K nz nl nv) : FullVariable K nz nl nv :=
  { x with pt := { x.pt with v := x.pt.v.cwiseMax 0 } }

/-- `Norm`, full_variable.cc:77-83. -/
def norm (x : FullVariable K nz nl nv) : K :=
  let t1 := x.pt.z.norm
  let t2 := x.pt.l.norm
  let t3 := x.pt.v.norm
  Scalar.sqrt (t1 * t1 + t2 * t2 + t3 * t3)

end FullVariable

/-- The vectors and cached norms of a `FullResidual`, full_residual.h:139-158. -/
structure Resid (K : Type) (nz nl nv : Nat) where
  z : Vec K nz
  l : Vec K nl
  v : Vec K nv
  znorm : K
  lnorm : K
  vnorm : K

/-- `FullResidual`, full_residual.h:25-172. -/
structure FullResidual (K : Type) (nz nl nv : Nat) where
  r : Resid K nz nl nv
  alpha : K
  data : Option (QPOps K nz nl nv)

/-- `FullResidual::pfb`, full_residual.cc:115-118. -/
def pfb (a b alpha : K) : K :=
  let fb := a + b - Scalar.sqrt (a * a + b * b)
  alpha * fb + (1 - alpha) * cmax 0 a * cmax 0 b

namespace FullResidual

/-- State after the constructor, full_residual.cc:12-26. -/
def init : FullResidual K nz nl nv :=
  ⟨⟨Vec.const 0, Vec.const 0, Vec.const 0, 0, 0, 0⟩, 0.95, none⟩

/-- `SetAlpha`, full_residual.h:45. -/
def setAlpha (a : K) (r : FullResidual K nz nl nv) : FullResidual K nz nl nv := { r with alpha := a }

/-- `LinkData`, full_residual.h:52. -/
def linkData (d : QPOps K nz nl nv) (r : FullResidual K nz nl nv) : FullResidual K nz nl nv :=
  { r with data := some d }

/-- `Fill`, full_residual.cc:28-32.  The cached norms are not updated. -/
def fill (a : K) (r : FullResidual K nz nl nv) : FullResidual K nz nl nv :=
  { r with r := { r.r with z := Vec.const a, l := Vec.const a, v := Vec.const a } }

/-- `Negate`, full_residual.cc:34-38. -/
def negate (r : FullResidual K nz nl nv) : FullResidual K nz nl nv :=
  { r with r := { r.r with
      z := Vec.ofFn fun i => r.r.z i * (-1)
      l := Vec.ofFn fun i => r.r.l i * (-1)
      v := Vec.ofFn fun i => r.r.v i * (-1) } }

/-- `Norm`, full_residual.cc:40-42: from the cached norms. -/
def norm (r : FullResidual K nz nl nv) : K :=
  Scalar.sqrt (r.r.znorm * r.r.znorm + r.r.lnorm * r.r.lnorm + r.r.vnorm * r.r.vnorm)

/-- `Merit`, full_residual.cc:44-47. -/
def merit (r : FullResidual K nz nl nv) : K :=
  let temp := r.norm
  0.5 * temp * temp

/-- `NullDataCheck`, full_residual.cc:120-125. -/
def nullDataCheck (r : FullResidual K nz nl nv) : Except Err (QPOps K nz nl nv) :=
  match r.data with
  | some d => .ok d
  | none => .error (.runtimeError
      "FullResidual tried to access problem data before it's linked.")

/-- `InnerResidual`, full_residual.cc:49-74.  (The header documents exceptions for `sigma <= 0`
and for different sizes; the code has none.) -/
def innerResidual (x xbar : FullVariable K nz nl nv) (sigma : K) (r : FullResidual K nz nl nv) :
    Except Err (FullResidual K nz nl nv) := do
  let d ← r.nullDataCheck
  -- r.z = H*z + f + G'*l + A'*v + sigma*(z-zbar)
  let z : Vec K nz := Vec.const 0
  let z := d.axpyf 1 z
  let z := d.gemvH x.pt.z 1 1 z
  let z := d.gemvGT x.pt.l 1 1 z
  let z := d.gemvAT x.pt.v 1 1 z
  let z := z + sigma * (x.pt.z - xbar.pt.z)
  -- r.l = h - G*z + sigma(l - lbar)
  let l : Vec K nl := Vec.const 0
  let l := d.axpyh 1 l
  let l := d.gemvG x.pt.z (-1) 1 l
  let l := l + sigma * (x.pt.l - xbar.pt.l)
  -- rv = phi(y + sigma*(v-vbar),v)
  let v : Vec K nv := Vec.ofFn fun i =>
    let ys := x.pt.y i + sigma * (x.pt.v i - xbar.pt.v i)
    pfb ys (x.pt.v i) r.alpha
  return { r with r := ⟨z, l, v, z.norm, l.norm, v.norm⟩ }

/-- `NaturalResidual`, full_residual.cc:76-97. -/
def naturalResidual (x : FullVariable K nz nl nv) (r : FullResidual K nz nl nv) :
    Except Err (FullResidual K nz nl nv) := do
  let d ← r.nullDataCheck
  -- r.z = H*z + f + G'*l + A'*v
  let z : Vec K nz := Vec.const 0
  let z := d.axpyf 1 z
  let z := d.gemvH x.pt.z 1 1 z
  let z := d.gemvGT x.pt.l 1 1 z
  let z := d.gemvAT x.pt.v 1 1 z
  -- r.l = h - G*z
  let l : Vec K nl := Vec.const 0
  let l := d.axpyh 1 l
  let l := d.gemvG x.pt.z (-1) 1 l
  -- rv = min(y,v)
  let v : Vec K nv := Vec.ofFn fun i => cmin (x.pt.y i) (x.pt.v i)
  return { r with r := ⟨z, l, v, z.norm, l.norm, v.norm⟩ }

/-- `PenalizedNaturalResidual`, full_residual.cc:99-109. -/
def penalizedNaturalResidual (x : FullVariable K nz nl nv) (r : FullResidual K nz nl nv) :
    Except Err (FullResidual K nz nl nv) := do
  let r ← r.naturalResidual x
  let v : Vec K nv := Vec.ofFn fun i =>
    r.alpha * r.r.v i + (1 - r.alpha) * cmax 0 (x.pt.y i) * cmax 0 (x.pt.v i)
  return { r with r := ⟨r.r.z, r.r.l, v, r.r.z.norm, r.r.l.norm, v.norm⟩ }

end FullResidual

/-- `FullFeasibility::FeasibilityStatus`, full_feasibility.h. -/
inductive FeasStatus where
  | feasible | dualInfeasible | primalInfeasible | both
deriving DecidableEq, Repr

/-- The workspaces of `FullFeasibility`. -/
structure FeasWs (K : Type) (nz nl nv : Nat) where
  tz : Vec K nz
  tl : Vec K nl
  tv : Vec K nv

/-- `FullFeasibility`, full_feasibility.h:20-63. -/
structure FullFeasibility (K : Type) (nz nl nv : Nat) where
  ws : FeasWs K nz nl nv
  data : Option (QPOps K nz nl nv)

/-- The body of `FullFeasibility::CheckFeasibility` after the null check,
full_feasibility.cc:29-88, for the data `d`.  The first three products use the old contents of the
workspaces, scaled by `0.0`. -/
def checkFeasibility (d : QPOps K nz nl nv) (x : Point K nz nl nv) (tol : K)
    (ws : FeasWs K nz nl nv) : FeasStatus × FeasWs K nz nl nv :=
  -- d1 = max(Az)
  let tv := d.gemvA x.z 1 0 ws.tv
  let d1 := tv.maxCoeff
  -- d2 = infnorm(Gz)
  let tl := d.gemvG x.z 1 0 ws.tl
  let d2 := tl.lpNormInf
  -- d3 = infnorm(Hz)
  let tz := d.gemvH x.z 1 0 ws.tz
  let d3 := tz.lpNormInf
  -- d4 = f'*z
  let tz : Vec K nz := Vec.const 0
  let tz := d.axpyf 1 tz
  let d4 := tz.dot x.z
  let w := x.z.lpNormInf
  let dualFeasible : Bool :=
    !(decide (d1 ≤ w * tol) && decide (d2 ≤ tol * w) && decide (d3 ≤ tol * w) && decide (d4 < 0)
      && decide ((1e-14 : K) < w))
  -- p1 = infnorm(G'*l + A'*v)
  let tz : Vec K nz := Vec.const 0
  let tz := d.gemvAT x.v 1 1 tz
  let tz := d.gemvGT x.l 1 1 tz
  let p1 := tz.lpNormInf
  -- p2 = v'*b + l'*h
  let tv : Vec K nv := Vec.const 0
  let tv := d.axpyb 1 tv
  let tl : Vec K nl := Vec.const 0
  let tl := d.axpyh 1 tl
  let p2 := tl.dot x.l + tv.dot x.v
  let u := cmax x.v.lpNormInf x.l.lpNormInf
  let primalFeasible : Bool := !(decide (p1 ≤ tol * u) && decide (p2 < 0))
  let status :=
    if primalFeasible && dualFeasible then FeasStatus.feasible
    else if primalFeasible && !dualFeasible then .dualInfeasible
    else if !primalFeasible && dualFeasible then .primalInfeasible
    else .both
  (status, ⟨tz, tl, tv⟩)

namespace FullFeasibility

/-- `LinkData`, full_feasibility.h. -/
def linkData (d : QPOps K nz nl nv) (x : FullFeasibility K nz nl nv) : FullFeasibility K nz nl nv :=
  { x with data := some d }

/-- `CheckFeasibility`, full_feasibility.cc:25-88, with `NullDataCheck`, lines 90-96. -/
def check (x : FullVariable K nz nl nv) (tol : K) (f : FullFeasibility K nz nl nv) :
    Except Err (FeasStatus × FullFeasibility K nz nl nv) :=
  match f.data with
  | none => .error (.runtimeError
      "FullFeasibility tried to access problem data before it's linked.")
  | some d =>
    let (s, ws) := checkFeasibility d x.pt tol f.ws
    .ok (s, { f with ws := ws })

end FullFeasibility
end
end Fbstab
