import Verif.Model.DenseSolver

/-!
# The Riccati solver

`RiccatiLinearSolver`, riccati_linear_solver.{h,cc}.
-/

namespace Fbstab

/-- The members of `RiccatiLinearSolver`, riccati_linear_solver.h:108-153. -/
structure RiccatiWs (K : Type) (N nx nu nc : Nat) where
  Q : Vec (Mat K nx nx) (N + 1)
  R : Vec (Mat K nu nu) (N + 1)
  S : Vec (Mat K nu nx) (N + 1)
  P : Vec (Mat K nx nu) (N + 1)
  SG : Vec (Mat K nu nu) (N + 1)
  M : Vec (Mat K nx nx) (N + 1)
  L : Vec (Mat K nx nx) (N + 1)
  SM : Vec (Mat K nu nx) (N + 1)
  AM : Vec (Mat K nx nx) (N + 1)
  h : Vec (Vec K nx) (N + 1)
  th : Vec (Vec K nx) (N + 1)
  gamma : Vec K ((N + 1) * nc)
  mus : Vec K ((N + 1) * nc)
  /-- an `nc` by `N + 1` matrix in the code, indexed linearly in line 98 -/
  Gamma : Vec K ((N + 1) * nc)
  Etemp : Mat K nc nx
  Ltemp : Mat K nc nu
  Linv : Mat K nx nx
  tx : Vec K nx
  tl : Vec K nx
  tu : Vec K nu
  r1 : Vec K ((N + 1) * (nx + nu))
  r2 : Vec K ((N + 1) * nx)
  r3 : Vec K ((N + 1) * nc)
  data : Option (MpcData K N nx nu nc)
  alpha : K

namespace RiccatiWs
variable {K : Type} [Scalar K] {N nx nu nc : Nat}

/-- `NullDataCheck`, riccati_linear_solver.cc:367-373. -/
def nullError : Err := .runtimeError
  "RiccatiLinearSolver tried to access problem data before it's linked."

/-- The loop lines 92-99. -/
def barrier (x xbar : Point K ((N + 1) * (nx + nu)) ((N + 1) * nx) ((N + 1) * nc)) (sigma : K)
    (w : RiccatiWs K N nx nu nc) : RiccatiWs K N nx nu nc :=
  let gamma := Vec.ofFn fun i => pfbGamma w.alpha sigma x.y x.v xbar.v i
  let mus := Vec.ofFn fun i => pfbMu w.alpha sigma x.y x.v xbar.v i
  { w with gamma := gamma, mus := mus, Gamma := Vec.ofFn fun i => gamma i / mus i }

/-- The body of the loop lines 102-123: the barrier augmented Hessian of stage `i`. -/
def augment (d : MpcData K N nx nu nc) (sigma : K) (i : Fin (N + 1))
    (w : RiccatiWs K N nx nu nc) : RiccatiWs K N nx nu nc :=
  let Ei := d.E i
  let Li := d.L i
  let Q' := d.Q i + sigma * (Mat.identity : Mat K nx nx)
  let w := { w with Q := w.Q.set i ((w.Q i).assignLower Q') }
  let R' := d.R i + sigma * (Mat.identity : Mat K nu nu)
  let w := { w with R := w.R.set i ((w.R i).assignLower R') }
  let w := { w with S := w.S.set i (d.S i) }
  let w := { w with Etemp := Mat.diagMul (colBlock w.Gamma i) Ei }
  let w := { w with Q := w.Q.set i ((w.Q i).assignLower (w.Q i + Ei.transpose * w.Etemp)) }
  let w := { w with Ltemp := Mat.diagMul (colBlock w.Gamma i) Li }
  let w := { w with R := w.R.set i ((w.R i).assignLower (w.R i + Li.transpose * w.Ltemp)) }
  { w with S := w.S.set i (w.S i + Li.transpose * w.Etemp) }

/-- The first half of a step of the recursion (lines 142-166 and 187-206, which are the same but for
the computation of `AM`): `Linv`, `M`, `SM` and `SG` of stage `i`.  `none` for `A` skips `AM`. -/
def factorStage (A : Option (Mat K nx nx)) (i : Fin (N + 1)) (w : RiccatiWs K N nx nu nc) :
    Bool × RiccatiWs K N nx nu nc :=
  let w := { w with Linv := (Mat.identity : Mat K nx nx) }
  let w := { w with Linv := lowerSolveMat (w.L i) w.Linv }
  let w := { w with Linv := lowerTSolveMat (w.L i) w.Linv }
  let w := { w with M := w.M.set i ((w.M i).assignLower (w.Q i + w.Linv)) }
  let f1 := llt (w.M i)
  let w := { w with M := w.M.set i f1.2 }
  if !f1.1 then (false, w)
  else
    let w := match A with
      | some A => { w with AM := w.AM.set i (solveOnTheRightT (w.M i) A) }
      | none => w
    let w := { w with SM := w.SM.set i (solveOnTheRightT (w.M i) (w.S i)) }
    let w := { w with SG := w.SG.set i (w.R i - w.SM i * (w.SM i).transpose) }
    let f2 := llt (w.SG i)
    (f2.1, { w with SG := w.SG.set i f2.2 })

/-- The body of the loop lines 138-184. -/
def factorStep (d : MpcData K N nx nu nc) (sigma : K) (i : Fin N)
    (s : Bool × RiccatiWs K N nx nu nc) : Bool × RiccatiWs K N nx nu nc :=
  if !s.1 then s
  else
    let s := factorStage (some (d.A i)) i.castSucc s.2
    if !s.1 then s
    else
      let w := s.2
      let w := { w with P := w.P.set i.castSucc (w.AM i.castSucc * (w.SM i.castSucc).transpose) }
      let w := { w with P := w.P.set i.castSucc (w.P i.castSucc - d.B i) }
      let P' := solveOnTheRightT (w.SG i.castSucc) (w.P i.castSucc)
      let w := { w with P := w.P.set i.castSucc P' }
      let w := { w with L := w.L.set i.succ (sigma * (Mat.identity : Mat K nx nx)) }
      let L' := w.L i.succ + w.P i.castSucc * (w.P i.castSucc).transpose
      let w := { w with L := w.L.set i.succ L' }
      let L' := w.L i.succ + w.AM i.castSucc * (w.AM i.castSucc).transpose
      let w := { w with L := w.L.set i.succ L' }
      let f3 := llt (w.L i.succ)
      (f3.1, { w with L := w.L.set i.succ f3.2 })

/-- `RiccatiLinearSolver::Initialize`, riccati_linear_solver.cc:77-210. -/
def init (x xbar : Point K ((N + 1) * (nx + nu)) ((N + 1) * nx) ((N + 1) * nc)) (sigma : K) :
    EStateM Err (RiccatiWs K N nx nu nc) Bool :=
  fun w =>
    if sigma ≤ 0 then .error (.runtimeError
      "In RiccatiLinearSolver::Initialize: sigma must be positive.") w
    else match w.data with
    | none => .error nullError w
    | some d =>
      let w := barrier x xbar sigma w
      let w := forFin (N + 1) (augment d sigma) w
      let w := { w with L := w.L.set 0 (Scalar.sqrt sigma * (Mat.identity : Mat K nx nx)) }
      let s := forFin N (factorStep d sigma) (true, w)
      if !s.1 then .ok false s.2
      else
        let s := factorStage none (Fin.last N) s.2
        .ok s.1 s.2

/-- The body of the loop lines 239-262. -/
def forwardStep (i : Fin N) (w : RiccatiWs K N nx nu nc) : RiccatiWs K N nx nu nc :=
  let w := { w with tx := w.h i.castSucc }
  let w := { w with tx := lowerSolve (w.M i.castSucc) w.tx }
  let w := { w with tu := w.SM i.castSucc * w.tx }
  let w := { w with tu := w.tu + uBlock w.r1 i.castSucc }
  let w := { w with tu := lowerSolve (w.SG i.castSucc) w.tu }
  let w := { w with th := w.th.set i.succ (w.P i.castSucc * w.tu + w.AM i.castSucc * w.tx) }
  let w := { w with th := w.th.set i.succ (w.th i.succ + colBlock w.r2 i.succ) }
  let w := { w with h := w.h.set i.succ (w.th i.succ) }
  let w := { w with h := w.h.set i.succ (lowerSolve (w.L i.succ) (w.h i.succ)) }
  let w := { w with h := w.h.set i.succ (lowerTSolve (w.L i.succ) (w.h i.succ)) }
  { w with h := w.h.set i.succ (w.h i.succ - xBlock w.r1 i.succ) }

/-- The body of the loop lines 297-327.  `ui`, `xi`, `li` are views into `dz`, `dl` in the code;
the model assigns them once they are complete, nothing else reads them in between. -/
def backwardStep (w : RiccatiWs K N nx nu nc) (i : Fin N)
    (s : Vec K ((N + 1) * (nx + nu)) × Vec K ((N + 1) * nx) × Vec K nx) :
    Vec K ((N + 1) * (nx + nu)) × Vec K ((N + 1) * nx) × Vec K nx :=
  let dz := s.1
  let dl := s.2.1
  let tx := lowerSolve (w.M i.castSucc) (w.h i.castSucc)
  let ui := w.SM i.castSucc * tx
  let ui := ui + uBlock w.r1 i.castSucc
  let ui := lowerSolve (w.SG i.castSucc) ui
  let ui := ui + (w.P i.castSucc).transpose * colBlock dl i.succ
  let ui := lowerTSolve (w.SG i.castSucc) ui
  let dz := setU dz i.castSucc ui
  let xi := w.h i.castSucc
  let xi := lowerSolve (w.M i.castSucc) xi
  let xi := xi + (w.SM i.castSucc).transpose * ui
  let xi := xi + (w.AM i.castSucc).transpose * colBlock dl i.succ
  let xi := lowerTSolve (w.M i.castSucc) xi
  let xi : Vec K nx := Vec.ofFn fun j => xi j * (-1)
  let dz := setX dz i.castSucc xi
  let li := w.th i.castSucc + xi
  let li := lowerSolve (w.L i.castSucc) li
  let li := lowerTSolve (w.L i.castSucc) li
  let li : Vec K nx := Vec.ofFn fun j => li j * (-1)
  let dl := setCol dl i.castSucc li
  (dz, dl, tx)

/-- `RiccatiLinearSolver::Solve`, riccati_linear_solver.cc:212-344. -/
def solve (r : Resid K ((N + 1) * (nx + nu)) ((N + 1) * nx) ((N + 1) * nc))
    (dx : Point K ((N + 1) * (nx + nu)) ((N + 1) * nx) ((N + 1) * nc)) :
    EStateM Err (RiccatiWs K N nx nu nc)
      (Bool × Point K ((N + 1) * (nx + nu)) ((N + 1) * nx) ((N + 1) * nc)) :=
  fun w =>
    match w.data with
    | none => .error nullError w
    | some d =>
      let w := { w with r1 := r.z }
      let w := { w with r3 := r.v.cwiseQuotient w.mus }
      let w := { w with r1 := d.gemvAT w.r3 (-1) 1 w.r1 }
      let w := { w with r2 := -r.l }
      -- base case, lines 232-236
      let w := { w with th := w.th.set 0 (colBlock w.r2 0) }
      let w := { w with h := w.h.set 0 (w.th 0) }
      let w := { w with h := w.h.set 0 (lowerSolve (w.L 0) (w.h 0)) }
      let w := { w with h := w.h.set 0 (lowerTSolve (w.L 0) (w.h 0)) }
      let w := { w with h := w.h.set 0 (w.h 0 - xBlock w.r1 0) }
      let w := forFin N forwardStep w
      -- u(N), x(N), l(N), lines 267-285
      let n := Fin.last N
      let w := { w with tx := w.h n }
      let w := { w with tx := lowerSolve (w.M n) w.tx }
      let w := { w with tu := w.SM n * w.tx }
      let w := { w with tu := w.tu + uBlock w.r1 n }
      let w := { w with tu := lowerSolve (w.SG n) w.tu }
      let w := { w with tu := lowerTSolve (w.SG n) w.tu }
      let w := { w with tx := w.h n }
      let w := { w with tx := lowerSolve (w.M n) w.tx }
      let w := { w with tx := w.tx + (w.SM n).transpose * w.tu }
      let w := { w with tx := lowerTSolve (w.M n) w.tx }
      let w := { w with tx := Vec.ofFn fun j => w.tx j * (-1) }
      let w := { w with tl := w.tx + w.th n }
      let w := { w with tl := lowerSolve (w.L n) w.tl }
      let w := { w with tl := lowerTSolve (w.L n) w.tl }
      let w := { w with tl := Vec.ofFn fun j => w.tl j * (-1) }
      -- lines 289-294
      let dz := setX dx.z n w.tx
      let dz := setU dz n w.tu
      let dl := setCol dx.l n w.tl
      let s := forFinRev N (backwardStep w) (dz, dl, w.tx)
      let w := { w with tx := s.2.2 }
      let dz := s.1
      let dl := s.2.1
      -- inequality duals, lines 331-336
      let w := { w with r3 := d.gemvA dz 1 0 w.r3 }
      let dv := r.v + Vec.cwiseProduct w.gamma w.r3
      let dv := dv.cwiseQuotient w.mus
      -- lines 339-341
      let dy := d.gemvA dz (-1) 0 dx.y
      let dy := d.axpyb 1 dy
      .ok (true, ⟨dz, dl, dv, dy⟩) w

end RiccatiWs

/-- `RiccatiLinearSolver` as a `LinearSolver`. -/
def riccatiSolver (K : Type) [Scalar K] (N nx nu nc : Nat) :
    LinearSolver K (MpcData K N nx nu nc)
      ((N + 1) * (nx + nu)) ((N + 1) * nx) ((N + 1) * nc) where
  St := RiccatiWs K N nx nu nc
  setAlpha a w := { w with alpha := a }
  linkData d w := { w with data := some d }
  init := RiccatiWs.init
  solve := RiccatiWs.solve

end Fbstab
