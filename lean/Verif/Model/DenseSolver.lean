import Verif.Model.Components

/-!
# Linear solvers: interface and the dense Cholesky solver
-/

namespace Fbstab

/-- The interface `LinearSolver` of abstract_components.h as `FBstabAlgorithm` uses it: an object
with private memory `St`.  `init` models `Initialize`; `init` and `solve` may throw. `solve r dx` returns the flag and the
new contents of `dx`. -/
structure LinearSolver (K D : Type) (nz nl nv : Nat) where
  /-- the object's memory -/
  St : Type
  setAlpha : K → St → St
  linkData : D → St → St
  init : Point K nz nl nv → Point K nz nl nv → K → EStateM Err St Bool
  solve : Resid K nz nl nv → Point K nz nl nv → EStateM Err St (Bool × Point K nz nl nv)

section
variable {K : Type} [Scalar K]

/-- `PFBGradient`, dense_cholesky_solver.cc:129-148 and riccati_linear_solver.cc:346-365 (the two
are identical); `zero_tolerance_` is 1e-13 (dense_cholesky_solver.h, riccati_linear_solver.h). -/
def pfbGradient (alpha a b : K) : K × K :=
  let r := Scalar.sqrt (a * a + b * b)
  let d := 1 / Scalar.sqrt 2.0
  if r < 1e-13 then
    (alpha * (1 - d), alpha * (1 - d))
  else if 0 < a ∧ 0 < b then
    (alpha * (1 - a / r) + (1 - alpha) * b, alpha * (1 - b / r) + (1 - alpha) * a)
  else
    (alpha * (1 - a / r), alpha * (1 - b / r))

/-- `gamma_`, `mus_` and `Gamma_` at a pair of points: the loops dense_cholesky_solver.cc:54-60
and riccati_linear_solver.cc:92-99. -/
def pfbGamma (alpha sigma : K) {nv : Nat} (y v vbar : Vec K nv) (i : Fin nv) : K :=
  (pfbGradient alpha (y i + sigma * (v i - vbar i)) (v i)).1

/-- See `pfbGamma`; this is `mus_(i)`. -/
def pfbMu (alpha sigma : K) {nv : Nat} (y v vbar : Vec K nv) (i : Fin nv) : K :=
  let g := pfbGradient alpha (y i + sigma * (v i - vbar i)) (v i)
  g.2 + sigma * g.1

/-- The members of `DenseCholeskySolver`, dense_cholesky_solver.h:89-106. -/
structure DenseWs (K : Type) (nz nl nv : Nat) where
  alpha : K
  data : Option (DenseData K nz nl nv)
  K_ : Mat K (nz + nl) (nz + nl)
  E : Mat K nz nz
  ldlt : Ldlt K (nz + nl)
  r1 : Vec K (nz + nl)
  r2 : Vec K nv
  Gamma : Vec K nv
  mus : Vec K nv
  gamma : Vec K nv
  B : Mat K nv nz

namespace DenseWs
variable {nz nl nv : Nat}

/-- The three block assignments dense_cholesky_solver.cc:67-69.  The block above the diagonal is
never assigned. -/
def assignK (E : Mat K nz nz) (G : Mat K nl nz) (sigma : K) (old : Mat K (nz + nl) (nz + nl)) :
    Mat K (nz + nl) (nz + nl) :=
  Mat.ofFn fun i j =>
    Fin.addCases
      (fun i' => Fin.addCases (fun j' => E i' j') (fun _ => old i j) j)
      (fun i' => Fin.addCases (fun j' => G i' j')
        (fun j' => ((-sigma) * (Mat.identity : Mat K nl nl)) i' j') j) i

/-- `DenseCholeskySolver::Initialize`, dense_cholesky_solver.cc:32-79.  The size checks of lines
35-42 cannot fail here, sizes being static. -/
def init (x xbar : Point K nz nl nv) (sigma : K) : EStateM Err (DenseWs K nz nl nv) Bool :=
  fun w =>
    match w.data with
    | none => .error (.runtimeError
        "DenseCholeskySolver tried to access problem data before it's linked.") w
    | some d =>
      if sigma ≤ 0 then .error (.runtimeError
        "In DenseCholeskySolver::Factor: sigma must be positive.") w
      else
        let E := d.H + sigma * (Mat.identity : Mat K nz nz)
        let gamma : Vec K nv := Vec.ofFn fun i => pfbGamma w.alpha sigma x.y x.v xbar.v i
        let mus : Vec K nv := Vec.ofFn fun i => pfbMu w.alpha sigma x.y x.v xbar.v i
        let Gamma : Vec K nv := Vec.ofFn fun i => gamma i / mus i
        let B := Mat.diagMul Gamma d.A
        let E := E + d.A.transpose * B
        let K_ := assignK E d.G sigma w.K_
        let ldlt := ldltCompute K_
        .ok ldlt.success
          { w with E := E, gamma := gamma, mus := mus, Gamma := Gamma, B := B, K_ := K_, ldlt := ldlt }

/-- `DenseCholeskySolver::Solve`, dense_cholesky_solver.cc:81-127.  There is no null check on the
data here: dereferencing a null `data_` is undefined behaviour. -/
def solve (r : Resid K nz nl nv) (_x : Point K nz nl nv) :
    EStateM Err (DenseWs K nz nl nv) (Bool × Point K nz nl nv) :=
  fun w =>
    match w.data with
    | none => .error (.undefinedBehaviour "null data_ dereferenced in DenseCholeskySolver::Solve") w
    | some d =>
      let r2 := r.v.cwiseQuotient w.mus
      let r1 := Vec.append (r.z - d.A.transpose * r2) (-r.l)
      let r1 := w.ldlt.solve r1
      let z := r1.head
      let l := r1.tail
      let r2 := d.A * z
      let r2 := Vec.cwiseProduct w.gamma r2
      let r2 := r2 + r.v
      let v := r2.cwiseQuotient w.mus
      let y := d.b - d.A * z
      .ok (true, ⟨z, l, v, y⟩) { w with r1 := r1, r2 := r2 }

end DenseWs

/-- `DenseCholeskySolver` as a `LinearSolver`. -/
def denseSolver (K : Type) [Scalar K] (nz nl nv : Nat) :
    LinearSolver K (DenseData K nz nl nv) nz nl nv where
  St := DenseWs K nz nl nv
  setAlpha a w := { w with alpha := a }
  linkData d w := { w with data := some d }
  init := DenseWs.init
  solve := DenseWs.solve

end
end Fbstab
