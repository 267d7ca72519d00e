import Verif.Model.Api

/-!
# The generator of test problems

`test::OcpGenerator`, fbstab/test/ocp_generator.{h,cc}: the helper that the unit tests and examples
use to build inputs for `FBstabMpc`.  The values of `std::sin` used for the initial state of
`CopolymerizationReactor` are a parameter.
-/

namespace Fbstab
variable {K : Type} [Scalar K]

/-- The matrix with the given entries: a `MatrixXd` filled in any way. -/
def DMat.ofFn (r c : Nat) (f : Nat → Nat → K) : DMat K :=
  ⟨r, c, Array.ofFn fun p : Fin (r * c) => f (p.1 % r) (p.1 / r), by simp⟩

/-- Eigen's comma initialiser `m << a, b, ...` for scalars, which goes along the rows. -/
def DMat.comma (r c : Nat) (l : List K) : DMat K := DMat.ofFn r c fun i j => l.getD (i * c + j) 0

/-- `MatrixXd::Zero(r, c)` -/
def DMat.zero (r c : Nat) : DMat K := DMat.ofFn r c fun _ _ => 0

/-- `MatrixXd::Identity(r, r)` -/
def DMat.identity (r : Nat) : DMat K := DMat.ofFn r r fun i j => if i = j then 1 else 0

/-- A column vector, with the comma initialiser. -/
def DVec.comma (l : List K) : DVec K := ⟨l.toArray⟩

/-- A `VectorXd` used as a matrix with one column. -/
def DVec.toDMat (v : DVec K) : DMat K := ⟨v.size, 1, v.data, by simp [DVec.size]⟩

/-- `SimulationInputs` except `x0`, ocp_generator.h:31-38. -/
structure SimInputs (K : Type) where
  A : DMat K
  B : DMat K
  C : DMat K
  D : DMat K
  T : Nat

/-- `OcpGenerator`, ocp_generator.h:158-205. -/
structure OcpGen (K : Type) where
  prob : MpcProblemData K
  sim : SimInputs K
  nz : Nat
  nl : Nat
  nv : Nat
  N : Nat
  nx : Nat
  nu : Nat
  nc : Nat
  populated : Bool

/-- A default constructed `Eigen::MatrixXd`. -/
def DMat.null : DMat K := ⟨0, 0, #[], by simp⟩

/-- Default construction, ocp_generator.h:40 with the initialisers of lines 170-205. -/
def OcpGen.new : OcpGen K where
  prob := ⟨.empty, .empty, .empty, .empty, .empty, .empty, .empty, .empty, .empty, .empty, .empty,
    ⟨#[]⟩⟩
  sim := ⟨.null, .null, .null, .null, 0⟩
  nz := 0
  nl := 0
  nv := 0
  N := 0
  nx := 0
  nu := 0
  nc := 0
  populated := false

/-- One stage of a problem: the arguments of `CopyOverHorizon`. -/
structure StageInputs (K : Type) where
  Q : DMat K
  R : DMat K
  S : DMat K
  q : DVec K
  r : DVec K
  A : DMat K
  B : DMat K
  c : DVec K
  E : DMat K
  L : DMat K
  d : DVec K
  x0 : DVec K

/-- `for (int i = 0; i < n; i++) s(i) = m(i);` -/
def fillSeq (m : Nat → DMat K) : Nat → MatrixSequence K → Except Err (MatrixSequence K)
  | 0, s => .ok s
  | n + 1, s => do
    let s ← fillSeq m n s
    s.assign n (m n)

/-- `CopyOverHorizon`, ocp_generator.cc:365-421.  The two loops assign to eleven different sequences
in turn; here there is one loop for each sequence. -/
def OcpGen.copyOverHorizon (a : StageInputs K) (N : Nat) (g : OcpGen K) : Except Err (OcpGen K) := do
  let nx := a.Q.rows
  let nu := a.R.rows
  let nc := a.E.rows
  let n1 : Int := N + 1
  let Q ← MatrixSequence.new n1 nx nx
  let R ← MatrixSequence.new n1 nu nu
  let S ← MatrixSequence.new n1 nu nx
  let q ← MatrixSequence.new n1 nx 1
  let r ← MatrixSequence.new n1 nu 1
  let A ← MatrixSequence.new N nx nx
  let B ← MatrixSequence.new N nx nu
  let c ← MatrixSequence.new N nx 1
  let E ← MatrixSequence.new n1 nc nx
  let L ← MatrixSequence.new n1 nc nu
  let d ← MatrixSequence.new n1 nc 1
  let Q ← fillSeq (fun _ => a.Q) (N + 1) Q
  let R ← fillSeq (fun _ => a.R) (N + 1) R
  let S ← fillSeq (fun _ => a.S) (N + 1) S
  let q ← fillSeq (fun _ => a.q.toDMat) (N + 1) q
  let r ← fillSeq (fun _ => a.r.toDMat) (N + 1) r
  -- don't impose constraints on x0
  let E ← fillSeq (fun i => if i = 0 then DMat.zero a.E.rows a.E.cols else a.E) (N + 1) E
  let L ← fillSeq (fun _ => a.L) (N + 1) L
  let d ← fillSeq (fun _ => a.d.toDMat) (N + 1) d
  let A ← fillSeq (fun _ => a.A) N A
  let B ← fillSeq (fun _ => a.B) N B
  let c ← fillSeq (fun _ => a.c.toDMat) N c
  return { g with
    prob := ⟨Q, R, S, q, r, A, B, c, E, L, d, a.x0⟩
    N := N, nx := nx, nu := nu, nc := nc
    nz := (nx + nu) * (N + 1), nl := nx * (N + 1), nv := nc * (N + 1), populated := true }

/-- The numbers of `DoubleIntegrator`, ocp_generator.cc:323-353. -/
def doubleIntegratorStage : StageInputs K where
  Q := .comma 2 2 [2.0, 0.0, 0.0, 1.0]
  S := .comma 1 2 [1.0, 0.0]
  R := .comma 1 1 [3.0]
  q := .comma [-2.0, 0.0]
  r := .comma [0.0]
  A := .comma 2 2 [1.0, 1.0, 0.0, 1.0]
  B := .comma 2 1 [0.0, 1.0]
  c := .comma [0.0, 0.0]
  E := .comma 6 2 [-1.0, 0.0, 0.0, -1.0, 1.0, 0.0, 0.0, 1.0, 0.0, 0.0, 0.0, 0.0]
  L := .comma 6 1 [0.0, 0.0, 0.0, 0.0, -1.0, 1.0]
  d := .comma [0.0, 0.0, -2.0, -2.0, -1.0, -1.0]
  x0 := .comma [0.0, 0.0]

/-- `DoubleIntegrator`, ocp_generator.cc:319-363. -/
def OcpGen.doubleIntegrator (N : Int) (g : OcpGen K) : Except Err (OcpGen K) := do
  if N ≤ 0 then throw (.runtimeError "In OcpGenerator::DoubleIntegrator: N <= 0.")
  let g ← g.copyOverHorizon doubleIntegratorStage N.toNat
  return { g with
    sim := ⟨doubleIntegratorStage.A, doubleIntegratorStage.B, .identity 2, .zero 2 1, 40⟩ }

/-- The numbers of `ServoMotor`, ocp_generator.cc:248-305. -/
def servoMotorStage : StageInputs K :=
  let kt : K := 10.0
  let bl : K := 25.0
  let Jm : K := 0.5
  let bm : K := 0.1
  let ktheta : K := 1280.2
  let RR : K := 20.0
  let rho : K := 20.0
  let Jl : K := 20.0 * Jm
  let umax : K := 220.0
  let ymax : K := 78.5358
  let A : DMat K := .comma 4 4 [0.0, 1.0, 0.0, 0.0, -ktheta / Jl, -bl / Jl, ktheta / (rho * Jl), 0.0,
    0.0, 0.0, 0.0, 1.0, ktheta / (rho * Jm), 0.0, -ktheta / (rho * rho * Jm),
    -(bm + kt * kt / RR) / Jm]
  let B : DMat K := .comma 4 1 [0.0, 0.0, 0.0, kt / (RR * Jm)]
  let C1 : Nat → K := fun j => [ktheta, 0.0, -ktheta / rho, 0.0].getD j 0
  let ts : K := 0.05
  let pi : K := 3.1415926535897
  { Q := .ofFn 4 4 fun i j => if i = 0 ∧ j = 0 then 1000.0 else 0.0
    R := .ofFn 1 1 fun _ _ => 1e-4
    S := .zero 1 4
    -- q = -Q * xtrg, r = -R * utrg
    q := .comma [-1000.0 * (30.0 * pi / 180.0) + -0.0 * 0.0 + -0.0 * 0.0 + -0.0 * 0.0,
      -0.0 * (30.0 * pi / 180.0) + -0.0 * 0.0 + -0.0 * 0.0 + -0.0 * 0.0,
      -0.0 * (30.0 * pi / 180.0) + -0.0 * 0.0 + -0.0 * 0.0 + -0.0 * 0.0,
      -0.0 * (30.0 * pi / 180.0) + -0.0 * 0.0 + -0.0 * 0.0 + -0.0 * 0.0]
    r := .comma [-1e-4 * 0.0]
    -- forward Euler
    A := .ofFn 4 4 fun i j => (if i = j then 1 else 0) + ts * A.data.getD (j * 4 + i) 0
    B := .ofFn 4 1 fun i j => ts * B.data.getD (j * 4 + i) 0
    c := .comma [0.0, 0.0, 0.0, 0.0]
    E := .ofFn 4 4 fun i j => if i = 0 then C1 j else if i = 1 then -C1 j else 0.0
    L := .comma 4 1 [0.0, 0.0, 1.0, -1.0]
    d := .comma [-ymax, -ymax, -umax, -umax]
    x0 := .comma [0.0, 0.0, 0.0, 0.0] }

/-- `ServoMotor`, ocp_generator.cc:245-315. -/
def OcpGen.servoMotor (N : Int) (g : OcpGen K) : Except Err (OcpGen K) := do
  if N ≤ 0 then throw (.runtimeError "In OcpGenerator::ServoMotor: N <= 0.")
  let g ← g.copyOverHorizon servoMotorStage N.toNat
  return { g with
    sim := ⟨servoMotorStage.A, servoMotorStage.B,
      .comma 2 4 [1.0, 0.0, 0.0, 0.0, 1280.2, 0.0, -1280.2 / 20.0, 0.0], .zero 2 1, 40⟩ }

/-- The continuous time model of `SpacecraftRelativeMotion`, ocp_generator.cc:178-197, entry
`(i, j)` of `A`; `n` is the mean motion. -/
def spacecraftA (n : K) (i j : Nat) : K :=
  if i < 3 then (if j = i + 3 then 1 else 0.0)
  else if i = 3 then [2.0 * n * n, 0.0, 0.0, 0.0, 2.0 * n, 0.0].getD j 0
  else if i = 4 then [0.0, 0.0, 0.0, -2.0 * n, 0.0, 0.0].getD j 0
  else [0.0, 0.0, -n * n, 0.0, 0.0, 0.0].getD j 0

/-- The numbers of `SpacecraftRelativeMotion`, ocp_generator.cc:178-234. -/
def spacecraftStage : StageInputs K :=
  let mu : K := 398600.4418
  let Re : K := 6371.0
  let alt : K := 650.0
  let n : K := Scalar.sqrt (mu / ((Re + alt) * (Re + alt) * (Re + alt)))
  let ts : K := 30.0
  let umax : K := 1e-3
  let vmax : K := 1e-3
  let Ad : Nat → Nat → K := fun i j => (if i = j then 1 else 0.0) + ts * spacecraftA n i j
  let Bd : Nat → Nat → K := fun i j => ts * (if i = j + 3 then 1 else 0.0)
  { Q := .ofFn 6 6 fun i j => if i = j then (if i < 3 then 1 else 1e-3) else 0.0
    R := .identity 3
    S := .zero 3 6
    q := .comma [0.0, 0.0, 0.0, 0.0, 0.0, 0.0]
    r := .comma [0.0, 0.0, 0.0]
    A := .ofFn 6 6 Ad
    -- B = A * B
    B := .ofFn 6 3 fun i j => dotFin 6 (fun k => Ad i k) (fun k => Bd k j)
    c := .comma [0.0, 0.0, 0.0, 0.0, 0.0, 0.0]
    E := .ofFn 12 6 fun i j =>
      if 9 ≤ i ∧ 3 ≤ j then -(if j = i - 6 then 1 else 0)
      else if 6 ≤ i ∧ j = i - 3 then 1 else 0
    L := .ofFn 12 3 fun i j =>
      if 3 ≤ i ∧ i < 6 then -(if j = i - 3 then 1 else 0) else if i < 3 ∧ j = i then 1 else 0
    d := ⟨Array.ofFn fun i : Fin 12 => if i.1 < 6 then -umax * 1 else -vmax * 1⟩
    x0 := .comma [-2.8, -0.01, -1.0, 0.0, 0.0, 0.0] }

/-- `SpacecraftRelativeMotion`, ocp_generator.cc:171-244; `pow(x, 3)` is written as a product. -/
def OcpGen.spacecraft (N : Int) (g : OcpGen K) : Except Err (OcpGen K) := do
  if N ≤ 0 then throw (.runtimeError "In OcpGenerator::SpacecraftRelativeMotion: N <= 0.")
  let g ← g.copyOverHorizon spacecraftStage N.toNat
  return { g with
    sim := ⟨spacecraftStage.A, spacecraftStage.B, .identity 6, .zero 6 3, 100⟩ }

/-- `for k: m(i(k) - 1, j(k) - 1) = v(k)` on a zero matrix, ocp_generator.cc:111-113, 126-128: entry
`(i, j)` of the result; the triples are `(i(k), j(k), v(k))`. -/
def scatter (l : List (Nat × Nat × K)) (i j : Nat) : K :=
  l.foldl (fun a t => if t.1 - 1 = i ∧ t.2.1 - 1 = j then t.2.2 else a) 0

/-- `A` of `CopolymerizationReactor`, ocp_generator.cc:96-113. -/
def copolymerizationA : List (Nat × Nat × K) :=
  [(1, 1, 0.55531), (2, 2, 0.81264), (3, 3, 0.82131), (4, 4, 0.30408), (5, 5, 0.71811), (6, 6, 0.72276),
   (7, 7, 0.97319), (8, 7, 0.12353), (7, 8, -0.16471), (8, 8, 0.98966), (9, 9, 0.70834), (10, 10, 0.69048),
   (11, 11, 0.83152), (12, 12, -0.016569), (13, 12, 0.07277), (12, 13, -0.040608), (13, 13, 0.17835),
   (14, 14, 0.53526), (15, 15, -0.015422), (16, 15, 0.04805), (15, 16, -0.093847), (16, 16, 0.2924),
   (17, 17, -0.22577), (18, 17, 0.43126), (17, 18, -0.38505), (18, 18, 0.2517)]

/-- `B` of `CopolymerizationReactor`, ocp_generator.cc:115-128. -/
def copolymerizationB : List (Nat × Nat × K) :=
  [(1, 1, 0.18899), (2, 1, 0.22577), (3, 1, 0.11347), (4, 2, 0.14614), (5, 2, 0.21282), (6, 2, 0.21347),
   (7, 3, 0.24707), (8, 3, 0.015512), (9, 3, 0.21145), (10, 3, 0.41785), (11, 4, 0.11415),
   (12, 5, 0.14554), (13, 5, 2.9448), (14, 5, 0.1859), (15, 5, 0.04805), (16, 5, 0.36229),
   (17, 5, 0.21563), (18, 5, 0.41905)]

/-- `C` of `CopolymerizationReactor`, ocp_generator.cc:130-137, entry `(i, j)`. -/
def copolymerizationC (i j : Nat) : K :=
  if i = 0 then
    [0.8, 0.0, 0.0, 1.0, 0.0, 0.0, 0.0416666666666667, 0.333333333333333, 0.0, 0.0, 0.0, 25.9553571428571,
     1.80245535714286, 0.0, 0.0, 0.0, 0.0, 0.0].getD j 0
  else if i = 1 then
    [0.0, -0.340248962655602, 0.0, 0.0, 0.874172185430464, 0.0, 0.0, 0.0, -0.413793103448276, 0.0, 0.0, 0.0,
     0.0, -0.930000000000000, 0.0, 0.0, 0.0, 0.0].getD j 0
  else if i = 2 then
    [0.0, 0.0, 0.47244, 0.0, 0.0, 0.63636, 0.0, 0.0, 0.0, -0.52593, -0.2952, 0.0, 0.0, 0.0, 0.0, -9.1992,
     0.0, 0.0].getD j 0
  else
    [0.0, 0.0, 0.0, 0.0, 0.0, 0.0, 0.0, 0.0, 0.0, 0.0, 0.0, 0.0, 0.0, 0.0, 0.0, 0.0, 1.6757,
     1.8214].getD j 0

/-- The numbers of `CopolymerizationReactor`, ocp_generator.cc:96-160; `sine k` is the value of
`sin(k)`. -/
def copolymerizationStage (sine : Nat → K) : StageInputs K :=
  let umax : K := 5.0 / 100.0
  { Q := .ofFn 18 18 fun i j => dotFin 4 (fun k => copolymerizationC k i) (fun k => copolymerizationC k j)
    R := .ofFn 5 5 fun i j => 0.1 * (if i = j then 1 else 0)
    S := .zero 5 18
    q := ⟨Array.ofFn fun _ : Fin 18 => 0⟩
    r := ⟨Array.ofFn fun _ : Fin 5 => 0⟩
    A := .ofFn 18 18 (scatter copolymerizationA)
    B := .ofFn 18 5 (scatter copolymerizationB)
    c := ⟨Array.ofFn fun _ : Fin 18 => 0⟩
    E := .zero 10 18
    L := .ofFn 10 5 fun i j => if i < 5 then (if i = j then 1 else 0) else -(if i - 5 = j then 1 else 0)
    d := ⟨Array.ofFn fun _ : Fin 10 => -umax * 1⟩
    x0 := ⟨Array.ofFn fun k : Fin 18 => 0.2 * sine (k.1 + 1)⟩ }

/-- `CopolymerizationReactor`, ocp_generator.cc:73-169. -/
def OcpGen.copolymerization (sine : Nat → K) (N : Int) (g : OcpGen K) : Except Err (OcpGen K) := do
  if N ≤ 0 then throw (.runtimeError "In OcpGenerator::CopolymerizationReactor: N <= 0.")
  let g ← g.copyOverHorizon (copolymerizationStage sine) N.toNat
  return { g with
    sim := ⟨(copolymerizationStage sine).A, (copolymerizationStage sine).B,
      .ofFn 4 18 copolymerizationC, .zero 4 5, 200⟩ }

/-- `ProblemSize`, ocp_generator.cc:423-427; the vector of `double` holds four integers. -/
def OcpGen.problemSize (g : OcpGen K) : Nat × Nat × Nat × Nat := (g.N, g.nx, g.nu, g.nc)

/-- `GetFBstabInput`, ocp_generator.cc:18-41. -/
def OcpGen.getFBstabInput (g : OcpGen K) : Except Err (MpcProblemData K) :=
  if g.populated then .ok g.prob
  else .error (.runtimeError
    "In OcpGenerator::GetFBstabInput: Call a problem creator method first.")

/-- `GetFBstabInputRef`, ocp_generator.cc:43-54. -/
def OcpGen.getFBstabInputRef (g : OcpGen K) : Except Err (MpcProblem K) :=
  if g.populated then .ok g.prob.toRef
  else .error (.runtimeError
    "In OcpGenerator::GetFBstabInput: Call a problem creator method first.")

/-- `GetSimulationInputs`, ocp_generator.cc:56-71; the initial state is returned separately. -/
def OcpGen.getSimulationInputs (g : OcpGen K) : Except Err (DVec K × SimInputs K) :=
  if g.populated then .ok (g.prob.x0, g.sim)
  else .error (.runtimeError
    "In OcpGenerator::GetSimulationInputs: Call a problem creator method first.")

end Fbstab
