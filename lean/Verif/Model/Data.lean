import Verif.Model.EigenTri

/-!
# Problem data

The abstract interface `Data` (abstract_components.h), and its two implementations `DenseData`
(dense_data.h, dense_data.cc) and `MpcData` (mpc_data.h, mpc_data.cc), for data whose sizes have
been validated.  Validation of run-time sizes is in `Model/Api.lean`.
-/

namespace Fbstab

/-- The abstract class `Data`, abstract_components.h: every operation updates `y` and is
modelled by a function returning the new `y`. -/
structure QPOps (K : Type) (nz nl nv : Nat) where
  /-- `y <- a*H*x + b*y` -/
  gemvH : Vec K nz → K → K → Vec K nz → Vec K nz
  /-- `y <- a*A*x + b*y` -/
  gemvA : Vec K nz → K → K → Vec K nv → Vec K nv
  /-- `y <- a*G*x + b*y` -/
  gemvG : Vec K nz → K → K → Vec K nl → Vec K nl
  /-- `y <- a*A'*x + b*y` -/
  gemvAT : Vec K nv → K → K → Vec K nz → Vec K nz
  /-- `y <- a*G'*x + b*y` -/
  gemvGT : Vec K nl → K → K → Vec K nz → Vec K nz
  /-- `y <- a*f + y` -/
  axpyf : K → Vec K nz → Vec K nz
  /-- `y <- a*h + y` -/
  axpyh : K → Vec K nl → Vec K nl
  /-- `y <- a*b + y` -/
  axpyb : K → Vec K nv → Vec K nv
  /-- `ForcingNorm()` -/
  forcingNorm : K

variable {K : Type} [Scalar K]

/-! ## DenseData -/

/-- The fields of `DenseData`, dense_data.h:98-112, with `nz_`, `nl_`, `nv_` static. -/
structure DenseData (K : Type) (nz nl nv : Nat) where
  H : Mat K nz nz
  f : Vec K nz
  G : Mat K nl nz
  h : Vec K nl
  A : Mat K nv nz
  b : Vec K nv

namespace DenseData
variable {nz nl nv : Nat} (d : DenseData K nz nl nv)

/-- `DenseData::gemvH`, dense_data.cc:12-15.  `a * H_ * x` is `(a * H_) * x`. -/
def gemvH (x : Vec K nz) (a b : K) (y : Vec K nz) : Vec K nz := (a * d.H) * x + b * y
/-- `DenseData::gemvG`, dense_data.cc:17-20. -/
def gemvG (x : Vec K nz) (a b : K) (y : Vec K nl) : Vec K nl := (a * d.G) * x + b * y
/-- `DenseData::gemvGT`, dense_data.cc:22-25. -/
def gemvGT (x : Vec K nl) (a b : K) (y : Vec K nz) : Vec K nz := (a * d.G.transpose) * x + b * y
/-- `DenseData::gemvA`, dense_data.cc:27-30. -/
def gemvA (x : Vec K nz) (a b : K) (y : Vec K nv) : Vec K nv := (a * d.A) * x + b * y
/-- `DenseData::gemvAT`, dense_data.cc:32-35. -/
def gemvAT (x : Vec K nv) (a b : K) (y : Vec K nz) : Vec K nz := (a * d.A.transpose) * x + b * y
/-- `DenseData::axpyf`, dense_data.cc:37. -/
def axpyf (a : K) (y : Vec K nz) : Vec K nz := y + a * d.f
/-- `DenseData::axpyh`, dense_data.cc:39. -/
def axpyh (a : K) (y : Vec K nl) : Vec K nl := y + a * d.h
/-- `DenseData::axpyb`, dense_data.cc:41. -/
def axpyb (a : K) (y : Vec K nv) : Vec K nv := y + a * d.b
/-- `forcing_norm_`, dense_data.h:71-72. -/
def forcingNorm : K := Scalar.sqrt (d.b.squaredNorm + d.f.squaredNorm + d.h.squaredNorm)

/-- `DenseData` as a `Data`. -/
def ops : QPOps K nz nl nv where
  gemvH := d.gemvH
  gemvA := d.gemvA
  gemvG := d.gemvG
  gemvAT := d.gemvAT
  gemvGT := d.gemvGT
  axpyf := d.axpyf
  axpyh := d.axpyh
  axpyb := d.axpyb
  forcingNorm := d.forcingNorm

end DenseData

/-! ## MpcData -/

/-- The fields of `MpcData`, mpc_data.h:221-232, with `N_`, `nx_`, `nu_`, `nc_` static.  `A`, `B`
and `c` have `N` entries, all others `N + 1`. -/
structure MpcData (K : Type) (N nx nu nc : Nat) where
  Q : Vec (Mat K nx nx) (N + 1)
  R : Vec (Mat K nu nu) (N + 1)
  S : Vec (Mat K nu nx) (N + 1)
  q : Vec (Vec K nx) (N + 1)
  r : Vec (Vec K nu) (N + 1)
  A : Vec (Mat K nx nx) N
  B : Vec (Mat K nx nu) N
  c : Vec (Vec K nx) N
  E : Vec (Mat K nc nx) (N + 1)
  L : Vec (Mat K nc nu) (N + 1)
  d : Vec (Vec K nc) (N + 1)
  x0 : Vec K nx

/-- Position of entry `j` of block `i` in a vector of `k` blocks of length `m`. -/
def flatIdx {k m : Nat} (i : Fin k) (j : Fin m) : Fin (k * m) :=
  ⟨i.1 * m + j.1, by
    have hi := i.2
    have hj := j.2
    calc i.1 * m + j.1 < i.1 * m + m := by omega
      _ = (i.1 + 1) * m := by rw [Nat.succ_mul]
      _ ≤ k * m := Nat.mul_le_mul_right m hi⟩

/-- `x(i)` within stage `i`: the first `nx` entries of block `i`. -/
def xIdx {k nx nu : Nat} (i : Fin k) (j : Fin nx) : Fin (k * (nx + nu)) :=
  flatIdx i (Fin.castAdd nu j)

/-- `u(i)` within stage `i`: the last `nu` entries of block `i`. -/
def uIdx {k nx nu : Nat} (i : Fin k) (j : Fin nu) : Fin (k * (nx + nu)) :=
  flatIdx i (Fin.natAdd nx j)

/-- `w.col(i)` of the reshaped view `w` of a vector, e.g. mpc_data.cc:89,131. -/
def colBlock {k m : Nat} (w : Vec K (k * m)) (i : Fin k) : Vec K m := Vec.ofFn fun j => w (flatIdx i j)
/-- `w.block(0, i, nx_, 1)`, e.g. mpc_data.cc:42. -/
def xBlock {k nx nu : Nat} (w : Vec K (k * (nx + nu))) (i : Fin k) : Vec K nx :=
  Vec.ofFn fun j => w (xIdx i j)
/-- `w.block(nx_, i, nu_, 1)`, e.g. mpc_data.cc:43. -/
def uBlock {k nx nu : Nat} (w : Vec K (k * (nx + nu))) (i : Fin k) : Vec K nu :=
  Vec.ofFn fun j => w (uIdx i j)

/-- Assignment to `w.col(i)`. -/
def setCol {k m : Nat} (w : Vec K (k * m)) (i : Fin k) (v : Vec K m) : Vec K (k * m) :=
  forFin m (fun j w => w.set (flatIdx i j) (v j)) w
/-- Assignment to `w.block(0, i, nx_, 1)`. -/
def setX {k nx nu : Nat} (w : Vec K (k * (nx + nu))) (i : Fin k) (v : Vec K nx) :
    Vec K (k * (nx + nu)) :=
  forFin nx (fun j w => w.set (xIdx i j) (v j)) w
/-- Assignment to `w.block(nx_, i, nu_, 1)`. -/
def setU {k nx nu : Nat} (w : Vec K (k * (nx + nu))) (i : Fin k) (v : Vec K nu) :
    Vec K (k * (nx + nu)) :=
  forFin nu (fun j w => w.set (uIdx i j) (v j)) w

/-- The prologue of every `gemv`: `if (b == 0.0) y->fill(0.0); else if (b != 1.0) (*y) *= b;`,
mpc_data.cc:25-29,75-79,115-119,161-165,208-212. -/
def scaleBy {n : Nat} (b : K) (y : Vec K n) : Vec K n :=
  if b == 0 then Vec.const 0 else if b == 1 then y else Vec.ofFn fun i => y i * b

namespace MpcData
variable {N nx nu nc : Nat} (d : MpcData K N nx nu nc)

/-- `MpcData::gemvH`, mpc_data.cc:17-65. -/
def gemvH (x : Vec K ((N + 1) * (nx + nu))) (a b : K) (y : Vec K ((N + 1) * (nx + nu))) :
    Vec K ((N + 1) * (nx + nu)) :=
  forFin (N + 1) (fun i w =>
    let Q := d.Q i
    let S := d.S i
    let R := d.R i
    let vx := xBlock x i
    let vu := uBlock x i
    if a == 1 then
      let w := setX w i (xBlock w i + (Q * vx + S.transpose * vu))
      setU w i (uBlock w i + (S * vx + R * vu))
    else if a == -1 then
      let w := setX w i (xBlock w i - (Q * vx + S.transpose * vu))
      setU w i (uBlock w i - (S * vx + R * vu))
    else
      let w := setX w i (xBlock w i + a * (Q * vx))
      let w := setX w i (xBlock w i + a * (S.transpose * vu))
      let w := setU w i (uBlock w i + a * (S * vx))
      setU w i (uBlock w i + a * (R * vu)))
    (scaleBy b y)

/-- `MpcData::gemvA`, mpc_data.cc:67-105. -/
def gemvA (x : Vec K ((N + 1) * (nx + nu))) (a b : K) (y : Vec K ((N + 1) * nc)) :
    Vec K ((N + 1) * nc) :=
  forFin (N + 1) (fun i w =>
    let E := d.E i
    let L := d.L i
    let xi := xBlock x i
    let ui := uBlock x i
    if a == 1 then setCol w i (colBlock w i + (E * xi + L * ui))
    else if a == -1 then setCol w i (colBlock w i - (E * xi + L * ui))
    else
      let w := setCol w i (colBlock w i + a * (E * xi))
      setCol w i (colBlock w i + a * (L * ui)))
    (scaleBy b y)

/-- `MpcData::gemvG`, mpc_data.cc:107-151.  The loop `i = 1 ... N` of the code is written with
`i = 0 ... N - 1` and stages `i`, `i + 1`. -/
def gemvG (x : Vec K ((N + 1) * (nx + nu))) (a b : K) (y : Vec K ((N + 1) * nx)) :
    Vec K ((N + 1) * nx) :=
  let w := scaleBy b y
  let w := setCol w 0 (colBlock w 0 + (-a) * xBlock x 0)
  forFin N (fun i w =>
    let A := d.A i
    let B := d.B i
    let xm1 := xBlock x i.castSucc
    let um1 := uBlock x i.castSucc
    let xi := xBlock x i.succ
    if a == 1 then
      let w := setCol w i.succ (colBlock w i.succ + (A * xm1 + B * um1))
      setCol w i.succ (colBlock w i.succ - xi)
    else if a == -1 then
      let w := setCol w i.succ (colBlock w i.succ - (A * xm1 + B * um1))
      setCol w i.succ (colBlock w i.succ + xi)
    else
      let w := setCol w i.succ (colBlock w i.succ + a * (A * xm1))
      let w := setCol w i.succ (colBlock w i.succ + a * (B * um1))
      setCol w i.succ (colBlock w i.succ - a * xi)) w

/-- `MpcData::gemvGT`, mpc_data.cc:153-198.  In the last branch (lines 192-194) the code updates
only the state part; the control part `B' v` is missing there in the code as well. -/
def gemvGT (x : Vec K ((N + 1) * nx)) (a b : K) (y : Vec K ((N + 1) * (nx + nu))) :
    Vec K ((N + 1) * (nx + nu)) :=
  let w := forFin N (fun i w =>
    let A := d.A i
    let B := d.B i
    let vi := colBlock x i.castSucc
    let vp1 := colBlock x i.succ
    let w := setX w i.castSucc (xBlock w i.castSucc + (-a) * vi)
    if a == 1 then
      let w := setX w i.castSucc (xBlock w i.castSucc + A.transpose * vp1)
      setU w i.castSucc (uBlock w i.castSucc + B.transpose * vp1)
    else if a == -1 then
      let w := setX w i.castSucc (xBlock w i.castSucc - A.transpose * vp1)
      setU w i.castSucc (uBlock w i.castSucc - B.transpose * vp1)
    else
      setX w i.castSucc (xBlock w i.castSucc + a * (A.transpose * vp1)))
    (scaleBy b y)
  setX w (Fin.last N) (xBlock w (Fin.last N) + (-a) * colBlock x (Fin.last N))

/-- `MpcData::gemvAT`, mpc_data.cc:200-238. -/
def gemvAT (x : Vec K ((N + 1) * nc)) (a b : K) (y : Vec K ((N + 1) * (nx + nu))) :
    Vec K ((N + 1) * (nx + nu)) :=
  forFin (N + 1) (fun i w =>
    let E := d.E i
    let L := d.L i
    let vi := colBlock x i
    if a == 1 then
      let w := setX w i (xBlock w i + E.transpose * vi)
      setU w i (uBlock w i + L.transpose * vi)
    else if a == -1 then
      let w := setX w i (xBlock w i - E.transpose * vi)
      setU w i (uBlock w i - L.transpose * vi)
    else
      let w := setU w i (uBlock w i + a * (L.transpose * vi))
      setX w i (xBlock w i + a * (E.transpose * vi)))
    (scaleBy b y)

/-- `MpcData::axpyf`, mpc_data.cc:240-258. -/
def axpyf (a : K) (y : Vec K ((N + 1) * (nx + nu))) : Vec K ((N + 1) * (nx + nu)) :=
  forFin (N + 1) (fun i w =>
    let w := setX w i (xBlock w i + a * d.q i)
    setU w i (uBlock w i + a * d.r i)) y

/-- `MpcData::axpyh`, mpc_data.cc:260-274. -/
def axpyh (a : K) (y : Vec K ((N + 1) * nx)) : Vec K ((N + 1) * nx) :=
  let w := setCol y 0 (colBlock y 0 + (-a) * d.x0)
  forFin N (fun i w => setCol w i.succ (colBlock w i.succ + (-a) * d.c i)) w

/-- `MpcData::axpyb`, mpc_data.cc:276-289. -/
def axpyb (a : K) (y : Vec K ((N + 1) * nc)) : Vec K ((N + 1) * nc) :=
  forFin (N + 1) (fun i w => setCol w i (colBlock w i + (-a) * d.d i)) y

/-- `forcing_norm_`, mpc_data.h:89-97. -/
def forcingNorm : K :=
  Scalar.sqrt (forFin (N + 1) (fun i s =>
    let s := s + (d.q i).squaredNorm
    let s := s + (d.r i).squaredNorm
    let s := s + (d.d i).squaredNorm
    s + (if h : i.1 = 0 then d.x0.squaredNorm
         else (d.c ⟨i.1 - 1, by have := i.2; omega⟩).squaredNorm)) 0)

/-- `MpcData` as a `Data`. -/
def ops : QPOps K ((N + 1) * (nx + nu)) ((N + 1) * nx) ((N + 1) * nc) where
  gemvH := d.gemvH
  gemvA := d.gemvA
  gemvG := d.gemvG
  gemvAT := d.gemvAT
  gemvGT := d.gemvGT
  axpyf := d.axpyf
  axpyh := d.axpyh
  axpyb := d.axpyb
  forcingNorm := d.forcingNorm

end MpcData

end Fbstab
