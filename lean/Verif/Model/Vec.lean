import Verif.Model.Scalar

/-!
# Vectors and matrices

`Vec K n` models an `Eigen::VectorXd` of size `n`, `Mat K r c` an `Eigen::MatrixXd` with `r` rows
and `c` columns.  Sizes are static here; the places where the C++ code meets vectors whose size
is not known to be right (the public API, `MpcData`'s own size checks) are modelled with dynamic
sizes in `DVec`, `DMat` and checked as the code does.

Eigen does not specify the order in which reductions (`dot`, `squaredNorm`, matrix products) add
their terms, nor whether products and additions are fused; the model leaves both to `Scalar.dot`.
-/

namespace Fbstab

/-- `Eigen::VectorXd` of size `n` (entries of any type; also used for `std::vector`s). -/
structure Vec (K : Type) (n : Nat) where
  ofVector ::
  toVector : Vector K n

namespace Vec
variable {K : Type} {n : Nat}

/-- `v(i)` -/
def get (v : Vec K n) (i : Fin n) : K := v.toVector[i.1]'i.2

instance : CoeFun (Vec K n) (fun _ => Fin n → K) := ⟨Vec.get⟩

/-- The vector with entries `f i`. -/
def ofFn (f : Fin n → K) : Vec K n := ⟨Vector.ofFn f⟩

@[simp] theorem get_ofFn (f : Fin n → K) (i : Fin n) : (ofFn f) i = f i := by
  simp [get, ofFn]

@[ext] theorem ext {v w : Vec K n} (h : ∀ i, v i = w i) : v = w := by
  cases v with | ofVector v => cases w with | ofVector w =>
  congr 1
  apply Vector.ext
  intro i hi
  exact h ⟨i, hi⟩

@[simp] theorem ofFn_get (v : Vec K n) : ofFn (fun i => v i) = v := by
  ext i; simp

/-- Assignment `v(i) = a`. -/
def set (v : Vec K n) (i : Fin n) (a : K) : Vec K n := ⟨v.toVector.set i.1 a i.2⟩

theorem get_set (v : Vec K n) (i j : Fin n) (a : K) :
    (v.set i a) j = if j = i then a else v j := by
  simp only [get, set, Vector.getElem_set, Fin.ext_iff, eq_comm]

/-- `setConstant(a)`, `fill(a)`, `Constant(n, a)` -/
def const (a : K) : Vec K n := ofFn fun _ => a

@[simp] theorem get_const (a : K) (i : Fin n) : (const a : Vec K n) i = a := by simp [const]

/-- The vector whose first `m` entries are `x` and whose last `k` entries are `y`
(`r.segment(0, m) = x; r.segment(m, k) = y`). -/
def append {m k : Nat} (x : Vec K m) (y : Vec K k) : Vec K (m + k) :=
  ofFn fun i => Fin.addCases (fun i => x i) (fun i => y i) i

/-- `r.segment(0, m)` -/
def head {m k : Nat} (r : Vec K (m + k)) : Vec K m := ofFn fun i => r (Fin.castAdd k i)

/-- `r.segment(m, k)` -/
def tail {m k : Nat} (r : Vec K (m + k)) : Vec K k := ofFn fun i => r (Fin.natAdd m i)

end Vec

/-- `Eigen::MatrixXd` with `r` rows and `c` columns. -/
structure Mat (K : Type) (r c : Nat) where
  ofRows ::
  rows : Vec (Vec K c) r

namespace Mat
variable {K : Type} {r c : Nat}

/-- `m(i, j)` -/
def get (m : Mat K r c) (i : Fin r) (j : Fin c) : K := m.rows i j

instance : CoeFun (Mat K r c) (fun _ => Fin r → Fin c → K) := ⟨Mat.get⟩

/-- The matrix with entries `f i j`. -/
def ofFn (f : Fin r → Fin c → K) : Mat K r c := ⟨Vec.ofFn fun i => Vec.ofFn fun j => f i j⟩

@[simp] theorem get_ofFn (f : Fin r → Fin c → K) (i : Fin r) (j : Fin c) :
    (ofFn f) i j = f i j := by
  simp [get, ofFn]

@[ext] theorem ext {a b : Mat K r c} (h : ∀ i j, a i j = b i j) : a = b := by
  cases a with | ofRows a => cases b with | ofRows b =>
  congr 1
  ext i j
  exact h i j

/-- row `i` as a vector -/
def row (m : Mat K r c) (i : Fin r) : Vec K c := m.rows i

/-- `m.col(j)` -/
def col (m : Mat K r c) (j : Fin c) : Vec K r := Vec.ofFn fun i => m i j

@[simp] theorem row_get (m : Mat K r c) (i : Fin r) (j : Fin c) : m.row i j = m i j := rfl
@[simp] theorem col_get (m : Mat K r c) (i : Fin r) (j : Fin c) : m.col j i = m i j := by
  simp [col]

end Mat

section ops
variable {K : Type} [Scalar K] {n r c k : Nat}

/-- Left-to-right sum `0 + f 0 + f 1 + ...`. -/
def sumFin (n : Nat) (f : Fin n → K) : K := Fin.foldl n (fun acc i => acc + f i) 0

theorem sumFin_succ {k : Nat} (f : Fin (k + 1) → K) :
    sumFin (k + 1) f = sumFin k (fun i => f i.castSucc) + f (Fin.last k) := by
  unfold sumFin
  rw [Fin.foldl_succ_last]

/-- The sum of `x_i y_i` as Eigen computes it. -/
def dotFin (n : Nat) (x y : Fin n → K) : K := Scalar.dot n (fun _ => true) x y

/-- The sum of `x_i y_i` over the `i` with `p i`, as Eigen computes it; the other entries are not read. -/
def dotIf (n : Nat) (p : Fin n → Prop) [DecidablePred p] (x y : Fin n → K) : K :=
  Scalar.dot n (fun i => decide (p i)) (fun i => if p i then x i else 0) (fun i => if p i then y i else 0)

theorem dotIf_congr {n : Nat} {p : Fin n → Prop} [DecidablePred p] {x y x' y' : Fin n → K}
    (hx : ∀ i, p i → x i = x' i) (hy : ∀ i, p i → y i = y' i) : dotIf n p x y = dotIf n p x' y' := by
  unfold dotIf
  have e1 : (fun i => if p i then x i else 0) = fun i => if p i then x' i else 0 := by
    funext i
    by_cases h : p i
    · rw [if_pos h, if_pos h, hx i h]
    · rw [if_neg h, if_neg h]
  have e2 : (fun i => if p i then y i else 0) = fun i => if p i then y' i else 0 := by
    funext i
    by_cases h : p i
    · rw [if_pos h, if_pos h, hy i h]
    · rw [if_neg h, if_neg h]
  rw [e1, e2]

/-- Dot products are taken from left to right. -/
def LeftToRight (K : Type) [Scalar K] : Prop := ∀ n (p : Fin n → Bool) (x y : Fin n → K),
  Scalar.dot n p x y = Fin.foldl n (fun acc i => acc + if p i then x i * y i else 0) 0

theorem LeftToRight.dotFin (h : LeftToRight K) (n : Nat) (x y : Fin n → K) :
    dotFin n x y = sumFin n fun i => x i * y i := h n _ x y

theorem LeftToRight.dotIf (h : LeftToRight K) (n : Nat) (p : Fin n → Prop) [DecidablePred p] (x y : Fin n → K) :
    dotIf n p x y = sumFin n fun i => if p i then x i * y i else 0 := by
  unfold Fbstab.dotIf sumFin
  rw [h]
  congr 1
  funext acc i
  by_cases hp : p i
  · simp [hp]
  · simp [hp]

namespace Vec

instance : Add (Vec K n) := ⟨fun x y => ofFn fun i => x i + y i⟩
instance : Sub (Vec K n) := ⟨fun x y => ofFn fun i => x i - y i⟩
instance : Neg (Vec K n) := ⟨fun x => ofFn fun i => -x i⟩
/-- `a * x` -/
instance : HMul K (Vec K n) (Vec K n) := ⟨fun a x => ofFn fun i => a * x i⟩

@[simp] theorem get_add (x y : Vec K n) (i : Fin n) : (x + y) i = x i + y i :=
  get_ofFn _ _
@[simp] theorem get_sub (x y : Vec K n) (i : Fin n) : (x - y) i = x i - y i :=
  get_ofFn _ _
@[simp] theorem get_neg (x : Vec K n) (i : Fin n) : (-x) i = -x i :=
  get_ofFn _ _
@[simp] theorem get_smul (a : K) (x : Vec K n) (i : Fin n) : (a * x) i = a * x i :=
  get_ofFn _ _

/-- `x.dot(y)` -/
def dot (x y : Vec K n) : K := dotFin n (fun i => x i) (fun i => y i)

/-- `x.squaredNorm()` -/
def squaredNorm (x : Vec K n) : K := dotFin n (fun i => x i) (fun i => x i)

/-- `x.norm()` -/
def norm (x : Vec K n) : K := Scalar.sqrt x.squaredNorm

/-- `x.cwiseQuotient(y)` -/
def cwiseQuotient (x y : Vec K n) : Vec K n := ofFn fun i => x i / y i

/-- `d.asDiagonal() * x` -/
def cwiseProduct (d x : Vec K n) : Vec K n := ofFn fun i => d i * x i

/-- `x.cwiseMax(a)` -/
def cwiseMax (x : Vec K n) (a : K) : Vec K n := ofFn fun i => cmax (x i) a

/-- `x.lpNorm<Eigen::Infinity>()`: the largest absolute value, 0 for an empty vector. -/
def lpNormInf (x : Vec K n) : K := Fin.foldl n (fun acc i => cmax acc (cabs (x i))) 0

end Vec

/-- `x.maxCoeff()`.  Eigen requires a nonempty vector; the model gives 0 for the empty one, which
the code never asks for (`FullFeasibility` requires `nv > 0`, full_feasibility.cc:13). -/
def Vec.maxCoeff : {n : Nat} → Vec K n → K
  | 0, _ => 0
  | n + 1, x => Fin.foldl n (fun acc i => cmax acc (x i.succ)) (x 0)

namespace Mat

instance : Add (Mat K r c) := ⟨fun x y => ofFn fun i j => x i j + y i j⟩
instance : Sub (Mat K r c) := ⟨fun x y => ofFn fun i j => x i j - y i j⟩
/-- `a * m` -/
instance : HMul K (Mat K r c) (Mat K r c) := ⟨fun a x => ofFn fun i j => a * x i j⟩
/-- `m * x` -/
instance : HMul (Mat K r c) (Vec K c) (Vec K r) :=
  ⟨fun m x => Vec.ofFn fun i => dotFin c (fun j => m i j) (fun j => x j)⟩
/-- `m * m'` -/
instance : HMul (Mat K r c) (Mat K c k) (Mat K r k) :=
  ⟨fun m m' => ofFn fun i j => dotFin c (fun l => m i l) (fun l => m' l j)⟩

@[simp] theorem get_add (x y : Mat K r c) (i : Fin r) (j : Fin c) :
    (x + y) i j = x i j + y i j := get_ofFn _ _ _
@[simp] theorem get_sub (x y : Mat K r c) (i : Fin r) (j : Fin c) :
    (x - y) i j = x i j - y i j := get_ofFn _ _ _
@[simp] theorem get_smul (a : K) (x : Mat K r c) (i : Fin r) (j : Fin c) :
    (a * x) i j = a * x i j := get_ofFn _ _ _
@[simp] theorem get_mulVec (m : Mat K r c) (x : Vec K c) (i : Fin r) :
    (m * x) i = dotFin c (fun j => m i j) (fun j => x j) := Vec.get_ofFn _ _
@[simp] theorem get_mul (m : Mat K r c) (m' : Mat K c k) (i : Fin r) (j : Fin k) :
    (m * m') i j = dotFin c (fun l => m i l) (fun l => m' l j) := get_ofFn _ _ _

/-- `m.transpose()` -/
def transpose (m : Mat K r c) : Mat K c r := ofFn fun i j => m j i

/-- `MatrixXd::Identity(n, n)` -/
def identity : Mat K n n := ofFn fun i j => if i = j then 1 else 0

/-- `d.asDiagonal() * m` -/
def diagMul (d : Vec K r) (m : Mat K r c) : Mat K r c := ofFn fun i j => d i * m i j

/-- `dst.triangularView<Eigen::Lower>() = src`: only the entries on and below the diagonal are
assigned, the others keep what they held. -/
def assignLower (dst src : Mat K n n) : Mat K n n :=
  ofFn fun i j => if j ≤ i then src i j else dst i j

omit [Scalar K] in
@[simp] theorem get_transpose (m : Mat K r c) (i : Fin c) (j : Fin r) :
    m.transpose i j = m j i := by simp [transpose]
@[simp] theorem get_identity (i j : Fin n) :
    (identity : Mat K n n) i j = if i = j then 1 else 0 := by simp [identity]
@[simp] theorem get_diagMul (d : Vec K r) (m : Mat K r c) (i : Fin r) (j : Fin c) :
    (diagMul d m) i j = d i * m i j := by simp [diagMul]
omit [Scalar K] in
@[simp] theorem get_assignLower (dst src : Mat K n n) (i j : Fin n) :
    (assignLower dst src) i j = if j ≤ i then src i j else dst i j := by simp [assignLower]

end Mat
end ops

/-- An `Eigen::VectorXd` or `Eigen::Map<VectorXd>` whose size is only known at run time. -/
structure DVec (K : Type) where
  data : Array K

namespace DVec
variable {K : Type} [Zero K]
/-- `v.size()` -/
def size (v : DVec K) : Nat := v.data.size
/-- Reads a vector known to have size `n`. -/
def toVec (n : Nat) (v : DVec K) : Vec K n := Vec.ofFn fun i => v.data.getD i.1 0
/-- The run-time sized vector with the entries of `v`. -/
def ofVec {K : Type} {n : Nat} (v : Vec K n) : DVec K := ⟨v.toVector.toArray⟩
end DVec

/-- An `Eigen::MatrixXd` or `Eigen::Map<MatrixXd>` whose size is only known at run time; Eigen's
default storage order is column major. -/
structure DMat (K : Type) where
  rows : Nat
  cols : Nat
  data : Array K
  /-- Eigen's own invariant. -/
  size_eq : data.size = rows * cols

namespace DMat
variable {K : Type} [Zero K]
/-- Reads a matrix known to have `r` rows and `c` columns. -/
def toMat (r c : Nat) (m : DMat K) : Mat K r c :=
  Mat.ofFn fun i j => m.data.getD (j.1 * m.rows + i.1) 0
end DMat

end Fbstab
