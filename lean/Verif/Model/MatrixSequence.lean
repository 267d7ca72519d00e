import Verif.Model.Vec

/-!
# Matrix sequences

`MatrixSequence` and `MapMatrixSequence`, tools/matrix_sequence.h.
-/

namespace Fbstab

/-- Largest value of `int`, plus one. -/
def intLimit : Nat := 2 ^ 31

/-- `MatrixSequence`, tools/matrix_sequence.h:18-74.  `nel_` is always `N_ * nr_ * nc_`, and
`data_` always has that size (the field `size_eq`). -/
structure MatrixSequence (K : Type) where
  N : Nat
  nr : Nat
  nc : Nat
  data : Array K
  size_eq : data.size = N * nr * nc

namespace MatrixSequence
variable {K : Type} [Zero K]

/-- The default constructor: lines 21 and 69-73. -/
def empty : MatrixSequence K := ⟨0, 1, 1, #[], by simp⟩

/-- The constructor, lines 30-43.  `std::vector::resize` fills with zeros.  Overflow of the `int`
product in line 41 is undefined behaviour. -/
def new (len nrows ncols : Int) : Except Err (MatrixSequence K) :=
  if len < 0 then .error (.runtimeError "Negative length input in MatrixSequence")
  else if nrows ≤ 0 ∨ ncols ≤ 0 then
    .error (.runtimeError "Non-positive row or column count in MatrixSequence")
  else if intLimit ≤ len.toNat * nrows.toNat * ncols.toNat then
    .error (.undefinedBehaviour "int overflow in MatrixSequence")
  else .ok ⟨len.toNat, nrows.toNat, ncols.toNat,
    Array.replicate (len.toNat * nrows.toNat * ncols.toNat) 0, by simp⟩

/-- `rows()`, `cols()`, `length()`, `size()`, lines 61-64 -/
def size (s : MatrixSequence K) : Nat := s.N * s.nr * s.nc

/-- The index check of `operator()`, lines 47-49 and 55-57. -/
def checkIndex (s : MatrixSequence K) (k : Int) : Except Err Nat :=
  if k < 0 ∨ (s.N : Int) ≤ k then .error (.outOfRange "Bad indexing in MatrixSequence")
  else .ok k.toNat

/-- Reading `s(k)(i, j)`, lines 54-59: the map starts at `data() + k * nr_ * nc_` and Eigen stores
columns contiguously.  Eigen's own index check is an assertion. -/
def read (s : MatrixSequence K) (k : Int) (i j : Nat) : Except Err K := do
  let k ← s.checkIndex k
  if i < s.nr ∧ j < s.nc then
    return s.data.getD (k * s.nr * s.nc + j * s.nr + i) 0
  else throw (.undefinedBehaviour "Eigen index out of range")

/-- Writing `s(k)(i, j) = a`, lines 46-51. -/
def write (s : MatrixSequence K) (k : Int) (i j : Nat) (a : K) : Except Err (MatrixSequence K) := do
  let k ← s.checkIndex k
  if i < s.nr ∧ j < s.nc then
    return { s with
      data := s.data.setIfInBounds (k * s.nr * s.nc + j * s.nr + i) a
      size_eq := by simp [s.size_eq] }
  else throw (.undefinedBehaviour "Eigen index out of range")

/-- Assigning a whole matrix, `s(k) = m` (an `Eigen::Map` cannot be resized). -/
def assign (s : MatrixSequence K) (k : Int) (m : DMat K) : Except Err (MatrixSequence K) := do
  let k ← s.checkIndex k
  if m.rows = s.nr ∧ m.cols = s.nc then
    return { s with
      data := Array.ofFn (n := s.N * s.nr * s.nc) fun p =>
        if p.1 / (s.nr * s.nc) = k then m.data.getD (p.1 % (s.nr * s.nc)) 0 else s.data.getD p.1 0
      size_eq := by simp }
  else throw (.undefinedBehaviour "assignment to an Eigen::Map of a different size")

end MatrixSequence

/-- `MapMatrixSequence`, tools/matrix_sequence.h:88-164: a pointer (`none` when null) and sizes.
The field `block` records the documented obligation of the caller that the memory block has
`len * nrows * ncols` elements. -/
structure MapSequence (K : Type) where
  data : Option (Array K)
  N : Nat
  nr : Nat
  nc : Nat
  block : ∀ d, data = some d → N * nr * nc ≤ d.size
  nonnull : 0 < N → data.isSome

namespace MapSequence
variable {K : Type} [Zero K]

/-- Default constructed, lines 91, 159-163. -/
def empty : MapSequence K := ⟨none, 0, 1, 1, by simp, by simp⟩

/-- The constructor from a pointer, lines 103-121.  A memory block smaller than documented is
undefined behaviour when read; the model rejects it here. -/
def new (data : Option (Array K)) (len nrows ncols : Int) : Except Err (MapSequence K) :=
  if len ≤ 0 then .error (.runtimeError "Non-positive length input in MapMatrixSequence")
  else if nrows ≤ 0 ∨ ncols ≤ 0 then
    .error (.runtimeError "Non-positive row or column count in MapMatrixSequence")
  else match data with
  | none => .error (.runtimeError "Cannot initialize MapMatrixSequence will a nullptr")
  | some d =>
    if intLimit ≤ len.toNat * nrows.toNat * ncols.toNat then
      .error (.undefinedBehaviour "int overflow in MapMatrixSequence")
    else if h : len.toNat * nrows.toNat * ncols.toNat ≤ d.size then
      .ok ⟨some d, len.toNat, nrows.toNat, ncols.toNat, by simpa using h, by simp⟩
    else .error (.undefinedBehaviour "memory block too small")

/-- The converting constructor, lines 129-134.  (`data()` of an empty `std::vector` may be null;
it is then never dereferenced.) -/
def ofSequence (s : MatrixSequence K) : MapSequence K :=
  ⟨some s.data, s.N, s.nr, s.nc, by simp [s.size_eq], by simp⟩

/-- Reading `s(k)(i, j)`, lines 140-149. -/
def read (s : MapSequence K) (k : Int) (i j : Nat) : Except Err K :=
  if k < 0 ∨ (s.N : Int) ≤ k then .error (.outOfRange "Bad indexing in MapMatrixSequence")
  else match s.data with
  | none => .error (.runtimeError "In MapMatrixSequence, cannot index into null data.")
  | some d =>
    if i < s.nr ∧ j < s.nc then .ok (d.getD (k.toNat * s.nr * s.nc + j * s.nr + i) 0)
    else .error (.undefinedBehaviour "Eigen index out of range")

/-- Matrix `k`, for an index and sizes known to be right. -/
def toMat (r c : Nat) (s : MapSequence K) (k : Nat) : Mat K r c :=
  Mat.ofFn fun i j => (s.data.getD #[]).getD (k * s.nr * s.nc + j.1 * s.nr + i.1) 0

/-- Matrix `k` of a sequence of columns, as a vector. -/
def toVec (r : Nat) (s : MapSequence K) (k : Nat) : Vec K r :=
  Vec.ofFn fun i => (s.data.getD #[]).getD (k * s.nr * s.nc + i.1) 0

end MapSequence
end Fbstab
