import Verif.Model.Vec

/-!
# The Eigen factorisations and triangular solves the code uses

Eigen is an external library.  Its routines are modelled by their unblocked algorithms, in the
storage they really use: only the lower triangle of a matrix is read or written, entries above the
diagonal keep whatever they held.  (Eigen's blocked variants for large matrices perform the same
operations in another order.)
-/

namespace Fbstab

/-- `for (int i = 0; i < n; i++) s = f(i, s)` -/
def forFin {σ : Type} (n : Nat) (f : Fin n → σ → σ) (s : σ) : σ :=
  Fin.foldl n (fun s i => f i s) s

/-- `for (int i = n - 1; i >= 0; i--) s = f(i, s)` -/
def forFinRev {σ : Type} (n : Nat) (f : Fin n → σ → σ) (s : σ) : σ :=
  Fin.foldr n (fun i s => f i s) s

section
variable {K : Type} [Scalar K] {n m : Nat}

/-- `L.triangularView<Eigen::Lower>().solveInPlace(x)`, forward substitution.
Used in riccati_linear_solver.cc:143,188,234,243,249,258,268,271,276,283,300,306,315,324. -/
def lowerSolve (L : Mat K n n) (x : Vec K n) : Vec K n :=
  forFin n (fun i x =>
    x.set i ((x i - dotIf n (fun j => j < i) (fun j => L i j) (fun j => x j)) / L i i)) x

/-- `L.triangularView<Eigen::Lower>().transpose().solveInPlace(x)`, backward substitution with
the transpose of the lower triangle.
Used in riccati_linear_solver.cc:144,189,235,259,272,278,284,308,318,325. -/
def lowerTSolve (L : Mat K n n) (x : Vec K n) : Vec K n :=
  forFinRev n (fun i x =>
    x.set i ((x i - dotIf n (fun j => i < j) (fun j => L j i) (fun j => x j)) / L i i)) x

/-- `L.triangularView<Eigen::Lower>().solveInPlace(X)`, column by column.
riccati_linear_solver.cc:143,188. -/
def lowerSolveMat (L : Mat K n n) (X : Mat K n m) : Mat K n m :=
  (Mat.ofRows (Vec.ofFn fun j => lowerSolve L (X.col j))).transpose

/-- `L.triangularView<Eigen::Lower>().transpose().solveInPlace(X)`, column by column.
riccati_linear_solver.cc:144,189. -/
def lowerTSolveMat (L : Mat K n n) (X : Mat K n m) : Mat K n m :=
  (Mat.ofRows (Vec.ofFn fun j => lowerTSolve L (X.col j))).transpose

/-- `L.triangularView<Eigen::Lower>().transpose().solveInPlace<Eigen::OnTheRight>(X)`:
`X <- X * inv(L')`, row by row (`X L'^{-1} = Y` iff `L Y' = X'`).
riccati_linear_solver.cc:151-154,158-161,172-175,198-201. -/
def solveOnTheRightT (L : Mat K n n) (X : Mat K m n) : Mat K m n :=
  Mat.ofRows (Vec.ofFn fun i => lowerSolve L (X.row i))

/-- Step `k` of Eigen's unblocked in-place `LLT` (`llt_inplace<double, Lower>::unblocked`):
returns `(false, A)` if the pivot is `<= 0`. -/
def lltStep (k : Fin n) (s : Bool × Mat K n n) : Bool × Mat K n n :=
  if s.1 then
    let A := s.2
    let x := A k k - dotIf n (fun j => j < k) (fun j => A k j) (fun j => A k j)
    if x ≤ 0 then (false, A)
    else
      let d := Scalar.sqrt x
      (true, Mat.ofFn fun i j =>
        if j = k then
          if i = k then d
          else if k < i then
            (A i k - dotIf n (fun l => l < k) (fun l => A i l) (fun l => A k l)) / d
          else A i j
        else A i j)
  else s

/-- `Eigen::LLT<Eigen::Ref<MatrixXd>> llt(A)`: the factorisation overwrites the lower triangle
of `A`; the flag is `llt.info() == Eigen::Success`.  riccati_linear_solver.cc:146,165,182,193,205. -/
def llt (A : Mat K n n) : Bool × Mat K n n := forFin n lltStep (true, A)

/-- The permutation produced by the diagonal pivoting of Eigen's `LDLT`
(`ldlt_inplace<Lower>::unblocked`): at step `k` the largest `|A(i,i)|`, `i >= k`, of the *not yet
updated* diagonal is swapped to position `k`. -/
def ldltPerm (A : Mat K n n) : Vec (Fin n) n :=
  forFin n (fun k p =>
    let b := forFin n (fun i b =>
      if k < i then if cabs (A (p b) (p b)) < cabs (A (p i) (p i)) then i else b else b) k
    (p.set k (p b)).set b (p k)) (Vec.ofFn id)

/-- The permuted symmetric matrix, lower triangle, read from the lower triangle of `A`. -/
def permuteLower (p : Vec (Fin n) n) (A : Mat K n n) : Mat K n n :=
  Mat.ofFn fun i j => if p j ≤ p i then A (p i) (p j) else A (p j) (p i)

/-- State of the LDLT loop: `ret`, `found_zero_pivot` and the matrix. -/
structure LdltState (K : Type) (n : Nat) where
  ret : Bool
  zeroPivot : Bool
  mat : Mat K n n

/-- Step `k` of Eigen's unblocked `LDLT` after pivoting.  Simplification: Eigen returns early when
the very first pivot is zero; the remaining steps then only test that the columns are zero, which is
what the steps below do as well. -/
def ldltStep (k : Fin n) (s : LdltState K n) : LdltState K n :=
  let A := s.mat
  let d := A k k - dotIf n (fun j => j < k) (fun j => A k j) (fun j => A j j * A k j)
  let c : Vec K n := Vec.ofFn fun i =>
    A i k - dotIf n (fun j => j < k) (fun j => A i j) (fun j => A j j * A k j)
  let valid : Bool := decide (0 < cabs d)
  let colZero : Bool := decide (∀ i, k < i → (c i == 0) = true)
  { ret := s.ret && (valid || colZero) && !(s.zeroPivot && valid)
    zeroPivot := s.zeroPivot || !valid
    mat := Mat.ofFn fun i j =>
      if j = k then
        if i = k then d else if k < i then (if valid then c i / d else c i) else A i j
      else A i j }

/-- The factorisation kept by `Eigen::LDLT`. -/
structure Ldlt (K : Type) (n : Nat) where
  perm : Vec (Fin n) n
  mat : Mat K n n
  success : Bool

/-- `ldlt_.compute(A)`, dense_cholesky_solver.cc:72. -/
def ldltCompute (A : Mat K n n) : Ldlt K n :=
  let p := ldltPerm A
  let s := forFin n ldltStep ⟨true, false, permuteLower p A⟩
  ⟨p, s.mat, s.ret⟩

/-- Forward substitution with the unit lower triangle. -/
def unitLowerSolve (L : Mat K n n) (x : Vec K n) : Vec K n :=
  forFin n (fun i x =>
    x.set i (x i - dotIf n (fun j => j < i) (fun j => L i j) (fun j => x j))) x

/-- Backward substitution with the transpose of the unit lower triangle. -/
def unitLowerTSolve (L : Mat K n n) (x : Vec K n) : Vec K n :=
  forFinRev n (fun i x =>
    x.set i (x i - dotIf n (fun j => i < j) (fun j => L j i) (fun j => x j))) x

/-- `ldlt_.solve(r)`, dense_cholesky_solver.cc:112: `P' L'^{-1} D^+ L^{-1} P r`, where entries of
`D` not above the smallest normal double are treated as zero. -/
def Ldlt.solve (f : Ldlt K n) (r : Vec K n) : Vec K n :=
  let x : Vec K n := Vec.ofFn fun i => r (f.perm i)
  let x := unitLowerSolve f.mat x
  let x : Vec K n := Vec.ofFn fun i =>
    if (2.2250738585072014e-308 : K) < cabs (f.mat i i) then x i / f.mat i i else 0
  let x := unitLowerTSolve f.mat x
  forFin n (fun i out => out.set (f.perm i) (x i)) r

end
end Fbstab
