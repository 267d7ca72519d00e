import Verif.Model.Qdldl
import Mathlib.Data.Real.Basic
import Mathlib.LinearAlgebra.Matrix.NonsingularInverse
import Mathlib.Data.Matrix.Mul

/-!
# What the sparse factorisation library promises, and what its wrapper should do

The promises are those of QDLDL's header: a symmetric matrix is given by its upper triangle in compressed columns;
`QDLDL_etree` returns a negative number for a column without entries, for an entry below the diagonal and if the
number of entries of `L` overflows; `QDLDL_factor` computes `A = L D Lᵀ` without pivoting; `QDLDL_solve` solves.
-/

namespace Fbstab
open Matrix

/-- Column `j` holds the positions `colStart Ap j, …, colStart Ap (j + 1) - 1`. -/
def colStart (Ap : Array Int) (j : Nat) : Nat := (Ap.getD j 0).toNat

/-- Compressed columns of an `n × n` matrix: increasing starts, no row twice in a column. -/
structure Compressed (n : Nat) (Ap Ai : Array Int) : Prop where
  outer : Ap.size = n + 1
  first : Ap.getD 0 0 = 0
  mono : ∀ j < n, Ap.getD j 0 ≤ Ap.getD (j + 1) 0
  inner : (Ap.getD n 0).toNat ≤ Ai.size
  rows : ∀ j < n, ∀ p, colStart Ap j ≤ p → p < colStart Ap (j + 1) → 0 ≤ Ai.getD p 0 ∧ Ai.getD p 0 < n
  once : ∀ j < n, ∀ p q, colStart Ap j ≤ p → p < q → q < colStart Ap (j + 1) → Ai.getD p 0 ≠ Ai.getD q 0

/-- Entries on and above the diagonal only, and some in every column. -/
structure UpperColumns (n : Nat) (Ap Ai : Array Int) : Prop where
  some : ∀ j < n, Ap.getD j 0 < Ap.getD (j + 1) 0
  upper : ∀ j < n, ∀ p, colStart Ap j ≤ p → p < colStart Ap (j + 1) → Ai.getD p 0 ≤ j

/-- The entry in row `i` and column `j` of the stored triangle. -/
noncomputable def SparseMatrix.entry (A : SparseMatrix ℝ) (i j : Nat) : ℝ :=
  ∑ p ∈ Finset.Ico (colStart A.outer j) (colStart A.outer (j + 1)), if A.inner.getD p 0 = i then A.values.getD p 0 else 0

/-- The symmetric matrix whose upper triangle is stored. -/
noncomputable def SparseMatrix.sym (A : SparseMatrix ℝ) (n : Nat) : Matrix (Fin n) (Fin n) ℝ :=
  fun i j => A.entry (min i.1 j.1) (max i.1 j.1)

/-- A vector in memory. -/
def vectorOf (n : Nat) (x : Array ℝ) : Fin n → ℝ := fun i => x.getD i.1 0

/-- `A = L D Lᵀ` exists without pivoting: the equation of every leading principal submatrix has only the zero solution. -/
def LeadingRegular {n : Nat} (M : Matrix (Fin n) (Fin n) ℝ) : Prop :=
  ∀ k ≤ n, ∀ u : Fin n → ℝ, (∀ i : Fin n, k ≤ i.1 → u i = 0) → (∀ i : Fin n, i.1 < k → (M *ᵥ u) i = 0) → u = 0

/-- Symmetric quasi-definite: positive definite on a set of coordinates, negative definite on the others. -/
def SymQuasiDefinite {n : Nat} (M : Matrix (Fin n) (Fin n) ℝ) : Prop :=
  ∃ S : Fin n → Prop,
    (∀ u, u ≠ 0 → (∀ i, ¬S i → u i = 0) → 0 < u ⬝ᵥ M *ᵥ u) ∧
    (∀ u, u ≠ 0 → (∀ i, S i → u i = 0) → u ⬝ᵥ M *ᵥ u < 0)

/-- The sizes of the arrays `QDLDL_factor` needs. -/
structure QdldlFactors.Sized {K : Type} (n nnz : Nat) (f : QdldlFactors K) : Prop where
  Lp : f.Lp.size = n + 1
  Li : f.Li.size = nnz
  Lx : f.Lx.size = nnz
  D : f.D.size = n
  Dinv : f.Dinv.size = n
  bwork : f.bwork.size = n
  iwork : f.iwork.size = 3 * n
  fwork : f.fwork.size = n

/-- What the library promises.  `Analysed` and `Factored` stand for the meaning of its private formats. -/
structure QdldlContract (lib : Qdldl ℝ)
    (Analysed : (n : Nat) → (Ap Ai : Array Int) → (nnz : Nat) → (Lnz etree : Array Int) → Prop)
    (Factored : (n : Nat) → SparseMatrix ℝ → (Lp Li : Array Int) → (Lx Dinv : Array ℝ) → Prop) : Prop where
  /-- the analysis needs arrays of size `n` (the first may be longer) -/
  etree : ∀ n Ap Ai work Lnz etree, Compressed n Ap Ai → n ≤ work.size → Lnz.size = n → etree.size = n →
    let r := lib.etree n Ap Ai work Lnz etree
    r.work.size = work.size ∧ r.Lnz.size = n ∧ r.etree.size = n ∧
    (0 ≤ r.ret → UpperColumns n Ap Ai ∧ Analysed n Ap Ai r.ret.toNat r.Lnz r.etree) ∧
    (UpperColumns n Ap Ai → n * n < 2 ^ 31 → 0 ≤ r.ret)
  /-- the factorisation needs the result of the analysis and arrays of the right sizes, with any contents -/
  factor : ∀ n A nnz Lnz etree (f : QdldlFactors ℝ), 1 ≤ n → Compressed n A.outer A.inner →
    colStart A.outer n ≤ A.values.size → Analysed n A.outer A.inner nnz Lnz etree → f.Sized n nnz →
    let r := lib.factor n A.outer A.inner A.values Lnz etree f
    r.2.Sized n nnz ∧ (LeadingRegular (A.sym n) → Factored n A r.2.Lp r.2.Li r.2.Lx r.2.Dinv)
  /-- the solution of the factored system -/
  solve : ∀ n A Lp Li Lx Dinv x, Factored n A Lp Li Lx Dinv → x.size = n →
    (lib.solve n Lp Li Lx Dinv x).size = n ∧
    A.sym n *ᵥ vectorOf n (lib.solve n Lp Li Lx Dinv x) = vectorOf n x

/-- A matrix that may be passed to `Factor`: the pattern is the one given to the constructor. -/
structure SparseMatrix.HasPattern (A : SparseMatrix ℝ) (n : Nat) (Ap Ai : Array Int) : Prop where
  outer : A.outer = Ap
  inner : A.inner = Ai
  values : colStart Ap n ≤ A.values.size

/-- The object after a list of `Factor` calls (`Solve` does not change it). -/
def QdldlWrapper.after (lib : Qdldl ℝ) (w : QdldlWrapper ℝ) (h : List (SparseMatrix ℝ)) : QdldlWrapper ℝ :=
  h.foldl (fun w A => w.factor lib A) w

end Fbstab
