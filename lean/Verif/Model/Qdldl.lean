/-!
# The wrapper of the sparse factorisation library

`QdldlWrapper`, tools/qdldl/qdldl_wrapper.h.  The C library QDLDL itself is not part of the repository; it is a
parameter of the model (`Qdldl`), about which Spec/Qdldl.lean states what its documentation promises.
-/

namespace Fbstab

/-- What a template argument `SparseMatrix` of `Factor` provides: `outerIndexPtr()`, `innerIndexPtr()`, `valuePtr()`,
qdldl_wrapper.h:46-50. -/
structure SparseMatrix (K : Type) where
  outer : Array Int
  inner : Array Int
  values : Array K

/-- The arrays written by `QDLDL_factor`. -/
structure QdldlFactors (K : Type) where
  Lp : Array Int
  Li : Array Int
  Lx : Array K
  D : Array K
  Dinv : Array K
  bwork : Array UInt8
  iwork : Array Int
  fwork : Array K

/-- The result of `QDLDL_etree`: the returned number and the arrays written. -/
structure QdldlAnalysis where
  ret : Int
  work : Array Int
  Lnz : Array Int
  etree : Array Int

/-- The three functions of the library called in qdldl_wrapper.h:36, 50-53 and 58-59.  `QDLDL_int` is `int`,
`QDLDL_float` is `double`, `QDLDL_bool` is `unsigned char` (qdldl_types.h:12-14). -/
structure Qdldl (K : Type) where
  etree : (n : Int) → (Ap Ai : Array Int) → (work Lnz etree : Array Int) → QdldlAnalysis
  factor : (n : Int) → (Ap Ai : Array Int) → (Ax : Array K) → (Lnz etree : Array Int) → QdldlFactors K →
    Int × QdldlFactors K
  solve : (n : Int) → (Lp Li : Array Int) → (Lx Dinv : Array K) → (x : Array K) → Array K

/-- `QdldlWrapper`, the data members, qdldl_wrapper.h:62-82. -/
structure QdldlWrapper (K : Type) where
  nnz : Int
  n : Int
  etree : Array Int
  Lnz : Array Int
  f : QdldlFactors K

namespace QdldlWrapper
variable {K : Type} [Zero K]

/-- `std::length_error` thrown by `std::vector::resize` -/
inductive LengthError where
  | mk

/-- `std::vector::resize(k)` of an empty vector: filled with zeros; a negative `int` becomes a `size_t` larger than
`max_size()`.  A failing allocation is not modelled, nor is the overflow of `3 * n_`. -/
def resize {α : Type} (k : Int) (zero : α) : Except LengthError (Array α) :=
  if k < 0 then .error .mk else .ok (Array.replicate k.toNat zero)

/-- The constructor, qdldl_wrapper.h:24-43. -/
def new (lib : Qdldl K) (n : Int) (Ap Ai : Array Int) : Except LengthError (QdldlWrapper K) := do
  let iwork ← resize (3 * n) 0
  let bwork ← resize n 0
  let fwork ← resize n (0 : K)
  let etree ← resize n 0
  let Lnz ← resize n 0
  let r := lib.etree n Ap Ai iwork Lnz etree
  let Lp ← resize (n + 1) 0
  let Li ← resize r.ret 0
  let Lx ← resize r.ret (0 : K)
  let D ← resize n (0 : K)
  let Dinv ← resize n (0 : K)
  return ⟨r.ret, n, r.etree, r.Lnz, ⟨Lp, Li, Lx, D, Dinv, bwork, r.work, fwork⟩⟩

omit [Zero K] in
/-- `Factor`, qdldl_wrapper.h:45-54: the returned number is dropped. -/
def factor (lib : Qdldl K) (A : SparseMatrix K) (w : QdldlWrapper K) : QdldlWrapper K :=
  { w with f := (lib.factor w.n A.outer A.inner A.values w.Lnz w.etree w.f).2 }

omit [Zero K] in
/-- `Solve`, qdldl_wrapper.h:57-60: the new contents of `x`; the object does not change. -/
def solve (lib : Qdldl K) (w : QdldlWrapper K) (x : Array K) : Array K :=
  lib.solve w.n w.f.Lp w.f.Li w.f.Lx w.f.Dinv x

end QdldlWrapper
end Fbstab
