/-!
# Scalars

The C++ code computes with `double`.  The model is written once, for an arbitrary
type `K` with the operations the code uses and *no algebraic laws*, and is used at

* any `K` at all, for the control-flow theorems (iteration limits, exit flags, history
  independence, exception safety, printing): these therefore hold for IEEE doubles with
  rounding and NaN, for exact reals, or for anything else;
* `K = ℝ` for the theorems about the mathematics (`Verif/Spec/RealScalar.lean`);
* `K = XReal`, reals with NaN and infinities, for statements about special values;
* `K = Float`, on which the model can be run.
-/

namespace Fbstab

/-- The operations on `double` that the code uses: arithmetic, decimal literals, `<`, `<=`,
`==`, `std::sqrt`, and Eigen's dot products.  No laws are assumed. -/
class Scalar (K : Type) extends Zero K, One K, Neg K, Add K, Sub K, Mul K, Div K,
    OfScientific K, LT K, LE K, BEq K where
  /-- `sqrt` -/
  sqrt : K → K
  /-- `sum of x_i y_i over the i with p i`: the reduction inside Eigen's products, norms, factorisations and
  triangular solves.  The order of the additions, and whether products and sums are fused, is left to `K`;
  from left to right, starting with 0, unless stated otherwise. -/
  dot : (n : Nat) → (p : Fin n → Bool) → (x y : Fin n → K) → K := fun n p x y =>
    Fin.foldl n (fun acc i => acc + if p i then x i * y i else 0) 0
  decLt : DecidableLT K
  decLe : DecidableLE K

attribute [instance_reducible, instance] Scalar.decLt Scalar.decLe

/-- The exceptions and other abnormal outcomes of the code.  Undefined behaviour (for instance an
Eigen operation on mismatched sizes, which is an assertion in debug builds and undefined in
release builds) is an outcome of its own. -/
inductive Err where
  /-- `throw std::runtime_error(msg)` -/
  | runtimeError (msg : String)
  /-- `throw std::out_of_range(msg)` -/
  | outOfRange (msg : String)
  /-- behaviour not defined by C++ or by Eigen's preconditions -/
  | undefinedBehaviour (what : String)
deriving DecidableEq, Repr

variable {K : Type} [Scalar K]

/-- `std::max(a, b)`: `(a < b) ? b : a`.  Used in fbstab_algorithm-impl.h:8-30,
full_feasibility.cc:72, full_residual.cc:104,117, tools/utilities.h:27. -/
def cmax (a b : K) : K := if a < b then b else a

/-- `std::min(a, b)`: `(b < a) ? b : a`.  Used in tools/utilities.h:26, full_residual.cc:92. -/
def cmin (a b : K) : K := if b < a then b else a

/-- `std::abs` as used by Eigen's `cwiseAbs`. -/
def cabs (a : K) : K := if a < 0 then -a else a

/-- `tools::saturate`, tools/utilities.h:18-28.  `a > b` is `b < a`. -/
def saturate (x a b : K) : Except Err K :=
  if b < a then
    .error (.runtimeError
      "In tools::saturate: upper bound must be larger than the lower bound")
  else
    let temp := cmin x b
    .ok (cmax temp a)

end Fbstab
