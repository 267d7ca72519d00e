import Verif.Spec.Binary64

/-!
# Orders of summation

Eigen adds the terms of a dot product in an order that depends on the sizes, on the storage order, on the
vector unit and on the compiler; with `-mfma` it fuses multiplications and additions.  A `SumOrder` is one such
way to compute a sum of products, and `Binary64.WithOrder o` is `double` with dot products computed in the order `o`.
-/

namespace Fbstab

/-- A way to compute a sum of products `x_i y_i`. -/
inductive SumOrder (n : Nat) where
  /-- `0`: the start of an accumulator, or padding -/
  | zero
  /-- `x_i y_i`, rounded -/
  | term (i : Fin n)
  /-- the sum of two partial sums, rounded -/
  | add (s t : SumOrder n)
  /-- `fma(x_i, y_i, t)`: product and sum with one rounding -/
  | fma (i : Fin n) (t : SumOrder n)

namespace SumOrder
variable {n : Nat} {K : Type}

/-- The products that are added, in the order of their appearance. -/
def indices : SumOrder n → List (Fin n)
  | zero => []
  | term i => [i]
  | add s t => s.indices ++ t.indices
  | fma i t => i :: t.indices

/-- The computed value, with the fused multiply-add `f`. -/
def eval [Zero K] [Add K] [Mul K] (f : K → K → K → K) (x y : Fin n → K) : SumOrder n → K
  | zero => 0
  | term i => x i * y i
  | add s t => s.eval f x y + t.eval f x y
  | fma i t => f (x i) (y i) (t.eval f x y)

/-- Every product with `p i` is added exactly once, and no other. -/
def Sums (o : SumOrder n) (p : Fin n → Bool) : Prop := o.indices.Perm ((List.finRange n).filter p)

end SumOrder

/-- An order of summation for every dot product (it may even depend on the numbers). -/
structure DotOrder where
  order : (n : Nat) → (p : Fin n → Bool) → (x y : Fin n → Binary64) → SumOrder n
  sums : ∀ n p x y, (order n p x y).Sums p

namespace Binary64

/-- `std::fma` -/
noncomputable def fma (a b c : Binary64) : Binary64 := .round (a.x * b.x + c.x)

/-- `double`, with dot products computed in the order `o`. -/
def WithOrder (_ : DotOrder) : Type := Binary64

/-- The operations of `double`, with dot products computed in the order `o`. -/
@[reducible] noncomputable instance (o : DotOrder) : Scalar (WithOrder o) :=
  { instScalarBinary64 with
    dot := fun n p x y => (o.order n p x y).eval (K := Binary64) fma x y }

end Binary64
end Fbstab
