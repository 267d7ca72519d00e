import Verif.Spec.QP
import Verif.Spec.Ocp

/-!
# Rounded arithmetic

What is assumed of `double`: the standard model of floating point arithmetic, with overflow,
underflow, infinities and NaN.  IEEE 754 binary64 with rounding to nearest satisfies it with
`u = 2^-53` and `eta = 2^-1075` (`Binary64.rounding`), exact arithmetic with infinities and NaN with
`u = eta = 0` (`XReal.rounding`).
-/

namespace Fbstab

/-- The arithmetic `K` computes with relative error `u` and, where products underflow, absolute error
`eta`.  Nothing is assumed about quotients, about literals, or about which way a result is rounded. -/
structure Rounding (K : Type) [Scalar K] (u eta : ℝ) where
  /-- the value of a finite number; `none` for infinities and NaN -/
  toReal : K → Option ℝ
  u_nonneg : 0 ≤ u
  eta_nonneg : 0 ≤ eta
  zero : toReal 0 = some 0
  one : toReal 1 = some 1
  neg : ∀ x, toReal (-x) = (toReal x).map (-·)
  /-- a finite sum has finite terms -/
  add : ∀ x y c, toReal (x + y) = some c → ∃ a b, toReal x = some a ∧ toReal y = some b ∧
    |c - (a + b)| ≤ u * |a + b|
  sub : ∀ x y c, toReal (x - y) = some c → ∃ a b, toReal x = some a ∧ toReal y = some b ∧
    |c - (a - b)| ≤ u * |a - b|
  /-- a finite product has finite factors; its sign is that of the exact product, or it is zero -/
  mul : ∀ x y c, toReal (x * y) = some c → ∃ a b, toReal x = some a ∧ toReal y = some b ∧
    |c - a * b| ≤ u * |a * b| + eta ∧ (0 ≤ a * b → 0 ≤ c) ∧ (a * b ≤ 0 → c ≤ 0)
  mul_swap : ∀ x y, toReal (x * y) = toReal (y * x)
  /-- adding a zero, and multiplying a finite number with zero, is exact -/
  add_of_zero : ∀ x y, toReal y = some 0 → toReal (x + y) = toReal x
  add_of_zero_left : ∀ x y, toReal x = some 0 → toReal (x + y) = toReal y
  mul_of_zero : ∀ x y b, toReal x = some 0 → toReal y = some b → toReal (x * y) = some 0
  /-- products with 1 and -1 are exact -/
  one_mul : ∀ a x, toReal a = some 1 → toReal (a * x) = toReal x
  neg_one_mul : ∀ a x, toReal a = some (-1) → toReal (a * x) = (toReal x).map (-·)
  sqrt : ∀ x c, toReal (Scalar.sqrt x) = some c → ∃ a, toReal x = some a ∧ 0 ≤ a ∧
    |c - √a| ≤ u * √a
  /-- a finite dot product has finite factors and the usual error of `2 n` operations; this holds for any order
  of the additions, and also if products and sums are fused (`SumArith.dot`, `Binary64.rounding_of_order`) -/
  dot : ∀ n (x y : Fin n → K) c, toReal (Scalar.dot n (fun _ => true) x y) = some c →
    ∃ a b : Fin n → ℝ, (∀ i, toReal (x i) = some (a i)) ∧ (∀ i, toReal (y i) = some (b i)) ∧
      |c - ∑ i, a i * b i| ≤ ((1 + u) ^ (2 * n) - 1) * ∑ i, |a i| * |b i| + 2 * n * (1 + u) ^ (2 * n) * eta
  lt : ∀ x y a b, toReal x = some a → toReal y = some b → (x < y ↔ a < b)
  le : ∀ x y a b, toReal x = some a → toReal y = some b → (x ≤ y ↔ a ≤ b)
  beq : ∀ x y a b, toReal x = some a → toReal y = some b → ((x == y) = true ↔ a = b)
  /-- a square root below a finite number is finite (it is neither NaN nor `+inf`, nor `-inf`) -/
  sqrt_finite : ∀ x y b, Scalar.sqrt x ≤ y → toReal y = some b → ∃ c, toReal (Scalar.sqrt x) = some c
  /-- what is larger than a finite number is finite or positive (`+inf`) -/
  above : ∀ x y a, toReal x = some a → x < y → 0 < y ∨ ∃ b, toReal y = some b

namespace Rounding
variable {K : Type} [Scalar K] {u eta : ℝ} (F : Rounding K u eta)

/-- All entries of `x` are finite, with the values `r`. -/
def Reads {n : Nat} (x : Vec K n) (r : Fin n → ℝ) : Prop := ∀ i, F.toReal (x i) = some (r i)

def ReadsMat {n m : Nat} (x : Mat K n m) (r : Matrix (Fin n) (Fin m) ℝ) : Prop :=
  ∀ i j, F.toReal (x i j) = some (r i j)

/-- The data are finite and are those of the quadratic program `q`. -/
structure ReadsDense {nz nl nv : Nat} (d : DenseData K nz nl nv) (q : QP nz nl nv) : Prop where
  H : F.ReadsMat d.H q.H
  f : F.Reads d.f q.f
  G : F.ReadsMat d.G q.G
  h : F.Reads d.h q.h
  A : F.ReadsMat d.A q.A
  b : F.Reads d.b q.b

/-- The data are finite and are those of the optimal control problem `p`. -/
structure ReadsMpc {N nx nu nc : Nat} (D : MpcData K N nx nu nc) (p : Ocp N nx nu nc) : Prop where
  Q : ∀ i, F.ReadsMat (D.Q i) (p.Q i)
  R : ∀ i, F.ReadsMat (D.R i) (p.R i)
  S : ∀ i, F.ReadsMat (D.S i) (p.S i)
  q : ∀ i, F.Reads (D.q i) (p.q i)
  r : ∀ i, F.Reads (D.r i) (p.r i)
  A : ∀ i, F.ReadsMat (D.A i) (p.A i)
  B : ∀ i, F.ReadsMat (D.B i) (p.B i)
  c : ∀ i, F.Reads (D.c i) (p.c i)
  E : ∀ i, F.ReadsMat (D.E i) (p.E i)
  L : ∀ i, F.ReadsMat (D.L i) (p.L i)
  d : ∀ i, F.Reads (D.d i) (p.d i)
  x0 : F.Reads D.x0 p.x0

end Rounding

namespace QP
variable {nz nl nv : Nat} (q : QP nz nl nv)
open Matrix

/-- The sizes of the terms that are added in the gradient of the Lagrangian:
`|H| |z| + |f| + |G'| |l| + |A'| |v|`, entry by entry. -/
def gradSize (z : Fin nz → ℝ) (l : Fin nl → ℝ) (v : Fin nv → ℝ) : Fin nz → ℝ := fun i =>
  |q.f i| + (∑ j, |q.H i j| * |z j|) + (∑ j, |q.G j i| * |l j|) + ∑ j, |q.A j i| * |v j|

/-- The sizes of the terms that are added in `h - G z`: `|h| + |G| |z|`. -/
def eqSize (z : Fin nz → ℝ) : Fin nl → ℝ := fun i => |q.h i| + ∑ j, |q.G i j| * |z j|

/-- The norm of `(f, h, b)`. -/
noncomputable def forcing : ℝ := √(q.f ⬝ᵥ q.f + q.h ⬝ᵥ q.h + q.b ⬝ᵥ q.b)

end QP

/-- The relative error of a computation with `4 (nz + nl + nv) + 8` roundings, to first order
`(4 (nz + nl + nv) + 8) u`. -/
noncomputable def roundOff (u : ℝ) (nz nl nv : Nat) : ℝ := (1 + u) ^ (4 * (nz + nl + nv) + 8) - 1

/-- The absolute error, from underflow, of such a computation. -/
noncomputable def underFlow (eta : ℝ) (nz nl nv : Nat) : ℝ := 2 * ((4 * (nz + nl + nv) + 8 : ℕ) : ℝ) * eta

/-- The tolerance of the options, `abs_tol + rel_tol (1 + |(f, h, b)|)`, with the rounding error of its
evaluation. -/
noncomputable def roundedTol {nz nl nv : Nat} (q : QP nz nl nv) (absTol relTol g w : ℝ) : ℝ :=
  (1 + g) * (absTol + relTol * (1 + √(q.forcing ^ 2 + w)) + w)

/-- What a SUCCESS with tolerance `tol` guarantees in rounded arithmetic with error `g` (`roundOff`) and
`w` (`underFlow`): the stationarity and equality residuals are at most `tol`, up to a relative error and
the rounding error of the residual's own evaluation; complementarity of the multipliers and of the margin `y` the solver keeps. -/
structure QP.RoundedKKT {nz nl nv : Nat} (q : QP nz nl nv) (alpha tol g w : ℝ) (z : Fin nz → ℝ)
    (l : Fin nl → ℝ) (v y : Fin nv → ℝ) : Prop where
  stationary : euclid (q.lagrangeGrad z l v) ≤
    √(tol ^ 2 + w) / (1 - g) ^ 4 + g * euclid (q.gradSize z l v) + w * √nz
  eq : euclid (fun i => q.h i - (q.G.mulVec z) i) ≤
    √(tol ^ 2 + w) / (1 - g) ^ 4 + g * euclid (q.eqSize z) + w * √nl
  complementary : ∀ i, alpha * |min (y i) (v i)| ≤ (√(tol ^ 2 + w) / (1 - g) ^ 4 + w) / (1 - g) ^ 2

end Fbstab
