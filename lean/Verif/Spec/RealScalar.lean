import Verif.Model.EigenTri
import Mathlib.Analysis.Real.Sqrt
import Mathlib.Data.Matrix.Mul
import Mathlib.Tactic.Ring
import Mathlib.Tactic.Linarith
import Mathlib.Tactic.NormNum
import Mathlib.Tactic.NormNum.OfScientific
import Mathlib.Algebra.BigOperators.Fin

/-!
# Exact real arithmetic as an instance of `Scalar`

The theorems about the mathematics of the solver are about this instance: `double` replaced by `ℝ`.
The lemmas below restate the model's operations in Mathlib's terms.
-/

namespace Fbstab

/-- Exact real arithmetic. -/
@[reducible] noncomputable instance instScalarReal : Scalar ℝ where
  sqrt := Real.sqrt
  beq a b := decide (a = b)
  decLt := inferInstance
  decLe := inferInstance

@[simp] theorem scalar_sqrt (a : ℝ) : Scalar.sqrt a = √a := rfl

theorem real_beq (a b : ℝ) : ((a == b) = true) ↔ a = b := decide_eq_true_iff
@[simp] theorem real_beq_eq (a b : ℝ) : (a == b) = decide (a = b) := rfl

@[simp] theorem cmax_eq_max (a b : ℝ) : cmax a b = max a b := by
  unfold cmax
  split
  · rw [max_eq_right (le_of_lt ‹_›)]
  · rw [max_eq_left (not_lt.mp ‹_›)]

@[simp] theorem cmin_eq_min (a b : ℝ) : cmin a b = min a b := by
  unfold cmin
  split
  · rw [min_eq_right (le_of_lt ‹_›)]
  · rw [min_eq_left (not_lt.mp ‹_›)]

@[simp] theorem cabs_eq_abs (a : ℝ) : cabs a = |a| := by
  unfold cabs
  split
  · rw [abs_of_neg ‹_›]
  · rw [abs_of_nonneg (not_lt.mp ‹_›)]

theorem foldl_add_eq_sum (n : Nat) (f : Fin n → ℝ) (c : ℝ) :
    Fin.foldl n (fun acc i => acc + f i) c = c + ∑ i, f i := by
  induction n generalizing c with
  | zero => simp
  | succ n ih => rw [Fin.foldl_succ, ih, Fin.sum_univ_succ]; ring

@[simp] theorem sumFin_eq_sum (n : Nat) (f : Fin n → ℝ) : sumFin n f = ∑ i, f i := by
  unfold sumFin
  rw [foldl_add_eq_sum]
  exact zero_add _

theorem leftToRight_real : LeftToRight ℝ := fun _ _ _ _ => rfl

@[simp] theorem dotFin_real (n : Nat) (x y : Fin n → ℝ) : dotFin n x y = sumFin n fun i => x i * y i :=
  leftToRight_real.dotFin n x y

@[simp] theorem dotIf_real (n : Nat) (p : Fin n → Prop) [DecidablePred p] (x y : Fin n → ℝ) :
    dotIf n p x y = sumFin n fun i => if p i then x i * y i else 0 := leftToRight_real.dotIf n p x y

/-- A model vector as a Mathlib vector. -/
def Vec.fn {n : Nat} (x : Vec ℝ n) : Fin n → ℝ := fun i => x i

/-- A model matrix as a Mathlib matrix. -/
def Mat.fn {r c : Nat} (m : Mat ℝ r c) : Matrix (Fin r) (Fin c) ℝ := fun i j => m i j

section
variable {n r c k : Nat}

@[simp] theorem Vec.fn_apply (x : Vec ℝ n) (i : Fin n) : x.fn i = x i := rfl
@[simp] theorem Mat.fn_apply (m : Mat ℝ r c) (i : Fin r) (j : Fin c) : m.fn i j = m i j := rfl
theorem Vec.fn_inj {x y : Vec ℝ n} : x.fn = y.fn ↔ x = y :=
  ⟨fun h => Vec.ext fun i => congrFun h i, fun h => h ▸ rfl⟩
theorem Mat.fn_inj {x y : Mat ℝ r c} : x.fn = y.fn ↔ x = y :=
  ⟨fun h => Mat.ext fun i j => congrFun (congrFun h i) j, fun h => h ▸ rfl⟩
@[simp] theorem Vec.fn_ofFn (f : Fin n → ℝ) : (Vec.ofFn f).fn = f := by ext; simp [Vec.fn]
@[simp] theorem Vec.ofFn_fn (x : Vec ℝ n) : Vec.ofFn x.fn = x := by ext; simp
@[simp] theorem Mat.fn_ofFn (f : Fin r → Fin c → ℝ) : (Mat.ofFn f).fn = Matrix.of f := by
  ext; simp [Mat.fn]
@[simp] theorem Vec.fn_add (x y : Vec ℝ n) : (x + y).fn = x.fn + y.fn := by ext; simp
@[simp] theorem Vec.fn_sub (x y : Vec ℝ n) : (x - y).fn = x.fn - y.fn := by ext; simp
@[simp] theorem Vec.fn_neg (x : Vec ℝ n) : (-x).fn = -x.fn := by ext; simp
@[simp] theorem Vec.fn_smul (a : ℝ) (x : Vec ℝ n) : (a * x).fn = a • x.fn := by
  ext; simp
@[simp] theorem Vec.fn_const (a : ℝ) : (Vec.const a : Vec ℝ n).fn = fun _ => a := by ext; simp
@[simp] theorem Mat.fn_add (x y : Mat ℝ r c) : (x + y).fn = x.fn + y.fn := by ext; simp
@[simp] theorem Mat.fn_sub (x y : Mat ℝ r c) : (x - y).fn = x.fn - y.fn := by ext; simp
@[simp] theorem Mat.fn_smul (a : ℝ) (x : Mat ℝ r c) : (a * x).fn = a • x.fn := by
  ext; simp
@[simp] theorem Mat.fn_transpose (x : Mat ℝ r c) : x.transpose.fn = x.fn.transpose := by
  ext; simp
@[simp] theorem Mat.fn_identity : (Mat.identity : Mat ℝ n n).fn = 1 := by
  ext i j; simp [Matrix.one_apply]
@[simp] theorem Mat.fn_mulVec (m : Mat ℝ r c) (x : Vec ℝ c) : (m * x).fn = m.fn.mulVec x.fn := by
  ext i; simp [Matrix.mulVec, dotProduct]
@[simp] theorem Mat.fn_mul (m : Mat ℝ r c) (m' : Mat ℝ c k) : (m * m').fn = m.fn * m'.fn := by
  ext i j; simp [Matrix.mul_apply]
@[simp] theorem Mat.fn_diagMul (d : Vec ℝ r) (m : Mat ℝ r c) :
    (Mat.diagMul d m).fn = Matrix.diagonal d.fn * m.fn := by
  ext i j; simp [Matrix.diagonal_mul]
theorem Vec.dot_eq (x y : Vec ℝ n) : x.dot y = x.fn ⬝ᵥ y.fn := by
  simp [Vec.dot, dotProduct]
theorem Vec.squaredNorm_eq (x : Vec ℝ n) : x.squaredNorm = x.fn ⬝ᵥ x.fn := by
  simp [Vec.squaredNorm, dotProduct]
theorem Vec.squaredNorm_sum (x : Vec ℝ n) : x.squaredNorm = ∑ i, x i ^ 2 := by
  simp [Vec.squaredNorm, pow_two]
theorem Vec.norm_eq (x : Vec ℝ n) : x.norm = √(∑ i, x i ^ 2) := by
  simp [Vec.norm, Vec.squaredNorm_sum]
theorem Vec.squaredNorm_nonneg (x : Vec ℝ n) : 0 ≤ x.squaredNorm := by
  rw [squaredNorm_sum]; exact Finset.sum_nonneg fun i _ => sq_nonneg _
theorem Vec.norm_sq (x : Vec ℝ n) : x.norm * x.norm = ∑ i, x i ^ 2 := by
  rw [norm_eq, Real.mul_self_sqrt]; exact Finset.sum_nonneg fun i _ => sq_nonneg _
theorem Vec.norm_nonneg (x : Vec ℝ n) : 0 ≤ x.norm := Real.sqrt_nonneg _

end
end Fbstab
