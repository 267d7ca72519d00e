import Verif.Model.Vec
import Mathlib.Data.EReal.Inv
import Mathlib.Analysis.Real.Sqrt

/-!
# Reals with infinities and NaN

A scalar type with the special values of IEEE 754: comparisons with NaN are false, `0 * inf`,
`inf - inf`, `0 / 0`, `inf / inf` and `sqrt` of a negative number are NaN.  There is no rounding,
no overflow and only one zero (`x / 0` has the sign of `x`).
-/

namespace Fbstab

/-- Extended reals with NaN. -/
inductive XReal where
  | nan
  | val (a : EReal)

namespace XReal

/-- IEEE addition -/
noncomputable def add : XReal → XReal → XReal
  | val a, val b => if (a = ⊤ ∧ b = ⊥) ∨ (a = ⊥ ∧ b = ⊤) then nan else val (a + b)
  | _, _ => nan

/-- sign change -/
noncomputable def neg : XReal → XReal
  | val a => val (-a)
  | nan => nan

/-- IEEE multiplication -/
noncomputable def mul : XReal → XReal → XReal
  | val a, val b =>
    if (a = 0 ∧ (b = ⊤ ∨ b = ⊥)) ∨ (b = 0 ∧ (a = ⊤ ∨ a = ⊥)) then nan else val (a * b)
  | _, _ => nan

/-- IEEE division, with a single zero -/
noncomputable def div : XReal → XReal → XReal
  | val a, val b =>
    if b = 0 then (if a = 0 then nan else if 0 < a then val ⊤ else val ⊥)
    else if (a = ⊤ ∨ a = ⊥) ∧ (b = ⊤ ∨ b = ⊥) then nan
    else val (a / b)
  | _, _ => nan

/-- IEEE square root -/
noncomputable def sqrt : XReal → XReal
  | val a => if a < 0 then nan else if a = ⊤ then val ⊤ else val (√a.toReal : ℝ)
  | nan => nan

/-- `a < b` -/
def lt : XReal → XReal → Prop
  | val a, val b => a < b
  | _, _ => False

/-- `a <= b` -/
def le : XReal → XReal → Prop
  | val a, val b => a ≤ b
  | _, _ => False

/-- `a == b` -/
noncomputable def beq : XReal → XReal → Bool
  | val a, val b => decide (a = b)
  | _, _ => false

end XReal

open Classical in
@[reducible] noncomputable instance instScalarXReal : Scalar XReal where
  zero := .val 0
  one := .val 1
  neg := XReal.neg
  add := XReal.add
  sub a b := XReal.add a (XReal.neg b)
  mul := XReal.mul
  div := XReal.div
  ofScientific m s e := .val ((OfScientific.ofScientific m s e : ℝ) : EReal)
  lt := XReal.lt
  le := XReal.le
  beq := XReal.beq
  sqrt := XReal.sqrt
  decLt _ _ := Classical.propDecidable _
  decLe _ _ := Classical.propDecidable _

namespace XReal

theorem val_lt {a b : EReal} : (val a : XReal) < val b ↔ a < b := Iff.rfl
theorem val_le {a b : EReal} : (val a : XReal) ≤ val b ↔ a ≤ b := Iff.rfl
theorem nan_lt {a : XReal} : ¬(nan : XReal) < a := by cases a <;> exact id
theorem lt_nan {a : XReal} : ¬a < (nan : XReal) := by cases a <;> exact id
theorem nan_le {a : XReal} : ¬(nan : XReal) ≤ a := by cases a <;> exact id
theorem le_nan {a : XReal} : ¬a ≤ (nan : XReal) := by cases a <;> exact id
theorem leftToRight : LeftToRight XReal := fun _ _ _ _ => rfl
theorem dotFin_eq (n : Nat) (x y : Fin n → XReal) : dotFin n x y = sumFin n fun i => x i * y i :=
  leftToRight.dotFin n x y
theorem dotIf_eq (n : Nat) (p : Fin n → Prop) [DecidablePred p] (x y : Fin n → XReal) :
    dotIf n p x y = sumFin n fun i => if p i then x i * y i else 0 := leftToRight.dotIf n p x y
theorem beq_zero : ((0 : XReal) == 0) = true := by
  show decide ((0 : EReal) = 0) = true
  simp

end XReal
end Fbstab
