import Verif.Spec.Rounding
import Verif.Spec.Finite
import Mathlib.Data.Int.Log
import Mathlib.Tactic.Linarith
import Mathlib.Tactic.Positivity

/-!
# IEEE 754 binary64

An arithmetic with the rounding, the overflow, the underflow, the infinities and the NaN of `double`:
every operation computes exactly (with the special values of `XReal`) and then rounds to the nearest
representable number, ties to even.  Simplification: one zero (no `-0`).
-/

namespace Fbstab

/-- The finite numbers of binary64: 53 bits, exponent at least -1074, below `2^1024`. -/
def Representable (r : ℝ) : Prop :=
  ∃ m e : ℤ, |m| ≤ 2 ^ 53 ∧ -1074 ≤ e ∧ r = m * (2 : ℝ) ^ e ∧ |r| < (2 : ℝ) ^ (1024 : ℤ)

/-- Nearest integer, ties to even. -/
noncomputable def nearestEven (x : ℝ) : ℤ :=
  if Int.fract x < 1 / 2 then ⌊x⌋
  else if 1 / 2 < Int.fract x then ⌊x⌋ + 1
  else if Even ⌊x⌋ then ⌊x⌋ else ⌊x⌋ + 1

/-- The exponent of the last bit of `x`. -/
noncomputable def lastBit (x : ℝ) : ℤ := max (Int.log 2 |x| - 52) (-1074)

/-- `x` rounded to 53 bits, before overflow is considered. -/
noncomputable def round53 (x : ℝ) : ℝ := nearestEven (x / (2 : ℝ) ^ lastBit x) * (2 : ℝ) ^ lastBit x

theorem nearestEven_abs (x : ℝ) : |(nearestEven x : ℝ) - x| ≤ 1 / 2 := by
  have h := Int.floor_add_fract x
  have h1 := Int.fract_nonneg x
  have h2 := Int.fract_lt_one x
  unfold nearestEven
  split
  · rw [abs_le]; constructor <;> linarith
  · split
    · push_cast; rw [abs_le]; constructor <;> linarith
    · have : Int.fract x = 1 / 2 := by linarith
      split
      · rw [abs_le]; constructor <;> linarith
      · push_cast; rw [abs_le]; constructor <;> linarith

theorem nearestEven_int (m : ℤ) : nearestEven (m : ℝ) = m := by
  unfold nearestEven
  rw [if_pos (by rw [Int.fract_intCast]; norm_num), Int.floor_intCast]

theorem lastBit_upper (x : ℝ) : |x| / (2 : ℝ) ^ lastBit x < 2 ^ 53 := by
  have h2 : (0 : ℝ) < 2 := by norm_num
  rw [div_lt_iff₀ (zpow_pos h2 _)]
  have h1 : |x| < (2 : ℝ) ^ (Int.log 2 |x| + 1) := by
    have := Int.lt_zpow_succ_log_self (b := 2) (by norm_num) |x|
    exact_mod_cast this
  refine h1.trans_le ?_
  rw [← zpow_natCast, ← zpow_add₀ h2.ne']
  refine zpow_le_zpow_right₀ (by norm_num) ?_
  have := le_max_left (Int.log 2 |x| - 52) (-1074)
  unfold lastBit
  push_cast
  omega

theorem round53_representable (x : ℝ) (h : |round53 x| < (2 : ℝ) ^ (1024 : ℤ)) :
    Representable (round53 x) := by
  refine ⟨_, lastBit x, ?_, le_max_right _ _, rfl, h⟩
  have h1 := nearestEven_abs (x / (2 : ℝ) ^ lastBit x)
  have h2 : |x / (2 : ℝ) ^ lastBit x| < 2 ^ 53 := by
    rw [abs_div, abs_of_pos (zpow_pos (by norm_num : (0 : ℝ) < 2) _)]
    exact lastBit_upper x
  have h3 : |(nearestEven (x / (2 : ℝ) ^ lastBit x) : ℝ)| < 2 ^ 53 + 1 := by
    have := abs_sub_abs_le_abs_sub (nearestEven (x / (2 : ℝ) ^ lastBit x) : ℝ) (x / (2 : ℝ) ^ lastBit x)
    linarith
  have h4 : |nearestEven (x / (2 : ℝ) ^ lastBit x)| < 2 ^ 53 + 1 := by exact_mod_cast h3
  omega

/-- A binary64 number. -/
structure Binary64 where
  x : XReal
  rep : ∀ r : ℝ, x = up r → Representable r

namespace Binary64

open Classical in
/-- Rounding to nearest, with overflow. -/
noncomputable def rnd (r : ℝ) : XReal :=
  if |round53 r| < (2 : ℝ) ^ (1024 : ℤ) then up (round53 r) else if 0 < r then .val ⊤ else .val ⊥

open Classical in
/-- Rounding; infinities and NaN are kept. -/
noncomputable def roundX (x : XReal) : XReal :=
  if h : ∃ r : ℝ, x = up r then rnd h.choose else x

theorem rnd_rep (r r' : ℝ) (h : rnd r = up r') : Representable r' := by
  unfold rnd at h
  split at h
  · rename_i h1
    have : r' = round53 r := by
      have h2 : (up (round53 r)) = up r' := h
      simp only [up, XReal.val.injEq, EReal.coe_eq_coe_iff] at h2
      exact h2.symm
    rw [this]
    exact round53_representable r h1
  · split at h
    · simp [up] at h
    · simp [up] at h

/-- The nearest binary64 number. -/
noncomputable def round (x : XReal) : Binary64 where
  x := roundX x
  rep r h := by
    unfold roundX at h
    split at h
    · exact rnd_rep _ _ h
    · rename_i h'
      exact absurd ⟨r, h⟩ h'

/-- The finite value. -/
noncomputable def toReal (a : Binary64) : Option ℝ :=
  match a.x with
  | .nan => none
  | .val e => if e = ⊤ ∨ e = ⊥ then none else some e.toReal

end Binary64

theorem representable_neg {r : ℝ} (h : Representable r) : Representable (-r) := by
  obtain ⟨m, e, h1, h2, h3, h4⟩ := h
  exact ⟨-m, e, by rwa [abs_neg], h2, by rw [h3]; push_cast; ring, by rwa [abs_neg]⟩

theorem representable_zero : Representable 0 := ⟨0, 0, by norm_num, by norm_num, by simp, by simp⟩

theorem representable_one : Representable 1 :=
  ⟨1, 0, by norm_num, by norm_num, by simp, by rw [abs_one]; exact one_lt_zpow₀ (by norm_num) (by norm_num)⟩

open Classical in
/-- `double` -/
@[reducible] noncomputable instance instScalarBinary64 : Scalar Binary64 where
  zero := ⟨0, fun r h => by
    have : r = 0 := by
      have h' : (XReal.val 0) = .val (r : EReal) := h
      simpa using h'.symm
    rw [this]; exact representable_zero⟩
  one := ⟨1, fun r h => by
    have : r = 1 := by
      have h' : (XReal.val 1) = .val (r : EReal) := h
      simpa using h'.symm
    rw [this]; exact representable_one⟩
  neg a := ⟨-a.x, fun r h => by
    have : a.x = up (-r) := by
      cases ha : a.x with
      | nan => rw [ha] at h; cases h
      | val e =>
        rw [ha] at h
        have h' : (XReal.val (-e)) = .val (r : EReal) := h
        simp only [XReal.val.injEq] at h'
        simp only [up, EReal.coe_neg, ← h', neg_neg]
    rw [← neg_neg r]
    exact representable_neg (a.rep _ this)⟩
  add a b := .round (a.x + b.x)
  sub a b := .round (a.x - b.x)
  mul a b := .round (a.x * b.x)
  div a b := .round (a.x / b.x)
  ofScientific m s e := .round (OfScientific.ofScientific m s e)
  lt a b := a.x < b.x
  le a b := a.x ≤ b.x
  beq a b := a.x == b.x
  sqrt a := .round (Scalar.sqrt a.x)
  decLt _ _ := Classical.propDecidable _
  decLe _ _ := Classical.propDecidable _

theorem Binary64.leftToRight : LeftToRight Binary64 := fun _ _ _ _ => rfl

end Fbstab
