import Verif.Proofs.Binary64
import Verif.Proofs.Rounding

/-!
# Computing with binary64 numbers
-/

namespace Fbstab

theorem nearestEven_of {x : ℝ} {m : ℤ} (h : |x - m| < 1 / 2) : nearestEven x = m := by
  have h1 := nearestEven_abs x
  have h2 : |((nearestEven x - m : ℤ) : ℝ)| < 1 := by
    push_cast
    have := abs_add_le ((nearestEven x : ℝ) - x) (x - m)
    rw [sub_add_sub_cancel] at this
    linarith
  have h3 : |nearestEven x - m| < 1 := by exact_mod_cast h2
  have := Int.abs_lt_one_iff.1 h3
  omega

theorem lastBit_of {x : ℝ} {e : ℤ} (he : -1074 ≤ e) (h1 : (2 : ℝ) ^ (e + 52) ≤ |x|) (h2 : |x| < (2 : ℝ) ^ (e + 53)) :
    lastBit x = e := by
  have hx : 0 < |x| := lt_of_lt_of_le (two_zpow_pos _) h1
  have a : e + 52 ≤ Int.log 2 |x| := (Int.zpow_le_iff_le_log (by norm_num) hx).1 (by exact_mod_cast h1)
  have b : Int.log 2 |x| < e + 53 := (Int.lt_zpow_iff_log_lt (by norm_num) hx).1 (by exact_mod_cast h2)
  unfold lastBit
  rw [max_eq_left (by omega)]
  omega

/-- Rounding to the nearest, when it is unique. -/
theorem round53_of {x : ℝ} {e m : ℤ} (he : -1074 ≤ e) (h1 : (2 : ℝ) ^ (e + 52) ≤ |x|)
    (h2 : |x| < (2 : ℝ) ^ (e + 53)) (h : |x - m * (2 : ℝ) ^ e| < (2 : ℝ) ^ e / 2) : round53 x = m * (2 : ℝ) ^ e := by
  unfold round53
  rw [lastBit_of he h1 h2, nearestEven_of]
  have : x / (2 : ℝ) ^ e - m = (x - m * (2 : ℝ) ^ e) / (2 : ℝ) ^ e := by
    field_simp
  rw [this, abs_div, abs_of_pos (two_zpow_pos e), div_lt_iff₀ (two_zpow_pos e)]
  linarith

theorem rep_pow (m e : ℤ) (hm : |m| ≤ 2 ^ 53) (h1 : -1074 ≤ e) (h2 : e ≤ 900) :
    Representable (m * (2 : ℝ) ^ e) := by
  refine ⟨m, e, hm, h1, rfl, ?_⟩
  rw [abs_mul, abs_of_pos (two_zpow_pos e)]
  have h3 : |(m : ℝ)| ≤ 2 ^ 53 := by exact_mod_cast hm
  calc |(m : ℝ)| * (2 : ℝ) ^ e ≤ 2 ^ 53 * (2 : ℝ) ^ (900 : ℤ) :=
        mul_le_mul h3 (zpow_le_zpow_right₀ (by norm_num) h2) (two_zpow_pos e).le (by norm_num)
    _ = (2 : ℝ) ^ (953 : ℤ) := by rw [← zpow_natCast, ← zpow_add₀ (by norm_num)]; norm_num
    _ < _ := zpow_lt_zpow_right₀ (by norm_num) (by norm_num)

namespace Binary64

/-- `x` is the number `r`. -/
def Is (x : Binary64) (r : ℝ) : Prop := x.x = up r

variable {x y : Binary64} {a b c : ℝ}

theorem Is.rep (h : Is x a) : Representable a := x.rep a h

theorem Is.toReal (h : Is x a) : rounding.toReal x = some a := toReal_eq.2 h

theorem is_round (h : round53 a = c) (hc : Representable c) : Is (Binary64.round (up a)) c := by
  obtain ⟨m, e, -, -, -, lt⟩ := hc
  show roundX (up a) = up c
  rw [roundX_up, rnd, h, if_pos lt]

theorem Is.zero : Is 0 0 := up_zero
theorem Is.one : Is 1 1 := up_one

theorem Is.neg (h : Is x a) : Is (-x) (-a) := by
  show -x.x = _
  rw [h, up_neg]

theorem Is.add' (h : Is x a) (h' : Is y b) (hr : round53 (a + b) = c) (hc : Representable c) : Is (x + y) c := by
  show (Binary64.round (x.x + y.x)).x = _
  rw [h, h', up_add]; exact is_round hr hc

theorem Is.sub' (h : Is x a) (h' : Is y b) (hr : round53 (a - b) = c) (hc : Representable c) : Is (x - y) c := by
  show (Binary64.round (x.x - y.x)).x = _
  rw [h, h', up_sub]; exact is_round hr hc

theorem Is.mul' (h : Is x a) (h' : Is y b) (hr : round53 (a * b) = c) (hc : Representable c) : Is (x * y) c := by
  show (Binary64.round (x.x * y.x)).x = _
  rw [h, h', up_mul]; exact is_round hr hc

theorem Is.add (h : Is x a) (h' : Is y b) (e : a + b = c) (hc : Representable c) : Is (x + y) c :=
  h.add' h' (e ▸ round53_rep (e ▸ hc)) hc

theorem Is.sub (h : Is x a) (h' : Is y b) (e : a - b = c) (hc : Representable c) : Is (x - y) c :=
  h.sub' h' (e ▸ round53_rep (e ▸ hc)) hc

theorem Is.mul (h : Is x a) (h' : Is y b) (e : a * b = c) (hc : Representable c) : Is (x * y) c :=
  h.mul' h' (e ▸ round53_rep (e ▸ hc)) hc

theorem Is.div (h : Is x a) (h' : Is y b) (hb : b ≠ 0) (e : a / b = c) (hc : Representable c) : Is (x / y) c := by
  show (Binary64.round (x.x / y.x)).x = _
  rw [h, h', up_div _ hb]
  exact is_round (e ▸ round53_rep (e ▸ hc)) hc

theorem Is.sqrt (h : Is x a) (h0 : 0 ≤ c) (e : a = c * c) (hc : Representable c) : Is (Scalar.sqrt x) c := by
  show (Binary64.round (Scalar.sqrt x.x)).x = _
  rw [h, up_sqrt (by rw [e]; positivity)]
  refine is_round ?_ hc
  rw [e, Real.sqrt_mul_self h0]
  exact round53_rep hc

theorem Is.lt (h : Is x a) (h' : Is y b) : x < y ↔ a < b := by
  show x.x < y.x ↔ _
  rw [h, h', up_lt]

theorem Is.le (h : Is x a) (h' : Is y b) : x ≤ y ↔ a ≤ b := by
  show x.x ≤ y.x ↔ _
  rw [h, h', up_le]

theorem Is.eq (h : Is x a) (h' : Is y a) : x = y := by
  cases x; cases y; cases h; cases h'; rfl

/-- Adding zero. -/
theorem Is.add_zero (h : Is x a) (h' : Is y 0) : Is (x + y) a := h.add h' (_root_.add_zero a) h.rep
theorem Is.zero_add (h : Is x 0) (h' : Is y a) : Is (x + y) a := h.add h' (_root_.zero_add a) h'.rep
theorem Is.sub_zero (h : Is x a) (h' : Is y 0) : Is (x - y) a := h.sub h' (_root_.sub_zero a) h.rep
theorem Is.one_mul (h : Is x 1) (h' : Is y a) : Is (x * y) a := h.mul h' (_root_.one_mul a) h'.rep
theorem Is.mul_one (h : Is x a) (h' : Is y 1) : Is (x * y) a := h.mul h' (_root_.mul_one a) h.rep
theorem Is.neg_one_mul (h : Is x (-1)) (h' : Is y a) : Is (x * y) (-a) :=
  h.mul h' (_root_.neg_one_mul a) (representable_neg h'.rep)
theorem Is.mul_zero (h : Is x a) (h' : Is y 0) : Is (x * y) 0 := h.mul h' (MulZeroClass.mul_zero a) representable_zero
theorem Is.zero_mul (h : Is x 0) (h' : Is y a) : Is (x * y) 0 := h.mul h' (MulZeroClass.zero_mul a) representable_zero

/-- Rounding a number that is neither tiny nor huge. -/
theorem round_close {r : ℝ} (h0 : (2 : ℝ) ^ (-500 : ℤ) ≤ r) (h1 : r ≤ (2 : ℝ) ^ (500 : ℤ)) :
    ∃ c, Is (Binary64.round (up r)) c ∧ |c - r| ≤ 1e-15 * r := by
  have r0 : 0 < r := lt_of_lt_of_le (two_zpow_pos _) h0
  have e := round53_err r
  rw [abs_of_pos r0] at e
  have k1 : (2 : ℝ) ^ (-53 : ℤ) ≤ 2e-16 := by norm_num
  have k2 : (2 : ℝ) ^ (-1075 : ℤ) ≤ 1e-16 * r := by
    have : (2 : ℝ) ^ (-1075 : ℤ) ≤ (2 : ℝ) ^ (-575 : ℤ) * (2 : ℝ) ^ (-500 : ℤ) := by
      rw [← zpow_add₀ (by norm_num)]; exact le_of_eq (by norm_num)
    have k3 : (2 : ℝ) ^ (-575 : ℤ) ≤ (2 : ℝ) ^ (-60 : ℤ) := zpow_le_zpow_right₀ (by norm_num) (by norm_num)
    have k4 : (2 : ℝ) ^ (-60 : ℤ) ≤ 1e-16 := by norm_num
    refine this.trans ?_
    calc (2 : ℝ) ^ (-575 : ℤ) * (2 : ℝ) ^ (-500 : ℤ) ≤ 1e-16 * (2 : ℝ) ^ (-500 : ℤ) :=
          mul_le_mul_of_nonneg_right (k3.trans k4) (two_zpow_pos _).le
      _ ≤ _ := mul_le_mul_of_nonneg_left h0 (by norm_num)
  have e' : |round53 r - r| ≤ 1e-15 * r := by
    have : (2 : ℝ) ^ (-53 : ℤ) * r ≤ 2e-16 * r := mul_le_mul_of_nonneg_right k1 r0.le
    refine e.trans ?_
    clear e
    generalize (2 : ℝ) ^ (-1075 : ℤ) = t at *
    generalize (2 : ℝ) ^ (-53 : ℤ) * r = t' at *
    clear h0 h1 k1
    norm_num at *
    linarith
  refine ⟨round53 r, is_round rfl (round53_representable r ?_), e'⟩
  have h3 : |round53 r| ≤ 2 * r := by
    have := abs_add_le r (round53 r - r)
    rw [add_sub_cancel, abs_of_pos r0] at this
    have h6 : (1e-15 : ℝ) * r ≤ 1 * r := mul_le_mul_of_nonneg_right (by norm_num) r0.le
    linarith
  calc |round53 r| ≤ 2 * r := h3
    _ ≤ 2 * (2 : ℝ) ^ (500 : ℤ) := by linarith
    _ = (2 : ℝ) ^ (501 : ℤ) := by rw [show (501 : ℤ) = 1 + 500 by norm_num, zpow_add₀ (by norm_num), zpow_one]
    _ < _ := zpow_lt_zpow_right₀ (by norm_num) (by norm_num)

theorem Is.add_close (h : Is x a) (h' : Is y b) (h0 : (2 : ℝ) ^ (-500 : ℤ) ≤ a + b)
    (h1 : a + b ≤ (2 : ℝ) ^ (500 : ℤ)) : ∃ c, Is (x + y) c ∧ |c - (a + b)| ≤ 1e-15 * (a + b) := by
  show ∃ c, Is (Binary64.round (x.x + y.x)) c ∧ _
  rw [h, h', up_add]; exact round_close h0 h1

theorem Is.sub_close (h : Is x a) (h' : Is y b) (h0 : (2 : ℝ) ^ (-500 : ℤ) ≤ a - b)
    (h1 : a - b ≤ (2 : ℝ) ^ (500 : ℤ)) : ∃ c, Is (x - y) c ∧ |c - (a - b)| ≤ 1e-15 * (a - b) := by
  show ∃ c, Is (Binary64.round (x.x - y.x)) c ∧ _
  rw [h, h', up_sub]; exact round_close h0 h1

theorem Is.mul_close (h : Is x a) (h' : Is y b) (h0 : (2 : ℝ) ^ (-500 : ℤ) ≤ a * b)
    (h1 : a * b ≤ (2 : ℝ) ^ (500 : ℤ)) : ∃ c, Is (x * y) c ∧ |c - a * b| ≤ 1e-15 * (a * b) := by
  show ∃ c, Is (Binary64.round (x.x * y.x)) c ∧ _
  rw [h, h', up_mul]; exact round_close h0 h1

theorem Is.sqrt_close (h : Is x a) (h0 : (2 : ℝ) ^ (-500 : ℤ) ≤ √a) (h1 : √a ≤ (2 : ℝ) ^ (500 : ℤ)) :
    ∃ c, Is (Scalar.sqrt x) c ∧ |c - √a| ≤ 1e-15 * √a := by
  have : 0 ≤ a := by
    by_contra hc
    rw [Real.sqrt_eq_zero_of_nonpos (by linarith)] at h0
    linarith [two_zpow_pos (-500)]
  show ∃ c, Is (Binary64.round (Scalar.sqrt x.x)) c ∧ _
  rw [h, up_sqrt this]; exact round_close h0 h1

/-- A literal of the source. -/
theorem is_literal (m : Nat) (s : Bool) (e : Nat)
    (h0 : (2 : ℝ) ^ (-500 : ℤ) ≤ (OfScientific.ofScientific m s e : ℝ))
    (h1 : (OfScientific.ofScientific m s e : ℝ) ≤ (2 : ℝ) ^ (500 : ℤ)) :
    ∃ c, Is (OfScientific.ofScientific m s e : Binary64) c ∧
      |c - (OfScientific.ofScientific m s e : ℝ)| ≤ 1e-15 * (OfScientific.ofScientific m s e : ℝ) := by
  show ∃ c, Is (Binary64.round (OfScientific.ofScientific m s e)) c ∧ _
  rw [up_ofScientific]; exact round_close h0 h1

theorem is_literal_exact (m : Nat) (s : Bool) (e : Nat) (h : (OfScientific.ofScientific m s e : ℝ) = c)
    (hc : Representable c) : Is (OfScientific.ofScientific m s e : Binary64) c := by
  show Is (Binary64.round (OfScientific.ofScientific m s e)) c
  rw [up_ofScientific, h]; exact is_round (round53_rep hc) hc

theorem Is.cmax (h : Is x a) (h' : Is y b) : Is (cmax x y) (max a b) := by
  unfold Fbstab.cmax
  by_cases hh : a < b
  · rw [if_pos ((h.lt h').2 hh), max_eq_right hh.le]; exact h'
  · rw [if_neg (mt (h.lt h').1 hh), max_eq_left (not_lt.1 hh)]; exact h

theorem Is.cmin (h : Is x a) (h' : Is y b) : Is (cmin x y) (min a b) := by
  unfold Fbstab.cmin
  by_cases hh : b < a
  · rw [if_pos ((h'.lt h).2 hh), min_eq_right hh.le]; exact h'
  · rw [if_neg (mt (h'.lt h).1 hh), min_eq_left (not_lt.1 hh)]; exact h

theorem Is.cabs (h : Is x a) : Is (cabs x) |a| := by
  unfold Fbstab.cabs
  by_cases hh : a < 0
  · rw [if_pos ((h.lt Is.zero).2 hh), abs_of_neg hh]; exact h.neg
  · rw [if_neg (mt (h.lt Is.zero).1 hh), abs_of_nonneg (not_lt.1 hh)]; exact h

theorem Is.saturate {z : Binary64} (h : Is x a) (h' : Is y b) (h'' : Is z c) (hbc : b ≤ c) :
    ∃ s, saturate x y z = .ok s ∧ Is s (max (min a c) b) := by
  unfold Fbstab.saturate
  rw [if_neg (mt (h''.lt h').1 (not_lt.2 hbc))]
  exact ⟨_, rfl, (h.cmin h'').cmax h'⟩

end Binary64
end Fbstab
