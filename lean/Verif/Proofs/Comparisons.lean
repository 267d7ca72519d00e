import Verif.Spec.Comparisons
import Verif.Spec.SumOrder
import Verif.Proofs.Binary64
import Mathlib.Tactic.NormNum

/-!
# Comparisons of reals, of reals with infinities and NaN, and of `double`
-/

namespace Fbstab

theorem literal_nonneg (m : Nat) (s : Bool) (e : Nat) : (0 : ℝ) ≤ OfScientific.ofScientific m s e := by
  rw [← NNRat.cast_ofScientific]
  exact NNRat.cast_nonneg _

theorem Comparisons.real : Comparisons ℝ where
  left _ := le_rfl
  right _ := le_rfl
  trans h h' := h.trans h'
  total _ _ := le_total _ _
  lt_iff := lt_iff_le_not_ge
  zero := le_rfl
  literal_nonneg := Fbstab.literal_nonneg
  literal _ _ _ _ _ _ h := h

namespace XReal

theorem le_trans' {a b c : XReal} (h : a ≤ b) (h' : b ≤ c) : a ≤ c := by
  cases a with
  | nan => exact absurd h nan_le
  | val a =>
  cases b with
  | nan => exact absurd h le_nan
  | val b =>
  cases c with
  | nan => exact absurd h' le_nan
  | val c => exact val_le.2 ((val_le.1 h).trans (val_le.1 h'))

theorem lt_iff' {a b : XReal} : a < b ↔ a ≤ b ∧ ¬b ≤ a := by
  cases a with
  | nan => exact ⟨fun h => absurd h nan_lt, fun h => absurd h.1 nan_le⟩
  | val a =>
  cases b with
  | nan => exact ⟨fun h => absurd h lt_nan, fun h => absurd h.1 le_nan⟩
  | val b => rw [val_lt, val_le, val_le]; exact lt_iff_le_not_ge

theorem le_self {a : XReal} : a ≤ a ↔ a ≠ nan := by
  cases a with
  | nan => exact ⟨fun h => absurd h nan_le, fun h => absurd rfl h⟩
  | val a => exact ⟨fun _ h => (by cases h), fun _ => val_le.2 le_rfl⟩

theorem le_left {a b : XReal} (h : a ≤ b) : a ≤ a := by
  rw [le_self]
  rintro rfl
  exact nan_le h

theorem le_right {a b : XReal} (h : a ≤ b) : b ≤ b := by
  rw [le_self]
  rintro rfl
  exact le_nan h

theorem le_total' {a b : XReal} (h : a ≤ a) (h' : b ≤ b) : a ≤ b ∨ b ≤ a := by
  cases a with
  | nan => exact absurd h nan_le
  | val a =>
  cases b with
  | nan => exact absurd h' nan_le
  | val b => rw [val_le, val_le]; exact le_total a b

end XReal

theorem Comparisons.xreal : Comparisons XReal where
  left := XReal.le_left
  right := XReal.le_right
  trans := XReal.le_trans'
  total := XReal.le_total'
  lt_iff := XReal.lt_iff'
  zero := XReal.val_le.2 le_rfl
  literal_nonneg m s e := by
    rw [up_ofScientific]
    exact XReal.val_le.2 (EReal.coe_nonneg.2 (Fbstab.literal_nonneg m s e))
  literal m s e m' s' e' h := by
    rw [up_ofScientific, up_ofScientific]
    exact (up_le _ _).symm ▸ h

namespace Binary64

theorem nearestEven_mono {x y : ℝ} (h : x ≤ y) : nearestEven x ≤ nearestEven y := by
  have hf : ⌊x⌋ ≤ ⌊y⌋ := Int.floor_le_floor h
  have up1 : nearestEven x ≤ ⌊x⌋ + 1 := by
    unfold nearestEven
    split_ifs <;> omega
  have lo : ⌊y⌋ ≤ nearestEven y := by
    unfold nearestEven
    split_ifs <;> omega
  rcases lt_or_eq_of_le hf with h1 | h1
  · omega
  · have hfr : Int.fract x ≤ Int.fract y := by
      unfold Int.fract
      rw [h1]
      linarith
    unfold nearestEven
    rw [h1]
    split_ifs <;> first | omega | linarith

theorem round53_mono {x y : ℝ} (h0 : 0 ≤ x) (h : x ≤ y) : round53 x ≤ round53 y := by
  rcases h0.eq_or_lt with rfl | h0
  · have : round53 0 = 0 := round53_rep representable_zero
    rw [this]
    exact round53_nonneg h
  have hy : 0 < y := h0.trans_le h
  have hlog : Int.log 2 |x| ≤ Int.log 2 |y| := by
    rw [abs_of_pos h0, abs_of_pos hy]
    exact Int.log_mono_right h0 h
  rcases lt_or_eq_of_le (show lastBit x ≤ lastBit y by unfold lastBit; omega) with hb | hb
  · have p0 := two_zpow_pos (lastBit x)
    have p1 := two_zpow_pos (lastBit y)
    have e1 : nearestEven (x / (2 : ℝ) ^ lastBit x) ≤ 2 ^ 53 := by
      have := lastBit_upper x
      rw [abs_of_pos h0] at this
      have := nearestEven_mono (x := x / (2 : ℝ) ^ lastBit x) (y := ((2 ^ 53 : ℤ) : ℝ)) (by push_cast; linarith)
      rwa [nearestEven_int] at this
    have hly : (2 : ℝ) ^ (lastBit y + 52) ≤ y := by
      have hlb : lastBit y = Int.log 2 |y| - 52 := by
        have := le_max_right (Int.log 2 |x| - 52) (-1074)
        unfold lastBit at *
        omega
      have := Int.zpow_log_le_self (b := 2) (by norm_num) hy
      rw [hlb, abs_of_pos hy]
      rw [show Int.log 2 y - 52 + 52 = Int.log 2 y by ring]
      exact_mod_cast this
    have e2 : 2 ^ 52 ≤ nearestEven (y / (2 : ℝ) ^ lastBit y) := by
      have : ((2 ^ 52 : ℤ) : ℝ) ≤ y / (2 : ℝ) ^ lastBit y := by
        rw [le_div_iff₀ p1]
        refine le_trans (le_of_eq ?_) hly
        rw [zpow_add₀ (by norm_num)]
        push_cast
        rw [mul_comm]
        norm_num
      have := nearestEven_mono this
      rwa [nearestEven_int] at this
    have e1' : (nearestEven (x / (2 : ℝ) ^ lastBit x) : ℝ) ≤ 2 ^ 53 := by exact_mod_cast e1
    have e2' : (2 : ℝ) ^ 52 ≤ (nearestEven (y / (2 : ℝ) ^ lastBit y) : ℝ) := by exact_mod_cast e2
    have hpow : (2 : ℝ) ^ lastBit x * 2 ≤ (2 : ℝ) ^ lastBit y := by
      rw [← zpow_add_one₀ (by norm_num)]
      exact zpow_le_zpow_right₀ (by norm_num) (by omega)
    calc round53 x ≤ 2 ^ 53 * (2 : ℝ) ^ lastBit x := mul_le_mul_of_nonneg_right e1' p0.le
      _ = 2 ^ 52 * ((2 : ℝ) ^ lastBit x * 2) := by ring
      _ ≤ 2 ^ 52 * (2 : ℝ) ^ lastBit y := mul_le_mul_of_nonneg_left hpow (by norm_num)
      _ ≤ round53 y := mul_le_mul_of_nonneg_right e2' p1.le
  · unfold round53
    rw [hb]
    have p1 := two_zpow_pos (lastBit y)
    have := nearestEven_mono (div_le_div_of_nonneg_right h p1.le)
    exact mul_le_mul_of_nonneg_right (by exact_mod_cast this) p1.le

/-- Rounding is monotone. -/
theorem rnd_mono {x y : ℝ} (h0 : 0 ≤ x) (h : x ≤ y) : rnd x ≤ rnd y := by
  have hm := round53_mono h0 h
  have n0 := round53_nonneg h0
  have n1 := round53_nonneg (h0.trans h)
  unfold rnd
  by_cases hy : |round53 y| < (2 : ℝ) ^ (1024 : ℤ)
  · rw [if_pos hy, if_pos (by rw [abs_of_nonneg n0]; rw [abs_of_nonneg n1] at hy; exact hm.trans_lt hy)]
    exact (up_le _ _).symm ▸ hm
  · have hp : 0 < y := by
      rcases (h0.trans h).eq_or_lt with h' | h'
      · exfalso
        apply hy
        rw [← h', round53_rep representable_zero, abs_zero]
        exact two_zpow_pos _
      · exact h'
    rw [if_neg hy, if_pos hp]
    have top : ∀ a : EReal, XReal.val a ≤ XReal.val ⊤ := fun a => XReal.val_le.2 le_top
    split_ifs
    · exact top _
    · exact top _
    · exact top _

end Binary64

theorem Comparisons.binary64 : Comparisons Binary64 where
  left := XReal.le_left
  right := XReal.le_right
  trans := XReal.le_trans'
  total := XReal.le_total'
  lt_iff := XReal.lt_iff'
  zero := XReal.val_le.2 le_rfl
  literal_nonneg m s e := by
    show (0 : XReal) ≤ Binary64.roundX (OfScientific.ofScientific m s e)
    rw [up_ofScientific, Binary64.roundX_up]
    have h := Binary64.rnd_mono le_rfl (Fbstab.literal_nonneg m s e)
    have e : Binary64.rnd 0 = 0 := by
      unfold Binary64.rnd
      rw [round53_rep representable_zero, if_pos (by rw [abs_zero]; exact two_zpow_pos _)]
      exact up_zero
    rwa [e] at h
  literal m s e m' s' e' h := by
    show (Binary64.roundX (OfScientific.ofScientific m s e)) ≤ Binary64.roundX (OfScientific.ofScientific m' s' e')
    rw [up_ofScientific, up_ofScientific, Binary64.roundX_up, Binary64.roundX_up]
    refine Binary64.rnd_mono ?_ h
    exact Fbstab.literal_nonneg m s e

theorem Comparisons.withOrder (o : DotOrder) : Comparisons (Binary64.WithOrder o) where
  left := Comparisons.binary64.left
  right := Comparisons.binary64.right
  trans := Comparisons.binary64.trans
  total := Comparisons.binary64.total
  lt_iff := Comparisons.binary64.lt_iff
  zero := Comparisons.binary64.zero
  literal_nonneg := Comparisons.binary64.literal_nonneg
  literal := Comparisons.binary64.literal

end Fbstab
