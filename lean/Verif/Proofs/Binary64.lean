import Verif.Proofs.SumOrder
import Verif.Spec.Binary64
import Verif.Proofs.Up

/-!
# binary64 satisfies the standard model of rounding
-/

namespace Fbstab

/-! ### Finite results of exact operations -/

namespace XReal

theorem of_add {x y : XReal} {c : ℝ} (h : x + y = up c) : ∃ a b, x = up a ∧ y = up b ∧ c = a + b := by
  cases x with
  | nan => cases h
  | val a => cases y with
    | nan => cases h
    | val b =>
      have h : XReal.add (.val a) (.val b) = up c := h
      induction a with
      | bot => induction b <;> simp [XReal.add, up] at h
      | top => induction b <;> simp [XReal.add, up] at h
      | coe a =>
        induction b with
        | bot => simp [XReal.add, up] at h
        | top => simp [XReal.add, up] at h
        | coe b =>
          refine ⟨a, b, rfl, rfl, ?_⟩
          have e := up_add a b
          rw [show up a + up b = up c from h] at e
          exact up_inj.1 e

theorem of_neg {x : XReal} {c : ℝ} (h : -x = up c) : x = up (-c) := by
  cases x with
  | nan => cases h
  | val e =>
    have h' : (XReal.val (-e)) = .val (c : EReal) := h
    simp only [XReal.val.injEq] at h'
    simp only [up, EReal.coe_neg, ← h', neg_neg]

theorem of_sub {x y : XReal} {c : ℝ} (h : x - y = up c) : ∃ a b, x = up a ∧ y = up b ∧ c = a - b := by
  obtain ⟨a, b, h1, h2, h3⟩ := of_add (x := x) (y := XReal.neg y) h
  refine ⟨a, -b, h1, of_neg h2, by linarith⟩

theorem mul_comm' (x y : XReal) : x * y = y * x := by
  cases x with
  | nan => cases y <;> rfl
  | val a => cases y with
    | nan => rfl
    | val b =>
      show XReal.mul (.val a) (.val b) = XReal.mul (.val b) (.val a)
      simp only [XReal.mul, mul_comm a b, or_comm]

theorem of_mul {x y : XReal} {c : ℝ} (h : x * y = up c) : ∃ a b, x = up a ∧ y = up b ∧ c = a * b := by
  cases x with
  | nan => cases h
  | val a => cases y with
    | nan => cases h
    | val b =>
      have h : XReal.mul (.val a) (.val b) = up c := h
      have key : ∀ e : EReal, (e = ⊤ ∨ e = ⊥) → ∀ f : EReal, f ≠ 0 → e * f = ⊤ ∨ e * f = ⊥ := by
        rintro e (rfl | rfl) f hf
        · rcases lt_or_gt_of_ne hf with h | h
          · exact .inr (EReal.top_mul_of_neg h)
          · exact .inl (EReal.top_mul_of_pos h)
        · rcases lt_or_gt_of_ne hf with h | h
          · exact .inl (EReal.bot_mul_of_neg h)
          · exact .inr (EReal.bot_mul_of_pos h)
      by_cases ha : a = ⊤ ∨ a = ⊥
      · exfalso
        simp only [XReal.mul] at h
        by_cases hb : b = 0
        · rw [if_pos (Or.inr ⟨hb, ha⟩)] at h; cases h
        · split at h
          · cases h
          · rcases key a ha b hb with e | e <;> rw [e] at h <;> simp [up] at h
      · by_cases hb : b = ⊤ ∨ b = ⊥
        · exfalso
          simp only [XReal.mul] at h
          by_cases ha' : a = 0
          · rw [if_pos (Or.inl ⟨ha', hb⟩)] at h; cases h
          · split at h
            · cases h
            · rw [mul_comm] at h
              rcases key b hb a ha' with e | e <;> rw [e] at h <;> simp [up] at h
        · push Not at ha hb
          lift a to ℝ using ⟨ha.1, ha.2⟩
          lift b to ℝ using ⟨hb.1, hb.2⟩
          refine ⟨a, b, rfl, rfl, ?_⟩
          have e := up_mul a b
          rw [show up a * up b = up c from h] at e
          exact up_inj.1 e

theorem of_sqrt {x : XReal} {c : ℝ} (h : Scalar.sqrt x = up c) : ∃ a, x = up a ∧ 0 ≤ a ∧ c = √a := by
  cases x with
  | nan => cases h
  | val a =>
    have h' : XReal.sqrt (.val a) = up c := h
    induction a with
    | bot => simp [XReal.sqrt, up] at h'
    | top => simp [XReal.sqrt, up] at h'
    | coe a =>
      have a0 : 0 ≤ a := by
        by_contra hn
        have : ((a : ℝ) : EReal) < 0 := by exact_mod_cast not_le.1 hn
        simp only [XReal.sqrt] at h'
        rw [if_pos this] at h'
        cases h'
      refine ⟨a, rfl, a0, ?_⟩
      have e := up_sqrt a0
      rw [show Scalar.sqrt (up a) = up c from h] at e
      exact up_inj.1 e

/-- A square root is NaN, `+inf` or finite. -/
theorem sqrt_cases (x : XReal) : Scalar.sqrt x = nan ∨ Scalar.sqrt x = .val ⊤ ∨ ∃ c, Scalar.sqrt x = up c := by
  cases x with
  | nan => exact .inl rfl
  | val a =>
    show XReal.sqrt (.val a) = _ ∨ XReal.sqrt (.val a) = _ ∨ ∃ c, XReal.sqrt (.val a) = _
    unfold XReal.sqrt
    simp only
    split
    · exact .inl rfl
    · split
      · exact .inr (.inl rfl)
      · exact .inr (.inr ⟨_, rfl⟩)

end XReal

/-! ### Rounding to 53 bits -/

theorem two_zpow_pos (e : ℤ) : (0 : ℝ) < (2 : ℝ) ^ e := zpow_pos (by norm_num) e

theorem round53_sub (x : ℝ) : |round53 x - x| ≤ (2 : ℝ) ^ lastBit x / 2 := by
  have h := nearestEven_abs (x / (2 : ℝ) ^ lastBit x)
  have p := two_zpow_pos (lastBit x)
  have e : round53 x - x = (nearestEven (x / (2 : ℝ) ^ lastBit x) - x / (2 : ℝ) ^ lastBit x) * (2 : ℝ) ^ lastBit x := by
    unfold round53
    rw [sub_mul, div_mul_cancel₀ _ p.ne']
  rw [e, abs_mul, abs_of_pos p]
  calc _ ≤ 1 / 2 * (2 : ℝ) ^ lastBit x := mul_le_mul_of_nonneg_right h p.le
    _ = _ := by ring

/-- Relative error, when the exponent is not at its minimum. -/
theorem round53_rel (x : ℝ) (hx : x ≠ 0) (h : -1074 ≤ Int.log 2 |x| - 52) :
    |round53 x - x| ≤ (2 : ℝ) ^ (-53 : ℤ) * |x| := by
  refine (round53_sub x).trans ?_
  have e : lastBit x = Int.log 2 |x| - 52 := max_eq_left h
  have l : (2 : ℝ) ^ Int.log 2 |x| ≤ |x| := by
    have := Int.zpow_log_le_self (b := 2) (r := |x|) (by norm_num) (abs_pos.2 hx)
    exact_mod_cast this
  calc (2 : ℝ) ^ lastBit x / 2 = (2 : ℝ) ^ (-53 : ℤ) * (2 : ℝ) ^ Int.log 2 |x| := by
        rw [e, ← zpow_add₀ (by norm_num : (2 : ℝ) ≠ 0), div_eq_mul_inv, ← zpow_neg_one,
          ← zpow_add₀ (by norm_num : (2 : ℝ) ≠ 0)]
        congr 1; ring
    _ ≤ _ := mul_le_mul_of_nonneg_left l (two_zpow_pos _).le

theorem round53_err (x : ℝ) : |round53 x - x| ≤ (2 : ℝ) ^ (-53 : ℤ) * |x| + (2 : ℝ) ^ (-1075 : ℤ) := by
  have p := two_zpow_pos (-53)
  have p' := two_zpow_pos (-1075)
  by_cases hx : x = 0
  · subst hx
    unfold round53
    have : nearestEven ((0 : ℝ) / (2 : ℝ) ^ lastBit 0) = 0 := by
      rw [zero_div]; exact_mod_cast nearestEven_int 0
    rw [this]; simp
  · rcases le_or_gt (-1074) (Int.log 2 |x| - 52) with h | h
    · exact (round53_rel x hx h).trans (by linarith)
    · refine (round53_sub x).trans ?_
      have e : lastBit x = -1074 := max_eq_right h.le
      have : (2 : ℝ) ^ lastBit x / 2 = (2 : ℝ) ^ (-1075 : ℤ) := by
        rw [e, div_eq_mul_inv, ← zpow_neg_one, ← zpow_add₀ (by norm_num : (2 : ℝ) ≠ 0)]
        norm_num
      rw [this]
      have := abs_nonneg x
      nlinarith [mul_nonneg p.le this]

/-- Integer multiples of the last bit are kept. -/
theorem round53_mult {x : ℝ} {m : ℤ} (h : x = m * (2 : ℝ) ^ lastBit x) : round53 x = x := by
  have p := two_zpow_pos (lastBit x)
  have e : x / (2 : ℝ) ^ lastBit x = m := by rw [div_eq_iff p.ne']; exact h
  unfold round53
  rw [e, nearestEven_int]
  exact h.symm

theorem mult_of_le {m : ℤ} {e e' : ℤ} (h : e ≤ e') : ∃ k : ℤ, (m : ℝ) * (2 : ℝ) ^ e' = k * (2 : ℝ) ^ e := by
  refine ⟨m * 2 ^ (e' - e).toNat, ?_⟩
  have : ((2 : ℝ) ^ e') = (2 : ℝ) ^ (e' - e).toNat * (2 : ℝ) ^ e := by
    rw [← zpow_natCast, ← zpow_add₀ (by norm_num : (2 : ℝ) ≠ 0), Int.toNat_of_nonneg (by omega)]
    congr 1; ring
  rw [this]; push_cast; ring

theorem round53_rep {r : ℝ} (h : Representable r) : round53 r = r := by
  obtain ⟨m, e, h1, h2, h3, -⟩ := h
  by_cases hr : r = 0
  · refine round53_mult (m := 0) ?_
    rw [hr]; simp
  have hlog : (2 : ℝ) ^ Int.log 2 |r| ≤ |r| := by
    have := Int.zpow_log_le_self (b := 2) (r := |r|) (by norm_num) (abs_pos.2 hr)
    exact_mod_cast this
  have hm : |r| = |(m : ℝ)| * (2 : ℝ) ^ e := by rw [h3, abs_mul, abs_of_pos (two_zpow_pos e)]
  have h1' : |(m : ℝ)| ≤ (2 : ℝ) ^ (53 : ℤ) := by
    have : (|m| : ℝ) ≤ 2 ^ 53 := by exact_mod_cast h1
    exact_mod_cast this
  have hle : (2 : ℝ) ^ Int.log 2 |r| ≤ (2 : ℝ) ^ (53 + e) := by
    rw [zpow_add₀ (by norm_num : (2 : ℝ) ≠ 0)]
    refine hlog.trans ?_
    rw [hm]
    exact mul_le_mul_of_nonneg_right h1' (two_zpow_pos e).le
  have hle' : Int.log 2 |r| ≤ 53 + e := (zpow_le_zpow_iff_right₀ (by norm_num)).1 hle
  rcases le_or_gt (lastBit r) e with hb | hb
  · obtain ⟨k, hk⟩ := mult_of_le (m := m) hb
    exact round53_mult (m := k) (by rw [← hk]; exact h3)
  · -- only for `|m| = 2^53`
    have e1 : lastBit r = Int.log 2 |r| - 52 := by
      unfold lastBit at hb ⊢
      rcases le_total (Int.log 2 |r| - 52) (-1074) with h | h
      · rw [max_eq_right h] at hb; omega
      · exact max_eq_left h
    have e2 : Int.log 2 |r| = 53 + e := by omega
    have e3 : |(m : ℝ)| = (2 : ℝ) ^ (53 : ℤ) := by
      refine le_antisymm h1' ?_
      rw [e2, hm, zpow_add₀ (by norm_num : (2 : ℝ) ≠ 0)] at hlog
      exact le_of_mul_le_mul_right hlog (two_zpow_pos e)
    have e4 : lastBit r = e + 1 := by omega
    have e5 : (m : ℝ) = 2 ^ 53 ∨ (m : ℝ) = -2 ^ 53 := by
      have : |(m : ℝ)| = 2 ^ 53 := by rw [e3]; norm_cast
      exact eq_or_eq_neg_of_abs_eq this
    have e6 : (2 : ℝ) ^ (e + 1) = 2 * (2 : ℝ) ^ e := by
      rw [zpow_add₀ (by norm_num : (2 : ℝ) ≠ 0), zpow_one, mul_comm]
    rcases e5 with e5 | e5
    · refine round53_mult (m := 2 ^ 52) ?_
      rw [e4, e6]; conv_lhs => rw [h3, e5]
      push_cast; ring
    · refine round53_mult (m := -2 ^ 52) ?_
      rw [e4, e6]; conv_lhs => rw [h3, e5]
      push_cast; ring

/-- A representable number is a multiple of the smallest one. -/
theorem Representable.mult {r : ℝ} (h : Representable r) : ∃ k : ℤ, r = k * (2 : ℝ) ^ (-1074 : ℤ) := by
  obtain ⟨m, e, -, h2, h3, -⟩ := h
  obtain ⟨k, hk⟩ := mult_of_le (m := m) h2
  exact ⟨k, by rw [h3, hk]⟩

/-- No underflow in sums. -/
theorem round53_grid {x : ℝ} {k : ℤ} (h : x = k * (2 : ℝ) ^ (-1074 : ℤ)) :
    |round53 x - x| ≤ (2 : ℝ) ^ (-53 : ℤ) * |x| := by
  have p := two_zpow_pos (-53)
  by_cases hx : x = 0
  · have := round53_err x
    have e : round53 x = x := round53_mult (m := 0) (by rw [hx]; simp)
    rw [e, sub_self, abs_zero]; positivity
  · rcases le_or_gt (-1074) (Int.log 2 |x| - 52) with h1 | h1
    · exact round53_rel x hx h1
    · have e : lastBit x = -1074 := max_eq_right h1.le
      rw [round53_mult (m := k) (by rw [e]; exact h), sub_self, abs_zero]; positivity

theorem round53_sqrt {a : ℝ} (h : Representable a) (h0 : 0 ≤ a) :
    |round53 √a - √a| ≤ (2 : ℝ) ^ (-53 : ℤ) * √a := by
  have p := two_zpow_pos (-53)
  rcases h0.eq_or_lt with h1 | h1
  · rw [← h1, Real.sqrt_zero]
    have e : round53 0 = 0 := round53_mult (m := 0) (by simp)
    rw [e]; simp
  · have s := Real.sqrt_pos.2 h1
    have := round53_rel √a s.ne' ?_
    · rwa [abs_of_pos s] at this
    · obtain ⟨k, hk⟩ := h.mult
      have k0 : (1 : ℝ) ≤ k := by
        have : (0 : ℝ) < k := by
          by_contra hn
          have : a ≤ 0 := by rw [hk]; exact mul_nonpos_of_nonpos_of_nonneg (not_lt.1 hn) (two_zpow_pos _).le
          linarith
        exact_mod_cast (by exact_mod_cast this : (0 : ℤ) < k)
      have ha : (2 : ℝ) ^ (-1074 : ℤ) ≤ a := by rw [hk]; exact le_mul_of_one_le_left (two_zpow_pos _).le k0
      have hs : (2 : ℝ) ^ (-537 : ℤ) ≤ √a := by
        refine Real.le_sqrt_of_sq_le ?_
        refine le_trans (le_of_eq ?_) ha
        rw [sq, ← zpow_add₀ (by norm_num : (2 : ℝ) ≠ 0)]
        norm_num
      rw [abs_of_pos s]
      have : (-537 : ℤ) ≤ Int.log 2 √a := by
        rw [← Int.zpow_le_iff_le_log (by norm_num) s]
        exact_mod_cast hs
      omega

theorem nearestEven_nonneg {x : ℝ} (h : 0 ≤ x) : 0 ≤ nearestEven x := by
  have := Int.floor_nonneg.2 h
  unfold nearestEven
  split_ifs <;> omega

theorem nearestEven_nonpos {x : ℝ} (h : x ≤ 0) : nearestEven x ≤ 0 := by
  rcases h.eq_or_lt with rfl | h
  · rw [show (0 : ℝ) = ((0 : ℤ) : ℝ) by simp, nearestEven_int]
  · have : ⌊x⌋ < 0 := Int.floor_lt.2 (by exact_mod_cast h)
    unfold nearestEven
    split_ifs <;> omega

theorem round53_nonneg {x : ℝ} (h : 0 ≤ x) : 0 ≤ round53 x := by
  have p := two_zpow_pos (lastBit x)
  have := nearestEven_nonneg (div_nonneg h p.le)
  exact mul_nonneg (by exact_mod_cast this) p.le

theorem round53_nonpos {x : ℝ} (h : x ≤ 0) : round53 x ≤ 0 := by
  have p := two_zpow_pos (lastBit x)
  have := nearestEven_nonpos (div_nonpos_of_nonpos_of_nonneg h p.le)
  exact mul_nonpos_of_nonpos_of_nonneg (by exact_mod_cast this) p.le

/-! ### The arithmetic -/

namespace Binary64

theorem toReal_eq {a : Binary64} {r : ℝ} : a.toReal = some r ↔ a.x = up r := by
  unfold toReal
  cases a.x with
  | nan => simp [up]
  | val e =>
    induction e <;> simp [up]

theorem roundX_up (r : ℝ) : roundX (up r) = rnd r := by
  unfold roundX
  have h : ∃ r', up r = up r' := ⟨r, rfl⟩
  rw [dif_pos h, ← up_inj.1 h.choose_spec]

theorem rnd_eq {r c : ℝ} (h : rnd r = up c) : c = round53 r := by
  unfold rnd at h
  split at h
  · exact (up_inj.1 h).symm
  · split at h <;> simp [up] at h

theorem of_round {x : XReal} {c : ℝ} (h : (round x).toReal = some c) : ∃ r, x = up r ∧ c = round53 r := by
  rw [toReal_eq] at h
  have h : roundX x = up c := h
  unfold roundX at h
  split at h
  · rename_i hx
    exact ⟨_, hx.choose_spec, rnd_eq h⟩
  · rename_i hx
    exact absurd ⟨c, h⟩ hx

theorem round_exact {x : XReal} {r : ℝ} (h : x = up r) (hr : Representable r) : (round x).toReal = some r := by
  rw [toReal_eq]
  show roundX x = up r
  rw [h, roundX_up, rnd, round53_rep hr, if_pos]
  exact hr.choose_spec.choose_spec.2.2.2

theorem round_other {x : XReal} (h : ¬∃ r, x = up r) : (round x).x = x := by
  show roundX x = x
  unfold roundX
  rw [dif_neg h]

theorem round_none {x : XReal} (h : ¬∃ r, x = up r) : (round x).toReal = none := by
  cases hr : (round x).toReal with
  | none => rfl
  | some c =>
    obtain ⟨r, e, -⟩ := of_round hr
    exact absurd ⟨r, e⟩ h

theorem toReal_none {a : Binary64} (h : a.toReal = none) : ¬∃ r, a.x = up r := by
  rintro ⟨r, e⟩
  rw [toReal_eq.2 e] at h
  cases h

theorem neg_toReal (a : Binary64) : (-a).toReal = a.toReal.map (-·) := by
  cases h : a.toReal with
  | some r =>
    rw [Option.map_some, toReal_eq]
    show -a.x = _
    rw [toReal_eq.1 h, up_neg]
  | none =>
    rw [Option.map_none]
    cases h' : (-a).toReal with
    | none => rfl
    | some c =>
      exfalso
      refine toReal_none h ⟨-c, XReal.of_neg ?_⟩
      exact toReal_eq.1 h'

theorem add_err (x y : Binary64) (c : ℝ) (h : (x + y).toReal = some c) :
    ∃ a b, x.toReal = some a ∧ y.toReal = some b ∧ |c - (a + b)| ≤ (2 : ℝ) ^ (-53 : ℤ) * |a + b| := by
  obtain ⟨r, h1, rfl⟩ := of_round h
  obtain ⟨a, b, ha, hb, rfl⟩ := XReal.of_add h1
  refine ⟨a, b, toReal_eq.2 ha, toReal_eq.2 hb, ?_⟩
  obtain ⟨k, hk⟩ := (x.rep a ha).mult
  obtain ⟨k', hk'⟩ := (y.rep b hb).mult
  exact round53_grid (k := k + k') (by rw [hk, hk']; push_cast; ring)

theorem mul_err (x y : Binary64) (c : ℝ) (h : (x * y).toReal = some c) :
    ∃ a b, x.toReal = some a ∧ y.toReal = some b ∧
      |c - a * b| ≤ (2 : ℝ) ^ (-53 : ℤ) * |a * b| + (2 : ℝ) ^ (-1075 : ℤ) ∧ (0 ≤ a * b → 0 ≤ c) ∧ (a * b ≤ 0 → c ≤ 0) := by
  obtain ⟨r, h1, rfl⟩ := of_round h
  obtain ⟨a, b, ha, hb, rfl⟩ := XReal.of_mul h1
  exact ⟨a, b, toReal_eq.2 ha, toReal_eq.2 hb, round53_err _, round53_nonneg, round53_nonpos⟩

theorem add_zero_exact (x y : Binary64) (h : y.toReal = some 0) : (x + y).toReal = x.toReal := by
  have hy := toReal_eq.1 h
  show (round (x.x + y.x)).toReal = _
  rw [hy]
  cases hx : x.toReal with
  | some r =>
    have e := toReal_eq.1 hx
    rw [e, up_add, add_zero]
    exact round_exact rfl (x.rep r e)
  | none =>
    refine round_none ?_
    rintro ⟨r, e⟩
    obtain ⟨a, _, ha, -, -⟩ := XReal.of_add e
    exact toReal_none hx ⟨a, ha⟩

theorem zero_add_exact (x y : Binary64) (h : x.toReal = some 0) : (x + y).toReal = y.toReal := by
  have hx := toReal_eq.1 h
  show (round (x.x + y.x)).toReal = _
  rw [hx]
  cases hy : y.toReal with
  | some r =>
    have e := toReal_eq.1 hy
    rw [e, up_add, zero_add]
    exact round_exact rfl (y.rep r e)
  | none =>
    refine round_none ?_
    rintro ⟨r, e⟩
    obtain ⟨_, a, -, ha, -⟩ := XReal.of_add e
    exact toReal_none hy ⟨a, ha⟩

theorem sumArith : SumArith Binary64 fma toReal ((2 : ℝ) ^ (-53 : ℤ)) ((2 : ℝ) ^ (-1075 : ℤ)) where
  u_nonneg := (two_zpow_pos _).le
  eta_nonneg := (two_zpow_pos _).le
  zero := toReal_eq.2 up_zero
  add := add_err
  mul x y c h := by
    obtain ⟨a, b, h1, h2, h3, -⟩ := mul_err x y c h
    exact ⟨a, b, h1, h2, h3⟩
  fma x y z c h := by
    obtain ⟨r, h1, rfl⟩ := of_round h
    obtain ⟨p, d, hp, hd, rfl⟩ := XReal.of_add h1
    obtain ⟨a, b, ha, hb, rfl⟩ := XReal.of_mul hp
    exact ⟨a, b, d, toReal_eq.2 ha, toReal_eq.2 hb, toReal_eq.2 hd, round53_err _⟩
  add_of_zero := add_zero_exact
  add_of_zero_left := zero_add_exact

/-- `double` satisfies the assumptions on rounded arithmetic. -/
noncomputable def rounding : Rounding Binary64 ((2 : ℝ) ^ (-53 : ℤ)) ((2 : ℝ) ^ (-1075 : ℤ)) where
  toReal := toReal
  u_nonneg := (two_zpow_pos _).le
  eta_nonneg := (two_zpow_pos _).le
  zero := toReal_eq.2 up_zero
  one := toReal_eq.2 up_one
  neg := neg_toReal
  add := add_err
  sub x y c h := by
    obtain ⟨r, h1, rfl⟩ := of_round h
    obtain ⟨a, b, ha, hb, rfl⟩ := XReal.of_sub h1
    refine ⟨a, b, toReal_eq.2 ha, toReal_eq.2 hb, ?_⟩
    obtain ⟨k, hk⟩ := (x.rep a ha).mult
    obtain ⟨k', hk'⟩ := (y.rep b hb).mult
    exact round53_grid (k := k - k') (by rw [hk, hk']; push_cast; ring)
  mul := mul_err
  mul_swap x y := by
    show (round (x.x * y.x)).toReal = (round (y.x * x.x)).toReal
    rw [XReal.mul_comm' x.x y.x]
  add_of_zero := add_zero_exact
  add_of_zero_left := zero_add_exact
  mul_of_zero x y b hx hy := by
    show (round (x.x * y.x)).toReal = _
    rw [toReal_eq.1 hx, toReal_eq.1 hy, up_mul, MulZeroClass.zero_mul]
    exact round_exact rfl ⟨0, 0, by norm_num, by norm_num, by simp, by simp⟩
  one_mul a x h := by
    have ha := toReal_eq.1 h
    show (round (a.x * x.x)).toReal = _
    rw [ha]
    cases hx : x.toReal with
    | some r =>
      have e := toReal_eq.1 hx
      rw [e, up_mul, one_mul]
      exact round_exact rfl (x.rep r e)
    | none =>
      refine round_none ?_
      rintro ⟨r, e⟩
      obtain ⟨_, b, -, hb, -⟩ := XReal.of_mul e
      exact toReal_none hx ⟨b, hb⟩
  neg_one_mul a x h := by
    have ha := toReal_eq.1 h
    show (round (a.x * x.x)).toReal = _
    rw [ha]
    cases hx : x.toReal with
    | some r =>
      have e := toReal_eq.1 hx
      rw [e, up_mul, neg_one_mul]
      exact round_exact rfl (representable_neg (x.rep r e))
    | none =>
      refine round_none ?_
      rintro ⟨r, e⟩
      obtain ⟨_, b, -, hb, -⟩ := XReal.of_mul e
      exact toReal_none hx ⟨b, hb⟩
  sqrt x c h := by
    obtain ⟨r, h1, rfl⟩ := of_round h
    obtain ⟨a, ha, h0, rfl⟩ := XReal.of_sqrt h1
    exact ⟨a, toReal_eq.2 ha, h0, round53_sqrt (x.rep a ha) h0⟩
  dot n x y c h := by
    refine sumArith.dot x y (.left n _) (SumOrder.left_sums _) c ?_
    rw [SumOrder.left_eval]; exact h
  lt x y a b hx hy := by
    show x.x < y.x ↔ _
    rw [toReal_eq.1 hx, toReal_eq.1 hy, up_lt]
  le x y a b hx hy := by
    show x.x ≤ y.x ↔ _
    rw [toReal_eq.1 hx, toReal_eq.1 hy, up_le]
  beq x y a b hx hy := by
    show (x.x == y.x) = true ↔ _
    rw [toReal_eq.1 hx, toReal_eq.1 hy, up_beq]
    show decide (a = b) = true ↔ _
    simp
  sqrt_finite x y b h hy := by
    have h : (round (Scalar.sqrt x.x)).x ≤ y.x := h
    rw [toReal_eq.1 hy] at h
    show ∃ c, (round (Scalar.sqrt x.x)).toReal = some c
    rcases XReal.sqrt_cases x.x with e | e | ⟨c, e⟩
    · rw [e, round_other (by rintro ⟨r, h⟩; cases h)] at h
      exact absurd h XReal.nan_le
    · rw [e, round_other (by rintro ⟨r, h⟩; simp [up] at h)] at h
      have h : (⊤ : EReal) ≤ (b : EReal) := h
      simp at h
    · rw [e] at h ⊢
      have h : rnd c ≤ up b := by rw [← roundX_up]; exact h
      unfold rnd at h
      by_cases h1 : |round53 c| < (2 : ℝ) ^ (1024 : ℤ)
      · refine ⟨round53 c, toReal_eq.2 ?_⟩
        show roundX (up c) = _
        rw [roundX_up, rnd, if_pos h1]
      · exfalso
        obtain ⟨a, -, h0, hc⟩ := XReal.of_sqrt e
        have c0 : 0 ≤ c := by rw [hc]; exact Real.sqrt_nonneg a
        rcases c0.eq_or_lt with h2 | h2
        · apply h1
          rw [← h2, round53_mult (m := 0) (by simp), abs_zero]
          exact two_zpow_pos _
        · rw [if_neg h1, if_pos h2] at h
          have h : (⊤ : EReal) ≤ (b : EReal) := h
          simp at h
  above x y a hx h := by
    have h : x.x < y.x := h
    rw [toReal_eq.1 hx] at h
    cases hy : y.x with
    | nan => rw [hy] at h; exact absurd h XReal.lt_nan
    | val e =>
      rw [hy] at h
      have h : (a : EReal) < e := h
      induction e with
      | bot => simp at h
      | coe b => exact .inr ⟨b, toReal_eq.2 hy⟩
      | top =>
        left
        show (0 : XReal) < y.x
        rw [hy]
        show (0 : EReal) < ⊤
        exact EReal.coe_lt_top 0

/-- `double` satisfies the assumptions on rounded arithmetic, whatever the order of summation. -/
noncomputable def rounding_of_order (o : DotOrder) :
    Rounding (WithOrder o) ((2 : ℝ) ^ (-53 : ℤ)) ((2 : ℝ) ^ (-1075 : ℤ)) where
  toReal := toReal
  u_nonneg := rounding.u_nonneg
  eta_nonneg := rounding.eta_nonneg
  zero := rounding.zero
  one := rounding.one
  neg := rounding.neg
  add := rounding.add
  sub := rounding.sub
  mul := rounding.mul
  mul_swap := rounding.mul_swap
  add_of_zero := rounding.add_of_zero
  add_of_zero_left := rounding.add_of_zero_left
  mul_of_zero := rounding.mul_of_zero
  one_mul := rounding.one_mul
  neg_one_mul := rounding.neg_one_mul
  sqrt := rounding.sqrt
  dot n x y c h := sumArith.dot x y _ (o.sums n _ x y) c h
  lt := rounding.lt
  le := rounding.le
  beq := rounding.beq
  sqrt_finite := rounding.sqrt_finite
  above := rounding.above

end Binary64

/-! ### Exact arithmetic -/

namespace XReal

/-- The finite value. -/
noncomputable def real : XReal → Option ℝ
  | .nan => none
  | .val e => if e = ⊤ ∨ e = ⊥ then none else some e.toReal

theorem real_eq {a : XReal} {r : ℝ} : a.real = some r ↔ a = up r := by
  unfold real
  cases a with
  | nan => simp [up]
  | val e => induction e <;> simp [up]

theorem real_none {a : XReal} (h : a.real = none) : ¬∃ r, a = up r := by
  rintro ⟨r, e⟩
  rw [real_eq.2 e] at h
  cases h

theorem real_map {a b : XReal} {f : ℝ → ℝ} (h : ∀ r, a = up r → b = up (f r)) (h' : ∀ c, b = up c → ∃ r, a = up r) :
    b.real = a.real.map f := by
  cases ha : a.real with
  | some r => rw [Option.map_some, real_eq, h r (real_eq.1 ha)]
  | none =>
    rw [Option.map_none]
    cases hb : b.real with
    | none => rfl
    | some c => exact absurd (h' c (real_eq.1 hb)) (real_none ha)

theorem add_zero_exact (x y : XReal) (h : y.real = some 0) : (x + y).real = x.real := by
  have := real_map (a := x) (b := x + y) (f := id) (fun r e => by rw [e, real_eq.1 h, up_add, _root_.add_zero]; rfl)
    (fun c e => by obtain ⟨a, _, ha, -, -⟩ := of_add e; exact ⟨a, ha⟩)
  rw [this]; simp

theorem zero_add_exact (x y : XReal) (h : x.real = some 0) : (x + y).real = y.real := by
  have := real_map (a := y) (b := x + y) (f := id) (fun r e => by rw [e, real_eq.1 h, up_add, _root_.zero_add]; rfl)
    (fun c e => by obtain ⟨_, a, -, ha, -⟩ := of_add e; exact ⟨a, ha⟩)
  rw [this]; simp

theorem sumArith : SumArith XReal (fun a b c => a * b + c) real 0 0 where
  u_nonneg := le_rfl
  eta_nonneg := le_rfl
  zero := real_eq.2 up_zero
  add x y c h := by
    obtain ⟨a, b, ha, hb, rfl⟩ := of_add (real_eq.1 h)
    exact ⟨a, b, real_eq.2 ha, real_eq.2 hb, by simp⟩
  mul x y c h := by
    obtain ⟨a, b, ha, hb, rfl⟩ := of_mul (real_eq.1 h)
    exact ⟨a, b, real_eq.2 ha, real_eq.2 hb, by simp⟩
  fma x y z c h := by
    obtain ⟨p, d, hp, hd, rfl⟩ := of_add (real_eq.1 h)
    obtain ⟨a, b, ha, hb, rfl⟩ := of_mul hp
    exact ⟨a, b, d, real_eq.2 ha, real_eq.2 hb, real_eq.2 hd, by simp⟩
  add_of_zero := add_zero_exact
  add_of_zero_left := zero_add_exact

/-- Exact arithmetic with infinities and NaN satisfies the assumptions on rounded arithmetic, with no
rounding error. -/
noncomputable def rounding : Rounding XReal 0 0 where
  toReal := real
  u_nonneg := le_rfl
  eta_nonneg := le_rfl
  zero := real_eq.2 up_zero
  one := real_eq.2 up_one
  neg x := real_map (fun r e => by rw [e, up_neg]) (fun c e => ⟨-c, of_neg e⟩)
  add x y c h := by
    obtain ⟨a, b, ha, hb, rfl⟩ := of_add (real_eq.1 h)
    exact ⟨a, b, real_eq.2 ha, real_eq.2 hb, by simp⟩
  sub x y c h := by
    obtain ⟨a, b, ha, hb, rfl⟩ := of_sub (real_eq.1 h)
    exact ⟨a, b, real_eq.2 ha, real_eq.2 hb, by simp⟩
  mul x y c h := by
    obtain ⟨a, b, ha, hb, rfl⟩ := of_mul (real_eq.1 h)
    exact ⟨a, b, real_eq.2 ha, real_eq.2 hb, by simp, id, id⟩
  mul_swap x y := by rw [mul_comm']
  add_of_zero := add_zero_exact
  add_of_zero_left := zero_add_exact
  mul_of_zero x y b hx hy := by
    rw [real_eq.1 hx, real_eq.1 hy, up_mul, MulZeroClass.zero_mul]; exact real_eq.2 rfl
  one_mul a x h := by
    have := real_map (a := x) (b := a * x) (f := id) (fun r e => by rw [e, real_eq.1 h, up_mul, _root_.one_mul]; rfl)
      (fun c e => by obtain ⟨_, b, -, hb, -⟩ := of_mul e; exact ⟨b, hb⟩)
    rw [this]; simp
  neg_one_mul a x h := real_map (fun r e => by rw [e, real_eq.1 h, up_mul, _root_.neg_one_mul])
    (fun c e => by obtain ⟨_, b, -, hb, -⟩ := of_mul e; exact ⟨b, hb⟩)
  sqrt x c h := by
    obtain ⟨a, ha, h0, rfl⟩ := of_sqrt (real_eq.1 h)
    exact ⟨a, real_eq.2 ha, h0, by simp⟩
  dot n x y c h := by
    refine sumArith.dot x y (.left n _) (SumOrder.left_sums _) c ?_
    rw [SumOrder.left_eval]; exact h
  lt x y a b hx hy := by rw [real_eq.1 hx, real_eq.1 hy, up_lt]
  le x y a b hx hy := by rw [real_eq.1 hx, real_eq.1 hy, up_le]
  beq x y a b hx hy := by
    rw [real_eq.1 hx, real_eq.1 hy, up_beq]
    show decide (a = b) = true ↔ _
    simp
  sqrt_finite x y b h hy := by
    rw [real_eq.1 hy] at h
    rcases sqrt_cases x with e | e | ⟨c, e⟩
    · rw [e] at h; exact absurd h nan_le
    · rw [e] at h
      have h : (⊤ : EReal) ≤ (b : EReal) := h
      simp at h
    · exact ⟨c, real_eq.2 e⟩
  above x y a hx h := by
    rw [real_eq.1 hx] at h
    cases y with
    | nan => exact absurd h lt_nan
    | val e =>
      have h : (a : EReal) < e := h
      induction e with
      | bot => simp at h
      | coe b => exact .inr ⟨b, real_eq.2 rfl⟩
      | top =>
        left
        show (0 : EReal) < ⊤
        exact EReal.coe_lt_top 0

end XReal
end Fbstab
