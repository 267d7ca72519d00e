import Verif.Proofs.Pfb

/-!
# How the penalized Fischer-Burmeister function changes along a step

No derivatives: explicit inequalities for the square of the function at `(a + p, b + r)`, with the slopes
the solver uses, including the constant slopes it uses close to the origin.
-/

namespace Fbstab

/-- The Euclidean norm of a pair. -/
noncomputable def hyp (a b : ℝ) : ℝ := √(a * a + b * b)

theorem hyp_nonneg (a b : ℝ) : 0 ≤ hyp a b := Real.sqrt_nonneg _

theorem hyp_sq (a b : ℝ) : hyp a b * hyp a b = a * a + b * b :=
  Real.mul_self_sqrt (by nlinarith [mul_self_nonneg a, mul_self_nonneg b])

theorem abs_le_hyp (a b : ℝ) : |a| ≤ hyp a b := abs_le_hypot a b

theorem abs_le_hyp' (a b : ℝ) : |b| ≤ hyp a b := by
  unfold hyp; rw [add_comm]; exact abs_le_hypot b a

theorem hyp_le_add (a b : ℝ) : hyp a b ≤ |a| + |b| := by
  refine abs_le_of_sq_le_sq' ?_ (by positivity) |>.2
  rw [sq, hyp_sq]
  have h1 := abs_mul_abs_self a
  have h2 := abs_mul_abs_self b
  nlinarith [mul_nonneg (abs_nonneg a) (abs_nonneg b)]

/-- The tangent of the norm from below. -/
theorem hyp_tangent {a b : ℝ} (h : 0 < hyp a b) (p r : ℝ) :
    hyp a b + (a * p + b * r) / hyp a b ≤ hyp (a + p) (b + r) := by
  have e : hyp a b + (a * p + b * r) / hyp a b = (a * (a + p) + b * (b + r)) / hyp a b := by
    rw [eq_div_iff h.ne', add_mul, div_mul_cancel₀ _ h.ne', hyp_sq]; ring
  rw [e, div_le_iff₀ h]
  refine abs_le_of_sq_le_sq' ?_ (mul_nonneg (hyp_nonneg _ _) h.le) |>.2
  have h1 := hyp_sq (a + p) (b + r)
  have h2 := hyp_sq a b
  have e2 : (hyp (a + p) (b + r) * hyp a b) ^ 2 =
    ((a + p) * (a + p) + (b + r) * (b + r)) * (a * a + b * b) := by
    rw [← h1, ← h2]; ring
  rw [e2]
  nlinarith [sq_nonneg (a * (b + r) - b * (a + p))]

/-- and its distance. -/
theorem hyp_tangent_gap {a b : ℝ} (h : 0 < hyp a b) (p r : ℝ) :
    hyp (a + p) (b + r) ≤ hyp a b + (a * p + b * r) / hyp a b + (p * p + r * r) / (2 * hyp a b) := by
  have h1 := hyp_sq (a + p) (b + r)
  have h2 := hyp_sq a b
  have e : hyp a b + (a * p + b * r) / hyp a b + (p * p + r * r) / (2 * hyp a b) =
      (2 * (hyp a b * hyp a b) + 2 * (a * p + b * r) + (p * p + r * r)) / (2 * hyp a b) := by
    field_simp
  rw [e, le_div_iff₀ (by positivity), h2]
  nlinarith [sq_nonneg (hyp (a + p) (b + r) - hyp a b)]

theorem pfb_hyp (a b alpha : ℝ) :
    pfb a b alpha = alpha * (a + b - hyp a b) + (1 - alpha) * (max 0 a * max 0 b) := by
  rw [pfb_real, hyp]; ring

theorem fb_le_min (a b : ℝ) : a + b - hyp a b ≤ min a b := by
  have h1 := (le_abs_self a).trans (abs_le_hyp a b)
  have h2 := (le_abs_self b).trans (abs_le_hyp' a b)
  exact le_min (by linarith) (by linarith)

theorem abs_fb_le (a b : ℝ) : |a + b - hyp a b| ≤ 3 * hyp a b := by
  have h1 := abs_le.1 (abs_le_hyp a b)
  have h2 := abs_le.1 (abs_le_hyp' a b)
  have := hyp_nonneg a b
  rw [abs_le]
  constructor <;> linarith

theorem abs_max_zero_sub (a p : ℝ) : |max 0 (a + p) - max 0 a| ≤ |p| := by
  have := abs_max_sub_max_le_max 0 (a + p) 0 a
  simpa using this

/-- The function is Lipschitz on bounded sets. -/
theorem pfb_lipschitz {alpha : ℝ} (h0 : 0 < alpha) (h1 : alpha < 1) {a b p r B dl : ℝ}
    (hb : |b| ≤ B) (ha' : |a + p| ≤ B) (hp : |p| ≤ dl) (hr : |r| ≤ dl) :
    |pfb (a + p) (b + r) alpha - pfb a b alpha| ≤ (4 + 2 * B) * dl := by
  have hB : 0 ≤ B := (abs_nonneg _).trans hb
  have hd : 0 ≤ dl := (abs_nonneg _).trans hp
  have e : pfb (a + p) (b + r) alpha - pfb a b alpha =
      alpha * ((p + r) - (hyp (a + p) (b + r) - hyp a b)) +
      (1 - alpha) * (max 0 (a + p) * (max 0 (b + r) - max 0 b) + (max 0 (a + p) - max 0 a) * max 0 b) := by
    rw [pfb_hyp, pfb_hyp]; ring
  have hh : |hyp (a + p) (b + r) - hyp a b| ≤ 2 * dl := by
    have key : ∀ a b p r : ℝ, |p| ≤ dl → |r| ≤ dl → hyp (a + p) (b + r) - hyp a b ≤ 2 * dl := by
      intro a b p r hp hr
      have h3 : hyp (a + p) (b + r) ≤ hyp a b + (|p| + |r|) := by
        refine abs_le_of_sq_le_sq' ?_ (by have := hyp_nonneg a b; positivity) |>.2
        rw [sq, hyp_sq]
        have e1 := hyp_sq a b
        have e2 := abs_le_hyp a b
        have e3 := abs_le_hyp' a b
        have e4 : a * p ≤ hyp a b * |p| := by
          refine (le_abs_self _).trans ?_
          rw [abs_mul]
          exact mul_le_mul_of_nonneg_right e2 (abs_nonneg _)
        have e5 : b * r ≤ hyp a b * |r| := by
          refine (le_abs_self _).trans ?_
          rw [abs_mul]
          exact mul_le_mul_of_nonneg_right e3 (abs_nonneg _)
        have e6 := abs_mul_abs_self p
        have e7 := abs_mul_abs_self r
        nlinarith [mul_nonneg (abs_nonneg p) (abs_nonneg r)]
      linarith
    rw [abs_le]
    refine ⟨?_, key a b p r hp hr⟩
    have := key (a + p) (b + r) (-p) (-r) (by rwa [abs_neg]) (by rwa [abs_neg])
    rw [add_neg_cancel_right, add_neg_cancel_right] at this
    linarith
  have hm1 : |max 0 (a + p)| ≤ B := by
    rw [abs_of_nonneg (le_max_left _ _)]; exact max_le hB ((le_abs_self _).trans ha')
  have hm2 : |max 0 b| ≤ B := by
    rw [abs_of_nonneg (le_max_left _ _)]; exact max_le hB ((le_abs_self _).trans hb)
  have hm3 := (abs_max_zero_sub a p).trans hp
  have hm4 := (abs_max_zero_sub b r).trans hr
  rw [e]
  have t1 : |(p + r) - (hyp (a + p) (b + r) - hyp a b)| ≤ 4 * dl := by
    refine (abs_sub _ _).trans ?_
    have := abs_add_le p r
    linarith
  have t2 : |max 0 (a + p) * (max 0 (b + r) - max 0 b) + (max 0 (a + p) - max 0 a) * max 0 b| ≤ 2 * B * dl := by
    refine (abs_add_le _ _).trans ?_
    rw [abs_mul, abs_mul]
    have := mul_le_mul hm1 hm4 (abs_nonneg _) hB
    have := mul_le_mul hm3 hm2 (abs_nonneg _) hd
    linarith
  refine (abs_add_le _ _).trans ?_
  rw [abs_mul, abs_mul, abs_of_pos h0, abs_of_pos (by linarith : 0 < 1 - alpha)]
  have h3 : 0 ≤ 4 * dl := by positivity
  have h4 : 0 ≤ 2 * B * dl := by positivity
  have t3 := mul_le_mul_of_nonneg_left t1 h0.le
  have t4 := mul_le_mul_of_nonneg_left t2 (by linarith : 0 ≤ 1 - alpha)
  nlinarith

/-- The error of the linear model of the penalty, times the function, is of second order. -/
theorem penalty_gap {alpha : ℝ} (h0 : 0 < alpha) (h1 : alpha < 1) {a b p r B dl : ℝ}
    (ha : |a| ≤ B) (hb : |b| ≤ B) (hp : |p| ≤ dl) (hr : |r| ≤ dl) (hdB : dl ≤ 2 * B) :
    pfb a b alpha * ((1 - alpha) * (max 0 (a + p) * max 0 (b + r) - max 0 a * max 0 b -
      (if 0 < a ∧ 0 < b then b * p + a * r else 0))) ≤ 3 * B * (1 + B) * (dl * dl) := by
  have hB : 0 ≤ B := (abs_nonneg _).trans hb
  have hd : 0 ≤ dl := (abs_nonneg _).trans hp
  have hRHS : 0 ≤ 3 * B * (1 + B) * (dl * dl) := by positivity
  have h1a : 0 ≤ 1 - alpha := by linarith
  have hmin := fb_le_min a b
  by_cases hab : 0 < a ∧ 0 < b
  · rw [if_pos hab]
    obtain ⟨ha0, hb0⟩ := hab
    have ha1 : a ≤ B := (le_abs_self _).trans ha
    have hb1 : b ≤ B := (le_abs_self _).trans hb
    have hphi : pfb a b alpha = alpha * (a + b - hyp a b) + (1 - alpha) * (a * b) := by
      rw [pfb_hyp, max_eq_right ha0.le, max_eq_right hb0.le]
    have hfb : 0 ≤ a + b - hyp a b := by
      have h := hyp_le_add a b
      rw [abs_of_pos ha0, abs_of_pos hb0] at h
      linarith
    have hphi0 : 0 ≤ pfb a b alpha := by rw [hphi]; positivity
    have hphia : pfb a b alpha ≤ a * (1 + B) := by
      rw [hphi]
      have e1 : alpha * (a + b - hyp a b) ≤ 1 * a :=
        mul_le_mul h1.le (hmin.trans (min_le_left _ _)) hfb zero_le_one
      have e2 : (1 - alpha) * (a * b) ≤ 1 * (a * B) :=
        mul_le_mul (by linarith) (mul_le_mul_of_nonneg_left hb1 ha0.le) (by positivity) zero_le_one
      linarith
    have hphib : pfb a b alpha ≤ b * (1 + B) := by
      rw [hphi]
      have e1 : alpha * (a + b - hyp a b) ≤ 1 * b :=
        mul_le_mul h1.le (hmin.trans (min_le_right _ _)) hfb zero_le_one
      have e2 : (1 - alpha) * (a * b) ≤ 1 * (B * b) :=
        mul_le_mul (by linarith) (mul_le_mul_of_nonneg_right ha1 hb0.le) (by positivity) zero_le_one
      linarith
    have hpp := abs_le.1 hp
    have hrr := abs_le.1 hr
    -- it suffices to bound the positive part of the error
    have main : ∀ e c : ℝ, pfb a b alpha ≤ c * (1 + B) → 0 ≤ c → e ≤ 0 ∨ c * e ≤ 3 * B * (dl * dl) →
        pfb a b alpha * ((1 - alpha) * e) ≤ 3 * B * (1 + B) * (dl * dl) := by
      intro e c hc hc0 he
      rcases le_or_gt e 0 with he0 | he0
      · refine le_trans ?_ hRHS
        have := mul_nonneg hphi0 h1a
        nlinarith
      · have he' : c * e ≤ 3 * B * (dl * dl) := he.resolve_left (not_le.2 he0)
        calc pfb a b alpha * ((1 - alpha) * e) ≤ (c * (1 + B)) * (1 * e) := by
              refine mul_le_mul hc ?_ (by positivity) (by positivity)
              exact mul_le_mul_of_nonneg_right (by linarith) he0.le
          _ = (c * e) * (1 + B) := by ring
          _ ≤ 3 * B * (dl * dl) * (1 + B) := mul_le_mul_of_nonneg_right he' (by positivity)
          _ = _ := by ring
    rw [max_eq_right ha0.le, max_eq_right hb0.le]
    rcases le_or_gt (a + p) 0 with hap | hap
    · -- the first coordinate crosses
      rw [max_eq_left hap, zero_mul]
      have hadl : a ≤ dl := by linarith
      refine main _ a hphia ha0.le (.inr ?_)
      have e1 : 0 - a * b - (b * p + a * r) ≤ b * dl + a * dl := by nlinarith
      have e2 : b * dl + a * dl ≤ 3 * B * dl := by nlinarith
      calc a * (0 - a * b - (b * p + a * r)) ≤ a * (3 * B * dl) :=
            mul_le_mul_of_nonneg_left (e1.trans e2) ha0.le
        _ ≤ dl * (3 * B * dl) := mul_le_mul_of_nonneg_right hadl (by positivity)
        _ = _ := by ring
    · rcases le_or_gt (b + r) 0 with hbr | hbr
      · rw [max_eq_left hbr, mul_zero]
        have hbdl : b ≤ dl := by linarith
        refine main _ b hphib hb0.le (.inr ?_)
        have e1 : 0 - a * b - (b * p + a * r) ≤ b * dl + a * dl := by nlinarith
        have e2 : b * dl + a * dl ≤ 3 * B * dl := by nlinarith
        calc b * (0 - a * b - (b * p + a * r)) ≤ b * (3 * B * dl) :=
              mul_le_mul_of_nonneg_left (e1.trans e2) hb0.le
          _ ≤ dl * (3 * B * dl) := mul_le_mul_of_nonneg_right hbdl (by positivity)
          _ = _ := by ring
      · rw [max_eq_right hap.le, max_eq_right hbr.le]
        refine main _ a hphia ha0.le (.inr ?_)
        have e : (a + p) * (b + r) - a * b - (b * p + a * r) = p * r := by ring
        rw [e]
        have e2 : p * r ≤ dl * dl := by
          refine (le_abs_self _).trans ?_
          rw [abs_mul]
          exact mul_le_mul hp hr (abs_nonneg _) hd
        have e3 : a * (p * r) ≤ a * (dl * dl) := mul_le_mul_of_nonneg_left e2 ha0.le
        have e4 : a * (dl * dl) ≤ B * (dl * dl) := mul_le_mul_of_nonneg_right ha1 (by positivity)
        have e5 : 0 ≤ B * (dl * dl) := by positivity
        linarith
  · rw [if_neg hab, sub_zero]
    refine le_trans ?_ hRHS
    have hz : max 0 a * max 0 b = 0 := by
      rcases le_or_gt a 0 with h | h
      · rw [max_eq_left h, zero_mul]
      · have : b ≤ 0 := not_lt.1 fun hb => hab ⟨h, hb⟩
        rw [max_eq_left this, mul_zero]
    have hphi : pfb a b alpha ≤ 0 := by
      rw [pfb_hyp, hz, mul_zero, add_zero]
      refine mul_nonpos_of_nonneg_of_nonpos h0.le (hmin.trans ?_)
      rcases le_or_gt a 0 with h | h
      · exact (min_le_left _ _).trans h
      · exact (min_le_right _ _).trans (not_lt.1 fun hb => hab ⟨h, hb⟩)
    rw [hz, sub_zero]
    refine mul_nonpos_of_nonpos_of_nonneg hphi ?_
    have := le_max_left 0 (a + p)
    have := le_max_left 0 (b + r)
    positivity

set_option maxHeartbeats 800000 in
/-- The square of the function along a step, with the slopes the solver uses. -/
theorem pfb_sq_step {alpha : ℝ} (h0 : 0 < alpha) (h1 : alpha < 1) {a b p r B dl : ℝ}
    (ha : |a| ≤ B) (hb : |b| ≤ B) (ha' : |a + p| ≤ B) (hp : |p| ≤ dl) (hr : |r| ≤ dl)
    (hdB : dl ≤ 2 * B) :
    pfb (a + p) (b + r) alpha ^ 2 ≤ pfb a b alpha ^ 2 +
      2 * pfb a b alpha * ((pfbGradient alpha a b).1 * p + (pfbGradient alpha a b).2 * r) +
      22 * (1 + B) ^ 2 * dl ^ 2 + 36 * 1e-13 * (1 + B) * dl := by
  have hB : 0 ≤ B := (abs_nonneg _).trans hb
  have hd : 0 ≤ dl := (abs_nonneg _).trans hp
  have hlip := pfb_lipschitz (b := b) (r := r) h0 h1 hb ha' hp hr
  have hlip2 : (pfb (a + p) (b + r) alpha - pfb a b alpha) ^ 2 ≤ ((4 + 2 * B) * dl) ^ 2 := by
    rw [← sq_abs]
    exact pow_le_pow_left₀ (abs_nonneg _) hlip 2
  have hband : 0 ≤ 36 * 1e-13 * (1 + B) * dl := by positivity
  have hsq : pfb (a + p) (b + r) alpha ^ 2 = pfb a b alpha ^ 2 +
      2 * pfb a b alpha * (pfb (a + p) (b + r) alpha - pfb a b alpha) +
      (pfb (a + p) (b + r) alpha - pfb a b alpha) ^ 2 := by ring
  by_cases hin : √(a * a + b * b) < 1e-13
  · -- inside the band
    have hin' : hyp a b < 1e-13 := hin
    have hr0 := hyp_nonneg a b
    have hphi : |pfb a b alpha| ≤ 3 * 1e-13 := by
      rw [pfb_hyp]
      refine (abs_add_le _ _).trans ?_
      rw [abs_mul, abs_mul, abs_of_pos h0, abs_of_pos (by linarith : 0 < 1 - alpha)]
      have e1 := mul_le_mul_of_nonneg_left (abs_fb_le a b) h0.le
      have e2 : |max 0 a * max 0 b| ≤ hyp a b := by
        rw [abs_of_nonneg (mul_nonneg (le_max_left _ _) (le_max_left _ _))]
        have m1 : max 0 a ≤ hyp a b := max_le hr0 ((le_abs_self _).trans (abs_le_hyp a b))
        have m2 : max 0 b ≤ 1 :=
          (max_le hr0 ((le_abs_self _).trans (abs_le_hyp' a b))).trans (hin'.le.trans (by norm_num))
        have := mul_le_mul m1 m2 (le_max_left _ _) hr0
        linarith
      have e3 := mul_le_mul_of_nonneg_left e2 (by linarith : 0 ≤ 1 - alpha)
      nlinarith
    have hs2 : (1 : ℝ) / √2.0 < 1 := by
      have := inv_sqrt_two_lt_one
      norm_num at this ⊢
      exact this
    have hs0 : 0 ≤ (1 : ℝ) / √2.0 := by positivity
    have hL : |(pfbGradient alpha a b).1 * p + (pfbGradient alpha a b).2 * r| ≤ 2 * dl := by
      have e : pfbGradient alpha a b = (alpha * (1 - 1 / √2.0), alpha * (1 - 1 / √2.0)) := by
        unfold pfbGradient
        simp only [scalar_sqrt]
        rw [if_pos hin]
      rw [e]
      dsimp only
      have hc0 : 0 ≤ alpha * (1 - 1 / √2.0) := mul_nonneg h0.le (by linarith)
      have hc1 : alpha * (1 - 1 / √2.0) ≤ 1 := by nlinarith
      generalize alpha * (1 - 1 / √2.0) = c at hc0 hc1
      refine (abs_add_le _ _).trans ?_
      rw [abs_mul, abs_mul, abs_of_nonneg hc0]
      have e1 := mul_le_mul hc1 hp (abs_nonneg _) zero_le_one
      have e2 := mul_le_mul hc1 hr (abs_nonneg _) zero_le_one
      linarith
    set L := (pfbGradient alpha a b).1 * p + (pfbGradient alpha a b).2 * r with hLdef
    set D := pfb (a + p) (b + r) alpha - pfb a b alpha with hD
    have key : 2 * pfb a b alpha * (D - L) ≤ 36 * 1e-13 * (1 + B) * dl := by
      have e1 : |D - L| ≤ (6 + 2 * B) * dl := by
        refine (abs_sub _ _).trans ?_
        linarith
      have e2 : pfb a b alpha * (D - L) ≤ (3 * 1e-13) * ((6 + 2 * B) * dl) := by
        refine (le_abs_self _).trans ?_
        rw [abs_mul]
        exact mul_le_mul hphi e1 (abs_nonneg _) (by norm_num)
      have e3 : (6 + 2 * B) * dl ≤ 6 * (1 + B) * dl := by nlinarith
      nlinarith
    have e4 : ((4 + 2 * B) * dl) ^ 2 ≤ 22 * (1 + B) ^ 2 * dl ^ 2 := by
      rw [mul_pow]
      refine mul_le_mul_of_nonneg_right ?_ (sq_nonneg _)
      nlinarith
    rw [hsq]
    nlinarith
  · -- outside
    have hr0 : 0 < hyp a b := hypot_pos hin
    have hge : 1e-13 ≤ √(a * a + b * b) := not_lt.1 hin
    rw [pfbGradient_eq hge]
    set L := (pfbGrad alpha a b).1 * p + (pfbGrad alpha a b).2 * r with hLdef
    have hL : L = alpha * (p + r - (a * p + b * r) / hyp a b) +
        (1 - alpha) * (if 0 < a ∧ 0 < b then b * p + a * r else 0) := by
      rw [hLdef, pfbGrad]
      have : (a * p + b * r) / hyp a b = a / hyp a b * p + b / hyp a b * r := by ring
      rw [this]
      split_ifs <;> simp only [hyp] <;> ring
    set P := (1 - alpha) * (max 0 (a + p) * max 0 (b + r) - max 0 a * max 0 b -
      (if 0 < a ∧ 0 < b then b * p + a * r else 0)) with hP
    set e := hyp (a + p) (b + r) - hyp a b - (a * p + b * r) / hyp a b with he
    have hD : pfb (a + p) (b + r) alpha - pfb a b alpha = L + P - alpha * e := by
      rw [hL, hP, he, pfb_hyp, pfb_hyp]; ring
    have he0 : 0 ≤ e := by have := hyp_tangent hr0 p r; rw [he]; linarith
    have he1 : e * (2 * hyp a b) ≤ 2 * (dl * dl) := by
      have h2 := hyp_tangent_gap hr0 p r
      have h3 : e ≤ (p * p + r * r) / (2 * hyp a b) := by rw [he]; linarith
      rw [le_div_iff₀ (by positivity)] at h3
      refine h3.trans ?_
      have e1 := mul_le_mul hp hp (abs_nonneg _) hd
      have e2 := mul_le_mul hr hr (abs_nonneg _) hd
      rw [abs_mul_abs_self] at e1 e2
      linarith
    have hpe : pfb a b alpha * (-(alpha * e)) ≤ 3 * (dl * dl) := by
      rw [pfb_hyp]
      have hm : 0 ≤ (1 - alpha) * (max 0 a * max 0 b) :=
        mul_nonneg (by linarith) (mul_nonneg (le_max_left _ _) (le_max_left _ _))
      have e1 : (1 - alpha) * (max 0 a * max 0 b) * (-(alpha * e)) ≤ 0 :=
        mul_nonpos_of_nonneg_of_nonpos hm (by have := mul_nonneg h0.le he0; linarith)
      have e2 : -(a + b - hyp a b) ≤ 3 * hyp a b := (neg_le_abs _).trans (abs_fb_le a b)
      have e3 : alpha * (a + b - hyp a b) * (-(alpha * e)) ≤ alpha ^ 2 * (3 * hyp a b * e) := by
        have := mul_le_mul_of_nonneg_right e2 he0
        have := mul_le_mul_of_nonneg_left this (sq_nonneg alpha)
        refine le_trans (le_of_eq ?_) this
        ring
      have e4 : 3 * hyp a b * e ≤ 3 * (dl * dl) := by linarith
      have e5 : alpha ^ 2 * (3 * hyp a b * e) ≤ 1 * (3 * (dl * dl)) := by
        exact mul_le_mul (pow_le_one₀ h0.le h1.le) e4 (by positivity) zero_le_one
      rw [add_mul]
      linarith
    have hpP : pfb a b alpha * P ≤ 3 * B * (1 + B) * (dl * dl) := penalty_gap h0 h1 ha hb hp hr hdB
    have key : 2 * pfb a b alpha * (pfb (a + p) (b + r) alpha - pfb a b alpha) ≤
        2 * pfb a b alpha * L + 2 * (3 * (dl * dl)) + 2 * (3 * B * (1 + B) * (dl * dl)) := by
      rw [hD]
      have : 2 * pfb a b alpha * (L + P - alpha * e) = 2 * pfb a b alpha * L +
        2 * (pfb a b alpha * P) + 2 * (pfb a b alpha * (-(alpha * e))) := by ring
      rw [this]
      linarith
    have e4 : 2 * (3 * (dl * dl)) + 2 * (3 * B * (1 + B) * (dl * dl)) + ((4 + 2 * B) * dl) ^ 2 ≤
        22 * (1 + B) ^ 2 * dl ^ 2 := by
      have : 2 * (3 * (dl * dl)) + 2 * (3 * B * (1 + B) * (dl * dl)) + ((4 + 2 * B) * dl) ^ 2 =
        (22 + 22 * B + 10 * B ^ 2) * dl ^ 2 := by ring
      rw [this]
      refine mul_le_mul_of_nonneg_right ?_ (sq_nonneg _)
      nlinarith
    rw [hsq]
    linarith

/-- The slopes are not small together. -/
theorem pfbGradient_sum {alpha : ℝ} (h0 : 0 < alpha) (h1 : alpha < 1) (a b : ℝ) :
    alpha / 2 ≤ (pfbGradient alpha a b).1 + (pfbGradient alpha a b).2 := by
  by_cases hin : √(a * a + b * b) < 1e-13
  · have e : pfbGradient alpha a b = (alpha * (1 - 1 / √2.0), alpha * (1 - 1 / √2.0)) := by
      unfold pfbGradient
      simp only [scalar_sqrt]
      rw [if_pos hin]
    rw [e]
    dsimp only
    have hs : (1 : ℝ) / √2.0 ≤ 3 / 4 := by
      have h : (4 / 3 : ℝ) ≤ √2.0 := Real.le_sqrt_of_sq_le (by norm_num)
      rw [div_le_iff₀ (by linarith)]
      linarith
    nlinarith
  · have hr0 : 0 < hyp a b := hypot_pos hin
    rw [pfbGradient_eq (not_lt.1 hin)]
    have hs : a / hyp a b + b / hyp a b ≤ 3 / 2 := by
      rw [← add_div, div_le_iff₀ hr0]
      refine abs_le_of_sq_le_sq' ?_ (by positivity) |>.2
      have := hyp_sq a b
      nlinarith [sq_nonneg (a - b)]
    have hsum : alpha / 2 ≤ alpha * (1 - a / hyp a b) + alpha * (1 - b / hyp a b) := by nlinarith
    unfold pfbGrad
    split_ifs with h
    · simp only [hyp] at hsum ⊢
      have e1 := mul_nonneg (sub_nonneg.2 h1.le) h.1.le
      have e2 := mul_nonneg (sub_nonneg.2 h1.le) h.2.le
      linarith
    · simp only [hyp] at hsum ⊢
      linarith

end Fbstab
