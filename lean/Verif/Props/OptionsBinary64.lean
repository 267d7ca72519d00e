import Verif.Props.Options
import Verif.Props.Control
import Verif.Proofs.Comparisons
import Verif.Proofs.RoundingMpc

/-!
# C01, C02, C03, C04, C41 in IEEE arithmetic

Validation of options only compares numbers, so that the properties hold in every arithmetic with the comparisons of
IEEE 754: for `double`, with any order of summation.
-/

namespace Fbstab
section
variable {K : Type} [Scalar K] (C : Comparisons K)

namespace Comparisons
include C

theorem not_lt {a b : K} (h : a ≤ b) : ¬b < a := fun h' => (C.lt_iff.1 h').2 h

theorem le_of_not_lt {a b : K} (ha : a ≤ a) (hb : b ≤ b) (h : ¬b < a) : a ≤ b := by
  rcases C.total ha hb with h1 | h1
  · exact h1
  · by_contra h2
    exact h (C.lt_iff.2 ⟨h1, h2⟩)

theorem cmax_le_self {a b : K} (ha : a ≤ a) (hb : b ≤ b) : b ≤ cmax a b := by
  unfold cmax
  split
  · exact hb
  · exact C.le_of_not_lt hb ha ‹_›

theorem le_cmin_self {a b : K} (ha : a ≤ a) (hb : b ≤ b) : cmin a b ≤ b := by
  unfold cmin
  split
  · exact hb
  · exact C.le_of_not_lt ha hb ‹_›

theorem cmin_num {a b : K} (ha : a ≤ a) (hb : b ≤ b) : cmin a b ≤ cmin a b := C.left (C.le_cmin_self ha hb)

/-- Clipping to `[lo, hi]`. -/
theorem clip {x lo hi : K} (hx : x ≤ x) (h : lo ≤ hi) : Between lo (cmax (cmin x hi) lo) hi := by
  have hlo := C.left h
  have hhi := C.right h
  refine ⟨C.cmax_le_self (C.cmin_num hx hhi) hlo, ?_⟩
  unfold cmax
  split
  · exact h
  · exact C.le_cmin_self hx hhi

/-- Clipping a value, NaN or not. -/
theorem clip_or {x lo hi : K} (h : lo ≤ hi) :
    ¬cmax (cmin x hi) lo ≤ cmax (cmin x hi) lo ∨ Between lo (cmax (cmin x hi) lo) hi := by
  by_cases hx : x ≤ x
  · exact .inr (C.clip hx h)
  · left
    have e1 : cmin x hi = x := by
      unfold cmin
      rw [if_neg fun h' => hx (C.right (C.lt_iff.1 h').1)]
    have e2 : cmax x lo = x := by
      unfold cmax
      rw [if_neg fun h' => hx (C.left (C.lt_iff.1 h').1)]
    rw [e1, e2]
    exact hx

theorem clip_same {x lo hi : K} (h : Between lo x hi) : cmax (cmin x hi) lo = x := by
  unfold cmin
  rw [if_neg (C.not_lt h.2)]
  unfold cmax
  rw [if_neg (C.not_lt h.1)]

theorem cmax_same {x lo : K} (h : lo ≤ x) : cmax x lo = x := by
  unfold cmax
  rw [if_neg (C.not_lt h)]

theorem cmax_twice (x lo : K) : cmax (cmax x lo) lo = cmax x lo := by
  have : ¬cmax x lo < lo := by
    unfold cmax
    split
    · exact fun h' => (C.lt_iff.1 h').2 (C.lt_iff.1 h').1
    · assumption
  generalize cmax x lo = y at this ⊢
  unfold cmax
  rw [if_neg this]

/-- Clipping twice, NaN or not, whatever the bounds. -/
theorem clip_twice (x lo hi : K) (h : ¬hi < lo) :
    cmax (cmin (cmax (cmin x hi) lo) hi) lo = cmax (cmin x hi) lo := by
  have hh : ¬hi < hi := fun h' => (C.lt_iff.1 h').2 (C.lt_iff.1 h').1
  have e1 : cmin (cmax (cmin x hi) lo) hi = cmax (cmin x hi) lo := by
    have : ¬hi < cmax (cmin x hi) lo := by
      unfold cmax
      split
      · exact h
      · unfold cmin
        split
        · exact hh
        · assumption
    unfold cmin at this ⊢
    rw [if_neg this]
  rw [e1]
  exact C.cmax_twice _ _

theorem le_clip {t c M : K} (hc : t ≤ c) (hM : ¬M ≤ M ∨ t ≤ M) (m : K) : t ≤ cmax (cmin c M) m := by
  have h1 : t ≤ cmin c M := by
    unfold cmin
    split
    · rcases hM with hM | hM
      · exact absurd (C.left (C.lt_iff.1 ‹_›).1) hM
      · exact hM
    · exact hc
  generalize cmin c M = y at h1 ⊢
  unfold cmax
  split
  · exact C.trans h1 (C.lt_iff.1 ‹_›).1
  · exact h1

omit C in
theorem saturate_eq {x lo hi : K} (h : ¬hi < lo) : saturate x lo hi = .ok (cmax (cmin x hi) lo) := by
  unfold saturate
  rw [if_neg h]

end Comparisons

/-- The validated options, written out. -/
def validated (o : Params K) : Params K :=
  let sMax := cmax (cmin o.sigmaMax 1e2) 1e-6
  let sMin := cmax (cmin o.sigmaMin 1e-8) 1e-13
  { o with
    sigmaMax := sMax
    sigmaMin := sMin
    sigma0 := cmax (cmin (cmax o.sigma0 1e-10) sMax) sMin
    alpha := cmax (cmin o.alpha 0.999) 0.001
    beta := cmax (cmin o.beta 0.99) 0.1
    eta := cmax (cmin o.eta 0.499) 1e-12
    delta := cmax (cmin o.delta 0.99) 0.0001
    gamma := cmax (cmin o.gamma 0.9) 0.001
    absTol := cmax o.absTol 1e-14
    relTol := cmax o.relTol 0
    stallTol := cmax o.stallTol 1e-14
    infeasTol := cmax o.infeasTol 1e-14
    innerTolMax := cmax (cmin o.innerTolMax 1e2) 1e-8
    innerTolMin := cmax (cmin o.innerTolMin 1e-2) 1e-14
    maxNewtonIters := imax o.maxNewtonIters 1
    maxProxIters := imax o.maxProxIters 1
    maxInnerIters := imax o.maxInnerIters 1
    maxLinesearchIters := imax o.maxLinesearchIters 1 }

include C

theorem sigma_bounds (x y : K) : ¬cmax (cmin y 1e2) 1e-6 < cmax (cmin x 1e-8) (1e-13 : K) := by
  intro h
  have h1 := C.lt_iff.1 h
  rcases C.clip_or (x := y) (C.literal 1 true 6 1 false 2 (by norm_num)) with h2 | h2
  · exact h2 (C.left h1.1)
  rcases C.clip_or (x := x) (C.literal 1 true 13 1 true 8 (by norm_num)) with h3 | h3
  · exact h3 (C.right h1.1)
  exact h1.2 (C.trans h3.2 (C.trans (C.literal 1 true 8 1 true 6 (by norm_num)) h2.1))

theorem validate_eq (o : Params K) : o.validate = .ok (validated o) := by
  have l : ∀ {lo hi : K}, lo ≤ hi → ∀ x, saturate x lo hi = .ok (cmax (cmin x hi) lo) :=
    fun h x => Comparisons.saturate_eq (C.not_lt h)
  have e0 : ∀ x : K, saturate x 1e-6 1e2 = _ := l (C.literal 1 true 6 1 false 2 (by norm_num))
  have e1 : ∀ x : K, saturate x 1e-13 1e-8 = _ := l (C.literal 1 true 13 1 true 8 (by norm_num))
  have e2 : ∀ x y z : K, saturate x (cmax (cmin y 1e-8) 1e-13) (cmax (cmin z 1e2) 1e-6) =
      .ok (cmax (cmin x (cmax (cmin z 1e2) 1e-6)) (cmax (cmin y 1e-8) 1e-13)) :=
    fun x y z => Comparisons.saturate_eq (sigma_bounds C _ _)
  have e3 : ∀ x : K, saturate x 0.001 0.999 = _ := l (C.literal 1 true 3 999 true 3 (by norm_num))
  have e4 : ∀ x : K, saturate x 0.1 0.99 = _ := l (C.literal 1 true 1 99 true 2 (by norm_num))
  have e5 : ∀ x : K, saturate x 1e-12 0.499 = _ := l (C.literal 1 true 12 499 true 3 (by norm_num))
  have e6 : ∀ x : K, saturate x 0.0001 0.99 = _ := l (C.literal 1 true 4 99 true 2 (by norm_num))
  have e7 : ∀ x : K, saturate x 0.001 0.9 = _ := l (C.literal 1 true 3 9 true 1 (by norm_num))
  have e8 : ∀ x : K, saturate x 1e-8 1e2 = _ := l (C.literal 1 true 8 1 false 2 (by norm_num))
  have e9 : ∀ x : K, saturate x 1e-14 1e-2 = _ := l (C.literal 1 true 14 1 true 2 (by norm_num))
  unfold Params.validate
  simp only [ok_bind, e0, e1, e2, e3, e4, e5, e6, e7, e8, e9]
  rfl

theorem sigma0_ge (s a b : K) (h : s ≤ s) :
    (1e-10 : K) ≤ cmax (cmin (cmax s 1e-10) (cmax (cmin a 1e2) 1e-6)) (cmax (cmin b 1e-8) 1e-13) := by
  have hc := C.cmax_le_self h (C.literal 1 true 10 1 true 10 le_rfl)
  have hM : ¬cmax (cmin a 1e2) 1e-6 ≤ cmax (cmin a 1e2) (1e-6 : K) ∨ (1e-10 : K) ≤ cmax (cmin a 1e2) 1e-6 := by
    rcases C.clip_or (x := a) (C.literal 1 true 6 1 false 2 (by norm_num)) with h2 | h2
    · exact .inl h2
    · exact .inr (C.trans (C.literal 1 true 10 1 true 6 (by norm_num)) h2.1)
  exact C.le_clip hc hM _

/-- C01, never throws: in every arithmetic with IEEE comparisons, NaN or not. -/
theorem C01_validation_total : ValidationTotal K := fun o => ⟨_, validate_eq C o⟩

/-- C01: options that are numbers (or infinite) are brought into their ranges. -/
theorem C01_inRange (o o' : Params K) (hn : o.Numbers) (h : o.validate = .ok o') : o'.InRange := by
  rw [validate_eq C] at h
  cases h
  have b1 := C.clip hn.sigmaMax (C.literal 1 true 6 1 false 2 (by norm_num))
  have b2 := C.clip hn.sigmaMin (C.literal 1 true 13 1 true 8 (by norm_num))
  have l10 : (1e-10 : K) ≤ 1e-10 := C.literal 1 true 10 1 true 10 le_rfl
  have l14 : (1e-14 : K) ≤ 1e-14 := C.literal 1 true 14 1 true 14 le_rfl
  have hle := C.trans b2.2 (C.trans (C.literal 1 true 8 1 true 6 (by norm_num)) b1.1)
  have hc := C.cmax_le_self hn.sigma0 l10
  have h0 := C.clip (C.right hc) hle
  exact {
    sigmaMax := b1
    sigmaMin := b2
    sigma0 := h0
    sigma0_pos := sigma0_ge C _ _ _ hn.sigma0
    alpha := C.clip hn.alpha (C.literal 1 true 3 999 true 3 (by norm_num))
    beta := C.clip hn.beta (C.literal 1 true 1 99 true 2 (by norm_num))
    eta := C.clip hn.eta (C.literal 1 true 12 499 true 3 (by norm_num))
    delta := C.clip hn.delta (C.literal 1 true 4 99 true 2 (by norm_num))
    gamma := C.clip hn.gamma (C.literal 1 true 3 9 true 1 (by norm_num))
    absTol := C.cmax_le_self hn.absTol l14
    relTol := C.cmax_le_self hn.relTol C.zero
    stallTol := C.cmax_le_self hn.stallTol l14
    infeasTol := C.cmax_le_self hn.infeasTol l14
    innerTolMax := C.clip hn.innerTolMax (C.literal 1 true 8 1 false 2 (by norm_num))
    innerTolMin := C.clip hn.innerTolMin (C.literal 1 true 14 1 true 2 (by norm_num))
    maxNewtonIters := by show 1 ≤ imax _ _; unfold imax; omega
    maxProxIters := by show 1 ≤ imax _ _; unfold imax; omega
    maxInnerIters := by show 1 ≤ imax _ _; unfold imax; omega
    maxLinesearchIters := by show 1 ≤ imax _ _; unfold imax; omega }

omit C in
theorem imax_same {a : Int} (h : 1 ≤ a) : imax a 1 = a := by unfold imax; omega

/-- C02: each option that is in its own range is kept, whatever the others are. -/
theorem C02_keeps (o o' : Params K) (h : o.validate = .ok o') : o.Keeps o' := by
  rw [validate_eq C] at h
  cases h
  refine ⟨C.clip_same, C.clip_same, ?_, C.clip_same, C.clip_same, C.clip_same, C.clip_same, C.clip_same,
    C.cmax_same, C.cmax_same, C.cmax_same, C.cmax_same, C.clip_same, C.clip_same, imax_same, imax_same, imax_same,
    imax_same, rfl, rfl, rfl⟩
  intro h1 h2
  show cmax (cmin (cmax o.sigma0 1e-10) _) _ = _
  rw [C.cmax_same h1]
  exact C.clip_same h2

/-- C02: options that are in range pass validation unchanged. -/
theorem C02_unchanged (o : Params K) (h : o.InRange) : o.validate = .ok o := by
  obtain ⟨o', ho⟩ := C01_validation_total C o
  have k := C02_keeps C o o' ho
  rw [ho]
  congr 1
  obtain ⟨k1, k2, k3, k4, k5, k6, k7, k8, k9, k10, k11, k12, k13, k14, k15, k16, k17, k18, k19, k20, k21⟩ := k
  have q1 := k1 h.sigmaMax
  have q2 := k2 h.sigmaMin
  have q3 := k3 h.sigma0_pos (by rw [q1, q2]; exact h.sigma0)
  have q4 := k4 h.alpha
  have q5 := k5 h.beta
  have q6 := k6 h.eta
  have q7 := k7 h.delta
  have q8 := k8 h.gamma
  have q9 := k9 h.absTol
  have q10 := k10 h.relTol
  have q11 := k11 h.stallTol
  have q12 := k12 h.infeasTol
  have q13 := k13 h.innerTolMax
  have q14 := k14 h.innerTolMin
  have q15 := k15 h.maxNewtonIters
  have q16 := k16 h.maxProxIters
  have q17 := k17 h.maxInnerIters
  have q18 := k18 h.maxLinesearchIters
  cases o
  cases o'
  simp only at *
  subst q1 q2 q3 q4 q5 q6 q7 q8 q9 q10 q11 q12 q13 q14 q15 q16 q17 q18 k19 k20 k21
  rfl

omit C in
theorem imax_twice (a : Int) : imax (imax a 1) 1 = imax a 1 := by unfold imax; omega

/-- C02: validating twice is validating once, also with NaN among the options. -/
theorem C02_twice (o o' : Params K) (h : o.validate = .ok o') : o'.validate = .ok o' := by
  rw [validate_eq C] at h ⊢
  cases h
  have t : ∀ {lo hi : K}, lo ≤ hi → ∀ x, cmax (cmin (cmax (cmin x hi) lo) hi) lo = cmax (cmin x hi) lo :=
    fun h x => C.clip_twice x _ _ (C.not_lt h)
  have hs : ∀ s a b : K, cmax (cmin (cmax (cmax (cmin (cmax s 1e-10) (cmax (cmin a 1e2) 1e-6))
      (cmax (cmin b 1e-8) 1e-13)) 1e-10) (cmax (cmin a 1e2) 1e-6)) (cmax (cmin b 1e-8) 1e-13) =
      cmax (cmin (cmax s 1e-10) (cmax (cmin a 1e2) 1e-6)) (cmax (cmin b 1e-8) 1e-13) := by
    intro s a b
    have e : cmax (cmax (cmin (cmax s 1e-10) (cmax (cmin a 1e2) 1e-6)) (cmax (cmin b 1e-8) 1e-13)) 1e-10 =
        cmax (cmin (cmax s 1e-10) (cmax (cmin a 1e2) 1e-6)) (cmax (cmin b 1e-8) (1e-13 : K)) := by
      by_cases h : s ≤ s
      · exact C.cmax_same (sigma0_ge C _ _ _ h)
      · have nl : ∀ y : K, ¬y < s ∧ ¬s < y := fun y =>
          ⟨fun h' => h (C.right (C.lt_iff.1 h').1), fun h' => h (C.left (C.lt_iff.1 h').1)⟩
        have n1 : ∀ y : K, cmax s y = s := fun y => by unfold cmax; rw [if_neg (nl y).2]
        have n2 : ∀ y : K, cmin s y = s := fun y => by unfold cmin; rw [if_neg (nl y).1]
        rw [n1, n2, n1, n1]
    rw [e]
    exact C.clip_twice _ _ _ (sigma_bounds C _ _)
  congr 1
  show validated (validated o) = validated o
  have q1 : ∀ x : K, cmax (cmin (cmax (cmin x 1e2) 1e-6) 1e2) 1e-6 = cmax (cmin x 1e2) 1e-6 :=
    t (C.literal 1 true 6 1 false 2 (by norm_num))
  have q2 : ∀ x : K, cmax (cmin (cmax (cmin x 1e-8) 1e-13) 1e-8) 1e-13 = cmax (cmin x 1e-8) 1e-13 :=
    t (C.literal 1 true 13 1 true 8 (by norm_num))
  have q3 : ∀ x : K, cmax (cmin (cmax (cmin x 0.999) 0.001) 0.999) 0.001 = cmax (cmin x 0.999) 0.001 :=
    t (C.literal 1 true 3 999 true 3 (by norm_num))
  have q4 : ∀ x : K, cmax (cmin (cmax (cmin x 0.99) 0.1) 0.99) 0.1 = cmax (cmin x 0.99) 0.1 :=
    t (C.literal 1 true 1 99 true 2 (by norm_num))
  have q5 : ∀ x : K, cmax (cmin (cmax (cmin x 0.499) 1e-12) 0.499) 1e-12 = cmax (cmin x 0.499) 1e-12 :=
    t (C.literal 1 true 12 499 true 3 (by norm_num))
  have q6 : ∀ x : K, cmax (cmin (cmax (cmin x 0.99) 0.0001) 0.99) 0.0001 = cmax (cmin x 0.99) 0.0001 :=
    t (C.literal 1 true 4 99 true 2 (by norm_num))
  have q7 : ∀ x : K, cmax (cmin (cmax (cmin x 0.9) 0.001) 0.9) 0.001 = cmax (cmin x 0.9) 0.001 :=
    t (C.literal 1 true 3 9 true 1 (by norm_num))
  have q8 : ∀ x : K, cmax (cmin (cmax (cmin x 1e2) 1e-8) 1e2) 1e-8 = cmax (cmin x 1e2) 1e-8 :=
    t (C.literal 1 true 8 1 false 2 (by norm_num))
  have q9 : ∀ x : K, cmax (cmin (cmax (cmin x 1e-2) 1e-14) 1e-2) 1e-14 = cmax (cmin x 1e-2) 1e-14 :=
    t (C.literal 1 true 14 1 true 2 (by norm_num))
  unfold validated
  simp only [q1, q2, hs, q3, q4, q5, q6, q7, q8, q9, C.cmax_twice, imax_twice]

theorem defaults_inRange_any : (Params.defaults : Params K).InRange :=
  have L := C.literal
  { sigmaMax := ⟨L 1 true 6 1 true 6 le_rfl, L 1 true 6 1 false 2 (by norm_num)⟩
    sigmaMin := ⟨L 1 true 13 1 true 12 (by norm_num), L 1 true 12 1 true 8 (by norm_num)⟩
    sigma0 := ⟨L 1 true 12 1 true 8 (by norm_num), L 1 true 8 1 true 6 (by norm_num)⟩
    sigma0_pos := L 1 true 10 1 true 8 (by norm_num)
    alpha := ⟨L 1 true 3 95 true 2 (by norm_num), L 95 true 2 999 true 3 (by norm_num)⟩
    beta := ⟨L 1 true 1 75 true 2 (by norm_num), L 75 true 2 99 true 2 (by norm_num)⟩
    eta := ⟨L 1 true 12 1 true 8 (by norm_num), L 1 true 8 499 true 3 (by norm_num)⟩
    delta := ⟨L 1 true 4 2 true 1 (by norm_num), L 2 true 1 99 true 2 (by norm_num)⟩
    gamma := ⟨L 1 true 3 1 true 1 (by norm_num), L 1 true 1 9 true 1 (by norm_num)⟩
    absTol := L 1 true 14 1 true 6 (by norm_num)
    relTol := C.literal_nonneg 1 true 12
    stallTol := L 1 true 14 1 true 10 (by norm_num)
    infeasTol := L 1 true 14 1 true 8 (by norm_num)
    innerTolMax := ⟨L 1 true 8 1 true 2 (by norm_num), L 1 true 2 1 false 2 (by norm_num)⟩
    innerTolMin := ⟨L 1 true 14 1 true 12 (by norm_num), L 1 true 12 1 true 2 (by norm_num)⟩
    maxNewtonIters := show (1 : Int) ≤ 200 by norm_num
    maxProxIters := show (1 : Int) ≤ 30 by norm_num
    maxInnerIters := show (1 : Int) ≤ 50 by norm_num
    maxLinesearchIters := show (1 : Int) ≤ 20 by norm_num }

theorem reliable_inRange_any : (Params.reliable : Params K).InRange :=
  have L := C.literal
  { sigmaMax := ⟨L 1 true 6 1 true 2 (by norm_num), L 1 true 2 1 false 2 (by norm_num)⟩
    sigmaMin := ⟨L 1 true 13 1 true 10 (by norm_num), L 1 true 10 1 true 8 (by norm_num)⟩
    sigma0 := ⟨L 1 true 10 1 true 4 (by norm_num), L 1 true 4 1 true 2 (by norm_num)⟩
    sigma0_pos := L 1 true 10 1 true 4 (by norm_num)
    alpha := ⟨L 1 true 3 95 true 2 (by norm_num), L 95 true 2 999 true 3 (by norm_num)⟩
    beta := ⟨L 1 true 1 9 true 1 (by norm_num), L 9 true 1 99 true 2 (by norm_num)⟩
    eta := ⟨L 1 true 12 1 true 8 (by norm_num), L 1 true 8 499 true 3 (by norm_num)⟩
    delta := ⟨L 1 true 4 2 true 1 (by norm_num), L 2 true 1 99 true 2 (by norm_num)⟩
    gamma := ⟨L 1 true 3 1 true 1 (by norm_num), L 1 true 1 9 true 1 (by norm_num)⟩
    absTol := L 1 true 14 1 true 4 (by norm_num)
    relTol := C.literal_nonneg 1 true 6
    stallTol := L 1 true 14 1 true 10 (by norm_num)
    infeasTol := L 1 true 14 1 true 8 (by norm_num)
    innerTolMax := ⟨L 1 true 8 1 true 2 (by norm_num), L 1 true 2 1 false 2 (by norm_num)⟩
    innerTolMin := ⟨L 1 true 14 1 true 12 (by norm_num), L 1 true 12 1 true 2 (by norm_num)⟩
    maxNewtonIters := show (1 : Int) ≤ 500 by norm_num
    maxProxIters := show (1 : Int) ≤ 100 by norm_num
    maxInnerIters := show (1 : Int) ≤ 50 by norm_num
    maxLinesearchIters := show (1 : Int) ≤ 40 by norm_num }

/-- C02: the presets pass validation unchanged. -/
theorem C02_presets_any : (Params.defaults : Params K).validate = .ok Params.defaults ∧
    (Params.reliable : Params K).validate = .ok Params.reliable :=
  ⟨C02_unchanged C _ (defaults_inRange_any C), C02_unchanged C _ (reliable_inRange_any C)⟩

/-- C41: `saturate` of a number returns a number of `[a, b]`, the number itself if it is there; NaN is returned. -/
theorem C41_any (x a b : K) (h : a ≤ b) : ∃ t, saturate x a b = .ok t ∧ (x ≤ x → Between a t b) ∧
    (Between a x b → t = x) ∧ (x ≤ a → a ≤ t ∧ t ≤ a) ∧ (b ≤ x → b ≤ t ∧ t ≤ b) ∧ (¬x ≤ x → t = x) := by
  refine ⟨_, Comparisons.saturate_eq (C.not_lt h), fun hx => C.clip hx h, C.clip_same, ?_, ?_, ?_⟩
  · intro hx
    refine ⟨(C.clip (C.left hx) h).1, ?_⟩
    unfold cmin
    rw [if_neg (C.not_lt (C.trans hx h))]
    unfold cmax
    split
    · exact C.left h
    · exact hx
  · intro hx
    refine ⟨?_, (C.clip (C.right hx) h).2⟩
    have h1 : b ≤ cmin x b := by
      unfold cmin
      split
      · exact C.right h
      · exact hx
    generalize cmin x b = y at h1 ⊢
    unfold cmax
    rw [if_neg (C.not_lt (C.trans h h1))]
    exact h1
  · intro hx
    have e1 : cmin x b = x := by
      unfold cmin
      rw [if_neg fun h' => hx (C.right (C.lt_iff.1 h').1)]
    rw [e1]
    unfold cmax
    rw [if_neg fun h' => hx (C.left (C.lt_iff.1 h').1)]

end

/-- `double`, with dot products computed in any order, compares as IEEE 754 says; options in `double` are validated
without an exception. -/
theorem C01_binary64 (d : DotOrder) : Comparisons (Binary64.WithOrder d) ∧
    ValidationTotal (Binary64.WithOrder d) :=
  ⟨.withOrder d, C01_validation_total (.withOrder d)⟩

/-- C01 for options in `double`: `UpdateOptions` does not throw, and options that are not NaN end up in range. -/
theorem C01_binary64_dense (d : DotOrder) (s : FBstabDense (Binary64.WithOrder d))
    (o : Params (Binary64.WithOrder d)) :
    (s.updateOptions o).1 = .ok () ∧ (o.Numbers → (s.updateOptions o).2.options.InRange) := by
  obtain ⟨o', h⟩ := (C01_binary64 d).2 o
  simp only [FBstabDense.updateOptions, AlgMem.updateParameters, h]
  exact ⟨trivial, fun hn => C01_inRange (.withOrder d) o o' hn h⟩

/-- C01 for options in `double`, `FBstabMpc`. -/
theorem C01_binary64_mpc (d : DotOrder) (s : FBstabMpc (Binary64.WithOrder d))
    (o : Params (Binary64.WithOrder d)) :
    (s.updateOptions o).1 = .ok () ∧ (o.Numbers → (s.updateOptions o).2.options.InRange) := by
  obtain ⟨o', h⟩ := (C01_binary64 d).2 o
  simp only [FBstabMpc.updateOptions, AlgMem.updateParameters, h]
  exact ⟨trivial, fun hn => C01_inRange (.withOrder d) o o' hn h⟩

/-- C03 in `double`: after any history the options in force are the validated argument of the last `UpdateOptions`. -/
theorem C03_binary64_dense (d : DotOrder) (junk : DenseJunk (Binary64.WithOrder d)) (nz nl nv : Int)
    (s : FBstabDense (Binary64.WithOrder d)) (hs : FBstabDense.new junk nz nl nv = .ok s)
    (h : List (DenseCall (Binary64.WithOrder d))) : match DenseCall.lastOptions h with
      | none => (s.after h).options = Params.defaults
      | some o => o.validate = .ok (s.after h).options := by
  have := C03_dense (C01_binary64 d).2 junk nz nl nv s hs h
  cases hl : DenseCall.lastOptions h with
  | none => rw [hl] at this; exact this
  | some o => rw [hl] at this; exact this

/-- C03 in `double`, `FBstabMpc`. -/
theorem C03_binary64_mpc (d : DotOrder) (junk : MpcJunk (Binary64.WithOrder d)) (N nx nu nc : Int)
    (s : FBstabMpc (Binary64.WithOrder d)) (hs : FBstabMpc.new junk N nx nu nc = .ok s)
    (h : List (MpcCall (Binary64.WithOrder d))) : match MpcCall.lastOptions h with
      | none => (s.after h).options = Params.defaults
      | some o => o.validate = .ok (s.after h).options := by
  have := C03_mpc (Binary64.rounding_of_order d).beqOk.zero (C01_binary64 d).2 junk N nx nu nc s hs h
  cases hl : MpcCall.lastOptions h with
  | none => rw [hl] at this; exact this
  | some o => rw [hl] at this; exact this

/-- C04 in `double`: the iteration limits are respected. -/
theorem C04_binary64_dense (d : DotOrder) (s : FBstabDense (Binary64.WithOrder d)) (hs : s.Reachable)
    (qp : DenseProblem (Binary64.WithOrder d)) (x : CallerVar (Binary64.WithOrder d))
    (out : SolverOut (Binary64.WithOrder d)) (h : (s.solve qp x).result = .ok out) :
    (out.proxIters : Int) ≤ s.options.maxProxIters ∧ (out.newtonIters : Int) ≤ s.options.maxNewtonIters ∧
      (out.newtonIters : Int) ≤ s.options.maxInnerIters * (out.proxIters + 1) :=
  C04_dense (C01_binary64 d).2 s hs qp x out h

/-- C04 in `double`, `FBstabMpc`. -/
theorem C04_binary64_mpc (d : DotOrder) (s : FBstabMpc (Binary64.WithOrder d)) (hs : s.Reachable)
    (p : MpcProblem (Binary64.WithOrder d)) (x : CallerVar (Binary64.WithOrder d))
    (out : SolverOut (Binary64.WithOrder d)) (h : (s.solve p x).result = .ok out) :
    (out.proxIters : Int) ≤ s.options.maxProxIters ∧ (out.newtonIters : Int) ≤ s.options.maxNewtonIters ∧
      (out.newtonIters : Int) ≤ s.options.maxInnerIters * (out.proxIters + 1) :=
  C04_mpc (Binary64.rounding_of_order d).beqOk.zero (C01_binary64 d).2 s hs p x out h

/-- C02 in `double`: options in range are kept, validating twice is validating once (also with NaN), the presets are
valid. -/
theorem C02_binary64 (d : DotOrder) (o o' : Params (Binary64.WithOrder d)) (h : o.validate = .ok o') :
    o.Keeps o' ∧ o'.validate = .ok o' ∧ (o.InRange → o' = o) ∧
    (Params.defaults : Params (Binary64.WithOrder d)).InRange ∧
    (Params.reliable : Params (Binary64.WithOrder d)).InRange := by
  refine ⟨C02_keeps (.withOrder d) o o' h, C02_twice (.withOrder d) o o' h, fun hr => ?_,
    defaults_inRange_any (.withOrder d), reliable_inRange_any (.withOrder d)⟩
  have := C02_unchanged (.withOrder d) o hr
  rw [h] at this
  injection this

/-- `+inf` -/
noncomputable def Binary64.inf : Binary64 := ⟨.val ⊤, fun r h => by cases h⟩

/-- A NaN. -/
noncomputable def Binary64.nan : Binary64 := ⟨.nan, fun r h => by cases h⟩

/-- Options with an infinite tolerance and a negative `alpha` are numbers; with a NaN they are not. -/
example : ({ (Params.defaults : Params Binary64) with absTol := .inf, alpha := -1e0 } : Params Binary64).Numbers ∧
    ¬({ (Params.defaults : Params Binary64) with absTol := .nan } : Params Binary64).Numbers := by
  have C := Comparisons.binary64
  have L : ∀ m s e, (OfScientific.ofScientific m s e : Binary64) ≤ OfScientific.ofScientific m s e :=
    fun m s e => C.literal m s e m s e le_rfl
  refine ⟨⟨L _ _ _, L _ _ _, L _ _ _, ?_, L _ _ _, L _ _ _, L _ _ _, L _ _ _, XReal.val_le.2 le_rfl, L _ _ _, L _ _ _,
    L _ _ _, L _ _ _, L _ _ _⟩, fun h => XReal.nan_le h.absTol⟩
  have h1 : ((1e0 : Binary64).x) ≠ .nan := XReal.le_self.1 (L 1 false 0)
  show -(1e0 : Binary64).x ≤ -(1e0 : Binary64).x
  rw [XReal.le_self]
  cases h : (1e0 : Binary64).x with
  | nan => exact absurd h h1
  | val e => intro h'; cases h'

end Fbstab
