import Verif.Spec.Options
import Verif.Spec.XReal
import Verif.Spec.RealScalar
import Verif.Proofs.ApiSem

/-!
# C01, C02, C03, C41: options
-/

namespace Fbstab

/-! ## C41: `saturate` -/

/-- C41: `saturate` throws exactly when the bounds are the wrong way round. -/
theorem C41_throws_iff (x a b : ℝ) : (∃ e, saturate x a b = .error e) ↔ b < a := by
  unfold saturate
  by_cases h : b < a <;> simp [h]

/-- C41: otherwise it returns a point of `[a, b]` that is closest to `x` among the points of
`[a, b]`, and the only one. -/
theorem C41_closest (x a b : ℝ) (h : a ≤ b) :
    ∃ t, saturate x a b = .ok t ∧ a ≤ t ∧ t ≤ b ∧
      ∀ s, a ≤ s → s ≤ b → |x - t| ≤ |x - s| ∧ (|x - t| = |x - s| → s = t) := by
  refine ⟨max (min x b) a, ?_, le_max_right _ _, max_le (min_le_right _ _) h, ?_⟩
  · unfold saturate
    rw [if_neg (not_lt.2 h)]
    simp
  · intro s h1 h2
    rcases le_total x a with hx | hx
    · rw [min_eq_left (hx.trans h), max_eq_right hx, abs_of_nonpos (by linarith),
        abs_of_nonpos (by linarith)]
      exact ⟨by linarith, fun e => by linarith⟩
    · rcases le_total x b with hx' | hx'
      · rw [min_eq_left hx', max_eq_left hx, sub_self, abs_zero]
        exact ⟨abs_nonneg _, fun e => by linarith [abs_eq_zero.1 e.symm]⟩
      · rw [min_eq_right hx', max_eq_left h, abs_of_nonneg (by linarith),
          abs_of_nonneg (by linarith)]
        exact ⟨by linarith, fun e => by linarith⟩

example : saturate (3 : ℝ) 0 2 = .ok 2 := by norm_num [saturate]
example : ∃ e, saturate (3 : ℝ) 2 0 = .error e := (C41_throws_iff 3 2 0).2 (by norm_num)

/-! ## Validation, over the reals -/

theorem saturate_real {x a b : ℝ} (h : a ≤ b) : saturate x a b = .ok (max (min x b) a) := by
  unfold saturate
  rw [if_neg (not_lt.2 h)]
  simp

theorem ok_bind {α β : Type} (a : α) (f : α → Except Err β) : (Except.ok a >>= f) = f a := rfl

theorem imax_eq_max (a b : Int) : imax a b = max a b := by unfold imax; omega

/-- The validated options, written out. -/
noncomputable def validatedReal (o : Params ℝ) : Params ℝ :=
  let sMax := max (min o.sigmaMax 1e2) 1e-6
  let sMin := max (min o.sigmaMin 1e-8) 1e-13
  { o with
    sigmaMax := sMax
    sigmaMin := sMin
    sigma0 := max (min (max o.sigma0 1e-10) sMax) sMin
    alpha := max (min o.alpha 0.999) 0.001
    beta := max (min o.beta 0.99) 0.1
    eta := max (min o.eta 0.499) 1e-12
    delta := max (min o.delta 0.99) 0.0001
    gamma := max (min o.gamma 0.9) 0.001
    absTol := max o.absTol 1e-14
    relTol := max o.relTol 0
    stallTol := max o.stallTol 1e-14
    infeasTol := max o.infeasTol 1e-14
    innerTolMax := max (min o.innerTolMax 1e2) 1e-8
    innerTolMin := max (min o.innerTolMin 1e-2) 1e-14
    maxNewtonIters := max o.maxNewtonIters 1
    maxProxIters := max o.maxProxIters 1
    maxInnerIters := max o.maxInnerIters 1
    maxLinesearchIters := max o.maxLinesearchIters 1 }

theorem sigma_bounds_le (x y : ℝ) : max (min x 1e-8) 1e-13 ≤ max (min y 1e2) (1e-6 : ℝ) :=
  le_trans (max_le ((min_le_right _ _).trans (by norm_num)) (by norm_num)) (le_max_right _ _)

theorem validate_real (o : Params ℝ) : o.validate = .ok (validatedReal o) := by
  have e0 : ∀ x : ℝ, saturate x 1e-6 1e2 = .ok (max (min x 1e2) 1e-6) :=
    fun x => saturate_real (by norm_num)
  have e1 : ∀ x : ℝ, saturate x 1e-13 1e-8 = .ok (max (min x 1e-8) 1e-13) :=
    fun x => saturate_real (by norm_num)
  have e2 : ∀ x y z : ℝ, saturate x (max (min y 1e-8) 1e-13) (max (min z 1e2) 1e-6) =
      .ok (max (min x (max (min z 1e2) 1e-6)) (max (min y 1e-8) 1e-13)) :=
    fun x y z => saturate_real (sigma_bounds_le _ _)
  have e3 : ∀ x : ℝ, saturate x 0.001 0.999 = .ok (max (min x 0.999) 0.001) :=
    fun x => saturate_real (by norm_num)
  have e4 : ∀ x : ℝ, saturate x 0.1 0.99 = .ok (max (min x 0.99) 0.1) :=
    fun x => saturate_real (by norm_num)
  have e5 : ∀ x : ℝ, saturate x 1e-12 0.499 = .ok (max (min x 0.499) 1e-12) :=
    fun x => saturate_real (by norm_num)
  have e6 : ∀ x : ℝ, saturate x 0.0001 0.99 = .ok (max (min x 0.99) 0.0001) :=
    fun x => saturate_real (by norm_num)
  have e7 : ∀ x : ℝ, saturate x 0.001 0.9 = .ok (max (min x 0.9) 0.001) :=
    fun x => saturate_real (by norm_num)
  have e8 : ∀ x : ℝ, saturate x 1e-8 1e2 = .ok (max (min x 1e2) 1e-8) :=
    fun x => saturate_real (by norm_num)
  have e9 : ∀ x : ℝ, saturate x 1e-14 1e-2 = .ok (max (min x 1e-2) 1e-14) :=
    fun x => saturate_real (by norm_num)
  unfold Params.validate
  simp only [cmax_eq_max, ok_bind, e0, e1, e2, e3, e4, e5, e6, e7, e8, e9, imax_eq_max]
  rfl

/-- C01, never throws, over the reals. -/
theorem C01_validation_total_real : ValidationTotal ℝ := fun o => ⟨_, validate_real o⟩

theorem validatedReal_inRange (o : Params ℝ) : (validatedReal o).InRange where
  sigmaMax := ⟨le_max_right _ _, max_le (min_le_right _ _) (by norm_num)⟩
  sigmaMin := ⟨le_max_right _ _, max_le (min_le_right _ _) (by norm_num)⟩
  sigma0 := ⟨le_max_right _ _, max_le (min_le_right _ _) (sigma_bounds_le _ _)⟩
  sigma0_pos := by
    refine le_max_of_le_left (le_min (le_max_right _ _) (le_max_of_le_right (by norm_num)))
  alpha := ⟨le_max_right _ _, max_le (min_le_right _ _) (by norm_num)⟩
  beta := ⟨le_max_right _ _, max_le (min_le_right _ _) (by norm_num)⟩
  eta := ⟨le_max_right _ _, max_le (min_le_right _ _) (by norm_num)⟩
  delta := ⟨le_max_right _ _, max_le (min_le_right _ _) (by norm_num)⟩
  gamma := ⟨le_max_right _ _, max_le (min_le_right _ _) (by norm_num)⟩
  absTol := le_max_right _ _
  relTol := le_max_right _ _
  stallTol := le_max_right _ _
  infeasTol := le_max_right _ _
  innerTolMax := ⟨le_max_right _ _, max_le (min_le_right _ _) (by norm_num)⟩
  innerTolMin := ⟨le_max_right _ _, max_le (min_le_right _ _) (by norm_num)⟩
  maxNewtonIters := le_max_right _ _
  maxProxIters := le_max_right _ _
  maxInnerIters := le_max_right _ _
  maxLinesearchIters := le_max_right _ _

/-- C01 over the reals: `UpdateOptions` returns normally for every argument and afterwards every
option in force is in its range. -/
theorem C01_dense (s : FBstabDense ℝ) (o : Params ℝ) :
    (s.updateOptions o).1 = .ok () ∧ (s.updateOptions o).2.options.InRange := by
  simp only [FBstabDense.updateOptions, AlgMem.updateParameters, validate_real]
  exact ⟨trivial, validatedReal_inRange o⟩

/-- C01 for `FBstabMpc`. -/
theorem C01_mpc (s : FBstabMpc ℝ) (o : Params ℝ) :
    (s.updateOptions o).1 = .ok () ∧ (s.updateOptions o).2.options.InRange := by
  simp only [FBstabMpc.updateOptions, AlgMem.updateParameters, validate_real]
  exact ⟨trivial, validatedReal_inRange o⟩

/-! ## C02 -/

theorem clip_eq {x a b : ℝ} (h : Between a x b) : max (min x b) a = x := by
  rw [min_eq_left h.2, max_eq_left h.1]

/-- C02: options that are in range pass validation unchanged. -/
theorem C02_inRange_unchanged (o : Params ℝ) (h : o.InRange) : o.validate = .ok o := by
  rw [validate_real]
  congr 1
  cases o
  simp only [validatedReal]
  congr 1
  · rw [clip_eq h.sigmaMax, clip_eq h.sigmaMin, max_eq_left h.sigma0_pos]
    exact clip_eq h.sigma0
  · exact clip_eq h.sigmaMax
  · exact clip_eq h.sigmaMin
  · exact clip_eq h.alpha
  · exact clip_eq h.beta
  · exact clip_eq h.eta
  · exact clip_eq h.delta
  · exact clip_eq h.gamma
  · exact max_eq_left h.absTol
  · exact max_eq_left h.relTol
  · exact max_eq_left h.stallTol
  · exact max_eq_left h.infeasTol
  · exact clip_eq h.innerTolMax
  · exact clip_eq h.innerTolMin
  · exact max_eq_left h.maxNewtonIters
  · exact max_eq_left h.maxProxIters
  · exact max_eq_left h.maxInnerIters
  · exact max_eq_left h.maxLinesearchIters

/-- C02: each option that is in its own range is kept, whatever the other options are. -/
theorem C02_fieldwise (o o' : Params ℝ) (h : o.validate = .ok o') :
    (Between 1e-6 o.sigmaMax 1e2 → o'.sigmaMax = o.sigmaMax) ∧
    (Between 1e-13 o.sigmaMin 1e-8 → o'.sigmaMin = o.sigmaMin) ∧
    (1e-10 ≤ o.sigma0 → Between o'.sigmaMin o.sigma0 o'.sigmaMax → o'.sigma0 = o.sigma0) ∧
    (Between 0.001 o.alpha 0.999 → o'.alpha = o.alpha) ∧
    (Between 0.1 o.beta 0.99 → o'.beta = o.beta) ∧
    (Between 1e-12 o.eta 0.499 → o'.eta = o.eta) ∧
    (Between 0.0001 o.delta 0.99 → o'.delta = o.delta) ∧
    (Between 0.001 o.gamma 0.9 → o'.gamma = o.gamma) ∧
    (1e-14 ≤ o.absTol → o'.absTol = o.absTol) ∧
    (0 ≤ o.relTol → o'.relTol = o.relTol) ∧
    (1e-14 ≤ o.stallTol → o'.stallTol = o.stallTol) ∧
    (1e-14 ≤ o.infeasTol → o'.infeasTol = o.infeasTol) ∧
    (Between 1e-8 o.innerTolMax 1e2 → o'.innerTolMax = o.innerTolMax) ∧
    (Between 1e-14 o.innerTolMin 1e-2 → o'.innerTolMin = o.innerTolMin) ∧
    (1 ≤ o.maxNewtonIters → o'.maxNewtonIters = o.maxNewtonIters) ∧
    (1 ≤ o.maxProxIters → o'.maxProxIters = o.maxProxIters) ∧
    (1 ≤ o.maxInnerIters → o'.maxInnerIters = o.maxInnerIters) ∧
    (1 ≤ o.maxLinesearchIters → o'.maxLinesearchIters = o.maxLinesearchIters) ∧
    o'.checkFeasibility = o.checkFeasibility ∧
    o'.nonmonotoneLinesearch = o.nonmonotoneLinesearch ∧ o'.displayLevel = o.displayLevel := by
  rw [validate_real] at h
  cases h
  refine ⟨clip_eq, clip_eq, ?_, clip_eq, clip_eq, clip_eq, clip_eq, clip_eq, max_eq_left,
    max_eq_left, max_eq_left, max_eq_left, clip_eq, clip_eq, max_eq_left, max_eq_left, max_eq_left,
    max_eq_left, rfl, rfl, rfl⟩
  intro h1 h2
  simp only [validatedReal] at h2 ⊢
  rw [max_eq_left h1]
  exact clip_eq h2

/-- C02: validating twice is validating once. -/
theorem C02_idempotent (o o' : Params ℝ) (h : o.validate = .ok o') : o'.validate = .ok o' := by
  rw [validate_real] at h
  cases h
  exact C02_inRange_unchanged _ (validatedReal_inRange o)

theorem defaults_inRange : (Params.defaults : Params ℝ).InRange := by
  constructor <;> simp only [Params.defaults, Between] <;> norm_num

theorem reliable_inRange : (Params.reliable : Params ℝ).InRange := by
  constructor <;> simp only [Params.reliable, Params.defaults, Between] <;> norm_num

/-- C02: the `Default` and `Reliable` presets pass validation unchanged. -/
theorem C02_presets : (Params.defaults : Params ℝ).validate = .ok Params.defaults ∧
    (Params.reliable : Params ℝ).validate = .ok Params.reliable :=
  ⟨C02_inRange_unchanged _ defaults_inRange, C02_inRange_unchanged _ reliable_inRange⟩

/-- C02: a default-constructed `AlgorithmParameters` is not in range: `UpdateOptions` raises its `sigma_max` from `1e-8`
to `1e-6` and keeps the other options. -/
theorem C02_fresh : ¬ (Params.fresh : Params ℝ).InRange ∧
    (Params.fresh : Params ℝ).validate = .ok { (Params.fresh : Params ℝ) with sigmaMax := 1e-6 } := by
  have hr : ({ (Params.fresh : Params ℝ) with sigmaMax := 1e-6 } : Params ℝ).InRange := by
    constructor <;> simp only [Params.fresh, Between] <;> norm_num
  refine ⟨fun h => ?_, ?_⟩
  · have := h.sigmaMax.1
    simp only [Params.fresh] at this
    norm_num at this
  · have e : (Params.fresh : Params ℝ).validate =
        ({ (Params.fresh : Params ℝ) with sigmaMax := 1e-6 } : Params ℝ).validate := by
      rw [validate_real, validate_real]
      simp only [validatedReal, Params.fresh]
      norm_num
    rw [e, C02_inRange_unchanged _ hr]

/-- C02: the values of the options: a default-constructed `AlgorithmParameters`, `DefaultParameters` and
`ReliableParameters`. -/
theorem C02_values :
    (Params.fresh : Params ℝ) = ⟨1 / 10 ^ 8, 1 / 10 ^ 8, 1 / 10 ^ 10, 19 / 20, 7 / 10, 1 / 10 ^ 8, 1 / 5, 1 / 10,
      1 / 10 ^ 6, 1 / 10 ^ 12, 1 / 10 ^ 10, 1 / 10 ^ 8, 1 / 10, 1 / 10 ^ 12, 500, 100, 100, 20, true, true, .final⟩ ∧
    (Params.defaults : Params ℝ) = ⟨1 / 10 ^ 8, 1 / 10 ^ 6, 1 / 10 ^ 12, 19 / 20, 3 / 4, 1 / 10 ^ 8, 1 / 5, 1 / 10,
      1 / 10 ^ 6, 1 / 10 ^ 12, 1 / 10 ^ 10, 1 / 10 ^ 8, 1 / 100, 1 / 10 ^ 12, 200, 30, 50, 20, true, true, .final⟩ ∧
    (Params.reliable : Params ℝ) = ⟨1 / 10 ^ 4, 1 / 100, 1 / 10 ^ 10, 19 / 20, 9 / 10, 1 / 10 ^ 8, 1 / 5, 1 / 10,
      1 / 10 ^ 4, 1 / 10 ^ 6, 1 / 10 ^ 10, 1 / 10 ^ 8, 1 / 100, 1 / 10 ^ 12, 500, 100, 50, 40, true, false, .final⟩ := by
  simp only [Params.fresh, Params.reliable, Params.defaults, Params.mk.injEq]
  norm_num

/-! ## C01 with infinities and NaN -/

namespace XReal

theorem saturate_val {x a b : EReal} (h : a ≤ b) :
    saturate (val x) (val a) (val b) = .ok (val (max (min x b) a)) := by
  unfold saturate
  rw [if_neg (show ¬(val b < val a) from not_lt.2 h)]
  have e1 : cmin (val x) (val b) = val (min x b) := by
    unfold cmin
    by_cases hb : b < x
    · rw [if_pos (val_lt.2 hb), min_eq_right hb.le]
    · rw [if_neg (show ¬val b < val x from hb), min_eq_left (not_lt.1 hb)]
  simp only [e1]
  unfold cmax
  by_cases hb : min x b < a
  · rw [if_pos (val_lt.2 hb), max_eq_right hb.le]
  · rw [if_neg (show ¬val _ < val _ from hb), max_eq_left (not_lt.1 hb)]

theorem saturate_nan {a b : EReal} (h : a ≤ b) : saturate nan (val a) (val b) = .ok nan := by
  unfold saturate
  rw [if_neg (show ¬(val b < val a) from not_lt.2 h)]
  have e1 : cmin nan (val b) = nan := by unfold cmin; rw [if_neg lt_nan]
  simp only [e1]
  unfold cmax
  rw [if_neg nan_lt]

/-- `x` is a number in `[a, b]`, or NaN. -/
def InOrNan (a b : EReal) (x : XReal) : Prop := x = nan ∨ ∃ t, x = val t ∧ a ≤ t ∧ t ≤ b

theorem saturate_ok {a b : EReal} (h : a ≤ b) (x : XReal) :
    ∃ t, saturate x (val a) (val b) = .ok t ∧ InOrNan a b t ∧ (x ≠ nan → t ≠ nan) := by
  cases x with
  | nan => exact ⟨nan, saturate_nan h, .inl rfl, fun h => absurd rfl h⟩
  | val x => exact ⟨_, saturate_val h, .inr ⟨_, rfl, le_max_right _ _, max_le (min_le_right _ _) h⟩,
      fun _ => by simp⟩

theorem cmax_num {x : XReal} {a : EReal} (hx : x ≠ nan) : ∃ t, cmax x (val a) = val t ∧ a ≤ t := by
  cases x with
  | nan => exact absurd rfl hx
  | val x =>
    unfold cmax
    by_cases h : x < a
    · rw [if_pos (val_lt.2 h)]; exact ⟨_, rfl, le_rfl⟩
    · rw [if_neg (show ¬val x < val a from h)]; exact ⟨_, rfl, not_lt.1 h⟩

/-- saturation between bounds that may be NaN never throws, if numeric bounds are ordered -/
theorem saturate_bounds {a b x : XReal} (h : ¬b < a) : ∃ t, saturate x a b = .ok t := by
  unfold saturate
  rw [if_neg h]
  exact ⟨_, rfl⟩

theorem not_lt_of_inOrNan {a b c d : EReal} {x y : XReal} (hx : InOrNan a b x)
    (hy : InOrNan c d y) (h : b ≤ c) : ¬y < x := by
  rcases hx with rfl | ⟨s, rfl, h1, h2⟩
  · exact lt_nan
  · rcases hy with rfl | ⟨t, rfl, h3, h4⟩
    · exact nan_lt
    · exact not_lt.2 (h2.trans (h.trans h3))

end XReal

open XReal in
/-- The result of validation over `XReal`: it exists, and is as described. -/
theorem validate_xreal (o : Params XReal) : ∃ o' sMax sMin,
    o.validate = .ok o' ∧
    saturate o.sigmaMax 1e-6 1e2 = .ok sMax ∧ saturate o.sigmaMin 1e-13 1e-8 = .ok sMin ∧
    o'.sigmaMax = sMax ∧ o'.sigmaMin = sMin ∧
    saturate (cmax o.sigma0 1e-10) sMin sMax = .ok o'.sigma0 ∧
    saturate o.alpha 0.001 0.999 = .ok o'.alpha ∧ saturate o.beta 0.1 0.99 = .ok o'.beta ∧
    saturate o.eta 1e-12 0.499 = .ok o'.eta ∧ saturate o.delta 0.0001 0.99 = .ok o'.delta ∧
    saturate o.gamma 0.001 0.9 = .ok o'.gamma ∧
    o'.absTol = cmax o.absTol 1e-14 ∧ o'.relTol = cmax o.relTol 0 ∧
    o'.stallTol = cmax o.stallTol 1e-14 ∧ o'.infeasTol = cmax o.infeasTol 1e-14 ∧
    saturate o.innerTolMax 1e-8 1e2 = .ok o'.innerTolMax ∧
    saturate o.innerTolMin 1e-14 1e-2 = .ok o'.innerTolMin ∧
    o'.maxNewtonIters = imax o.maxNewtonIters 1 ∧ o'.maxProxIters = imax o.maxProxIters 1 ∧
    o'.maxInnerIters = imax o.maxInnerIters 1 ∧
    o'.maxLinesearchIters = imax o.maxLinesearchIters 1 := by
  have lit : ∀ {a b : ℝ}, a ≤ b → ((a : EReal) ≤ (b : EReal)) := fun h => EReal.coe_le_coe_iff.2 h
  obtain ⟨sMax, e1, r1, -⟩ := saturate_ok (lit (a := 1e-6) (b := 1e2) (by norm_num)) o.sigmaMax
  obtain ⟨sMin, e2, r2, -⟩ := saturate_ok (lit (a := 1e-13) (b := 1e-8) (by norm_num)) o.sigmaMin
  obtain ⟨s0, e3⟩ := saturate_bounds (x := cmax o.sigma0 1e-10)
    (not_lt_of_inOrNan r2 r1 (lit (by norm_num)))
  obtain ⟨t4, e4, -⟩ := saturate_ok (lit (a := 0.001) (b := 0.999) (by norm_num)) o.alpha
  obtain ⟨t5, e5, -⟩ := saturate_ok (lit (a := 0.1) (b := 0.99) (by norm_num)) o.beta
  obtain ⟨t6, e6, -⟩ := saturate_ok (lit (a := 1e-12) (b := 0.499) (by norm_num)) o.eta
  obtain ⟨t7, e7, -⟩ := saturate_ok (lit (a := 0.0001) (b := 0.99) (by norm_num)) o.delta
  obtain ⟨t8, e8, -⟩ := saturate_ok (lit (a := 0.001) (b := 0.9) (by norm_num)) o.gamma
  obtain ⟨t9, e9, -⟩ := saturate_ok (lit (a := 1e-8) (b := 1e2) (by norm_num)) o.innerTolMax
  obtain ⟨t10, e10, -⟩ := saturate_ok (lit (a := 1e-14) (b := 1e-2) (by norm_num)) o.innerTolMin
  change saturate o.sigmaMax 1e-6 1e2 = _ at e1
  change saturate o.sigmaMin 1e-13 1e-8 = _ at e2
  change saturate o.alpha 0.001 0.999 = _ at e4
  change saturate o.beta 0.1 0.99 = _ at e5
  change saturate o.eta 1e-12 0.499 = _ at e6
  change saturate o.delta 0.0001 0.99 = _ at e7
  change saturate o.gamma 0.001 0.9 = _ at e8
  change saturate o.innerTolMax 1e-8 1e2 = _ at e9
  change saturate o.innerTolMin 1e-14 1e-2 = _ at e10
  unfold Params.validate
  simp only [e1, e2, ok_bind, e3, e4, e5, e6, e7, e8, e9, e10]
  refine ⟨_, sMax, sMin, rfl, rfl, rfl, rfl, rfl, e3, ?_⟩
  exact ⟨rfl, rfl, rfl, rfl, rfl, rfl, rfl, rfl, rfl, rfl, rfl, rfl, rfl, rfl, rfl⟩

/-- C01, never throws, with infinities and NaN among the options. -/
theorem C01_validation_total_xreal : ValidationTotal XReal := fun o =>
  let ⟨o', _, _, h, _⟩ := validate_xreal o
  ⟨o', h⟩

/-- No numeric option is NaN. -/
structure Params.NoNan (o : Params XReal) : Prop where
  sigma0 : o.sigma0 ≠ .nan
  sigmaMax : o.sigmaMax ≠ .nan
  sigmaMin : o.sigmaMin ≠ .nan
  alpha : o.alpha ≠ .nan
  beta : o.beta ≠ .nan
  eta : o.eta ≠ .nan
  delta : o.delta ≠ .nan
  gamma : o.gamma ≠ .nan
  absTol : o.absTol ≠ .nan
  relTol : o.relTol ≠ .nan
  stallTol : o.stallTol ≠ .nan
  infeasTol : o.infeasTol ≠ .nan
  innerTolMax : o.innerTolMax ≠ .nan
  innerTolMin : o.innerTolMin ≠ .nan

open XReal in
theorem between_of_saturate {x : XReal} {a b : ℝ} {t : XReal} (hx : x ≠ .nan) (hab : a ≤ b)
    (h : saturate x (val a) (val b) = .ok t) : Between (val a) t (val b) := by
  cases x with
  | nan => exact absurd rfl hx
  | val x =>
    rw [saturate_val (EReal.coe_le_coe_iff.2 hab)] at h
    cases h
    exact ⟨val_le.2 (le_max_right _ _),
      val_le.2 (max_le (min_le_right _ _) (EReal.coe_le_coe_iff.2 hab))⟩

open XReal in
/-- C01 with infinities: if no option is NaN, validated options are in range. -/
theorem C01_xreal_inRange (o o' : Params XReal) (hn : o.NoNan) (h : o.validate = .ok o') :
    o'.InRange := by
  obtain ⟨o'', sMax, sMin, h0, h1, h2, h3, h4, h5, h6, h7, h8, h9, h10, h11, h12, h13, h14, h15,
    h16, h17, h18, h19, h20⟩ := validate_xreal o
  rw [h0] at h
  cases h
  have b1 : Between (1e-6 : XReal) sMax 1e2 := between_of_saturate hn.sigmaMax (by norm_num) h1
  have b2 : Between (1e-13 : XReal) sMin 1e-8 := between_of_saturate hn.sigmaMin (by norm_num) h2
  have le_of : ∀ {x : XReal} {a : EReal}, x ≠ nan → (val a : XReal) ≤ cmax x (val a) := by
    intro x a hx
    obtain ⟨t, e, ht⟩ := cmax_num (a := a) hx
    rw [e]; exact ht
  obtain ⟨s0, e0, hs0⟩ := cmax_num (a := ((1e-10 : ℝ) : EReal)) hn.sigma0
  rw [show cmax o.sigma0 1e-10 = _ from e0] at h5
  cases sMax with
  | nan => exact absurd b1.1 le_nan
  | val sMax =>
  cases sMin with
  | nan => exact absurd b2.1 le_nan
  | val sMin =>
  have hle : sMin ≤ sMax := le_trans (val_le.1 b2.2)
    (le_trans (EReal.coe_le_coe_iff.2 (by norm_num)) (val_le.1 b1.1))
  rw [saturate_val hle] at h5
  injection h5 with h5
  constructor
  · rw [h3]; exact b1
  · rw [h4]; exact b2
  · rw [h3, h4, ← h5]; exact ⟨val_le.2 (le_max_right _ _), val_le.2 (max_le (min_le_right _ _) hle)⟩
  · rw [← h5]
    refine val_le.2 (le_max_of_le_left (le_min hs0 (le_trans ?_ (val_le.1 b1.1))))
    exact EReal.coe_le_coe_iff.2 (by norm_num)
  · exact between_of_saturate hn.alpha (by norm_num) h6
  · exact between_of_saturate hn.beta (by norm_num) h7
  · exact between_of_saturate hn.eta (by norm_num) h8
  · exact between_of_saturate hn.delta (by norm_num) h9
  · exact between_of_saturate hn.gamma (by norm_num) h10
  · rw [h11]; exact le_of hn.absTol
  · rw [h12]; exact le_of hn.relTol
  · rw [h13]; exact le_of hn.stallTol
  · rw [h14]; exact le_of hn.infeasTol
  · exact between_of_saturate hn.innerTolMax (by norm_num) h15
  · exact between_of_saturate hn.innerTolMin (by norm_num) h16
  · rw [h17]; unfold imax; omega
  · rw [h18]; unfold imax; omega
  · rw [h19]; unfold imax; omega
  · rw [h20]; unfold imax; omega

/-- A non-trivial instance: the defaults with an infinite tolerance and a negative `alpha`. -/
example : ({ (Params.defaults : Params XReal) with
    absTol := .val ⊤, alpha := -1e0 } : Params XReal).NoNan := by
  constructor <;> simp only [Params.defaults] <;> intro h <;> cases h

open XReal in
/-- C01, the exception: NaN passes validation (here for the merit parameter `alpha`, the
tolerance `abs_tol` and the regularisation `sigma0`), so that the range statement is false for
options that may be NaN. -/
theorem C01_nan_survives : ∃ o o' : Params XReal, o.validate = .ok o' ∧
    o'.alpha = .nan ∧ o'.absTol = .nan ∧ o'.sigma0 = .nan ∧ ¬o'.InRange := by
  refine ⟨{ (Params.defaults : Params XReal) with alpha := .nan, absTol := .nan, sigma0 := .nan },
    ?_⟩
  obtain ⟨o', sMax, sMin, h0, h1, h2, h3, h4, h5, h6, h7, h8, h9, h10, h11, -⟩ := validate_xreal
    { (Params.defaults : Params XReal) with alpha := .nan, absTol := .nan, sigma0 := .nan }
  have ha : o'.alpha = .nan := by
    rw [show saturate nan 0.001 0.999 = _ from
      saturate_nan (a := ((0.001 : ℝ) : EReal)) (b := ((0.999 : ℝ) : EReal))
        (EReal.coe_le_coe_iff.2 (by norm_num))] at h6
    injection h6 with h6
    exact h6.symm
  have hb : o'.absTol = .nan := by
    rw [h11]; unfold cmax; exact if_neg nan_lt
  have hs : o'.sigma0 = .nan := by
    have e : cmax nan (1e-10 : XReal) = nan := by unfold cmax; exact if_neg nan_lt
    rw [e] at h5
    unfold saturate at h5
    split at h5
    · cases h5
    · have e2 : cmin nan sMax = nan := by unfold cmin; exact if_neg lt_nan
      simp only [e2] at h5
      have e3 : cmax nan sMin = nan := by unfold cmax; exact if_neg nan_lt
      rw [e3] at h5
      injection h5 with h5
      exact h5.symm
  refine ⟨o', h0, ha, hb, hs, fun h => ?_⟩
  have := h.absTol
  rw [hb] at this
  exact le_nan this

/-! ## C03 -/

section
variable {K : Type} [Scalar K]

theorem options_updateOptions_dense (hv : ValidationTotal K) (s : FBstabDense K) (o : Params K) :
    o.validate = .ok (s.updateOptions o).2.options := by
  obtain ⟨o', h⟩ := hv o
  simp only [FBstabDense.updateOptions, AlgMem.updateParameters, h]
  rfl

theorem options_updateOptions_mpc (hv : ValidationTotal K) (s : FBstabMpc K) (o : Params K) :
    o.validate = .ok (s.updateOptions o).2.options := by
  obtain ⟨o', h⟩ := hv o
  simp only [FBstabMpc.updateOptions, AlgMem.updateParameters, h]
  rfl

theorem FBstabDense.after_options (hv : ValidationTotal K) (h : List (DenseCall K))
    (s : FBstabDense K) : match DenseCall.lastOptions h with
      | none => (s.after h).options = s.options
      | some o => o.validate = .ok (s.after h).options := by
  induction h generalizing s with
  | nil => rfl
  | cons c h ih =>
    cases c with
    | solve qp x =>
      have := ih (s.solve qp x).solver
      simp only [DenseCall.lastOptions]
      cases hl : DenseCall.lastOptions h with
      | none => rw [hl] at this; exact Eq.trans this (solve_options s qp x)
      | some o => rw [hl] at this; exact this
    | updateOptions o =>
      have := ih (s.updateOptions o).2
      simp only [DenseCall.lastOptions]
      cases hl : DenseCall.lastOptions h with
      | none =>
        rw [hl] at this
        have e : ((s.after (.updateOptions o :: h)).options) = (s.updateOptions o).2.options := this
        simp only [Option.none_or]
        rw [e]
        exact options_updateOptions_dense hv s o
      | some o' => rw [hl] at this; exact this

theorem FBstabMpc.after_options (h0 : ((0 : K) == 0) = true) (hv : ValidationTotal K)
    (h : List (MpcCall K)) (s : FBstabMpc K) : match MpcCall.lastOptions h with
      | none => (s.after h).options = s.options
      | some o => o.validate = .ok (s.after h).options := by
  induction h generalizing s with
  | nil => rfl
  | cons c h ih =>
    cases c with
    | solve qp x =>
      have := ih (s.solve qp x).solver
      simp only [MpcCall.lastOptions]
      cases hl : MpcCall.lastOptions h with
      | none => rw [hl] at this; exact Eq.trans this (solve_sizes h0 s qp x).2.2.2.2
      | some o => rw [hl] at this; exact this
    | updateOptions o =>
      have := ih (s.updateOptions o).2
      simp only [MpcCall.lastOptions]
      cases hl : MpcCall.lastOptions h with
      | none =>
        rw [hl] at this
        have e : ((s.after (.updateOptions o :: h)).options) = (s.updateOptions o).2.options := this
        simp only [Option.none_or]
        rw [e]
        exact options_updateOptions_mpc hv s o
      | some o' => rw [hl] at this; exact this

theorem FBstabDense.new_facts {junk : DenseJunk K} {nz nl nv : Int} {s : FBstabDense K}
    (h : FBstabDense.new junk nz nl nv = .ok s) : s.options = Params.defaults ∧
      (s.nz : Int) = nz ∧ (s.nl : Int) = nl ∧ (s.nv : Int) = nv ∧ 0 < nz ∧ 0 ≤ nl ∧ 0 < nv := by
  unfold FBstabDense.new at h
  by_cases hb : nz ≤ 0 ∨ nv ≤ 0 ∨ nl < 0
  · simp only [hb, if_true] at h; cases h
  · have hb' : ¬(nz ≤ 0 ∨ nl < 0 ∨ nv ≤ 0) := by omega
    simp only [hb, if_false, componentCheck, hb'] at h
    by_cases ho : (intLimit : Int) ≤ nz + nl
    · simp only [ho, if_true] at h; cases h
    · simp only [ho, if_false] at h
      cases h
      exact ⟨rfl, by simp; omega, by simp; omega, by simp; omega, by omega, by omega, by omega⟩

theorem FBstabMpc.new_facts {junk : MpcJunk K} {N nx nu nc : Int} {s : FBstabMpc K}
    (h : FBstabMpc.new junk N nx nu nc = .ok s) : s.options = Params.defaults ∧
      (s.N : Int) = N ∧ (s.nx : Int) = nx ∧ (s.nu : Int) = nu ∧ (s.nc : Int) = nc ∧
      1 ≤ N ∧ 1 ≤ nx ∧ 1 ≤ nu ∧ 1 ≤ nc := by
  unfold FBstabMpc.new at h
  by_cases hb : N < 1 ∨ nx < 1 ∨ nu < 1 ∨ nc < 1
  · simp only [hb, if_true] at h; cases h
  · have p1 : 0 < (nx + nu) * (N + 1) := Int.mul_pos (by omega) (by omega)
    have p2 : 0 < nx * (N + 1) := Int.mul_pos (by omega) (by omega)
    have p3 : 0 < nc * (N + 1) := Int.mul_pos (by omega) (by omega)
    have hb' : ¬((nx + nu) * (N + 1) ≤ 0 ∨ nx * (N + 1) < 0 ∨ nc * (N + 1) ≤ 0) := by omega
    have hb2 : ¬(N ≤ 0 ∨ nx ≤ 0 ∨ nu ≤ 0 ∨ nc ≤ 0) := by omega
    simp only [hb, if_false, componentCheck, hb', hb2] at h
    by_cases ho : (intLimit : Int) ≤ (nx + nu) * (N + 1) ∨ (intLimit : Int) ≤ nx * (N + 1) ∨
        (intLimit : Int) ≤ nc * (N + 1)
    · simp only [ho, if_true] at h; cases h
    · simp only [ho, if_false] at h
      cases h
      exact ⟨rfl, by simp; omega, by simp; omega, by simp; omega, by simp; omega, by omega,
        by omega, by omega, by omega⟩

/-- C03: after any history of calls on a freshly constructed object the options in force are the
validated argument of the last `UpdateOptions`, or the defaults if there was none. -/
theorem C03_dense (hv : ValidationTotal K) (junk : DenseJunk K) (nz nl nv : Int)
    (s : FBstabDense K) (hs : FBstabDense.new junk nz nl nv = .ok s) (h : List (DenseCall K)) :
    match DenseCall.lastOptions h with
    | none => (s.after h).options = Params.defaults
    | some o => o.validate = .ok (s.after h).options := by
  have := s.after_options hv h
  rw [(FBstabDense.new_facts hs).1] at this
  exact this

/-- C03 for `FBstabMpc`.  (`0 == 0` is the only law of arithmetic used.) -/
theorem C03_mpc (h0 : ((0 : K) == 0) = true) (hv : ValidationTotal K) (junk : MpcJunk K)
    (N nx nu nc : Int) (s : FBstabMpc K) (hs : FBstabMpc.new junk N nx nu nc = .ok s)
    (h : List (MpcCall K)) :
    match MpcCall.lastOptions h with
    | none => (s.after h).options = Params.defaults
    | some o => o.validate = .ok (s.after h).options := by
  have := s.after_options h0 hv h
  rw [(FBstabMpc.new_facts hs).1] at this
  exact this

/-- C03: `Solve` never changes the options, whether it returns or throws. -/
theorem C03_solve_dense (s : FBstabDense K) (qp : DenseProblem K) (x : CallerVar K) :
    (s.solve qp x).solver.options = s.options := s.solve_options qp x

/-- C03: `Solve` never changes the options, whether it returns or throws. -/
theorem C03_solve_mpc (h0 : ((0 : K) == 0) = true) (s : FBstabMpc K) (p : MpcProblem K)
    (x : CallerVar K) : (s.solve p x).solver.options = s.options :=
  (s.solve_sizes h0 p x).2.2.2.2

theorem validate_limits {o o' : Params K} (h : o.validate = .ok o') : o'.Limits := by
  unfold Params.validate at h
  have bind_ok : ∀ {α β : Type} {a : Except Err α} {f : α → Except Err β} {b : β},
      (a >>= f) = .ok b → ∃ t, a = .ok t ∧ f t = .ok b := by
    intro α β a f b h
    cases a with
    | error e => cases h
    | ok t => exact ⟨t, rfl, h⟩
  iterate 10
    obtain ⟨_, -, h⟩ := bind_ok h
  cases h
  constructor <;> (simp only [imax]; omega)

theorem defaults_limits : (Params.defaults : Params K).Limits := by
  constructor <;> simp [Params.defaults]

theorem FBstabDense.Reachable.limits (hv : ValidationTotal K) {s : FBstabDense K}
    (hs : s.Reachable) : s.options.Limits := by
  obtain ⟨junk, nz, nl, nv, s0, h, h1, rfl⟩ := hs
  have := C03_dense hv junk nz nl nv s0 h1 h
  cases hl : DenseCall.lastOptions h with
  | none => rw [hl] at this; rw [show (s0.after h).options = _ from this]; exact defaults_limits
  | some o => rw [hl] at this; exact validate_limits this

theorem FBstabMpc.Reachable.limits (h0 : ((0 : K) == 0) = true) (hv : ValidationTotal K)
    {s : FBstabMpc K} (hs : s.Reachable) : s.options.Limits := by
  obtain ⟨junk, N, nx, nu, nc, s0, h, h1, rfl⟩ := hs
  have := C03_mpc h0 hv junk N nx nu nc s0 h1 h
  cases hl : MpcCall.lastOptions h with
  | none => rw [hl] at this; rw [show (s0.after h).options = _ from this]; exact defaults_limits
  | some o => rw [hl] at this; exact validate_limits this

end

theorem real_beq_zero : ((0 : ℝ) == 0) = true := by simp

/-- C01/C03: the options of every `FBstabDense` object that can be reached by API calls are in
range. -/
theorem C01_reachable_dense (s : FBstabDense ℝ) (hs : s.Reachable) : s.options.InRange := by
  obtain ⟨junk, nz, nl, nv, s0, h, h1, rfl⟩ := hs
  have := C03_dense C01_validation_total_real junk nz nl nv s0 h1 h
  cases hl : DenseCall.lastOptions h with
  | none => rw [hl] at this; rw [show (s0.after h).options = _ from this]; exact defaults_inRange
  | some o =>
    rw [hl] at this
    dsimp only at this
    rw [validate_real] at this
    injection this with this
    rw [← this]
    exact validatedReal_inRange o

/-- C01/C03: the options of every `FBstabMpc` object that can be reached by API calls are in
range. -/
theorem C01_reachable_mpc (s : FBstabMpc ℝ) (hs : s.Reachable) : s.options.InRange := by
  obtain ⟨junk, N, nx, nu, nc, s0, h, h1, rfl⟩ := hs
  have := C03_mpc real_beq_zero C01_validation_total_real junk N nx nu nc s0 h1 h
  cases hl : MpcCall.lastOptions h with
  | none => rw [hl] at this; rw [show (s0.after h).options = _ from this]; exact defaults_inRange
  | some o =>
    rw [hl] at this
    dsimp only at this
    rw [validate_real] at this
    injection this with this
    rw [← this]
    exact validatedReal_inRange o

end Fbstab
