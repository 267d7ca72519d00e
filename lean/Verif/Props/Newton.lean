import Verif.Proofs.Pfb

/-!
# C24, C31, C32: the Newton step of the dense solver

Over the reals.  The systems and the merit function are in `Verif/Spec/Newton.lean` and
`Verif/Spec/Gradient.lean`.
-/

namespace Fbstab
open Matrix Topology Filter

/-! ## C31: `PFBGradient` -/

/-- `(a, b)` is not on one of the two half axes where the penalty term has a kink. -/
def OffKinks (a b : ℝ) : Prop := ¬(a = 0 ∧ 0 < b) ∧ ¬(0 < a ∧ b = 0)

/-- C31: outside a disc of radius 1e-13, and off the kinks, `PFBGradient` is the gradient of the
complementarity function `pfb`. -/
theorem C31_gradient (alpha : ℝ) {a b : ℝ} (hr : 1e-13 ≤ √(a * a + b * b)) (hk : OffKinks a b) :
    HasGradient (fun a b => pfb a b alpha) (pfbGradient alpha a b) a b := by
  rw [pfbGradient_eq hr]
  refine pfb_hasGradient alpha (fun h => ?_) hk.1 hk.2
  rw [h, Real.sqrt_zero] at hr
  norm_num at hr

/-- C31, on the kinks and at the origin: there `PFBGradient` is a limit of gradients. -/
theorem C31_limiting (alpha : ℝ) {a b : ℝ} (hr : 1e-13 ≤ √(a * a + b * b) ∨ (a = 0 ∧ b = 0)) :
    LimitingGradient (fun a b => pfb a b alpha) (pfbGradient alpha a b) a b := by
  rcases hr with hr | ⟨rfl, rfl⟩
  · rw [pfbGradient_eq hr]
    refine pfbGrad_limiting alpha (fun h => ?_)
    rw [h, Real.sqrt_zero] at hr
    norm_num at hr
  · exact pfbGradient_limiting_zero alpha

/-- C31, inside the disc the returned pair is not the gradient: at `(-1e-14, 0)` the function is
differentiable, with a gradient different from `PFBGradient`. -/
theorem C31_inside_false {alpha : ℝ} (h0 : 0 < alpha) :
    ∃ a b g, HasGradient (fun a b => pfb a b alpha) g a b ∧ pfbGradient alpha a b ≠ g := by
  refine ⟨-1e-14, 0, _, pfb_hasGradient alpha (add_sq_ne_zero (.inl (by norm_num)))
    (fun h => by norm_num at h) (fun h => by norm_num at h), fun h => ?_⟩
  have h2 : √((-1e-14 : ℝ) * -1e-14 + 0 * 0) = 1e-14 := by
    rw [show (-1e-14 : ℝ) * -1e-14 + 0 * 0 = 1e-14 * 1e-14 by ring]
    exact Real.sqrt_mul_self (by norm_num)
  have h3 := congrArg Prod.snd h
  unfold pfbGradient pfbGrad at h3
  simp only [scalar_sqrt, h2] at h3
  rw [if_pos (by norm_num), if_neg (fun h => by norm_num at h)] at h3
  simp only [zero_div, sub_zero, mul_one] at h3
  have h4 : (1 : ℝ) / √2.0 = 0 := by
    have := mul_left_cancel₀ h0.ne' (h3.trans (mul_one alpha).symm)
    linarith
  have h5 : (0 : ℝ) < 1 / √2.0 := by positivity
  exact h5.ne' h4

/-- C31: the slopes are nonnegative, and `mu = g2 + sigma * g1`, by which the solver divides, is
positive. -/
theorem C31_positive {alpha : ℝ} (h0 : 0 < alpha) (h1 : alpha < 1) {sigma : ℝ} (hs : 0 < sigma)
    (a b : ℝ) : 0 ≤ (pfbGradient alpha a b).1 ∧ 0 ≤ (pfbGradient alpha a b).2 ∧
      0 < (pfbGradient alpha a b).2 + sigma * (pfbGradient alpha a b).1 := by
  have hn := pfbGradient_nonneg h0 h1 a b
  refine ⟨hn.1, hn.2, ?_⟩
  rcases pfbGradient_pos h0 h1 a b with h | h
  · exact add_pos_of_nonneg_of_pos hn.2 (mul_pos hs h)
  · exact add_pos_of_pos_of_nonneg h (mul_nonneg hs.le hn.1)

/-- The hypotheses of C31 are met, with a gradient that is not trivial. -/
example : (1e-13 : ℝ) ≤ √(3 * 3 + 4 * 4) ∧ OffKinks 3 4 := by
  refine ⟨?_, by unfold OffKinks; norm_num⟩
  rw [show (3 * 3 + 4 * 4 : ℝ) = 5 * 5 by norm_num, Real.sqrt_mul_self (by norm_num)]
  norm_num

/-! ## C24: the dense solver solves the Newton system -/

section
variable {nz nl nv : Nat}

/-- C24: on a convex problem, with any contents of the workspaces, `Initialize` succeeds at every
pair of points and `Solve` returns the one and only solution of the Newton system (with slopes
`PFBGradient` at the current pairs), together with `y = b - A z`. -/
theorem C24_dense (d : DenseData ℝ nz nl nv) (hc : (QP.ofDense d).Convex) {alpha sigma : ℝ}
    (h0 : 0 < alpha) (h1 : alpha < 1) (hs : 2.2250738585072014e-308 < sigma)
    (w : DenseWs ℝ nz nl nv) (hd : w.data = some d) (ha : w.alpha = alpha)
    (x xbar : Point ℝ nz nl nv) :
    ∃ w', DenseWs.init x xbar sigma w = .ok true w' ∧ ∀ r dx0, ∃ w'' dx,
      DenseWs.solve r dx0 w' = .ok (true, dx) w'' ∧
      (∀ dz dl dv, (QP.ofDense d).NewtonSystem sigma
        (fun i => (pfbGradient alpha (x.y i + sigma * (x.v i - xbar.v i)) (x.v i)).1)
        (fun i => (pfbGradient alpha (x.y i + sigma * (x.v i - xbar.v i)) (x.v i)).2)
        r.z.fn r.l.fn r.v.fn dz dl dv ↔ dz = dx.z.fn ∧ dl = dx.l.fn ∧ dv = dx.v.fn) ∧
      dx.y.fn = (QP.ofDense d).b - (QP.ofDense d).A *ᵥ dx.z.fn := by
  obtain ⟨hf, hstep⟩ := dense_newton d hc h0 h1 hs x xbar
  have hspec := (denseSem ℝ nz nl nv).spec d alpha w x xbar sigma ⟨hd, ha⟩
  have : (denseSem ℝ nz nl nv).factor d alpha x xbar sigma = _ := hf
  rw [this] at hspec
  obtain ⟨w', hi, hw⟩ := hspec
  refine ⟨w', hi, fun r dx0 => ?_⟩
  obtain ⟨w'', hsol, -⟩ := hw r dx0
  obtain ⟨hn, hy⟩ := hstep r
  refine ⟨w'', _, hsol, fun dz dl dv => ⟨fun h => ?_, ?_⟩, hy⟩
  · refine QP.NewtonSystem.unique hc (tiny_pos.trans hs) (fun i => (pfbGradient_nonneg h0 h1 _ _).1)
      (fun i => (C31_positive h0 h1 (tiny_pos.trans hs) _ _).2.2) h hn
  · rintro ⟨rfl, rfl, rfl⟩
    exact hn

/-- C24: `Initialize` throws exactly when no data were linked or `sigma <= 0`. -/
theorem C24_throws {K : Type} [Scalar K] (w : DenseWs K nz nl nv) (x xbar : Point K nz nl nv)
    (sigma : K) :
    (∃ e w', DenseWs.init x xbar sigma w = .error e w') ↔ w.data = none ∨ sigma ≤ 0 := by
  unfold DenseWs.init
  cases w.data with
  | none => simp
  | some d =>
    by_cases h : sigma ≤ 0
    · simp [h]
    · simp [h]

/-- The hypotheses of C24 are met by a problem with a singular Hessian, an equation and an
inequality. -/
example : ∃ d : DenseData ℝ 2 1 1, (QP.ofDense d).Convex ∧ d.H ≠ Mat.ofFn (fun _ _ => 0) ∧
    ∃ z ≠ 0, (QP.ofDense d).H *ᵥ z = 0 := by
  refine ⟨⟨Mat.ofFn fun i j => if i = 0 ∧ j = 0 then 1 else 0, Vec.const 1, Mat.ofFn fun _ _ => 1,
    Vec.const 1, Mat.ofFn fun _ _ => 2, Vec.const 3⟩, ⟨?_, ?_⟩, ?_, ![0, 1], ?_, ?_⟩
  · ext i j
    simp [QP.ofDense, and_comm]
  · intro z
    simp [QP.ofDense, mulVec, dotProduct, Fin.sum_univ_two]
    nlinarith [mul_self_nonneg (z 0)]
  · intro h
    have := congrArg (fun m : Mat ℝ 2 2 => m 0 0) h
    simp at this
  · intro h
    have := congrFun h 1
    simp at this
  · ext i
    simp [QP.ofDense, mulVec, dotProduct, Fin.sum_univ_two]

end

/-! ## C32: Newton directions are descent directions -/

section
variable {nz nl nv : Nat}

/-- Every pair `(y + sigma (v - vbar), v)` of the point is where `pfb` is differentiable and
`PFBGradient` is its gradient. -/
def SmoothAt (q : QP nz nl nv) (sigma : ℝ) (vb : Fin nv → ℝ) (z : Fin nz → ℝ) (v : Fin nv → ℝ) :
    Prop :=
  ∀ i, 1e-13 ≤ √((q.b i - (q.A *ᵥ z) i + sigma * (v i - vb i)) *
      (q.b i - (q.A *ᵥ z) i + sigma * (v i - vb i)) + v i * v i) ∧
    OffKinks (q.b i - (q.A *ᵥ z) i + sigma * (v i - vb i)) (v i)

/-- The merit function with the solver's complementarity function. -/
noncomputable def QP.pfbMerit (q : QP nz nl nv) (alpha sigma : ℝ) (xb x : Point ℝ nz nl nv) : ℝ :=
  q.merit (fun a b => pfb a b alpha) sigma xb.z.fn xb.l.fn xb.v.fn x.z.fn x.l.fn x.v.fn

/-- The merit at `x + t dx`. -/
noncomputable def QP.pfbMeritAlong (q : QP nz nl nv) (alpha sigma : ℝ) (xb x dx : Point ℝ nz nl nv)
    (t : ℝ) : ℝ :=
  q.merit (fun a b => pfb a b alpha) sigma xb.z.fn xb.l.fn xb.v.fn (x.z.fn + t • dx.z.fn)
    (x.l.fn + t • dx.l.fn) (x.v.fn + t • dx.v.fn)

/-- `r` is minus the residual of the subproblem, the right-hand side the solver uses. -/
structure MinusResidual (q : QP nz nl nv) (alpha sigma : ℝ) (xb x : Point ℝ nz nl nv)
    (r : Resid ℝ nz nl nv) : Prop where
  z : r.z.fn = -(q.lagrangeGrad x.z.fn x.l.fn x.v.fn + sigma • (x.z.fn - xb.z.fn))
  l : r.l.fn = -(q.h - q.G *ᵥ x.z.fn + sigma • (x.l.fn - xb.l.fn))
  v : ∀ i, r.v i = -pfb (q.b i - (q.A *ᵥ x.z.fn) i + sigma * (x.v i - xb.v i)) (x.v i) alpha

/-- Descent for any solution of the Newton system. -/
theorem newton_descent {q : QP nz nl nv} {alpha sigma : ℝ} {xb x dx : Point ℝ nz nl nv}
    {r : Resid ℝ nz nl nv} (hy : x.y.fn = q.b - q.A *ᵥ x.z.fn)
    (hs : SmoothAt q sigma xb.v.fn x.z.fn x.v.fn) (hr : MinusResidual q alpha sigma xb x r)
    (hn : q.NewtonSystem sigma
        (fun i => (pfbGradient alpha (x.y i + sigma * (x.v i - xb.v i)) (x.v i)).1)
        (fun i => (pfbGradient alpha (x.y i + sigma * (x.v i - xb.v i)) (x.v i)).2)
        r.z.fn r.l.fn r.v.fn dx.z.fn dx.l.fn dx.v.fn) :
    HasDerivAt (q.pfbMeritAlong alpha sigma xb x dx) (-(2 * q.pfbMerit alpha sigma xb x)) 0 ∧
    (0 < q.pfbMerit alpha sigma xb x → ∀ eta < 1, ∀ beta, 0 < beta → beta < 1 →
      ∃ J : ℕ, ∀ j ≥ J, q.pfbMeritAlong alpha sigma xb x dx (beta ^ j) ≤
        q.pfbMerit alpha sigma xb x - 2 * beta ^ j * eta * q.pfbMerit alpha sigma xb x) := by
  have hyi : ∀ i, x.y i = q.b i - (q.A *ᵥ x.z.fn) i := fun i => congrFun hy i
  simp only [hyi] at hn
  have hv : r.v.fn = fun i => -pfb (q.b i - (q.A *ᵥ x.z.fn) i + sigma * (x.v.fn i - xb.v.fn i))
      (x.v.fn i) alpha := funext hr.v
  rw [hr.z, hr.l, hv] at hn
  have hd := QP.NewtonSystem.descent (phi := fun a b => pfb a b alpha)
    (fun i => C31_gradient alpha (hs i).1 (hs i).2) hn
  refine ⟨hd, fun hm eta he beta hb0 hb1 => ?_⟩
  have hF := armijo_eventually hd (by simp) hm he
  have ht : Tendsto (fun j : ℕ => beta ^ j) atTop (𝓝[>] (0 : ℝ)) := by
    refine tendsto_nhdsWithin_iff.2 ⟨tendsto_pow_atTop_nhds_zero_of_lt_one hb0.le hb1, ?_⟩
    exact Eventually.of_forall fun j => pow_pos hb0 j
  exact eventually_atTop.1 (ht.eventually hF)

/-- C32: at a point where the residual is differentiable, the direction the dense solver computes
satisfies `d/dt merit(x + t dx) = -2 merit(x)` at `t = 0`; hence the sufficient decrease test of the
line search holds for all sufficiently small steps `beta^j`. -/
theorem C32_dense (d : DenseData ℝ nz nl nv) (hc : (QP.ofDense d).Convex) {alpha sigma : ℝ}
    (h0 : 0 < alpha) (h1 : alpha < 1) (hs : 2.2250738585072014e-308 < sigma)
    (w : DenseWs ℝ nz nl nv) (hd : w.data = some d) (ha : w.alpha = alpha)
    (x xbar dx0 : Point ℝ nz nl nv) (hy : x.y.fn = (QP.ofDense d).b - (QP.ofDense d).A *ᵥ x.z.fn)
    (hsm : SmoothAt (QP.ofDense d) sigma xbar.v.fn x.z.fn x.v.fn)
    (r : Resid ℝ nz nl nv) (hr : MinusResidual (QP.ofDense d) alpha sigma xbar x r) :
    ∃ w' w'' dx, DenseWs.init x xbar sigma w = .ok true w' ∧
      DenseWs.solve r dx0 w' = .ok (true, dx) w'' ∧
      HasDerivAt ((QP.ofDense d).pfbMeritAlong alpha sigma xbar x dx)
        (-(2 * (QP.ofDense d).pfbMerit alpha sigma xbar x)) 0 ∧
      (0 < (QP.ofDense d).pfbMerit alpha sigma xbar x → ∀ eta < 1, ∀ beta, 0 < beta → beta < 1 →
        ∃ J : ℕ, ∀ j ≥ J, (QP.ofDense d).pfbMeritAlong alpha sigma xbar x dx (beta ^ j) ≤
          (QP.ofDense d).pfbMerit alpha sigma xbar x -
            2 * beta ^ j * eta * (QP.ofDense d).pfbMerit alpha sigma xbar x) := by
  obtain ⟨w', hi, hw⟩ := C24_dense d hc h0 h1 hs w hd ha x xbar
  obtain ⟨w'', dx, hsol, hn, -⟩ := hw r dx0
  obtain ⟨e1, e2⟩ := newton_descent hy hsm hr ((hn _ _ _).2 ⟨rfl, rfl, rfl⟩)
  exact ⟨w', w'', dx, hi, hsol, e1, e2⟩

end
end Fbstab
