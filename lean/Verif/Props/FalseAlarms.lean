import Verif.Proofs.FirstStep
import Verif.Props.Infeasible

/-!
# Infeasibility flags that are wrong: C22, C23 (what does not hold)

With the default options, exact arithmetic and small convex problems that have a unique minimiser,
`Solve` reports infeasibility.
-/

namespace Fbstab
open Matrix

/-! ## A problem reported primal infeasible -/

/-- minimise `z^2 / 2` subject to `z <= 1`, `-z <= 1`. -/
noncomputable def boxQP : QP 1 0 2 where
  H := fun _ _ => 1
  f := fun _ => 0
  G := fun i _ => i.elim0
  h := fun i => i.elim0
  A := fun i _ => if i = 0 then 1 else -1
  b := fun _ => 1

theorem boxQP_convex : boxQP.Convex where
  symm := by ext i j; rfl
  nonneg := fun z => by
    simp only [dotProduct, mulVec, boxQP, Fin.sum_univ_one, one_mul]
    exact mul_self_nonneg _

/-- The minimiser of `boxQP` is `0`, in the interior of the feasible set. -/
theorem boxQP_kkt : boxQP.KKT 0 0 0 where
  stationary := by
    unfold QP.lagrangeGrad
    simp only [mulVec_zero, add_zero, zero_add]
    rfl
  feasible := ⟨by ext i; exact i.elim0, fun i => by
    rw [mulVec_zero]; exact zero_le_one⟩
  dual := fun i => le_refl _
  complementary := fun i => .inl rfl

/-- The slopes times the arguments give the value, for a pair that is not both positive. -/
theorem pfb_homogeneous {alpha a b : ℝ} (hr : 1e-13 ≤ √(a * a + b * b)) (h : ¬(0 < a ∧ 0 < b)) :
    pfb a b alpha = (pfbGradient alpha a b).1 * a + (pfbGradient alpha a b).2 * b := by
  have hp : 0 < √(a * a + b * b) := lt_of_lt_of_le (by norm_num) hr
  have hsq : √(a * a + b * b) * √(a * a + b * b) = a * a + b * b :=
    Real.mul_self_sqrt (by nlinarith [mul_self_nonneg a, mul_self_nonneg b])
  have hm : max 0 a * max 0 b = 0 := by
    by_cases ha : 0 < a
    · rw [max_eq_left (not_lt.1 fun hb => h ⟨ha, hb⟩)]; ring
    · rw [max_eq_left (not_lt.1 ha)]; ring
  rw [pfb_real]
  unfold pfbGradient
  simp only [scalar_sqrt, if_neg (not_lt.2 hr), if_neg h]
  have e : alpha * (1 - a / √(a * a + b * b)) * a + alpha * (1 - b / √(a * a + b * b)) * b =
      alpha * (a + b - √(a * a + b * b)) := by
    have : a / √(a * a + b * b) * a + b / √(a * a + b * b) * b = √(a * a + b * b) := by
      rw [div_mul_eq_mul_div, div_mul_eq_mul_div, ← add_div, div_eq_iff hp.ne', hsq]
    linear_combination (-alpha) * this
  rw [e, mul_assoc (1 - alpha), hm]
  ring

/-- One Newton step for `phi(1 + sigma (w - 1), w) = 0` with a step length in `(0, 1]` leads from
`w <= 1` to a number below `1`. -/
theorem box_step {alpha sigma w t mu : ℝ} (h0 : 0 < alpha) (h1 : alpha < 1) (hs : 0 < sigma)
    (hs' : sigma < 1 / 2) (hw : w ≤ 1) (ht : 0 < t) (ht' : t ≤ 1)
    (hmu : mu = sigma * (pfbGradient alpha (1 + sigma * (w - 1)) w).1 +
      (pfbGradient alpha (1 + sigma * (w - 1)) w).2) :
    w + t * (-pfb (1 + sigma * (w - 1)) w alpha / mu) < 1 := by
  obtain ⟨g1, g2⟩ := pfbGradient_nonneg h0 h1 (1 + sigma * (w - 1)) w
  have hmu0 : 0 < mu := by
    rw [hmu]
    rcases pfbGradient_pos h0 h1 (1 + sigma * (w - 1)) w with h | h
    · have := mul_pos hs h; linarith
    · have := mul_nonneg hs.le g1; linarith
  by_cases hw0 : 0 < w
  · have ha : 0 < 1 + sigma * (w - 1) := by nlinarith
    have hphi : 0 < pfb (1 + sigma * (w - 1)) w alpha := by
      rw [pfb_real]
      set a := 1 + sigma * (w - 1)
      rw [max_eq_right ha.le, max_eq_right hw0.le]
      have hsq : √(a * a + w * w) ≤ a + w := by
        rw [Real.sqrt_le_left (by linarith)]; nlinarith
      have h2 : 0 < (1 - alpha) * a * w := mul_pos (mul_pos (by linarith) ha) hw0
      have : 0 ≤ alpha * (a + w - √(a * a + w * w)) := mul_nonneg h0.le (by linarith)
      linarith
    have : 0 < t * (pfb (1 + sigma * (w - 1)) w alpha / mu) := mul_pos ht (div_pos hphi hmu0)
    rw [neg_div]
    linarith
  · have hw0 := not_lt.1 hw0
    have hr : 1e-13 ≤ √((1 + sigma * (w - 1)) * (1 + sigma * (w - 1)) + w * w) := by
      refine Real.le_sqrt_of_sq_le ?_
      by_cases h : w ≤ -(1/8)
      · nlinarith [mul_self_nonneg (1 + sigma * (w - 1))]
      · have : 1 / 4 ≤ 1 + sigma * (w - 1) := by nlinarith
        nlinarith [mul_self_nonneg w]
    have e := pfb_homogeneous (alpha := alpha) hr (fun h => absurd h.2 (not_lt.2 hw0))
    have key : -pfb (1 + sigma * (w - 1)) w alpha / mu ≤ -w := by
      rw [div_le_iff₀ hmu0, e, hmu]
      nlinarith
    nlinarith

/-- The iterates of the first subproblem. -/
structure BoxIterate (n : Nat) (x : Point ℝ 1 0 2) : Prop where
  z : x.z.fn = 0
  v : ∃ w : ℝ, x.v.fn = (fun _ => w) ∧ w ≤ 1 ∧ (0 < n → w < 1)
  y : x.y.fn = fun _ => 1

theorem BoxIterate.step {E : Core.Env ℝ 1 0 2} (N : Core.NewtonEnv E boxQP)
    (hs : E.opts.sigma0 < 1 / 2) {xbar : Point ℝ 1 0 2} (hb : BoxIterate 0 xbar)
    (hbv : xbar.v.fn = fun _ => 1) (n x x') (hx : BoxIterate n x)
    (h : Core.NewtonMove E boxQP xbar x x') : BoxIterate (n + 1) x' := by
  obtain ⟨w, hv, hw, -⟩ := hx.v
  obtain ⟨j, dz, dl, dv, -, hd, e1, e2, e3, e4⟩ := h.move
  have hyi : ∀ i, x.y i = 1 := fun i => congrFun hx.y i
  have hvi : ∀ i, x.v i = w := fun i => congrFun hv i
  have hbi : ∀ i, xbar.v i = 1 := fun i => congrFun hbv i
  have hal := N.inRange.alpha_pos
  have hal' := N.inRange.alpha_lt
  have hsig := N.inRange.sigma_pos
  have hmarg : Core.Marg boxQP x := by
    unfold Core.Marg
    rw [hx.y, hx.z, mulVec_zero, sub_zero]; rfl
  set a := 1 + E.opts.sigma0 * (w - 1) with ha
  set mu := E.opts.sigma0 * (pfbGradient E.opts.alpha a w).1 + (pfbGradient E.opts.alpha a w).2 with hmu
  have hmu0 : 0 < mu := by
    obtain ⟨g1, g2⟩ := pfbGradient_nonneg hal hal' a w
    rcases pfbGradient_pos hal hal' a w with h | h
    · have := mul_pos hsig h; linarith
    · have := mul_nonneg hsig.le g1; linarith
  have hsys := hd.system
  have hmine : boxQP.NewtonSystem E.opts.sigma0
    (fun i => (slopes E.opts.alpha E.opts.sigma0 x xbar i).1)
    (fun i => (slopes E.opts.alpha E.opts.sigma0 x xbar i).2)
    (-(boxQP.lagrangeGrad x.z.fn x.l.fn x.v.fn + E.opts.sigma0 • (x.z.fn - xbar.z.fn)))
    (-(boxQP.h - boxQP.G *ᵥ x.z.fn + E.opts.sigma0 • (x.l.fn - xbar.l.fn)))
    (fun i => -pfb (x.y i + E.opts.sigma0 * (x.v i - xbar.v i)) (x.v i) E.opts.alpha)
    0 0 (fun _ => -pfb a w E.opts.alpha / mu) := by
    refine ⟨?_, ?_, fun i => ?_⟩
    · rw [hx.z, hv, hb.z]
      unfold QP.lagrangeGrad
      have e0 : ∀ c : ℝ, boxQP.Aᵀ *ᵥ (fun _ => c) = 0 := by
        intro c; ext i
        rw [mulVec, dotProduct, Fin.sum_univ_two]
        show boxQP.A 0 i * c + boxQP.A 1 i * c = 0
        simp [boxQP]
      have e1 : boxQP.f = 0 := rfl
      have e2 : ∀ l, boxQP.Gᵀ *ᵥ l = 0 := by
        intro c; ext i; simp [mulVec, dotProduct]
      simp only [e0, e1, e2, mulVec_zero, add_zero, sub_zero, smul_zero, neg_zero]
    · ext i; exact i.elim0
    · simp only [slopes, hyi, hvi, hbi]
      rw [← ha]
      simp only [mulVec_zero, Pi.zero_apply, neg_zero, zero_add]
      field_simp
      rw [hmu]; ring
  obtain ⟨rfl, rfl, rfl⟩ := QP.NewtonSystem.unique N.convex hsig
    (fun i => (pfbGradient_nonneg hal hal' _ _).1) (fun i => by
      simp only [slopes, hyi, hvi, hbi]
      rw [← ha]; linarith) hsys hmine
  have hb0 : 0 < E.opts.beta := lt_of_lt_of_le (by norm_num) N.inRange.beta.1
  have hb1 : E.opts.beta ≤ 1 := N.inRange.beta.2.trans (by norm_num)
  refine ⟨by rw [e1, hx.z]; simp, ⟨w + E.opts.beta ^ j * (-pfb a w E.opts.alpha / mu), ?_, ?_⟩, ?_⟩
  · rw [e3, hv]; ext i; simp
  · have := box_step hal hal' hsig hs hw (pow_pos hb0 j) (pow_le_one₀ hb0.le hb1) hmu
    exact ⟨this.le, fun _ => this⟩
  · rw [e4 hmarg, e1, hx.z, smul_zero, add_zero, mulVec_zero, sub_zero]; rfl

theorem sqrt_two_lt : √(2 : ℝ) < 1.5 := by
  rw [Real.sqrt_lt' (by norm_num)]; norm_num

/-- The run on `boxQP` with the default options. -/
theorem box_run {E : Core.Env ℝ 1 0 2} (N : Core.NewtonEnv E boxQP) (ho : E.opts = Params.defaults)
    (ws : FeasWs ℝ 1 0 2) (z : Vec ℝ 1) (l : Vec ℝ 0) (v : Vec ℝ 2) (hz : z.fn = 0)
    (hv : v.fn = fun _ => 1) :
    ∃ fin, (Core.solve E ws z l v).2 = .ok fin ∧ fin.out.eflag = .primalInfeasible := by
  have e0 : ∀ c : ℝ, boxQP.Aᵀ *ᵥ (fun _ => c) = 0 := by
    intro c; ext i
    rw [mulVec, dotProduct, Fin.sum_univ_two]
    show boxQP.A 0 i * c + boxQP.A 1 i * c = 0
    simp [boxQP]
  have e2 : ∀ l, boxQP.Gᵀ *ᵥ l = 0 := by
    intro c; ext i; simp [mulVec, dotProduct]
  have hm : Core.Marg boxQP (Core.startPt E z l v) := Core.Marg.start N.ops z l v
  set x := Core.startPt E z l v with hx
  have hxz : x.z.fn = 0 := hz
  have hxv : x.v.fn = fun _ => 1 := hv
  have hxy : x.y.fn = fun _ => 1 := by
    rw [hm, hxz, mulVec_zero, sub_zero]; rfl
  have hxvi : ∀ i, x.v i = 1 := fun i => congrFun hxv i
  have hxyi : ∀ i, x.y i = 1 := fun i => congrFun hxy i
  have hx0 : BoxIterate 0 x := ⟨hxz, ⟨1, hxv, le_refl _, fun h => absurd h (lt_irrefl _)⟩, hxy⟩
  -- the residual of the guess
  have hgrad : boxQP.lagrangeGrad x.z.fn x.l.fn x.v.fn = 0 := by
    unfold QP.lagrangeGrad
    rw [hxz, hxv, e0, e2, mulVec_zero, add_zero, add_zero, zero_add]; rfl
  have hpen : Core.Resid.norm (E.penRes x) = √2 := by
    show norm3 (gradLagrangian E.ops x.z x.l x.v) (eqDefect E.ops x.z)
      (penalizedMin E.opts.alpha x.y x.v) = _
    rw [norm3_eq, N.ops.gradLagrangian, hgrad]
    congr 1
    have : (penalizedMin E.opts.alpha x.y x.v).fn = fun _ => 1 := by
      ext i
      show (penalizedMin E.opts.alpha x.y x.v) i = 1
      rw [penalizedMin, Vec.get_ofFn, hxvi, hxyi]
      simp
    rw [this]
    simp [dotProduct]
  have hinner : 1e-2 < Core.Resid.norm (E.innerRes x x E.opts.sigma0) := by
    obtain ⟨i1, i2, i3⟩ := Core.innerRes_fn N.ops x x E.opts.sigma0
    have hn : Core.Resid.norm (E.innerRes x x E.opts.sigma0) =
        norm3 (E.innerRes x x E.opts.sigma0).z (E.innerRes x x E.opts.sigma0).l
          (E.innerRes x x E.opts.sigma0).v := rfl
    have h3 := (norm3_bounds (le_of_eq hn.symm)).2.2
    have h4 := abs_le_euclid (E.innerRes x x E.opts.sigma0).v.fn 0
    have h5 : (E.innerRes x x E.opts.sigma0).v.fn 0 = pfb 1 1 0.95 := by
      have := i3 0
      rw [hxvi, hxyi] at this
      simp only [sub_self, mul_zero, add_zero] at this
      rw [show E.opts.alpha = 0.95 by rw [ho]; rfl] at this
      exact this
    have h6 : 0.1 < pfb (1 : ℝ) 1 0.95 := by
      rw [pfb_real]
      have := sqrt_two_lt
      norm_num at this ⊢
      linarith
    rw [h5] at h4
    have := le_abs_self (pfb (1 : ℝ) 1 0.95)
    norm_num at *
    linarith
  have hcombo : E.comboTol < √2 := by
    have h1 : (1:ℝ) < √2 := Real.lt_sqrt_of_sq_lt (by norm_num)
    have h2 : boxQP.f ⬝ᵥ boxQP.f + boxQP.h ⬝ᵥ boxQP.h + boxQP.b ⬝ᵥ boxQP.b = 2 := by
      simp [boxQP, dotProduct]
    unfold Core.Env.comboTol stoppingTol
    rw [N.ops.forcingNorm, h2, ho]
    have := sqrt_two_lt
    simp only [Params.defaults]
    norm_num at *
    linarith
  have hones : E.opts.stallTol < Core.normPt (Core.onesPt E) := by
    show _ < norm3 (Vec.const 1) (Vec.const 1) (Vec.const 1)
    rw [norm3_eq, ho]
    refine Real.lt_sqrt_of_sq_lt ?_
    simp [dotProduct, Params.defaults]
    norm_num
  have h1 : (1:ℝ) < √2 := Real.lt_sqrt_of_sq_lt (by norm_num)
  have hs : E.opts.sigma0 < 1 / 2 := by rw [ho]; norm_num [Params.defaults]
  obtain ⟨tol0, tol, o, xn, h0, hin, hox, n, hn⟩ := Core.first_subproblem N ws x BoxIterate
    (BoxIterate.step N hs hx0 hxv) hx0 (by rw [ho]; norm_num [Params.defaults])
    (by rw [hpen]; exact hcombo) hones
    (by rw [hpen, ho]; simp only [Params.defaults]; norm_num at *; linarith)
    (by rw [show E.opts.innerTolMax = 1e-2 by rw [ho]; rfl]; exact hinner)
  have hnew : ¬(E.opts.maxNewtonIters ≤ (o.newton : Int)) := by
    have := hin.newton.2.1
    rw [ho] at this ⊢
    simp only [Core.start, Params.defaults] at this ⊢
    omega
  have hchk := checkFeasibility_real N.ops (E.axpy (-1) x o.x) E.opts.infeasTol
    N.inRange.infeasTol_nonneg ws
  obtain ⟨w, hw, hw1, hw2⟩ := hn.v
  have hdv : (E.axpy (-1) x o.x).v.fn = fun _ => max w 0 - 1 := by
    rw [hox]
    ext i
    have h1 : xn.v i = w := congrFun hw i
    show (_ : ℝ) = _
    simp [Core.Env.axpy, Core.projectDuals, Vec.cwiseMax, h1, hxvi]
    ring
  have hdz : (E.axpy (-1) x o.x).z.fn = 0 := by
    rw [hox]
    ext i
    have h1 : xn.z i = 0 := congrFun hn.z i
    have h2 : x.z i = 0 := congrFun hxz i
    simp [Core.Env.axpy, Core.projectDuals, h1, h2]
  have hneg : max w 0 - 1 < 0 := by
    have : max w 0 < 1 := max_lt (hw2 (Nat.succ_pos _)) one_pos
    linarith
  have hP : boxQP.PrimalCertificate E.opts.infeasTol (E.axpy (-1) x o.x).l.fn
      (E.axpy (-1) x o.x).v.fn := by
    refine ⟨?_, ?_⟩
    · rw [hdv, e0, e2, add_zero, norm_zero]
      exact mul_nonneg N.inRange.infeasTol_nonneg (le_max_of_le_left (norm_nonneg _))
    · rw [hdv]
      have : boxQP.b ⬝ᵥ (fun _ => max w 0 - 1) = 2 * (max w 0 - 1) := by
        simp [boxQP, dotProduct]; ring
      rw [this, show boxQP.h ⬝ᵥ (E.axpy (-1) x o.x).l.fn = 0 by simp [dotProduct]]
      linarith
  have hD : ¬boxQP.DualCertificate E.opts.infeasTol (E.axpy (-1) x o.x).z.fn := by
    intro h
    have := h.nonzero
    rw [hdz, norm_zero] at this
    norm_num at this
  have hflag : Core.check E (Core.start E ws x tol0) o = .primalInfeasible := by
    rcases hchk.1.2 hP with h | h
    · exact h
    · exact absurd (hchk.2.1 (.inr h)) hD
  refine ⟨_, Core.solve_first N.inRange.maxProxIters h0 hin hnew (by rw [ho]; rfl)
    (by rw [hflag]; exact fun h => nomatch h), ?_⟩
  show Core.flagOf (Core.check E (Core.start E ws x tol0) o) = _
  rw [hflag]
  rfl

/-- A solver made for `boxQP` with the default options. -/
noncomputable abbrev boxSolver (junk : DenseJunk ℝ) : FBstabDense ℝ :=
  FBstabDense.made junk 1 0 2 Params.defaults

/-- The warm start `z = 0`, `v = (1, 1)`: the minimiser with wrong multipliers. -/
noncomputable abbrev boxGuess : CallerVar ℝ := guessOf (nz := 1) (nl := 0) (nv := 2) 0 0 fun _ => 1

theorem boxSolver_reachable (junk : DenseJunk ℝ) : (boxSolver junk).Reachable :=
  FBstabDense.made_reachable junk _ (by norm_num) (by norm_num) (by norm_num [intLimit]) defaults_inRange

theorem box_core (junk : DenseJunk ℝ) : ∃ fin,
    ((boxSolver junk).core boxQP.toDense boxGuess).2 = .ok fin ∧
    fin.out.eflag = .primalInfeasible := by
  have hq : (boxSolver junk).qp boxQP.toDense = boxQP := FBstabDense.made_qp junk _ _
  have N : Core.NewtonEnv ((boxSolver junk).env boxQP.toDense) boxQP := by
    have := (boxSolver junk).newtonEnv defaults_inRange boxQP.toDense (hq ▸ boxQP_convex)
    rwa [hq] at this
  obtain ⟨g1, g2, g3⟩ := guessOf_point (nz := 1) (nl := 0) (nv := 2) 0 0 fun _ => 1
  exact box_run N rfl _ _ _ _ g1 g3

/-- C22 fails: a feasible convex problem, started at its minimiser, is reported primal infeasible.
Every option is at its default.  The returned `v` is a "certificate" with negative entries, which
prove nothing. -/
theorem C22_false_alarm (junk : DenseJunk ℝ) :
    (boxSolver junk).Reachable ∧ ((boxSolver junk).qp boxQP.toDense).Convex ∧
    ((boxSolver junk).qp boxQP.toDense).Minimiser (boxGuess.z.toVec 1).fn ∧
    ∃ out, ((boxSolver junk).solve boxQP.toDense boxGuess).result = .ok out ∧
      out.eflag = .primalInfeasible := by
  have hq : (boxSolver junk).qp boxQP.toDense = boxQP := FBstabDense.made_qp junk _ _
  obtain ⟨g1, g2, g3⟩ := guessOf_point (nz := 1) (nl := 0) (nv := 2) 0 0 fun _ => 1
  obtain ⟨fin, h1, h2⟩ := box_core junk
  refine ⟨boxSolver_reachable junk, hq ▸ boxQP_convex, ?_, _,
    ((FBstabDense.solve_computes (boxQP.toDense_fits _ _ _)).ok fin h1 fun h => nomatch h).1, h2⟩
  rw [hq]
  show boxQP.Minimiser (boxGuess.z.toVec 1).fn
  rw [g1]
  exact boxQP_kkt.minimiser boxQP_convex

/-- C22 fails as stated: it is not true that the primal infeasible flag implies that the constraints
have no solution, not even for convex problems and default options. -/
theorem C22_not_sound : ¬∀ (s : FBstabDense ℝ) (_ : s.Reachable) (p : DenseProblem ℝ)
    (x : CallerVar ℝ) (out : SolverOut ℝ), (s.qp p).Convex → s.options = Params.defaults →
    (s.solve p x).result = .ok out → out.eflag.claimsPrimal → ¬∃ z, (s.qp p).Feasible z := by
  intro h
  obtain ⟨h1, h2, h3, out, h4, h5⟩ := C22_false_alarm .zeros
  exact h _ h1 _ _ out h2 rfl h4 (.inl h5) ⟨_, h3.feasible⟩

/-! ## A problem reported dual infeasible -/

/-- minimise `1e-9 z^2 / 2 - z` subject to `0 <= 1`. -/
noncomputable def flatQP : QP 1 0 1 where
  H := fun _ _ => 1e-9
  f := fun _ => -1
  G := fun i _ => i.elim0
  h := fun i => i.elim0
  A := fun _ _ => 0
  b := fun _ => 1

theorem flatQP_H (z : Fin 1 → ℝ) : flatQP.H *ᵥ z = fun _ => 1e-9 * z 0 := by
  ext i
  rw [mulVec, dotProduct, Fin.sum_univ_one]
  rfl

theorem flatQP_A (z : Fin 1 → ℝ) : flatQP.A *ᵥ z = 0 := by
  ext i
  rw [mulVec, dotProduct, Fin.sum_univ_one]
  exact zero_mul _

theorem flatQP_AT (z : Fin 1 → ℝ) : flatQP.Aᵀ *ᵥ z = 0 := by
  ext i
  rw [mulVec, dotProduct, Fin.sum_univ_one]
  exact zero_mul _

theorem flatQP_GT (l : Fin 0 → ℝ) : flatQP.Gᵀ *ᵥ l = 0 := by
  ext i; simp [mulVec, dotProduct]

theorem flatQP_convex : flatQP.Convex where
  symm := by ext i j; rfl
  nonneg := fun z => by
    rw [flatQP_H, dotProduct, Fin.sum_univ_one]
    nlinarith [mul_self_nonneg (z 0)]

/-- The minimiser of `flatQP` is `1e9`. -/
theorem flatQP_kkt : flatQP.KKT (fun _ => 1e9) 0 0 where
  stationary := by
    unfold QP.lagrangeGrad
    rw [flatQP_H, mulVec_zero, mulVec_zero, add_zero, add_zero]
    ext i
    show (1e-9 : ℝ) * 1e9 + -1 = 0
    norm_num
  feasible := ⟨by ext i; exact i.elim0, fun i => by rw [flatQP_A]; exact zero_le_one⟩
  dual := fun i => le_refl _
  complementary := fun i => .inl rfl

/-- The iterates of the first subproblem. -/
structure FlatIterate (n : Nat) (x : Point ℝ 1 0 1) : Prop where
  z0 : n = 0 → x.z.fn = 0
  z : ∃ w : ℝ, x.z.fn = (fun _ => w) ∧ 0 ≤ w ∧ w ≤ 1 / (1e-9 + 1e-8) ∧ (0 < n → 1 ≤ w)
  v : x.v.fn = 0
  y : x.y.fn = fun _ => 1

theorem FlatIterate.step {E : Core.Env ℝ 1 0 1} (N : Core.NewtonEnv E flatQP)
    (ho : E.opts = Params.defaults) {xbar : Point ℝ 1 0 1} (hb : FlatIterate 0 xbar)
    (n x x') (hx : FlatIterate n x)
    (h : Core.NewtonMove E flatQP xbar x x') : FlatIterate (n + 1) x' := by
  obtain ⟨w, hw, hw0, hw1, -⟩ := hx.z
  obtain ⟨j, dz, dl, dv, hj, hd, e1, e2, e3, e4⟩ := h.move
  have hyi : ∀ i, x.y i = 1 := fun i => congrFun hx.y i
  have hvi : ∀ i, x.v i = 0 := fun i => congrFun hx.v i
  have hbi : ∀ i, xbar.v i = 0 := fun i => congrFun hb.v i
  have hal := N.inRange.alpha_pos
  have hal' := N.inRange.alpha_lt
  have hsig := N.inRange.sigma_pos
  have hs8 : E.opts.sigma0 = 1e-8 := by rw [ho]; rfl
  have hmarg : Core.Marg flatQP x := by
    unfold Core.Marg
    rw [hx.y, flatQP_A, sub_zero]; rfl
  have hsys := hd.system
  have hmine : flatQP.NewtonSystem E.opts.sigma0
    (fun i => (slopes E.opts.alpha E.opts.sigma0 x xbar i).1)
    (fun i => (slopes E.opts.alpha E.opts.sigma0 x xbar i).2)
    (-(flatQP.lagrangeGrad x.z.fn x.l.fn x.v.fn + E.opts.sigma0 • (x.z.fn - xbar.z.fn)))
    (-(flatQP.h - flatQP.G *ᵥ x.z.fn + E.opts.sigma0 • (x.l.fn - xbar.l.fn)))
    (fun i => -pfb (x.y i + E.opts.sigma0 * (x.v i - xbar.v i)) (x.v i) E.opts.alpha)
    (fun _ => 1 / (1e-9 + 1e-8) - w) 0 0 := by
    refine ⟨?_, ?_, fun i => ?_⟩
    · rw [hw, hx.v, hb.z0 rfl]
      unfold QP.lagrangeGrad
      simp only [flatQP_H, flatQP_GT, mulVec_zero, add_zero, sub_zero]
      ext i
      show (1e-9 : ℝ) * (1 / (1e-9 + 1e-8) - w) + E.opts.sigma0 * (1 / (1e-9 + 1e-8) - w) =
        -(1e-9 * w + -1 + E.opts.sigma0 * w)
      rw [hs8]
      norm_num
      ring
    · ext i; exact i.elim0
    · simp only [hyi, hvi, hbi, flatQP_A]
      have : pfb (1 + E.opts.sigma0 * (0 - 0)) 0 E.opts.alpha = 0 :=
        (pfb_zero hal hal').2 ⟨by simp, le_refl _, .inl rfl⟩
      rw [this]
      simp
  obtain ⟨rfl, rfl, rfl⟩ := QP.NewtonSystem.unique N.convex hsig
    (fun i => (pfbGradient_nonneg hal hal' _ _).1) (fun i => by
      obtain ⟨g1, g2⟩ := pfbGradient_nonneg hal hal' (x.y i + E.opts.sigma0 * (x.v i - xbar.v i)) (x.v i)
      show 0 < (pfbGradient _ _ _).2 + E.opts.sigma0 * (pfbGradient _ _ _).1
      rcases pfbGradient_pos hal hal' (x.y i + E.opts.sigma0 * (x.v i - xbar.v i)) (x.v i) with h | h
      · have := mul_pos hsig h; linarith
      · have := mul_nonneg hsig.le g1; linarith) hsys hmine
  have hbe : E.opts.beta = 0.75 := by rw [ho]; rfl
  have hj' : j ≤ 20 := by rw [ho] at hj; exact hj
  have ht : (0.75 : ℝ) ^ 20 ≤ E.opts.beta ^ j := by
    rw [hbe]; exact pow_le_pow_of_le_one (by norm_num) (by norm_num) hj'
  have ht1 : E.opts.beta ^ j ≤ 1 := pow_le_one₀ (by rw [hbe]; norm_num) (by rw [hbe]; norm_num)
  have ht0 : (0.001 : ℝ) ≤ E.opts.beta ^ j := le_trans (by norm_num) ht
  have hz : (9e7 : ℝ) ≤ 1 / (1e-9 + 1e-8) := by norm_num
  have key : ∀ zm t : ℝ, 9e7 ≤ zm → w ≤ zm → 0.001 ≤ t → t ≤ 1 → 0 ≤ w + t * (zm - w) ∧
      w + t * (zm - w) ≤ zm ∧ 1 ≤ w + t * (zm - w) := by
    intro zm t h1 h2 h3 h4
    refine ⟨by nlinarith, by nlinarith, by nlinarith⟩
  obtain ⟨k1, k2, k3⟩ := key _ _ hz hw1 ht0 ht1
  refine ⟨fun h => by omega, ⟨_, ?_, k1, k2, fun _ => k3⟩, ?_, ?_⟩
  · rw [e1, hw]; rfl
  · rw [e3, hx.v, smul_zero, add_zero]
  · rw [e4 hmarg, flatQP_A, sub_zero]; rfl

/-- The run on `flatQP` with the default options. -/
theorem flat_run {E : Core.Env ℝ 1 0 1} (N : Core.NewtonEnv E flatQP) (ho : E.opts = Params.defaults)
    (ws : FeasWs ℝ 1 0 1) (z : Vec ℝ 1) (l : Vec ℝ 0) (v : Vec ℝ 1) (hz : z.fn = 0) (hv : v.fn = 0) :
    ∃ fin, (Core.solve E ws z l v).2 = .ok fin ∧ fin.out.eflag = .dualInfeasible ∧
      fin.out.proxIters = 0 := by
  have hm : Core.Marg flatQP (Core.startPt E z l v) := Core.Marg.start N.ops z l v
  set x := Core.startPt E z l v with hx
  have hxz : x.z.fn = 0 := hz
  have hxv : x.v.fn = 0 := hv
  have hxy : x.y.fn = fun _ => 1 := by
    rw [hm, hxz, mulVec_zero, sub_zero]; rfl
  have hxvi : ∀ i, x.v i = 0 := fun i => congrFun hxv i
  have hx0 : FlatIterate 0 x := ⟨fun _ => hxz, ⟨0, hxz, le_refl _, by norm_num,
    fun h => absurd h (lt_irrefl _)⟩, hxv, hxy⟩
  -- the residual of the guess
  have hgrad : flatQP.lagrangeGrad x.z.fn x.l.fn x.v.fn = fun _ => -1 := by
    unfold QP.lagrangeGrad
    rw [hxz, hxv, flatQP_GT, mulVec_zero, mulVec_zero, add_zero, add_zero, zero_add]; rfl
  have hle : ∀ (r : Resid ℝ 1 0 1) (_ : Core.Resid.norm r = norm3 r.z r.l r.v),
      (r.z.fn = fun _ => -1) → 1 ≤ Core.Resid.norm r := by
    intro r hr hz
    have h3 := (norm3_bounds (le_of_eq hr.symm)).1
    have h4 := abs_le_euclid r.z.fn 0
    rw [hz] at h3 h4
    norm_num at h4
    linarith
  have hpen : 1 ≤ Core.Resid.norm (E.penRes x) :=
    hle _ rfl (by rw [← hgrad]; exact N.ops.gradLagrangian _ _ _)
  have hinner : 1 ≤ Core.Resid.norm (E.innerRes x x E.opts.sigma0) := by
    refine hle _ rfl ?_
    rw [(Core.innerRes_fn N.ops x x E.opts.sigma0).1, hgrad, sub_self, smul_zero, add_zero]
  have hcombo : E.comboTol < 1 := by
    have h2 : flatQP.f ⬝ᵥ flatQP.f + flatQP.h ⬝ᵥ flatQP.h + flatQP.b ⬝ᵥ flatQP.b = 2 := by
      simp [flatQP, dotProduct]; norm_num
    unfold Core.Env.comboTol stoppingTol
    rw [N.ops.forcingNorm, h2, ho]
    have := sqrt_two_lt
    simp only [Params.defaults]
    norm_num at *
    linarith
  have hones : E.opts.stallTol < Core.normPt (Core.onesPt E) := by
    show _ < norm3 (Vec.const 1) (Vec.const 1) (Vec.const 1)
    rw [norm3_eq, ho]
    refine Real.lt_sqrt_of_sq_lt ?_
    simp [dotProduct, Params.defaults]
    norm_num
  obtain ⟨tol0, tol, o, xn, h0, hin, hox, n, hn⟩ := Core.first_subproblem N ws x FlatIterate
    (FlatIterate.step N ho hx0) hx0 (by rw [ho]; norm_num [Params.defaults])
    (lt_of_lt_of_le hcombo hpen) hones
    (by refine le_trans ?_ hpen; rw [ho]; norm_num [Params.defaults])
    (by refine lt_of_lt_of_le ?_ hinner; rw [ho]; norm_num [Params.defaults])
  have hnew : ¬(E.opts.maxNewtonIters ≤ (o.newton : Int)) := by
    have := hin.newton.2.1
    rw [ho] at this ⊢
    simp only [Core.start, Params.defaults] at this ⊢
    omega
  have hchk := checkFeasibility_real N.ops (E.axpy (-1) x o.x) E.opts.infeasTol
    N.inRange.infeasTol_nonneg ws
  obtain ⟨w, hw, hw1, -, hw2⟩ := hn.z
  have hw3 := hw2 (Nat.succ_pos _)
  have hdv : (E.axpy (-1) x o.x).v.fn = 0 := by
    rw [hox]
    ext i
    have h1 : xn.v i = 0 := congrFun hn.v i
    show (_ : ℝ) = _
    simp [Core.Env.axpy, Core.projectDuals, Vec.cwiseMax, h1, hxvi]
  have hdz : (E.axpy (-1) x o.x).z.fn = fun _ => w := by
    rw [hox]
    ext i
    have h1 : xn.z i = w := congrFun hw i
    have h2 : x.z i = 0 := congrFun hxz i
    simp [Core.Env.axpy, Core.projectDuals, h1, h2]
  have hnorm : ∀ c : ℝ, ‖(fun _ : Fin 1 => c)‖ = |c| := by
    intro c
    refine le_antisymm ?_ ?_
    · rw [pi_norm_le_iff_of_nonneg (abs_nonneg _)]; exact fun _ => le_refl _
    · exact norm_le_pi_norm (fun _ : Fin 1 => c) 0
  have hP : ¬flatQP.PrimalCertificate E.opts.infeasTol (E.axpy (-1) x o.x).l.fn
      (E.axpy (-1) x o.x).v.fn := by
    intro h
    have := h.neg
    rw [hdv, dotProduct_zero] at this
    simp [dotProduct] at this
  have hit : E.opts.infeasTol = 1e-8 := by rw [ho]; rfl
  have hD : flatQP.DualCertificate E.opts.infeasTol (E.axpy (-1) x o.x).z.fn := by
    have hpos : 0 ≤ w := hw1
    constructor
    · intro i
      rw [flatQP_A, hdz, hnorm, hit, Pi.zero_apply]; positivity
    · rw [hdz, hnorm, hit, show flatQP.G *ᵥ (fun _ => w) = 0 by ext i; exact i.elim0, norm_zero]
      positivity
    · rw [flatQP_H, hdz, hnorm, hnorm, hit, abs_of_nonneg (by positivity), abs_of_nonneg hpos]
      nlinarith
    · rw [hdz]
      simp [dotProduct, flatQP]
      linarith
    · rw [hdz, hnorm, abs_of_nonneg hpos]
      linarith
  have hflag : Core.check E (Core.start E ws x tol0) o = .dualInfeasible := by
    rcases hchk.2.2 hD with h | h
    · exact h
    · exact absurd (hchk.1.1 (.inr h)) hP
  refine ⟨_, Core.solve_first N.inRange.maxProxIters h0 hin hnew (by rw [ho]; rfl)
    (by rw [hflag]; exact fun h => nomatch h), ?_, rfl⟩
  show Core.flagOf (Core.check E (Core.start E ws x tol0) o) = _
  rw [hflag]
  rfl

/-- A solver made for `flatQP` with the default options. -/
noncomputable abbrev flatSolver (junk : DenseJunk ℝ) : FBstabDense ℝ :=
  FBstabDense.made junk 1 0 1 Params.defaults

/-- The cold start. -/
noncomputable abbrev flatGuess : CallerVar ℝ := guessOf (nz := 1) (nl := 0) (nv := 1) 0 0 0

/-- C23 fails: a convex problem whose minimiser is `z = 1e9`, started from zero with the default
options, is reported dual infeasible (that is, unbounded below). -/
theorem C23_false_alarm (junk : DenseJunk ℝ) :
    (flatSolver junk).Reachable ∧ ((flatSolver junk).qp flatQP.toDense).Convex ∧
    ((flatSolver junk).qp flatQP.toDense).Minimiser (fun _ => 1e9) ∧
    ∃ out, ((flatSolver junk).solve flatQP.toDense flatGuess).result = .ok out ∧
      out.eflag = .dualInfeasible ∧ out.proxIters = 0 := by
  have hq : (flatSolver junk).qp flatQP.toDense = flatQP := FBstabDense.made_qp junk _ _
  have N : Core.NewtonEnv ((flatSolver junk).env flatQP.toDense) flatQP := by
    have := (flatSolver junk).newtonEnv defaults_inRange flatQP.toDense (hq ▸ flatQP_convex)
    rwa [hq] at this
  obtain ⟨g1, g2, g3⟩ := guessOf_point (nz := 1) (nl := 0) (nv := 1) 0 0 0
  obtain ⟨fin, h1, h2⟩ := flat_run N rfl (flatSolver junk).mem.feas.ws _ (flatGuess.l.toVec 0) _ g1 g3
  have h1' : ((flatSolver junk).core flatQP.toDense flatGuess).2 = .ok fin := h1
  refine ⟨FBstabDense.made_reachable junk _ (by norm_num) (by norm_num) (by norm_num [intLimit])
    defaults_inRange, hq ▸ flatQP_convex, ?_, _,
    ((FBstabDense.solve_computes (flatQP.toDense_fits _ _ _)).ok fin h1' (guessOf_writable _ _ _ _)).1, h2⟩
  rw [hq]
  exact flatQP_kkt.minimiser flatQP_convex

/-- C23 fails as stated: it is not true that the dual infeasible flag implies that the problem has no
minimiser, not even for convex problems and default options. -/
theorem C23_not_sound : ¬∀ (s : FBstabDense ℝ) (_ : s.Reachable) (p : DenseProblem ℝ)
    (x : CallerVar ℝ) (out : SolverOut ℝ), (s.qp p).Convex → s.options = Params.defaults →
    (s.solve p x).result = .ok out → out.eflag.claimsDual → ¬∃ z, (s.qp p).Minimiser z := by
  intro h
  obtain ⟨h1, h2, h3, out, h4, h5, -⟩ := C23_false_alarm .zeros
  exact h _ h1 _ _ out h2 rfl h4 (.inl h5) ⟨_, h3⟩

end Fbstab
