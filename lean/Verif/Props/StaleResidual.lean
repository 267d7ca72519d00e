import Verif.Proofs.FirstStep
import Verif.Props.Infeasible
import Verif.Props.NoThrow

/-!
# C07: the reported residual can be that of an earlier iterate

When the proximal iteration limit stops the solver, the output is made from the outer residual object,
which the subproblem solver last evaluated before its last Newton step (if `max_inner_iters` stopped
it) and before the projection of the multipliers.
-/

namespace Fbstab
open Matrix

/-- minimise `z^2 / 2` subject to `0 <= 1`. -/
noncomputable def unitQP : QP 1 0 1 where
  H := fun _ _ => 1
  f := fun _ => 0
  G := fun i _ => i.elim0
  h := fun i => i.elim0
  A := fun _ _ => 0
  b := fun _ => 1

namespace unitQP

theorem H_mul (z : Fin 1 → ℝ) : unitQP.H *ᵥ z = z := by
  ext i
  rw [mulVec, dotProduct, Fin.sum_univ_one, Subsingleton.elim i 0]
  exact one_mul _

theorem A_mul (z : Fin 1 → ℝ) : unitQP.A *ᵥ z = 0 := by
  ext i
  rw [mulVec, dotProduct, Fin.sum_univ_one]
  exact zero_mul _

theorem AT_mul (z : Fin 1 → ℝ) : unitQP.Aᵀ *ᵥ z = 0 := by
  ext i
  rw [mulVec, dotProduct, Fin.sum_univ_one]
  exact zero_mul _

theorem GT_mul (l : Fin 0 → ℝ) : unitQP.Gᵀ *ᵥ l = 0 := by
  ext i; simp [mulVec, dotProduct]

theorem grad (z : Fin 1 → ℝ) (l : Fin 0 → ℝ) (v : Fin 1 → ℝ) : unitQP.lagrangeGrad z l v = z := by
  unfold QP.lagrangeGrad
  rw [H_mul, GT_mul, AT_mul, add_zero, add_zero]
  exact add_zero _

theorem convex : unitQP.Convex where
  symm := by ext i j; rfl
  nonneg := fun z => by rw [H_mul]; exact dot_self_nonneg z

/-- The residual norm at a point with `v = 0` is `|z|`. -/
theorem residual {E : Core.Env ℝ 1 0 1} (I : unitQP.Implements E.ops) {alpha : ℝ}
    {x : Point ℝ 1 0 1} {w : ℝ} (hz : x.z.fn = fun _ => w) (hv : x.v.fn = 0)
    (hm : Core.Marg unitQP x) : residualNorm E.ops alpha x = |w| := by
  have hvi : ∀ i, x.v i = 0 := fun i => congrFun hv i
  have hyi : ∀ i, x.y i = 1 := by
    intro i
    have : x.y.fn i = 1 := by rw [hm, A_mul, sub_zero]; rfl
    exact this
  have e : (penalizedMin alpha x.y x.v).fn = 0 := by
    ext i
    show (penalizedMin alpha x.y x.v) i = 0
    rw [penalizedMin, Vec.get_ofFn, hvi, hyi]
    simp
  unfold residualNorm
  rw [norm3_eq, I.gradLagrangian, grad, hz, e]
  simp [dotProduct, Real.sqrt_mul_self_eq_abs]

end unitQP

/-- The default options with `max_prox_iters = 1` and `max_inner_iters = 1`. -/
noncomputable def oneStep : Params ℝ := { Params.defaults with maxProxIters := 1, maxInnerIters := 1 }

theorem oneStep_inRange : oneStep.InRange := by
  constructor <;> simp only [oneStep, Params.defaults, Between] <;> norm_num

/-- The run from `z = 1`. -/
theorem unit_run {E : Core.Env ℝ 1 0 1} (N : Core.NewtonEnv E unitQP) (ho : E.opts = oneStep)
    {ws : FeasWs ℝ 1 0 1} {x : Point ℝ 1 0 1} {fin : Core.Final ℝ 1 0 1}
    (hz : x.z.fn = fun _ => 1) (hv : x.v.fn = 0) (hm : Core.Marg unitQP x)
    (h : Core.Returned E ws x fin) :
    fin.out.eflag = .maxIterations ∧ fin.out.residual = 1 ∧ residualNorm E.ops E.opts.alpha fin.x < 1 := by
  have hal := N.inRange.alpha_pos
  have hal' := N.inRange.alpha_lt
  have hsig := N.inRange.sigma_pos
  have hpen : Core.Resid.norm (E.penRes x) = 1 := by
    have := unitQP.residual N.ops (alpha := E.opts.alpha) hz hv hm
    rw [abs_one] at this
    exact this
  have hvi : ∀ i, x.v i = 0 := fun i => congrFun hv i
  have hyi : ∀ i, x.y i = 1 := by
    intro i
    have : x.y.fn i = 1 := by rw [hm, unitQP.A_mul, sub_zero]; rfl
    exact this
  have hinner : 1 ≤ Core.Resid.norm (E.innerRes x x E.opts.sigma0) := by
    have hn : Core.Resid.norm (E.innerRes x x E.opts.sigma0) =
        norm3 (E.innerRes x x E.opts.sigma0).z (E.innerRes x x E.opts.sigma0).l
          (E.innerRes x x E.opts.sigma0).v := rfl
    have h3 := (norm3_bounds (le_of_eq hn.symm)).1
    have h4 := abs_le_euclid (E.innerRes x x E.opts.sigma0).z.fn 0
    have h5 : (E.innerRes x x E.opts.sigma0).z.fn = fun _ => 1 := by
      rw [(Core.innerRes_fn N.ops x x E.opts.sigma0).1, unitQP.grad, sub_self, smul_zero, add_zero, hz]
    rw [h5] at h4 h3
    norm_num at h4
    linarith
  have hcombo : E.comboTol < 1 := by
    have h2 : unitQP.f ⬝ᵥ unitQP.f + unitQP.h ⬝ᵥ unitQP.h + unitQP.b ⬝ᵥ unitQP.b = 1 := by
      simp [unitQP, dotProduct]
    unfold Core.Env.comboTol stoppingTol
    rw [N.ops.forcingNorm, h2, ho]
    simp only [oneStep, Params.defaults]
    norm_num
  have hones : E.opts.stallTol < Core.normPt (Core.onesPt E) := by
    show _ < norm3 (Vec.const 1) (Vec.const 1) (Vec.const 1)
    rw [norm3_eq, ho]
    refine Real.lt_sqrt_of_sq_lt ?_
    simp [dotProduct, oneStep, Params.defaults]
    norm_num
  -- what the subproblem returns
  have key : ∀ {tol0 tol : ℝ} {o}, saturate (Core.Resid.norm (E.penRes x)) E.opts.innerTolMin
      E.opts.innerTolMax = .ok tol0 → Core.Inner E (Core.start E ws x tol0) tol o →
      o.rk = E.penRes x ∧ o.newton = 1 ∧ Core.Marg unitQP o.x ∧ o.x.v.fn = 0 ∧
      ∃ w, (o.x.z.fn = fun _ => w) ∧ |w| < 1 := by
    intro tol0 tol o h0 h
    have e0 := saturate_real (x := Core.Resid.norm (E.penRes x))
      (show E.opts.innerTolMin ≤ E.opts.innerTolMax by rw [ho]; norm_num [oneStep, Params.defaults])
    rw [h0] at e0
    have e0' : tol0 = max (min 1 1e-2) 1e-12 := by
      injection e0 with e0; rw [e0, hpen, ho]; rfl
    have e1 := saturate_real (x := tol0 * E.opts.delta)
      (show E.opts.innerTolMin ≤ Core.Resid.norm (E.penRes x) by
        rw [ho, hpen]; norm_num [oneStep, Params.defaults])
    have ht := h.htol
    simp only [Core.start] at ht
    rw [ht] at e1
    have e1' : tol = max (min (tol0 * 0.2) 1) 1e-12 := by
      injection e1 with e1; rw [e1, hpen, ho]; rfl
    have htol : tol < 1 := by
      rw [e1', e0']; norm_num
    obtain ⟨o', h', rfl⟩ := Core.subproblem_ok h.sub
    rw [show E.opts.maxInnerIters.toNat = 1 by rw [ho]; rfl] at h'
    have hmin : E.opts.innerTolMin < 1 := by rw [ho]; norm_num [oneStep, Params.defaults]
    have hnw : ¬E.opts.maxNewtonIters ≤ ((0 : Nat) : Int) := by
      rw [ho]; norm_num [oneStep, Params.defaults]
    obtain ⟨x', hmove, rfl⟩ := Core.innerLoop_one N (lt_of_lt_of_le htol hinner)
      (lt_of_lt_of_le hmin hinner) hnw h'
    have hmove : Core.NewtonMove E unitQP x x x' := hmove
    obtain ⟨j, dz, dl, dv, -, hd, e1, e2, e3, e4⟩ := hmove.move
    have hsys := hd.system
    have hmine : unitQP.NewtonSystem E.opts.sigma0
      (fun i => (slopes E.opts.alpha E.opts.sigma0 x x i).1)
      (fun i => (slopes E.opts.alpha E.opts.sigma0 x x i).2)
      (-(unitQP.lagrangeGrad x.z.fn x.l.fn x.v.fn + E.opts.sigma0 • (x.z.fn - x.z.fn)))
      (-(unitQP.h - unitQP.G *ᵥ x.z.fn + E.opts.sigma0 • (x.l.fn - x.l.fn)))
      (fun i => -pfb (x.y i + E.opts.sigma0 * (x.v i - x.v i)) (x.v i) E.opts.alpha)
      (fun _ => -1 / (1 + E.opts.sigma0)) 0 0 := by
      refine ⟨?_, ?_, fun i => ?_⟩
      · rw [unitQP.H_mul, unitQP.GT_mul, unitQP.AT_mul, unitQP.grad, hz, sub_self, smul_zero]
        ext i
        show -1 / (1 + E.opts.sigma0) + 0 + 0 + E.opts.sigma0 * (-1 / (1 + E.opts.sigma0)) = -(1 + 0)
        field_simp
        ring
      · ext i; exact i.elim0
      · simp only [hyi, hvi, unitQP.A_mul]
        have : pfb (1 + E.opts.sigma0 * (0 - 0)) 0 E.opts.alpha = 0 :=
          (pfb_zero hal hal').2 ⟨by simp, le_refl _, .inl rfl⟩
        rw [this]
        simp
    obtain ⟨rfl, rfl, rfl⟩ := QP.NewtonSystem.unique N.convex hsig
      (fun i => (pfbGradient_nonneg hal hal' _ _).1) (fun i => by
        obtain ⟨g1, g2⟩ := pfbGradient_nonneg hal hal' (x.y i + E.opts.sigma0 * (x.v i - x.v i)) (x.v i)
        show 0 < (pfbGradient _ _ _).2 + E.opts.sigma0 * (pfbGradient _ _ _).1
        rcases pfbGradient_pos hal hal' (x.y i + E.opts.sigma0 * (x.v i - x.v i)) (x.v i) with h | h
        · have := mul_pos hsig h; linarith
        · have := mul_nonneg hsig.le g1; linarith) hsys hmine
    have hv' : x'.v.fn = 0 := by rw [e3, hv, smul_zero, add_zero]
    have hb0 : 0 < E.opts.beta := lt_of_lt_of_le (by norm_num) N.inRange.beta.1
    have hb1 : E.opts.beta ≤ 1 := N.inRange.beta.2.trans (by norm_num)
    have t0 := pow_pos hb0 j
    have t1 := pow_le_one₀ hb0.le hb1 (n := j)
    refine ⟨rfl, rfl, Core.Marg.project (e4 hm), ?_, 1 + E.opts.beta ^ j * (-1 / (1 + E.opts.sigma0)), ?_, ?_⟩
    · ext i
      have : x'.v i = 0 := congrFun hv' i
      show (_ : ℝ) = _
      simp [Core.projectDuals, Vec.cwiseMax, this]
    · show x'.z.fn = _
      rw [e1, hz]; rfl
    · have hp : 0 < E.opts.beta ^ j * (1 / (1 + E.opts.sigma0)) := by positivity
      have hle : E.opts.beta ^ j * (1 / (1 + E.opts.sigma0)) ≤ 1 := by
        have : 1 / (1 + E.opts.sigma0) ≤ 1 := by
          rw [div_le_one (by linarith)]; linarith
        have h0 : 0 ≤ 1 / (1 + E.opts.sigma0) := by positivity
        nlinarith
      rw [neg_div, abs_lt]
      constructor <;> linarith
  obtain ⟨tol0, k, s, h0, hs, h⟩ := h.run
  have hp1 : E.opts.maxProxIters.toNat = 1 := by rw [ho]; rfl
  rw [hp1] at h
  rcases h with ⟨hk, h⟩ | ⟨hk, rfl⟩
  · obtain rfl : k = 0 := by omega
    cases hs
    exfalso
    cases h with
    | success hst =>
      rcases hst with hst | hst
      · simp only [Core.start] at hst; rw [hpen] at hst; linarith
      · exact absurd hst hones.not_ge
    | newton hi hn y hy =>
      obtain ⟨-, h2, -⟩ := key h0 hi
      rw [h2, ho] at hn
      norm_num [oneStep, Params.defaults] at hn
    | infeasible hi hn hc hf =>
      rename_i tol o
      obtain ⟨-, -, -, h3, -⟩ := key h0 hi
      have hchk := checkFeasibility_real N.ops (E.axpy (-1) x o.x) E.opts.infeasTol
        N.inRange.infeasTol_nonneg ws
      have hdv : (E.axpy (-1) x o.x).v.fn = 0 := by
        ext i
        have h1 : o.x.v i = 0 := congrFun h3 i
        show (_ : ℝ) = _
        simp [Core.Env.axpy, h1, hvi]
      have hP : ¬unitQP.PrimalCertificate E.opts.infeasTol (E.axpy (-1) x o.x).l.fn
          (E.axpy (-1) x o.x).v.fn := by
        intro h
        have := h.neg
        rw [hdv, dotProduct_zero] at this
        simp [dotProduct] at this
      have hD : ¬unitQP.DualCertificate E.opts.infeasTol (E.axpy (-1) x o.x).z.fn := by
        intro h
        have := h.descent
        rw [show unitQP.f = 0 from rfl, zero_dotProduct] at this
        exact lt_irrefl _ this
      have hf' : (checkFeasibility E.ops (E.axpy (-1) x o.x) E.opts.infeasTol ws).1 ≠ .feasible := hf
      cases hc' : (checkFeasibility E.ops (E.axpy (-1) x o.x) E.opts.infeasTol ws).1 with
      | feasible => exact hf' hc'
      | primalInfeasible => exact hP (hchk.1.1 (.inl hc'))
      | dualInfeasible => exact hD (hchk.2.1 (.inl hc'))
      | both => exact hP (hchk.1.1 (.inr hc'))
  · subst hk
    cases hs with
    | tail h1 h2 =>
      cases h1
      obtain ⟨k1, k2, k3, k4, w, k5, k6⟩ := key h0 h2.toInner
      rw [h2.eq]
      refine ⟨rfl, (congrArg Core.Resid.norm k1).trans hpen, ?_⟩
      exact lt_of_eq_of_lt (unitQP.residual N.ops k5 k4 k3) k6

/-- C07 fails when the proximal iteration limit stops the solver: on `min z^2/2` from `z = 1` with
`max_prox_iters = max_inner_iters = 1` the reported residual is `1`, that of the initial guess, and
the residual of the returned point is smaller. -/
theorem C07_stale (junk : DenseJunk ℝ) :
    let s := FBstabDense.made junk 1 0 1 oneStep
    let x : CallerVar ℝ := guessOf (nz := 1) (nl := 0) (nv := 1) (fun _ => 1) 0 0
    s.Reachable ∧ ∃ out, (s.solve unitQP.toDense x).result = .ok out ∧
      out.eflag = .maxIterations ∧ out.residual = 1 ∧
      residualNorm (s.problem unitQP.toDense) s.options.alpha (s.returnedPoint unitQP.toDense x) < 1 := by
  intro s x
  have hq : s.qp unitQP.toDense = unitQP := FBstabDense.made_qp junk _ _
  have N : Core.NewtonEnv (s.env unitQP.toDense) unitQP := by
    have := s.newtonEnv oneStep_inRange unitQP.toDense (hq ▸ unitQP.convex)
    rwa [hq] at this
  obtain ⟨g1, g2, g3⟩ := guessOf_point (nz := 1) (nl := 0) (nv := 1) (fun _ => 1) 0 0
  have hr : s.Reachable := FBstabDense.made_reachable junk _ (by norm_num) (by norm_num)
    (by norm_num [intLimit]) oneStep_inRange
  have ht : TolerancesOrdered s.options s.options.absTol := by
    show TolerancesOrdered oneStep oneStep.absTol
    constructor <;> norm_num [oneStep, Params.defaults]
  obtain ⟨out, ho⟩ := C13_absTol_dense s hr unitQP.toDense x (unitQP.toDense_fits _ _ _)
    (guessOf_writable _ _ _ _) (hq ▸ unitQP.convex) ht
  obtain ⟨-, -, fin, -, h2, rfl, e⟩ := FBstabDense.returned ho
  obtain ⟨r1, r2, r3⟩ := unit_run N rfl g1 g3 (Core.Marg.start N.ops _ _ _) h2
  refine ⟨hr, _, ho, r1, r2, ?_⟩
  rw [show s.returnedPoint unitQP.toDense x = fin.x by
    rw [FBstabDense.returnedPoint, e, CallerVar.point_ofPoint]]
  exact r3

end Fbstab
