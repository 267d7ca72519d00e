import Verif.Proofs.Core

/-!
# A run that stops after one proximal iteration with one Newton step
-/

namespace Fbstab.Core
variable {K : Type} [Scalar K] {nz nl nv : Nat}

/-- The Newton step from `x0` in the first subproblem. -/
structure OneStep (E : Env K nz nl nv) (ws : FeasWs K nz nl nv) (x0 x1 : Point K nz nl nv) (t0 t1 : K)
    (g : Resid K nz nl nv → Point K nz nl nv) : Prop where
  limits : 2 ≤ E.opts.maxProxIters ∧ 2 ≤ E.opts.maxInnerIters ∧ 1 ≤ E.opts.maxLinesearchIters ∧
    2 ≤ E.opts.maxNewtonIters
  tol0 : saturate (Resid.norm (E.penRes x0)) E.opts.innerTolMin E.opts.innerTolMax = .ok t0
  tol1 : saturate (t0 * E.opts.delta) E.opts.innerTolMin (Resid.norm (E.penRes x0)) = .ok t1
  bad : ¬Resid.norm (E.penRes x0) ≤ E.comboTol
  ones : ¬normPt (onesPt E) ≤ E.opts.stallTol
  start : ¬((Resid.norm (E.innerRes x0 x0 E.opts.sigma0) ≤ t1 ∧
      Resid.norm (E.penRes x0) < Resid.norm (E.penRes x0)) ∨
    Resid.norm (E.innerRes x0 x0 E.opts.sigma0) ≤ E.opts.innerTolMin)
  factor : E.factor x0 x0 E.opts.sigma0 = .ok (some g)
  step : E.axpy 1 (g (Resid.negate (E.innerRes x0 x0 E.opts.sigma0))) x0 = x1
  armijo : Resid.merit (E.innerRes x1 x0 E.opts.sigma0) ≤
    mZero E (Alg.insertMerit (Resid.merit (Resid.negate (E.innerRes x0 x0 E.opts.sigma0))) (Vec.const 0))
      (Resid.merit (Resid.negate (E.innerRes x0 x0 E.opts.sigma0))) -
    2.0 * 1 * E.opts.eta * Resid.merit (Resid.negate (E.innerRes x0 x0 E.opts.sigma0))
  inner : Resid.norm (E.innerRes x1 x0 E.opts.sigma0) ≤ t1
  outer : Resid.norm (E.penRes x1) < Resid.norm (E.penRes x0)
  feasible : (checkFeasibility E.ops (E.axpy (-1) x0 (projectDuals x1)) E.opts.infeasTol ws).1 = .feasible
  good : Resid.norm (E.penRes (projectDuals x1)) ≤ E.comboTol

theorem OneStep.run {E : Env K nz nl nv} {ws : FeasWs K nz nl nv} {z : Vec K nz} {l : Vec K nl} {v : Vec K nv}
    {x1 : Point K nz nl nv} {t0 t1 : K} {g : Resid K nz nl nv → Point K nz nl nv}
    (h : OneStep E ws (startPt E z l v) x1 t0 t1 g) :
    (solve E ws z l v).2 = .ok (mkFinal (Resid.norm (E.penRes (startPt E z l v))) .success 1 1
      (E.penRes (projectDuals x1)) (projectDuals x1)) := by
  obtain ⟨l1, l2, l3, l4⟩ := h.limits
  obtain ⟨n, hn⟩ : ∃ n, E.opts.maxProxIters.toNat = n + 2 := ⟨E.opts.maxProxIters.toNat - 2, by omega⟩
  obtain ⟨k, hk⟩ : ∃ n, E.opts.maxInnerIters.toNat = n + 2 := ⟨E.opts.maxInnerIters.toNat - 2, by omega⟩
  obtain ⟨m, hm⟩ : ∃ n, E.opts.maxLinesearchIters.toNat = n + 1 :=
    ⟨E.opts.maxLinesearchIters.toNat - 1, by omega⟩
  have n0 : ¬E.opts.maxNewtonIters ≤ ((0 : Nat) : Int) := by omega
  have n1 : ¬E.opts.maxNewtonIters ≤ ((0 + 1 : Nat) : Int) := by omega
  have hstep : newtonStep E E.opts.sigma0 (startPt E z l v) g (startPt E z l v)
      (E.innerRes (startPt E z l v) (startPt E z l v) E.opts.sigma0) (Vec.const 0) =
      (x1, 1, Alg.insertMerit (Resid.merit (Resid.negate
        (E.innerRes (startPt E z l v) (startPt E z l v) E.opts.sigma0))) (Vec.const 0),
       [.trial 1 x1 (E.innerRes x1 (startPt E z l v) E.opts.sigma0)]) := by
    unfold newtonStep
    simp only [hm, lineSearch, h.step]
    rw [if_pos h.armijo]
    simp only [h.step]
  have hin : (subproblem E t1 (Resid.norm (E.penRes (startPt E z l v))) (startPt E z l v) 0
      (E.penRes (startPt E z l v))).2 = .ok ⟨projectDuals x1, Resid.norm (E.penRes x1), 1, E.penRes x1⟩ := by
    unfold subproblem
    rw [hk]
    simp only [innerLoop]
    rw [if_neg h.start, if_neg n0, h.factor]
    simp only [hstep]
    rw [if_pos (.inl ⟨h.inner, h.outer⟩)]
    rfl
  unfold solve
  simp only [h.tol0, hn, proxLoop]
  rw [if_neg (not_or.2 ⟨h.bad, h.ones⟩)]
  simp only [h.tol1, hin]
  have ha : ∀ (E0 : K) (s : Outer K nz nl nv), s.xk = startPt E z l v → s.ws = ws → ∃ ws',
      afterInner E E0 (Resid.norm (E.penRes (startPt E z l v))) t1 s
        ⟨projectDuals x1, Resid.norm (E.penRes x1), 1, E.penRes x1⟩ =
      .inr ⟨t1, projectDuals x1, E.axpy (-1) (startPt E z l v) (projectDuals x1), s.prox + 1, 1, E.penRes x1, ws'⟩ := by
    intro E0 s h1 h2
    unfold afterInner
    rw [if_neg n1, h1, h2]
    by_cases hc : E.opts.checkFeasibility = true
    · simp only [hc, if_true, h.feasible, flagOf]
      exact ⟨(checkFeasibility E.ops (E.axpy (-1) (startPt E z l v) (projectDuals x1)) E.opts.infeasTol ws).2,
        by simp⟩
    · simp only [hc]
      exact ⟨ws, by simp⟩
  obtain ⟨ws', e⟩ := ha (Resid.norm (E.penRes (startPt E z l v)))
    ⟨t0, startPt E z l v, onesPt E, 0, 0, E.penRes (startPt E z l v), ws⟩ rfl rfl
  rw [e]
  simp only
  rw [if_pos (.inl h.good)]

end Fbstab.Core
