import Verif.Proofs.Up
import Verif.Proofs.Core

/-!
# The algorithm commutes with the embedding of the reals
-/

namespace Fbstab

noncomputable def Point.up {nz nl nv : Nat} (x : Point ℝ nz nl nv) : Point XReal nz nl nv :=
  ⟨x.z.up, x.l.up, x.v.up, x.y.up⟩

noncomputable def Resid.up {nz nl nv : Nat} (r : Resid ℝ nz nl nv) : Resid XReal nz nl nv :=
  ⟨r.z.up, r.l.up, r.v.up, Fbstab.up r.znorm, Fbstab.up r.lnorm, Fbstab.up r.vnorm⟩

noncomputable def FeasWs.up {nz nl nv : Nat} (w : FeasWs ℝ nz nl nv) : FeasWs XReal nz nl nv :=
  ⟨w.tz.up, w.tl.up, w.tv.up⟩

/-- The two data objects do the same thing to finite vectors. -/
structure UpOps {nz nl nv : Nat} (q : QPOps ℝ nz nl nv) (q' : QPOps XReal nz nl nv) : Prop where
  gemvH : ∀ x a b y, q'.gemvH x.up (up a) (up b) y.up = (q.gemvH x a b y).up
  gemvA : ∀ x a b y, q'.gemvA x.up (up a) (up b) y.up = (q.gemvA x a b y).up
  gemvG : ∀ x a b y, q'.gemvG x.up (up a) (up b) y.up = (q.gemvG x a b y).up
  gemvAT : ∀ x a b y, q'.gemvAT x.up (up a) (up b) y.up = (q.gemvAT x a b y).up
  gemvGT : ∀ x a b y, q'.gemvGT x.up (up a) (up b) y.up = (q.gemvGT x a b y).up
  axpyf : ∀ a y, q'.axpyf (up a) y.up = (q.axpyf a y).up
  axpyh : ∀ a y, q'.axpyh (up a) y.up = (q.axpyh a y).up
  axpyb : ∀ a y, q'.axpyb (up a) y.up = (q.axpyb a y).up
  forcingNorm : q'.forcingNorm = up q.forcingNorm

section
variable {nz nl nv : Nat} {q : QPOps ℝ nz nl nv} {q' : QPOps XReal nz nl nv}

theorem UpOps.margin (h : UpOps q q') (z : Vec ℝ nz) :
    Fbstab.margin q' z.up = (Fbstab.margin q z).up := by
  simp only [Fbstab.margin, up_one, up_zero, up_neg, Vec.const_up, h.axpyb, h.gemvA]

theorem UpOps.gradLagrangian (h : UpOps q q') (z : Vec ℝ nz) (l : Vec ℝ nl) (v : Vec ℝ nv) :
    Fbstab.gradLagrangian q' z.up l.up v.up = (Fbstab.gradLagrangian q z l v).up := by
  simp only [Fbstab.gradLagrangian, up_one, up_zero, Vec.const_up, h.axpyf, h.gemvH, h.gemvGT, h.gemvAT]

theorem UpOps.eqDefect (h : UpOps q q') (z : Vec ℝ nz) :
    Fbstab.eqDefect q' z.up = (Fbstab.eqDefect q z).up := by
  simp only [Fbstab.eqDefect, up_one, up_zero, up_neg, Vec.const_up, h.axpyh, h.gemvG]

theorem up_norm3 (z : Vec ℝ nz) (l : Vec ℝ nl) (v : Vec ℝ nv) :
    norm3 z.up l.up v.up = up (norm3 z l v) := by
  simp only [norm3, Vec.up_norm, up_mul, up_add]
  exact up_sqrt (add_nonneg (add_nonneg (mul_self_nonneg _) (mul_self_nonneg _)) (mul_self_nonneg _))

theorem up_penalizedMin (alpha : ℝ) (y v : Vec ℝ nv) :
    penalizedMin (up alpha) y.up v.up = (penalizedMin alpha y v).up := by
  simp only [penalizedMin, Vec.up_get, up_one, up_zero, up_cmin, up_cmax, up_mul, up_sub, up_add,
    Vec.ofFn_up]

theorem up_pfb (a b alpha : ℝ) : pfb (up a) (up b) (up alpha) = up (pfb a b alpha) := by
  have h : 0 ≤ a * a + b * b := add_nonneg (mul_self_nonneg _) (mul_self_nonneg _)
  simp only [pfb, up_one, up_zero, up_cmax, up_mul, up_sub, up_add, up_sqrt h]
  rfl

/-- The dense checker: finite workspaces stay finite. -/
theorem UpOps.checkFeasibility (h : UpOps q q') (x : Point ℝ nz nl nv) (tol : ℝ)
    (ws : FeasWs ℝ nz nl nv) :
    checkFeasibility q' x.up (up tol) ws.up =
      ((checkFeasibility q x tol ws).1, (checkFeasibility q x tol ws).2.up) := by
  simp only [Fbstab.checkFeasibility, Point.up, FeasWs.up, up_one, up_zero, h.gemvA, h.gemvG, h.gemvH,
    h.axpyf, h.axpyb, h.axpyh, h.gemvAT, h.gemvGT, Vec.const_up, Vec.up_maxCoeff, Vec.up_lpNormInf,
    Vec.up_dot, up_mul, up_add, up_cmax, up_decide_lt, up_decide_le, up_ofScientific]

end

namespace Core
variable {nz nl nv : Nat}

noncomputable def Event.up : Event ℝ nz nl nv → Event XReal nz nl nv
  | .header => .header
  | .outerDetailed p n r => .outerDetailed p n r.up
  | .outer p n r t => .outer p n r.up (Fbstab.up t)
  | .inner i t r => .inner i (Fbstab.up t) r.up
  | .footer t => .footer (Fbstab.up t)
  | .trial t x r => .trial (Fbstab.up t) x.up r.up
  | .final e p n r => .final e p n r.up

noncomputable def Final.up (f : Final ℝ nz nl nv) : Final XReal nz nl nv := ⟨f.out.up, f.x.up⟩

noncomputable def InnerOut.up (o : InnerOut ℝ nz nl nv) : InnerOut XReal nz nl nv :=
  ⟨o.x.up, Fbstab.up o.Eo, o.newton, o.rk.up⟩

/-- The two environments do the same thing to finite numbers; `W` relates the workspaces of the
feasibility checkers. -/
structure UpEnv (E : Env ℝ nz nl nv) (E' : Env XReal nz nl nv)
    (W : FeasWs ℝ nz nl nv → FeasWs XReal nz nl nv → Prop) : Prop where
  opts : E'.opts = E.opts.up
  ops : UpOps E.ops E'.ops
  factor : ∀ x xbar, match E.factor x xbar E.opts.sigma0 with
    | .error e => E'.factor x.up xbar.up (up E.opts.sigma0) = .error e
    | .ok none => E'.factor x.up xbar.up (up E.opts.sigma0) = .ok none
    | .ok (some g) => ∃ g', E'.factor x.up xbar.up (up E.opts.sigma0) = .ok (some g') ∧
      ∀ r, g' r.up = (g r).up
  check : E.opts.checkFeasibility = true → ∀ x ws ws', W ws ws' →
    (checkFeasibility E'.ops x.up (up E.opts.infeasTol) ws').1 =
      (checkFeasibility E.ops x E.opts.infeasTol ws).1 ∧
    W (checkFeasibility E.ops x E.opts.infeasTol ws).2
      (checkFeasibility E'.ops x.up (up E.opts.infeasTol) ws').2

theorem up_mkResid (z : Vec ℝ nz) (l : Vec ℝ nl) (v : Vec ℝ nv) :
    mkResid z.up l.up v.up = (mkResid z l v).up := by
  simp only [mkResid, Resid.up, Vec.up_norm]

theorem up_residNorm (r : Resid ℝ nz nl nv) : Resid.norm r.up = up (Resid.norm r) := by
  simp only [Resid.norm, Resid.up, up_mul, up_add]
  exact up_sqrt (add_nonneg (add_nonneg (mul_self_nonneg _) (mul_self_nonneg _)) (mul_self_nonneg _))

theorem up_residMerit (r : Resid ℝ nz nl nv) : Resid.merit r.up = up (Resid.merit r) := by
  simp only [Resid.merit, up_residNorm, up_ofScientific, up_mul]

theorem up_residNegate (r : Resid ℝ nz nl nv) : Resid.negate r.up = (Resid.negate r).up := by
  simp only [Resid.negate, Resid.up, Vec.up_get, up_one, up_neg, up_mul, Vec.ofFn_up]

theorem up_projectDuals (x : Point ℝ nz nl nv) : projectDuals x.up = (projectDuals x).up := by
  simp only [projectDuals, Point.up, up_zero, Vec.up_cwiseMax]

theorem up_normPt (x : Point ℝ nz nl nv) : normPt x.up = up (normPt x) := up_norm3 _ _ _

section
variable {E : Env ℝ nz nl nv} {E' : Env XReal nz nl nv}
  {W : FeasWs ℝ nz nl nv → FeasWs XReal nz nl nv → Prop} (U : UpEnv E E' W)
include U

theorem UpEnv.comboTol : E'.comboTol = up E.comboTol := by
  simp only [Env.comboTol, stoppingTol, U.opts, Params.up, U.ops.forcingNorm, up_one, up_add, up_mul]

theorem UpEnv.penRes (x : Point ℝ nz nl nv) : E'.penRes x.up = (E.penRes x).up := by
  simp only [Env.penRes, Point.up, U.ops.gradLagrangian, U.ops.eqDefect, U.opts, Params.up,
    up_penalizedMin, up_mkResid]

theorem UpEnv.innerRes (x xbar : Point ℝ nz nl nv) (sigma : ℝ) :
    E'.innerRes x.up xbar.up (up sigma) = (E.innerRes x xbar sigma).up := by
  simp only [Env.innerRes, Point.up, U.ops.gradLagrangian, U.ops.eqDefect, U.opts, Params.up,
    Vec.up_get, Vec.up_sub, Vec.up_smul, Vec.up_add, up_sub, up_mul, up_add, up_pfb, Vec.ofFn_up,
    up_mkResid]

theorem UpEnv.axpy (a : ℝ) (x y : Point ℝ nz nl nv) : E'.axpy (up a) x.up y.up = (E.axpy a x y).up := by
  simp only [Env.axpy, Point.up, Vec.up_smul, Vec.up_add, up_neg, U.ops.axpyb]

theorem UpEnv.lineSearch (sigma m0 cm : ℝ) (x xbar dx : Point ℝ nz nl nv) (n : Nat) (t : ℝ) :
    lineSearch E' (up sigma) (up m0) (up cm) x.up xbar.up dx.up n (up t) =
      (up (lineSearch E sigma m0 cm x xbar dx n t).1,
        (lineSearch E sigma m0 cm x xbar dx n t).2.map Event.up) := by
  induction n generalizing t with
  | zero => rfl
  | succ n ih =>
    simp only [Core.lineSearch, U.axpy, U.innerRes, up_residMerit, U.opts, Params.up, up_ofScientific,
      up_mul, up_sub, up_le, ih]
    split <;> rfl

theorem UpEnv.newtonStep (sigma : ℝ) (xbar : Point ℝ nz nl nv)
    {g : Resid ℝ nz nl nv → Point ℝ nz nl nv} {g' : Resid XReal nz nl nv → Point XReal nz nl nv}
    (hg : ∀ r, g' r.up = (g r).up) (x : Point ℝ nz nl nv) (ri : Resid ℝ nz nl nv) (buf : Vec ℝ 5) :
    newtonStep E' (up sigma) xbar.up g' x.up ri.up buf.up =
      let s := newtonStep E sigma xbar g x ri buf
      (s.1.up, up s.2.1, s.2.2.1.up, s.2.2.2.map Event.up) := by
  have hi : ∀ (c : ℝ) (b : Vec ℝ 5), Alg.insertMerit (up c) b.up = (Alg.insertMerit c b).up := by
    intro c b
    unfold Alg.insertMerit
    rw [forFinRev_up Vec.up (fun (i : Fin 4) (b : Vec ℝ 5) => b.set i.succ (b i.castSucc))
      (fun (i : Fin 4) (b : Vec XReal 5) => b.set i.succ (b i.castSucc)) (fun i s => by
        simp only [Vec.up_get, Vec.up_set]), Vec.up_set]
  have hm : ∀ (b : Vec ℝ 5) (c : ℝ), mZero E' b.up (up c) = up (mZero E b c) := by
    intro b c
    simp only [mZero, U.opts, Params.up, Alg.maxMerit, Vec.up_maxCoeff, up_ite]
  simp only [Core.newtonStep, up_residNegate, hg, up_residMerit, hi, hm, up_one, U.lineSearch, U.axpy]
  have e : E'.opts.maxLinesearchIters = E.opts.maxLinesearchIters := by rw [U.opts]; rfl
  simp only [e]

theorem UpEnv.innerLoop (tol Ek : ℝ) (xbar : Point ℝ nz nl nv) (fuel i : Nat) (t Eo : ℝ)
    (x : Point ℝ nz nl nv) (newton : Nat) (buf : Vec ℝ 5) (rk : Resid ℝ nz nl nv) :
    innerLoop E' (up tol) (up E.opts.sigma0) (up Ek) xbar.up fuel i (up t) (up Eo) x.up newton buf.up
      rk.up =
      let p := innerLoop E tol E.opts.sigma0 Ek xbar fuel i t Eo x newton buf rk
      (p.1.map Event.up, p.2.map InnerOut.up) := by
  induction fuel generalizing i t Eo x newton buf rk with
  | zero => rfl
  | succ fuel ih =>
    have e1 : E'.opts.innerTolMin = up E.opts.innerTolMin := by rw [U.opts]; rfl
    have e2 : E'.opts.maxNewtonIters = E.opts.maxNewtonIters := by rw [U.opts]; rfl
    simp only [Core.innerLoop, U.innerRes, U.penRes, up_residNorm, up_le, up_lt, e1, e2]
    split
    · rfl
    · split
      · rfl
      · have hf := U.factor x xbar
        cases h : E.factor x xbar E.opts.sigma0 with
        | error e => rw [h] at hf; simp only [hf]; rfl
        | ok g =>
          cases g with
          | none => rw [h] at hf; simp only [hf]; rfl
          | some g =>
            rw [h] at hf
            obtain ⟨g', h1, h2⟩ := hf
            simp only [h1, U.newtonStep _ _ h2, ih, List.map_cons, List.map_append]
            rfl

theorem UpEnv.subproblem (tol Ek : ℝ) (xk : Point ℝ nz nl nv) (newton : Nat) (rk : Resid ℝ nz nl nv) :
    subproblem E' (up tol) (up Ek) xk.up newton rk.up =
      let p := subproblem E tol Ek xk newton rk
      (p.1.map Event.up, p.2.map InnerOut.up) := by
  have e1 : E'.opts.sigma0 = up E.opts.sigma0 := by rw [U.opts]; rfl
  have e2 : E'.opts.maxInnerIters = E.opts.maxInnerIters := by rw [U.opts]; rfl
  simp only [Core.subproblem, e1, e2, up_one, up_zero, Vec.const_up, U.innerLoop]
  refine Prod.ext rfl ?_
  cases (Core.innerLoop E tol E.opts.sigma0 Ek xk E.opts.maxInnerIters.toNat 0 1 0 xk newton
    (Vec.const 0) rk).2 with
  | error e => rfl
  | ok o =>
    simp only [Except.map, InnerOut.up, up_projectDuals]

theorem UpEnv.afterInner (E0 Ek tol : ℝ) (s : Outer ℝ nz nl nv) (ws' : FeasWs XReal nz nl nv)
    (hW : W s.ws ws') (o : InnerOut ℝ nz nl nv) :
    match afterInner E E0 Ek tol s o with
    | .inl (ev, fin) => afterInner E' (up E0) (up Ek) (up tol)
        ⟨up s.innerTol, s.xk.up, s.dx.up, s.prox, s.newton, s.rk.up, ws'⟩ o.up =
        .inl (ev.map Event.up, fin.up)
    | .inr s2 => ∃ ws2, W s2.ws ws2 ∧ afterInner E' (up E0) (up Ek) (up tol)
        ⟨up s.innerTol, s.xk.up, s.dx.up, s.prox, s.newton, s.rk.up, ws'⟩ o.up =
        .inr ⟨up s2.innerTol, s2.xk.up, s2.dx.up, s2.prox, s2.newton, s2.rk.up, ws2⟩ := by
  have e1 : E'.opts.maxNewtonIters = E.opts.maxNewtonIters := by rw [U.opts]; rfl
  have e2 : E'.opts.checkFeasibility = E.opts.checkFeasibility := by rw [U.opts]; rfl
  have e3 : E'.opts.infeasTol = up E.opts.infeasTol := by rw [U.opts]; rfl
  have ex : (if o.Eo < Ek then o.x.up else s.xk.up) = (if o.Eo < Ek then o.x else s.xk).up := by
    split <;> rfl
  simp only [Core.afterInner, e1, e2, e3, InnerOut.up, up_lt, up_one, up_neg, U.axpy, ex, U.penRes]
  by_cases h1 : E.opts.maxNewtonIters ≤ (o.newton : Int)
  · simp only [if_pos h1]
    simp only [List.map_cons, List.map_nil, Event.up, Final.up, mkFinal, up_residNorm, SolverOut.up]
  · simp only [if_neg h1]
    cases hc : E.opts.checkFeasibility with
    | false =>
      simp only [Bool.false_eq_true, if_false, ne_eq, not_true_eq_false]
      exact ⟨ws', hW, rfl⟩
    | true =>
      obtain ⟨c1, c2⟩ := U.check hc (E.axpy (-1) s.xk o.x) s.ws ws' hW
      simp only [if_true, c1]
      by_cases hf : flagOf (checkFeasibility E.ops (E.axpy (-1) s.xk o.x) E.opts.infeasTol s.ws).1 ≠
          .success
      · simp only [if_pos hf]
        simp only [List.map_cons, List.map_nil, Event.up, Final.up, mkFinal, up_residNorm, SolverOut.up]
      · simp only [if_neg hf]
        exact ⟨_, c2, rfl⟩

theorem UpEnv.proxLoop (E0 : ℝ) (fuel : Nat) (s : Outer ℝ nz nl nv) (ws' : FeasWs XReal nz nl nv)
    (hW : W s.ws ws') :
    proxLoop E' (up E0) fuel ⟨up s.innerTol, s.xk.up, s.dx.up, s.prox, s.newton, s.rk.up, ws'⟩ =
      let p := proxLoop E E0 fuel s
      (p.1.map Event.up, p.2.map Final.up) := by
  induction fuel generalizing s ws' with
  | zero =>
    simp only [Core.proxLoop, List.map_cons, List.map_nil, Event.up, Except.map, Final.up, mkFinal,
      up_residNorm, SolverOut.up]
  | succ fuel ih =>
    have e1 : E'.opts.stallTol = up E.opts.stallTol := by rw [U.opts]; rfl
    have e2 : E'.opts.delta = up E.opts.delta := by rw [U.opts]; rfl
    have e3 : E'.opts.innerTolMin = up E.opts.innerTolMin := by rw [U.opts]; rfl
    simp only [Core.proxLoop, U.penRes, up_residNorm, U.comboTol, e1, e2, e3, up_normPt, up_le, up_mul,
      up_saturate]
    split
    · simp only [List.map_cons, List.map_nil, Event.up, Except.map, Final.up, mkFinal,
        up_residNorm, SolverOut.up]
    · cases saturate (s.innerTol * E.opts.delta) E.opts.innerTolMin (Resid.norm (E.penRes s.xk)) with
      | error e => rfl
      | ok tol =>
        simp only [Except.map, U.subproblem]
        cases hq : (Core.subproblem E tol (Resid.norm (E.penRes s.xk)) s.xk s.newton
          (E.penRes s.xk)).2 with
        | error e =>
          simp only [List.map_append, List.map_cons, List.map_nil, Event.up]
        | ok o =>
          have ha := U.afterInner E0 (Resid.norm (E.penRes s.xk)) tol s ws' hW o
          cases h : Core.afterInner E E0 (Resid.norm (E.penRes s.xk)) tol s o with
          | inl r =>
            rw [h] at ha
            simp only [ha, h, List.map_append, List.map_cons, List.map_nil, Event.up]
          | inr s2 =>
            rw [h] at ha
            obtain ⟨ws2, h1, h2⟩ := ha
            simp only [h2, h, ih _ _ h1, List.map_append, List.map_cons, List.map_nil, Event.up]
            rfl

theorem UpEnv.solve (ws : FeasWs ℝ nz nl nv) (ws' : FeasWs XReal nz nl nv) (hW : W ws ws')
    (z : Vec ℝ nz) (l : Vec ℝ nl) (v : Vec ℝ nv) :
    solve E' ws' z.up l.up v.up =
      let p := solve E ws z l v
      (p.1.map Event.up, p.2.map Final.up) := by
  have e1 : E'.opts.innerTolMin = up E.opts.innerTolMin := by rw [U.opts]; rfl
  have e2 : E'.opts.innerTolMax = up E.opts.innerTolMax := by rw [U.opts]; rfl
  have e3 : E'.opts.maxProxIters = E.opts.maxProxIters := by rw [U.opts]; rfl
  have e4 : startPt E' z.up l.up v.up = (startPt E z l v).up := by
    simp only [startPt, Point.up, U.ops.margin]
  have e5 : onesPt E' = (onesPt E).up := by
    simp only [onesPt, Point.up, up_one, Vec.const_up, U.ops.margin]
  simp only [Core.solve, e4, U.penRes, up_residNorm, e1, e2, e3, e5, up_saturate]
  cases saturate (Resid.norm (E.penRes (startPt E z l v))) E.opts.innerTolMin E.opts.innerTolMax with
  | error e => rfl
  | ok tol =>
    simp only [Except.map]
    have := U.proxLoop (Resid.norm (E.penRes (startPt E z l v))) E.opts.maxProxIters.toNat
      ⟨tol, startPt E z l v, onesPt E, 0, 0, E.penRes (startPt E z l v), ws⟩ ws' hW
    simp only [this, List.map_cons]
    rfl

end

theorem up_render (o : Params ℝ) (c : ℝ) (ri : Resid ℝ nz nl nv) (es : List (Event ℝ nz nl nv)) :
    render o.up (up c) ri.up (es.map Event.up) = (render o c ri es).map Msg.up := by
  have e : o.up.displayLevel = o.displayLevel := rfl
  have e1 : o.up.maxProxIters = o.maxProxIters := rfl
  have e2 : o.up.maxNewtonIters = o.maxNewtonIters := rfl
  have z1 : ∀ r : Resid ℝ nz nl nv, r.up.znorm = up r.znorm := fun _ => rfl
  have z2 : ∀ r : Resid ℝ nz nl nv, r.up.lnorm = up r.lnorm := fun _ => rfl
  have z3 : ∀ r : Resid ℝ nz nl nv, r.up.vnorm = up r.vnorm := fun _ => rfl
  induction es generalizing ri with
  | nil => rfl
  | cons ev es ih =>
    cases ev <;> simp only [List.map_cons, Event.up, render, e, e1, e2, ih, List.map_append] <;>
    (try (congr 1; split <;> simp only [List.map_cons, List.map_nil, Msg.up, up_residNorm, z1, z2, z3]))

end Core
end Fbstab
