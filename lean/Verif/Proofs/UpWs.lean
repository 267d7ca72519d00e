import Verif.Proofs.UpCore

/-!
# The workspaces of the feasibility checker in corresponding runs
-/

namespace Fbstab.Core
variable {nz nl nv : Nat} {E : Env ℝ nz nl nv} {E' : Env XReal nz nl nv}
  {W : FeasWs ℝ nz nl nv → FeasWs XReal nz nl nv → Prop} (U : UpEnv E E' W)
include U

theorem UpEnv.afterWs (s : Outer ℝ nz nl nv) (ws' : FeasWs XReal nz nl nv)
    (hW : W s.ws ws') (o : InnerOut ℝ nz nl nv) :
    W (afterWs E s o) (afterWs E'
      ⟨up s.innerTol, s.xk.up, s.dx.up, s.prox, s.newton, s.rk.up, ws'⟩ o.up) := by
  have e1 : E'.opts.maxNewtonIters = E.opts.maxNewtonIters := by rw [U.opts]; rfl
  have e2 : E'.opts.checkFeasibility = E.opts.checkFeasibility := by rw [U.opts]; rfl
  have e3 : E'.opts.infeasTol = up E.opts.infeasTol := by rw [U.opts]; rfl
  simp only [Core.afterWs, e1, e2, e3, InnerOut.up, up_one, up_neg, U.axpy]
  split
  · exact hW
  · cases hc : E.opts.checkFeasibility with
    | false => simpa using hW
    | true =>
      simp only [if_true]
      exact (U.check hc _ _ _ hW).2

theorem UpEnv.proxWs (E0 : ℝ) (fuel : Nat) (s : Outer ℝ nz nl nv) (ws' : FeasWs XReal nz nl nv)
    (hW : W s.ws ws') :
    W (proxWs E E0 fuel s) (proxWs E' (up E0) fuel
      ⟨up s.innerTol, s.xk.up, s.dx.up, s.prox, s.newton, s.rk.up, ws'⟩) := by
  induction fuel generalizing s ws' with
  | zero => exact hW
  | succ fuel ih =>
    have e1 : E'.opts.stallTol = up E.opts.stallTol := by rw [U.opts]; rfl
    have e2 : E'.opts.delta = up E.opts.delta := by rw [U.opts]; rfl
    have e3 : E'.opts.innerTolMin = up E.opts.innerTolMin := by rw [U.opts]; rfl
    simp only [Core.proxWs, U.penRes, up_residNorm, U.comboTol, e1, e2, e3, up_normPt, up_le, up_mul,
      up_saturate]
    split
    · exact hW
    · cases saturate (s.innerTol * E.opts.delta) E.opts.innerTolMin (Resid.norm (E.penRes s.xk)) with
      | error e => exact hW
      | ok tol =>
        simp only [Except.map, U.subproblem]
        cases hq : (Core.subproblem E tol (Resid.norm (E.penRes s.xk)) s.xk s.newton
          (E.penRes s.xk)).2 with
        | error e => exact hW
        | ok o =>
          have ha := U.afterInner E0 (Resid.norm (E.penRes s.xk)) tol s ws' hW o
          have hw := U.afterWs s ws' hW o
          cases h : Core.afterInner E E0 (Resid.norm (E.penRes s.xk)) tol s o with
          | inl r =>
            rw [h] at ha
            simp only [ha, h]
            exact hw
          | inr s2 =>
            rw [h] at ha
            obtain ⟨ws2, h1, h2⟩ := ha
            simp only [h2, h]
            exact ih _ _ h1

theorem UpEnv.solveWs (ws : FeasWs ℝ nz nl nv) (ws' : FeasWs XReal nz nl nv) (hW : W ws ws')
    (z : Vec ℝ nz) (l : Vec ℝ nl) (v : Vec ℝ nv) :
    W (solveWs E ws z l v) (solveWs E' ws' z.up l.up v.up) := by
  have e1 : E'.opts.innerTolMin = up E.opts.innerTolMin := by rw [U.opts]; rfl
  have e2 : E'.opts.innerTolMax = up E.opts.innerTolMax := by rw [U.opts]; rfl
  have e3 : E'.opts.maxProxIters = E.opts.maxProxIters := by rw [U.opts]; rfl
  have e4 : startPt E' z.up l.up v.up = (startPt E z l v).up := by
    simp only [startPt, Point.up, U.ops.margin]
  have e5 : onesPt E' = (onesPt E).up := by
    simp only [onesPt, Point.up, up_one, Vec.const_up, U.ops.margin]
  simp only [Core.solveWs, e4, U.penRes, up_residNorm, e1, e2, e3, e5, up_saturate]
  cases saturate (Resid.norm (E.penRes (startPt E z l v))) E.opts.innerTolMin E.opts.innerTolMax with
  | error e => exact hW
  | ok tol =>
    simp only [Except.map]
    exact U.proxWs (Resid.norm (E.penRes (startPt E z l v))) E.opts.maxProxIters.toNat
      ⟨tol, startPt E z l v, onesPt E, 0, 0, E.penRes (startPt E z l v), ws⟩ ws' hW

end Fbstab.Core
