import Verif.Proofs.Workspace
import Verif.Proofs.RealCore

/-!
# Two environments in which a run goes the same way
-/

namespace Fbstab.Core
variable {K : Type} [Scalar K] {nz nl nv : Nat}

/-- The two environments agree in everything a run looks at. -/
structure Env.Same (E F : Env K nz nl nv) : Prop where
  opts : F.opts = E.opts
  comboTol : F.comboTol = E.comboTol
  penRes : ∀ x, F.penRes x = E.penRes x
  innerRes : ∀ x xbar s, F.innerRes x xbar s = E.innerRes x xbar s
  axpy : ∀ a x y, F.axpy a x y = E.axpy a x y
  check : ∀ x tol ws, Fbstab.checkFeasibility F.ops x tol ws = Fbstab.checkFeasibility E.ops x tol ws
  margin : ∀ z, Fbstab.margin F.ops z = Fbstab.margin E.ops z
  factor : ∀ x xbar, F.factor x xbar E.opts.sigma0 = E.factor x xbar E.opts.sigma0

variable {E F : Env K nz nl nv} (h : E.Same F)
include h

theorem Env.Same.lineSearch (sigma m0 cm : K) (x xbar dx : Point K nz nl nv) (n : Nat) (t : K) :
    lineSearch F sigma m0 cm x xbar dx n t = lineSearch E sigma m0 cm x xbar dx n t := by
  induction n generalizing t with
  | zero => rfl
  | succ n ih => simp only [Core.lineSearch, ih, h.axpy, h.innerRes, h.opts]

theorem Env.Same.newtonStep (sigma : K) (xbar : Point K nz nl nv) (g) (x : Point K nz nl nv)
    (ri : Resid K nz nl nv) (buf : Vec K 5) :
    newtonStep F sigma xbar g x ri buf = newtonStep E sigma xbar g x ri buf := by
  simp only [Core.newtonStep, h.lineSearch, h.axpy, h.opts, mZero]

theorem Env.Same.innerLoop (tol Ek : K) (xbar : Point K nz nl nv) (fuel i : Nat) (t Eo : K)
    (x : Point K nz nl nv) (newton : Nat) (buf : Vec K 5) (rk : Resid K nz nl nv) :
    innerLoop F tol E.opts.sigma0 Ek xbar fuel i t Eo x newton buf rk =
      innerLoop E tol E.opts.sigma0 Ek xbar fuel i t Eo x newton buf rk := by
  induction fuel generalizing i t Eo x newton buf rk with
  | zero => rfl
  | succ fuel ih =>
    simp only [Core.innerLoop, h.newtonStep, ih, h.innerRes, h.penRes, h.opts, h.factor]

theorem Env.Same.subproblem (tol Ek : K) (xk : Point K nz nl nv) (newton : Nat)
    (rk : Resid K nz nl nv) :
    subproblem F tol Ek xk newton rk = subproblem E tol Ek xk newton rk := by
  simp only [Core.subproblem, h.opts, h.innerLoop]

theorem Env.Same.proxLoop (E0 : K) (fuel : Nat) (s : Outer K nz nl nv) :
    proxLoop F E0 fuel s = proxLoop E E0 fuel s := by
  induction fuel generalizing s with
  | zero => rfl
  | succ fuel ih =>
    simp only [Core.proxLoop, h.subproblem, ih, h.penRes, h.comboTol, h.opts, afterInner, h.axpy,
      h.check]

theorem Env.Same.solve (ws : FeasWs K nz nl nv) (z : Vec K nz) (l : Vec K nl) (v : Vec K nv) :
    solve F ws z l v = solve E ws z l v := by
  simp only [Core.solve, h.proxLoop, h.penRes, h.opts, startPt, onesPt, h.margin]

end Fbstab.Core

namespace Fbstab
variable {nz nl nv : Nat} {q : QP nz nl nv} {ops ops' : QPOps ℝ nz nl nv}

theorem QP.Implements.clears (I : q.Implements ops) : ops.Clears where
  A x y y' := Vec.fn_inj.1 (by simp only [I.gemvA, zero_smul])
  G x y y' := Vec.fn_inj.1 (by simp only [I.gemvG, zero_smul])
  H x y y' := Vec.fn_inj.1 (by simp only [I.gemvH, zero_smul])

section
variable (I : q.Implements ops) (J : q.Implements ops')
include I J

theorem QP.Implements.gemvA_eq (x a b y) : ops'.gemvA x a b y = ops.gemvA x a b y :=
  Vec.fn_inj.1 (by rw [I.gemvA, J.gemvA])
theorem QP.Implements.gemvG_eq (x a b y) : ops'.gemvG x a b y = ops.gemvG x a b y :=
  Vec.fn_inj.1 (by rw [I.gemvG, J.gemvG])
theorem QP.Implements.gemvH_eq (x a b y) : ops'.gemvH x a b y = ops.gemvH x a b y :=
  Vec.fn_inj.1 (by rw [I.gemvH, J.gemvH])
theorem QP.Implements.gemvAT_eq (x a b y) : ops'.gemvAT x a b y = ops.gemvAT x a b y :=
  Vec.fn_inj.1 (by rw [I.gemvAT, J.gemvAT])
theorem QP.Implements.gemvGT_eq (x b y) : ops'.gemvGT x 1 b y = ops.gemvGT x 1 b y :=
  Vec.fn_inj.1 (by rw [I.gemvGT, J.gemvGT])
theorem QP.Implements.axpyf_eq (a y) : ops'.axpyf a y = ops.axpyf a y :=
  Vec.fn_inj.1 (by rw [I.axpyf, J.axpyf])
theorem QP.Implements.axpyh_eq (a y) : ops'.axpyh a y = ops.axpyh a y :=
  Vec.fn_inj.1 (by rw [I.axpyh, J.axpyh])
theorem QP.Implements.axpyb_eq (a y) : ops'.axpyb a y = ops.axpyb a y :=
  Vec.fn_inj.1 (by rw [I.axpyb, J.axpyb])

theorem QP.Implements.stoppingTol_eq (o : Params ℝ) : stoppingTol ops' o = stoppingTol ops o := by
  simp only [stoppingTol, I.forcingNorm, J.forcingNorm]

/-- Runs on two implementations of the same problem, with linear solvers that agree. -/
theorem QP.Implements.same {o : Params ℝ} {fac fac'}
    (hf : ∀ x xbar, fac' x xbar o.sigma0 = fac x xbar o.sigma0) :
    (⟨o, ops, fac⟩ : Core.Env ℝ nz nl nv).Same ⟨o, ops', fac'⟩ where
  opts := rfl
  comboTol := I.stoppingTol_eq J o
  penRes x := by
    simp only [Core.Env.penRes, Fbstab.gradLagrangian, Fbstab.eqDefect, I.gemvAT_eq J, I.gemvGT_eq J,
      I.gemvH_eq J, I.gemvG_eq J, I.axpyf_eq J, I.axpyh_eq J]
  innerRes x xbar s := by
    simp only [Core.Env.innerRes, Fbstab.gradLagrangian, Fbstab.eqDefect, I.gemvAT_eq J, I.gemvGT_eq J,
      I.gemvH_eq J, I.gemvG_eq J, I.axpyf_eq J, I.axpyh_eq J]
  axpy a x y := by simp only [Core.Env.axpy, I.axpyb_eq J]
  check x tol ws := by
    simp only [checkFeasibility, I.gemvA_eq J, I.gemvAT_eq J, I.gemvGT_eq J,
      I.gemvH_eq J, I.gemvG_eq J, I.axpyf_eq J, I.axpyh_eq J, I.axpyb_eq J]
  margin z := by simp only [Fbstab.margin, I.gemvA_eq J, I.axpyb_eq J]
  factor := hf

end
end Fbstab
