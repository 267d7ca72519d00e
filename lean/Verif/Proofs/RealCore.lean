import Verif.Spec.RealApi
import Verif.Proofs.QPMath
import Verif.Proofs.Ops
import Verif.Proofs.ApiSem
import Verif.Proofs.CoreFacts
import Mathlib.Analysis.Normed.Group.Basic

/-!
# Runs of the algorithm over the reals
-/

namespace Fbstab
open Matrix

namespace Core
variable {nz nl nv : Nat} {E : Env ℝ nz nl nv} {q : QP nz nl nv}

/-- The point's `y` is the constraint margin. -/
def Marg (q : QP nz nl nv) (x : Point ℝ nz nl nv) : Prop := x.y.fn = q.b - q.A *ᵥ x.z.fn

/-- What a run needs of its environment: the data implement `q`, and the linear solver's steps carry
the right `y`. -/
structure RealEnv (E : Env ℝ nz nl nv) (q : QP nz nl nv) : Prop where
  ops : q.Implements E.ops
  margin : ∀ {x xbar sigma g}, E.factor x xbar sigma = .ok (some g) → ∀ r, Marg q (g r)

theorem Marg.axpy (I : q.Implements E.ops) {x dx : Point ℝ nz nl nv} (hx : Marg q x)
    (hd : Marg q dx) (a : ℝ) : Marg q (E.axpy a dx x) := by
  unfold Marg Env.axpy
  dsimp only
  rw [I.axpyb, Vec.fn_add, Vec.fn_smul, hx, hd, Vec.fn_add, Vec.fn_smul, mulVec_add, mulVec_smul]
  ext i
  simp
  ring

theorem Marg.project {x : Point ℝ nz nl nv} (hx : Marg q x) : Marg q (projectDuals x) := hx

theorem Marg.start (I : q.Implements E.ops) (z : Vec ℝ nz) (l : Vec ℝ nl) (v : Vec ℝ nv) :
    Marg q (startPt E z l v) := I.margin z

theorem Marg.subproblem (R : RealEnv E q) {tol Ek : ℝ} {xk : Point ℝ nz nl nv} {newton : Nat}
    {rk : Resid ℝ nz nl nv} {o : InnerOut ℝ nz nl nv} (hx : Marg q xk)
    (h : (subproblem E tol Ek xk newton rk).2 = .ok o) : Marg q o.x := by
  obtain ⟨o', h', rfl⟩ := subproblem_ok h
  refine Marg.project (innerLoop_invariant E tol E.opts.sigma0 Ek xk (Marg q) ?_ _ _ _ _ _ _ _ _ _
    hx h')
  rintro x x' hx ⟨g, r, t, hg, rfl⟩
  exact Marg.axpy R.ops hx (R.margin hg r) t

theorem Marg.steps (R : RealEnv E q) {k : Nat} {s s' : Outer ℝ nz nl nv} (h : Steps E k s s')
    (hs : Marg q s.xk) : Marg q s'.xk := by
  refine Steps.invariant (P := fun s => Marg q s.xk) ?_ h hs
  intro s s' tol o hs h
  rw [h.eq]
  exact Marg.subproblem R hs h.sub

/-- `y = b - A z` at the returned point. -/
theorem Returned.margin (R : RealEnv E q) {ws x fin} (h : Returned E ws x fin) (hx : Marg q x) :
    Marg q fin.x := by
  obtain ⟨tol, k, s, -, hs, h⟩ := h.run
  have hk := Marg.steps R hs hx
  rcases h with ⟨-, h⟩ | ⟨-, rfl⟩
  · cases h with
    | success _ => exact hk
    | newton hi hn x hx =>
      show Marg q x
      rw [hx]
      split
      · exact Marg.subproblem R hk hi.sub
      · exact hk
    | infeasible hi hn hc hf =>
      exact Marg.axpy R.ops (Marg.subproblem R hk hi.sub) hk _
  · exact hk

end Core

/-! ## The environments of the two solvers -/

theorem denseStep_margin {nz nl nv : Nat} (d : DenseData ℝ nz nl nv) (alpha : ℝ)
    (x xbar : Point ℝ nz nl nv) (sigma : ℝ) (r : Resid ℝ nz nl nv) :
    Core.Marg (QP.ofDense d) (denseStep d alpha x xbar sigma r) := by
  unfold Core.Marg denseStep
  simp only [Vec.fn_sub, Mat.fn_mulVec]
  rfl

theorem FBstabDense.realEnv (s : FBstabDense ℝ) (p : DenseProblem ℝ) :
    Core.RealEnv (s.env p) (s.qp p) where
  ops := QP.ofDense_implements _
  margin := by
    intro x xbar sigma g hg r
    have : denseFactor (p.toData s.nz s.nl s.nv) s.options.alpha x xbar sigma = .ok (some g) := hg
    unfold denseFactor at this
    split at this
    · cases this
    · split at this
      · cases this; exact denseStep_margin _ _ _ _ _ _
      · cases this

theorem riccatiStep_margin {N nx nu nc : Nat} (d : MpcData ℝ N nx nu nc) (alpha : ℝ)
    (x xbar : Point ℝ ((N + 1) * (nx + nu)) ((N + 1) * nx) ((N + 1) * nc)) (sigma : ℝ)
    (r : Resid ℝ ((N + 1) * (nx + nu)) ((N + 1) * nx) ((N + 1) * nc)) :
    Core.Marg (Ocp.ofMpc d).toQP (RiccatiWs.step d alpha x xbar sigma r) := by
  unfold Core.Marg RiccatiWs.step RiccatiWs.solvePost
  dsimp only
  rw [show d.axpyb = d.ops.axpyb from rfl, show d.gemvA = d.ops.gemvA from rfl,
    d.implements.axpyb, d.implements.gemvA]
  ext i
  simp
  ring

/-- `0 == 0` in real arithmetic. -/
theorem real_zero_beq : ((0 : ℝ) == 0) = true := by simp

theorem FBstabMpc.realEnv (s : FBstabMpc ℝ) (p : MpcProblem ℝ) :
    Core.RealEnv (s.env real_zero_beq p) (s.qp p) where
  ops := MpcData.implements _
  margin := by
    intro x xbar sigma g hg r
    have : RiccatiWs.factor (p.toData s.N s.nx s.nu s.nc) s.options.alpha x xbar sigma =
      .ok (some g) := hg
    unfold RiccatiWs.factor at this
    split at this
    · cases this
    · split at this
      · cases this; exact riccatiStep_margin _ _ _ _ _ _
      · cases this

theorem CallerVar.guess_margin {nz nl nv : Nat} {q : QP nz nl nv} {ops : QPOps ℝ nz nl nv}
    (I : q.Implements ops) (x : CallerVar ℝ) : Core.Marg q (x.guess ops) := I.margin _

end Fbstab
