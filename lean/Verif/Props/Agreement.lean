import Verif.Props.NewtonMpc
import Verif.Proofs.EnvCongr
import Verif.Proofs.Witness
import Verif.Spec.Options
import Verif.Spec.Outcome

/-!
# C26: `FBstabMpc` is `FBstabDense` on the stacked problem

Over the reals.
-/

namespace Fbstab
open Matrix

/-- On a convex problem both linear solvers provide the same solution map. -/
theorem factor_agrees {N nx nu nc : Nat} (d : MpcData ℝ N nx nu nc)
    (d' : DenseData ℝ ((N + 1) * (nx + nu)) ((N + 1) * nx) ((N + 1) * nc))
    (hd : QP.ofDense d' = (Ocp.ofMpc d).toQP) (hc : (Ocp.ofMpc d).Convex) {alpha sigma : ℝ}
    (h0 : 0 < alpha) (h1 : alpha < 1) (hs : 2.2250738585072014e-308 < sigma)
    (x xbar : Point ℝ ((N + 1) * (nx + nu)) ((N + 1) * nx) ((N + 1) * nc)) :
    denseFactor d' alpha x xbar sigma = RiccatiWs.factor d alpha x xbar sigma := by
  have hs0 : 0 < sigma := tiny_pos.trans hs
  have hq : (Ocp.ofMpc d).toQP.Convex := (C29_convex _).2 hc
  obtain ⟨e1, n1⟩ := dense_newton d' (by rw [hd]; exact hq) h0 h1 hs x xbar
  obtain ⟨e2, n2⟩ := riccati_newton d hc h0 h1 hs0 x xbar
  rw [e1, e2]
  congr 2
  funext r
  obtain ⟨a1, a2⟩ := n1 r
  have a3 := n2 r
  rw [hd] at a1
  obtain ⟨e1, e2, e3⟩ := QP.NewtonSystem.unique hq hs0
    (fun i => (pfbGradient_nonneg h0 h1 _ _).1) (fun i => (C31_positive h0 h1 hs0 _ _).2.2) a1 a3
  have e4 : (denseStep d' alpha x xbar sigma r).y.fn = (RiccatiWs.step d alpha x xbar sigma r).y.fn := by
    rw [a2, show (RiccatiWs.step d alpha x xbar sigma r).y.fn = _ from
      riccatiStep_margin d alpha x xbar sigma r, ← hd, e1]
    rfl
  cases h : denseStep d' alpha x xbar sigma r
  cases h' : RiccatiWs.step d alpha x xbar sigma r
  rw [h, h'] at e1 e2 e3 e4
  simp only [Vec.fn_inj] at e1 e2 e3 e4
  rw [e1, e2, e3, e4]

/-- C26: on an optimal control problem with convex stage costs, `FBstabMpc::Solve` returns (or
throws) exactly what `FBstabDense::Solve` does with the same options, the same guess and dense data
`d` holding the stacked quadratic program: the same flag, counts and residuals, and the same `z`,
`l`, `v`, `y`.  The two objects may have been used before. -/
theorem C26_agree (s : FBstabMpc ℝ) (p : MpcProblem ℝ) (x : CallerVar ℝ)
    (hfit : MpcFits s.N s.nx s.nu s.nc p x) (hcol : p.Columns) (hc : (s.ocp p).Convex)
    (ho : s.options.InRange)
    (sd : FBstabDense ℝ) (hz : sd.nz = (s.N + 1) * (s.nx + s.nu)) (hl : sd.nl = (s.N + 1) * s.nx)
    (hv : sd.nv = (s.N + 1) * s.nc) (hopt : sd.options = s.options)
    (d : DenseProblem ℝ)
    (hd : DenseFits ((s.N + 1) * (s.nx + s.nu)) ((s.N + 1) * s.nx) ((s.N + 1) * s.nc) d x)
    (hq : QP.ofDense (d.toData _ _ _) = s.qp p) :
    (sd.solve d x).result = (s.solve p x).result ∧ (sd.solve d x).x = (s.solve p x).x := by
  obtain ⟨nz, nl, nv, mem⟩ := sd
  dsimp only at hz hl hv
  subst hz hl hv
  have hopt' : mem.opts = s.options := hopt
  have c1 := FBstabMpc.solve_computes real_zero_beq hfit hcol
  have c2 := FBstabDense.solve_computes
    (s := ⟨(s.N + 1) * (s.nx + s.nu), (s.N + 1) * s.nx, (s.N + 1) * s.nc, mem⟩) hd
  have hα0 : 0 < s.options.alpha := lt_of_lt_of_le (by norm_num) ho.alpha.1
  have hα1 : s.options.alpha < 1 := lt_of_le_of_lt ho.alpha.2 (by norm_num)
  have hσ : (2.2250738585072014e-308 : ℝ) < s.options.sigma0 := by
    refine lt_of_lt_of_le ?_ ho.sigma0_pos
    set_option exponentiation.threshold 400 in norm_num
  have I := MpcData.implements (p.toData s.N s.nx s.nu s.nc)
  have J := QP.ofDense_implements (d.toData ((s.N + 1) * (s.nx + s.nu)) ((s.N + 1) * s.nx)
    ((s.N + 1) * s.nc))
  rw [hq] at J
  have hsame := (I.same J (o := s.options)
    (fac := RiccatiWs.factor (p.toData s.N s.nx s.nu s.nc) s.options.alpha)
    (fac' := denseFactor (d.toData _ _ _) s.options.alpha)
    fun x xbar => factor_agrees _ _ hq hc hα0 hα1 hσ x xbar)
  have hcore : FBstabDense.core
      ⟨(s.N + 1) * (s.nx + s.nu), (s.N + 1) * s.nx, (s.N + 1) * s.nc, mem⟩ d x =
      s.core real_zero_beq p x := by
    refine Eq.trans ?_ ((Core.solve_ws J.clears mem.feas.ws s.mem.feas.ws _ _ _).trans
      (hsame.solve _ _ _ _))
    unfold FBstabDense.core
    rw [hopt]
    rfl
  rw [hcore] at c2
  have hy : x.YWritable ((s.N + 1) * s.nc) := fun _ => hfit.y
  cases hp : (s.core real_zero_beq p x).2 with
  | error e =>
    obtain ⟨a1, a2, -⟩ := c1.error e hp
    obtain ⟨b1, b2, -⟩ := c2.error e hp
    exact ⟨b1.trans a1.symm, b2.trans a2.symm⟩
  | ok fin =>
    obtain ⟨a1, a2, -⟩ := c1.ok fin hp hy
    obtain ⟨b1, b2, -⟩ := c2.ok fin hp hy
    exact ⟨b1.trans a1.symm, b2.trans a2.symm⟩

/-- C26: such dense data exist for every optimal control problem. -/
theorem C26_exists (s : FBstabMpc ℝ) (p : MpcProblem ℝ) (x : CallerVar ℝ)
    (hfit : MpcFits s.N s.nx s.nu s.nc p x) :
    DenseFits ((s.N + 1) * (s.nx + s.nu)) ((s.N + 1) * s.nx) ((s.N + 1) * s.nc) (s.qp p).toDense x ∧
    QP.ofDense ((s.qp p).toDense.toData _ _ _) = s.qp p :=
  ⟨by constructor <;> simp [QP.toDense, DVec.size, ← hfit.z, ← hfit.l, ← hfit.v],
    QP.toDense_toData _⟩

end Fbstab
