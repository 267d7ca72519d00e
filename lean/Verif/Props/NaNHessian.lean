import Verif.Proofs.Stuck
import Verif.Proofs.WitnessRun
import Verif.Props.NaN
import Verif.Props.Uninitialised

/-!
# C60 fails for a NaN in the Hessian of FBstabDense
-/

namespace Fbstab

/-- `min 0 s.t. z <= 1`. -/
def slackQP : QP 1 0 1 where
  H := fun _ _ => 0
  f := fun _ => 0
  G := fun i _ => i.elim0
  h := fun i => i.elim0
  A := fun _ _ => 1
  b := fun _ => 1

/-- The same problem with `H = NaN`. -/
noncomputable def nanHessian : DenseProblem XReal :=
  { slackQP.toDense.up with H := ⟨1, 1, #[.nan], rfl⟩ }

noncomputable def nanHessianData : DenseData XReal 1 0 1 := nanHessian.toData 1 0 1

noncomputable def slackData : DenseData ℝ 1 0 1 := slackQP.toDense.toData 1 0 1

theorem nanHessianData_eq : nanHessianData = { slackData.up with H := nanHessianData.H } := by
  unfold slackData
  rw [← DenseProblem.up_toData]
  rfl

theorem nanHessianData_H : nanHessianData.H 0 0 = .nan := by
  simp [nanHessianData, nanHessian, DenseProblem.toData, DMat.toMat]

noncomputable def slackStart : Point ℝ 1 0 1 := ⟨Vec.const 0, Vec.const 0, Vec.const 0, Vec.const 1⟩

/-- 1×1: the factorisation succeeds whatever the entry is. -/
theorem ldlt_one_success {K : Type} [Scalar K] (A : Mat K 1 1) : (ldltCompute A).success = true := by
  have h : ∀ i : Fin 1, ¬(0 : Fin 1) < i := by decide
  simp [ldltCompute, forFin, Fin.foldl_succ, ldltStep, XReal.dotIf_eq, h]

theorem ldlt_one_solve (A : Mat XReal 1 1) (h : A 0 0 = .nan) (r : Vec XReal 1) :
    (ldltCompute A).solve r = (Vec.const 0 : Vec ℝ 1).up := by
  have hm : (ldltCompute A).mat 0 0 = .nan := by
    have e : ∀ i : Fin 1, i = 0 := by decide
    have h' : ∀ i j : Fin 1, A i j = .nan := fun i j => by rw [e i, e j]; exact h
    simp [ldltCompute, forFin, Fin.foldl_succ, ldltStep, XReal.dotIf_eq, permuteLower, h']
  refine Vec.ext fun i => ?_
  obtain rfl : i = 0 := Subsingleton.elim _ _
  have hl : ∀ i : Fin 1, ¬(0 : Fin 1) < i := by decide
  have hp : (ldltCompute A).perm 0 = 0 := Subsingleton.elim _ _
  simp only [Ldlt.solve, unitLowerTSolve, forFin, forFinRev, Fin.foldl_succ, Fin.foldr_succ, Fin.foldl_zero,
    Fin.foldr_zero, hp]
  simp only [XReal.dotIf_eq, sumFin, Fin.foldl_succ, Fin.foldl_zero, hm, hl, if_false, Vec.get_set, Vec.get_ofFn]
  rw [XReal.cabs_nan, if_neg XReal.lt_nan]
  simp only [if_true, up_zero, up_add, up_sub, Vec.up_get, Vec.const]
  simp

noncomputable def nanHessianEnv : Core.Env XReal 1 0 1 :=
  Core.env (denseSem XReal 1 0 1) nanHessianData nanHessianData.ops Params.defaults

theorem nanHessian_grad (z : Vec XReal 1) (l : Vec XReal 0) (v : Vec XReal 1) :
    (gradLagrangian nanHessianEnv.ops z l v).HasNaN :=
  ⟨0, DenseData.grad_nan (d := nanHessianData) 0 (.inr (.inl ⟨0, nanHessianData_H⟩))⟩

theorem nanHessianData_A : nanHessianData.A = slackData.A.up := by rw [nanHessianData_eq]; rfl
theorem nanHessianData_b : nanHessianData.b = slackData.b.up := by rw [nanHessianData_eq]; rfl
theorem nanHessianData_f : nanHessianData.f = slackData.f.up := by rw [nanHessianData_eq]; rfl

theorem slackData_A : slackData.A 0 0 = 1 := by
  simp [slackData, slackQP, QP.toDense, DenseProblem.toData, DMat.toMat]
theorem slackData_b : slackData.b = Vec.const 1 := by
  refine Vec.ext fun i => ?_
  simp [slackData, slackQP, QP.toDense, DenseProblem.toData, DVec.toVec, Vec.const]
theorem slackData_f : slackData.f = Vec.const 0 := by
  refine Vec.ext fun i => ?_
  simp [slackData, slackQP, QP.toDense, DenseProblem.toData, DVec.toVec, Vec.const]

theorem nanHessian_start : Core.startPt nanHessianEnv (Vec.const 0) (Vec.const 0) (Vec.const 0) =
    slackStart.up := by
  have h : margin nanHessianEnv.ops (Vec.const 0 : Vec ℝ 1).up = (margin slackData.ops (Vec.const 0)).up := by
    rw [← (DenseData.up_ops slackData).margin]
    simp only [margin, nanHessianEnv, Core.env, DenseData.ops, DenseData.gemvA, DenseData.axpyb,
      nanHessianData_A, nanHessianData_b, DenseData.up]
  have h2 : margin slackData.ops (Vec.const 0) = Vec.const 1 := by
    refine Vec.ext fun i => ?_
    obtain rfl : i = 0 := Subsingleton.elim _ _
    simp [margin, DenseData.ops, DenseData.gemvA, DenseData.axpyb, slackData_b, Vec.const,
      sumFin, Fin.foldl_succ]
  rw [h2] at h
  unfold Core.startPt
  simp only [up_zero, Vec.const_up, h]
  rfl

theorem nanHessian_factor : nanHessianEnv.factor slackStart.up slackStart.up nanHessianEnv.opts.sigma0 =
    .ok (some (denseStep nanHessianData (up 0.95) slackStart.up slackStart.up (up 1e-8))) := by
  show denseFactor nanHessianData (0.95 : XReal) slackStart.up slackStart.up 1e-8 = _
  unfold denseFactor
  rw [up_ofScientific, up_ofScientific, up_zero, if_neg (by rw [up_le]; norm_num)]
  rw [if_pos (ldlt_one_success _)]

theorem nanHessian_step (r : Resid XReal 1 0 1) (h : r.v = (Vec.const 0 : Vec ℝ 1).up) :
    denseStep nanHessianData (up 0.95) slackStart.up slackStart.up (up 1e-8) r =
      (⟨Vec.const 0, Vec.const 0, Vec.const 0, Vec.const 1⟩ : Point ℝ 1 0 1).up := by
  have hK : denseK nanHessianData (up 0.95) slackStart.up slackStart.up (up 1e-8) 0 0 = .nan := by
    have : ∀ i : Fin 1, denseK nanHessianData (up 0.95) slackStart.up slackStart.up (up 1e-8)
        (Fin.castAdd 0 i) (Fin.castAdd 0 i) = .nan := by
      intro i
      have hi : nanHessianData.H i i = .nan := by
        obtain rfl : i = 0 := Subsingleton.elim _ _
        exact nanHessianData_H
      simp [denseK, DenseWs.assignK, hi, -Fin.castAdd_zero]
    exact this 0
  have hs : ∀ w : Vec XReal (1 + 0), Vec.head (m := 1) (k := 0) ((ldltCompute (denseK nanHessianData
      (up 0.95) slackStart.up slackStart.up (up 1e-8))).solve w) = (Vec.const 0 : Vec ℝ 1).up := by
    intro w
    rw [ldlt_one_solve _ hK]
    rfl
  have hmu : ∀ i, pfbMu 0.95 1e-8 slackStart.y slackStart.v slackStart.v i ≠ 0 := fun i =>
    (pfbMu_pos (by norm_num) (by norm_num) (by norm_num) _ _ _ i).ne'
  simp only [denseStep, hs, h, nanHessianData_A, nanHessianData_b]
  simp only [Point.up]
  simp only [up_pfbMu, up_pfbGamma, Vec.ofFn_up, Mat.up_mulVec, Vec.up_cwiseProduct, Vec.up_add, Vec.up_sub]
  rw [Vec.up_cwiseQuotient _ (fun i => by rw [Vec.get_ofFn]; exact hmu i)]
  congr 1
  · congr 1
    refine Vec.ext fun i => ?_
    obtain rfl : i = 0 := Subsingleton.elim _ _
    have e0 : (Vec.const 0 : Vec ℝ 1) 0 = 0 := Vec.get_ofFn _ _
    simp only [Vec.cwiseQuotient, Vec.cwiseProduct, Vec.up_get, Vec.get_ofFn, Vec.get_add, Mat.get_mulVec, e0]
    rw [up_div _ (hmu 0)]
    simp [sumFin, Fin.foldl_succ]
  · congr 1
    refine Vec.ext fun i => ?_
    obtain rfl : i = 0 := Subsingleton.elim _ _
    simp [slackData_b, Vec.const, sumFin, Fin.foldl_succ]

theorem nanHessian_axpy (t : ℝ) : nanHessianEnv.axpy (up t)
    (⟨Vec.const 0, Vec.const 0, Vec.const 0, Vec.const 1⟩ : Point ℝ 1 0 1).up slackStart.up =
      slackStart.up := by
  simp only [Core.Env.axpy, nanHessianEnv, Core.env, DenseData.ops, DenseData.axpyb, nanHessianData_b,
    Point.up, Vec.up_smul, Vec.up_add, up_neg, slackStart, slackData_b]
  congr 2 <;> refine Vec.ext fun i => ?_ <;> simp [Vec.const]

/-- The feasibility test at the point `0` finds nothing. -/
theorem nanHessian_check (tol : XReal) (ws : FeasWs XReal 1 0 1) :
    (checkFeasibility nanHessianEnv.ops (nanHessianEnv.axpy (-1) slackStart.up slackStart.up) tol ws).1 =
      .feasible := by
  have hz : (nanHessianEnv.axpy (-1) slackStart.up slackStart.up).z = (Vec.const 0 : Vec ℝ 1).up := by
    refine Vec.ext fun i => ?_
    simp only [Core.Env.axpy, slackStart, Point.up, Vec.const, Vec.get_add, Vec.get_smul, Vec.up_get,
      Vec.get_ofFn, up_one, up_neg, up_mul, up_add]
    norm_num
  have hv : (nanHessianEnv.axpy (-1) slackStart.up slackStart.up).v = (Vec.const 0 : Vec ℝ 1).up := by
    refine Vec.ext fun i => ?_
    simp only [Core.Env.axpy, slackStart, Point.up, Vec.const, Vec.get_add, Vec.get_smul, Vec.up_get,
      Vec.get_ofFn, up_one, up_neg, up_mul, up_add]
    norm_num
  have h4 : ¬(nanHessianEnv.ops.axpyf 1 (Vec.const 0)).dot
      (nanHessianEnv.axpy (-1) slackStart.up slackStart.up).z < 0 := by
    rw [hz]
    simp only [nanHessianEnv, Core.env, DenseData.ops, DenseData.axpyf, nanHessianData_f, up_zero,
      up_one, Vec.const_up, Vec.up_smul, Vec.up_add, Vec.up_dot, up_lt]
    simp [Vec.dot, Vec.const, sumFin, Fin.foldl_succ]
  have h5 : ¬(nanHessianEnv.ops.axpyh 1 (Vec.const 0)).dot
      (nanHessianEnv.axpy (-1) slackStart.up slackStart.up).l +
      (nanHessianEnv.ops.axpyb 1 (Vec.const 0)).dot
      (nanHessianEnv.axpy (-1) slackStart.up slackStart.up).v < 0 := by
    rw [hv]
    have e : ∀ a b : Vec XReal 0, a.dot b = up 0 := fun a b => rfl
    rw [e]
    simp only [nanHessianEnv, Core.env, DenseData.ops, DenseData.axpyb, nanHessianData_b, up_zero,
      up_one, Vec.const_up, Vec.up_smul, Vec.up_add, Vec.up_dot, up_add, up_lt]
    simp [Vec.dot, Vec.const, sumFin, Fin.foldl_succ]
  simp [checkFeasibility, h4, h5]

theorem onesNorm_up (nz nl nv : Nat) : onesNorm XReal nz nl nv = up (onesNorm ℝ nz nl nv) := by
  simp only [onesNorm, up_one, Vec.const_up, up_norm3]

theorem nanHessian_ones : ¬onesNorm XReal 1 0 1 ≤ (1e-10 : XReal) := by
  have h1 := one_le_onesNorm (nz := 1) (nl := 0) (nv := 1) one_pos
  rw [onesNorm_up, up_ofScientific, up_le]
  intro h
  norm_num at h
  linarith

theorem nanHessian_small : Core.normPt (nanHessianEnv.axpy (-1) slackStart.up slackStart.up) ≤ (1e-10 : XReal) := by
  have : Core.normPt (nanHessianEnv.axpy (-1) slackStart.up slackStart.up) = up 0 := by
    simp only [Core.normPt, Core.Env.axpy, slackStart, Point.up, up_one, up_neg, Vec.up_smul, Vec.up_add, up_norm3]
    congr 1
    simp [norm3, Vec.norm, Vec.squaredNorm, sumFin, Fin.foldl_succ, Vec.const, scalar_sqrt]
  rw [this, up_ofScientific, up_le]
  norm_num

theorem nanHessian_resid : (Core.Resid.negate (nanHessianEnv.innerRes slackStart.up slackStart.up
    nanHessianEnv.opts.sigma0)).v = (Vec.const 0 : Vec ℝ 1).up := by
  refine Vec.ext fun i => ?_
  have e : nanHessianEnv.opts.sigma0 = up 1e-8 := up_ofScientific _ _ _
  have e2 : nanHessianEnv.opts.alpha = up 0.95 := up_ofScientific _ _ _
  simp only [Core.Resid.negate, Core.Env.innerRes, Core.mkResid, Vec.get_ofFn, Point.up, Vec.up_get, e, e2,
    up_sub, up_mul, up_add, up_pfb, up_one, up_neg, slackStart, Vec.const]
  congr 1
  simp [pfb, scalar_sqrt, cmax]

/-- C60 fails for FBstabDense when the Hessian contains NaN: the default solver, whatever its
uninitialised memory holds, asked to solve a problem with `H = NaN` from the guess zero, reports
SUCCESS after one proximal iteration, with residual NaN. -/
theorem C60_not_dense (junk : DenseJunk XReal) : ∃ s : FBstabDense XReal,
    FBstabDense.new junk 1 0 1 = .ok s ∧ nanHessian.H.HasNaN ∧
    ¬onesNorm XReal s.nz s.nl s.nv ≤ s.options.stallTol ∧
    ∃ out, (s.solve nanHessian flatGuess.up).result = .ok out ∧ out.eflag = .success ∧
      out.residual = .nan ∧ out.proxIters = 1 := by
  refine ⟨_, FBstabDense.new_ok junk (nz := 1) (nl := 0) (nv := 1) (by norm_num) (by norm_num)
      (by norm_num [intLimit]), ?_, ?_, ?_⟩
  · simp [DMat.HasNaN, nanHessian]
  · exact nanHessian_ones
  · have hf : DenseFits 1 0 1 nanHessian flatGuess.up := by
      have := (DenseFits.up_iff _ _ _ _ _).2 (slackQP.toDense_fits 0 0 0)
      exact ⟨rfl, rfl, this.f, this.Gr, this.Gc, this.h, this.Ar, this.Ac, this.b, this.z, this.l, this.v⟩
    have hc := FBstabDense.solve_computes (s := ⟨1, 0, 1, AlgMem.fresh (ls := denseSolver XReal 1 0 1)
        { junk.lin 1 0 1 with alpha := 0.95, data := none } (junk.feas 1 0 1)⟩) hf
    have hg : ∀ n, (⟨Array.ofFn fun _ : Fin n => (0 : ℝ)⟩ : DVec ℝ).up.toVec n = Vec.const 0 := by
      intro n
      refine Vec.ext fun i => ?_
      rw [DVec.up_toVec, Vec.up_get]
      simp [DVec.toVec, Vec.const, up_zero]
    obtain ⟨fin, h1, h2, h3, h4, -⟩ := Core.solve_stuck nanHessianEnv (ws := junk.feas 1 0 1)
      (z := Vec.const 0) (l := Vec.const 0) (v := Vec.const 0) nanHessian_start (b := 0.75)
      (up_ofScientific _ _ _) (norm3_nan (Core.innerRes_nan (.inl (nanHessian_grad _ _ _))))
      (norm3_nan (.inl (nanHessian_grad _ _ _))) nanHessian_factor
      (fun t => by
        rw [nanHessian_step _ nanHessian_resid, nanHessian_axpy])
      (by decide)
      (by
        rw [Core.up_projectDuals]
        congr 1
        unfold Core.projectDuals slackStart
        congr 1
        refine Vec.ext fun i => ?_
        simp [Vec.cwiseMax, Vec.const, cmax]) (nanHessian_check _ _)
      nanHessian_small nanHessian_ones
      (by
        show ¬(1e-2 : XReal) < 1e-12
        rw [up_ofScientific, up_ofScientific, up_lt]; norm_num) (by decide) (by decide)
    refine ⟨fin.out, (hc.ok fin ?_ ((CallerVar.up_YWritable _ _).2 (guessOf_writable _ _ _ _))).1, h2, h3, h4⟩
    rw [← h1]
    unfold FBstabDense.core
    show (Core.solve nanHessianEnv (junk.feas 1 0 1) (flatGuess.up.z.toVec 1) (flatGuess.up.l.toVec 0)
      (flatGuess.up.v.toVec 1)).2 = _
    rw [show flatGuess.up.z.toVec 1 = Vec.const 0 from hg 1, show flatGuess.up.l.toVec 0 = Vec.const 0 from hg 0,
      show flatGuess.up.v.toVec 1 = Vec.const 0 from hg 1]

end Fbstab
