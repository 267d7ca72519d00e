import Verif.Props.FullConvergence
import Mathlib.LinearAlgebra.Matrix.Notation

/-!
# C48: an instance with an optimal control problem
-/

namespace Fbstab
open Matrix

/-- `x(1) = x(0) + u(0)`, `x(0) = 0`, cost `5 x(0)^2 + x(1)^2 / 2 + u(0)^2 / 2 + u(1)^2 / 2`, `x >= 0`. -/
noncomputable def cornerOcp : Ocp 1 1 1 1 where
  Q := fun i _ _ => if i = 0 then 10 else 1
  R := fun _ _ _ => 1
  S := fun _ _ _ => 0
  q := fun _ _ => 0
  r := fun _ _ => 0
  A := fun _ _ _ => 1
  B := fun _ _ _ => 1
  c := fun _ _ => 0
  E := fun _ _ _ => -0.1
  L := fun _ _ _ => 0
  d := fun _ _ => 0
  x0 := fun _ => 0

theorem cornerOcp_A : cornerOcp.toQP.A = (!![-0.1, 0, 0, 0; 0, 0, -0.1, 0] : Matrix (Fin 2) (Fin 4) ℝ) := by
  ext i j
  change Fin 2 at i
  change Fin 4 at j
  fin_cases i <;> fin_cases j <;>
    simp [cornerOcp, Ocp.toQP, Ocp.stage, Ocp.block, finProdFinEquiv, finSumFinEquiv, Fin.divNat,
      Fin.modNat, Fin.addCases, Matrix.fromCols]

theorem cornerOcp_H : cornerOcp.toQP.H =
    (!![10, 0, 0, 0; 0, 1, 0, 0; 0, 0, 1, 0; 0, 0, 0, 1] : Matrix (Fin 4) (Fin 4) ℝ) := by
  ext i j
  change Fin 4 at i
  change Fin 4 at j
  fin_cases i <;> fin_cases j <;>
    simp [cornerOcp, Ocp.toQP, Ocp.stage, Ocp.block, finProdFinEquiv, finSumFinEquiv, Fin.divNat,
      Fin.modNat, Fin.addCases, Matrix.fromBlocks, Matrix.transpose]

theorem cornerOcp_G : cornerOcp.toQP.G = (!![-1, 0, 0, 0; 1, 1, -1, 0] : Matrix (Fin 2) (Fin 4) ℝ) := by
  ext i j
  change Fin 2 at i
  change Fin 4 at j
  fin_cases i <;> fin_cases j <;>
    simp [cornerOcp, Ocp.toQP, Ocp.stage, Ocp.block, finProdFinEquiv, finSumFinEquiv, Fin.divNat,
      Fin.modNat, Fin.addCases, Matrix.fromCols] <;> rfl

theorem cornerOcp_f : cornerOcp.toQP.f = 0 := by
  ext a
  simp only [Ocp.toQP, Ocp.stack, cornerOcp]
  cases (Ocp.stage a).2 <;> rfl

theorem cornerOcp_h : cornerOcp.toQP.h = 0 := by
  ext a
  simp only [Ocp.toQP, cornerOcp]
  rw [show (Fin.cases (0 : ℝ) (fun _ => 0) (Ocp.block a).1 : ℝ) = 0 from by
    refine Fin.cases rfl (fun _ => rfl) (Ocp.block a).1]
  simp

theorem cornerOcp_b : cornerOcp.toQP.b = 0 := by
  ext a
  simp [Ocp.toQP, cornerOcp]

theorem cornerOcp_convex : cornerOcp.Convex where
  Qsymm i := Matrix.IsSymm.ext fun _ _ => rfl
  Rsymm i := Matrix.IsSymm.ext fun _ _ => rfl
  nonneg i x u := by
    simp only [cornerOcp, mulVec, dotProduct, Finset.univ_unique, Finset.sum_singleton]
    split <;> nlinarith [mul_self_nonneg (x default), mul_self_nonneg (u default)]

theorem cornerOcp_kkt : cornerOcp.toQP.KKT 0 0 0 where
  stationary := by
    unfold QP.lagrangeGrad
    simp only [mulVec_zero, cornerOcp_f]
    simp
  feasible := ⟨by rw [mulVec_zero, cornerOcp_h], fun i => by rw [mulVec_zero, cornerOcp_b]⟩
  dual := fun i => le_rfl
  complementary := fun i => .inl rfl

theorem cornerOcp_sizes : cornerOcp.toQP.sizeA ≤ 0.1415 ∧ 0 ≤ cornerOcp.toQP.sizeA ∧
    cornerOcp.toQP.sizeH ≤ 10.15 ∧ 0 ≤ cornerOcp.toQP.sizeH ∧
    cornerOcp.toQP.sizeG ≤ 2 ∧ 0 ≤ cornerOcp.toQP.sizeG := by
  have hA : ∑ i, ∑ j, cornerOcp.toQP.A i j ^ 2 = 0.02 := by
    rw [cornerOcp_A]
    show ∑ i : Fin 2, ∑ j : Fin 4, (!![-0.1, 0, 0, 0; 0, 0, -0.1, 0] : Matrix (Fin 2) (Fin 4) ℝ) i j ^ 2 = _
    simp [Fin.sum_univ_succ]
    norm_num
  have hH : ∑ i, ∑ j, cornerOcp.toQP.H i j ^ 2 = 103 := by
    rw [cornerOcp_H]
    show ∑ i : Fin 4, ∑ j : Fin 4,
      (!![10, 0, 0, 0; 0, 1, 0, 0; 0, 0, 1, 0; 0, 0, 0, 1] : Matrix (Fin 4) (Fin 4) ℝ) i j ^ 2 = _
    simp [Fin.sum_univ_succ]
    norm_num
  have hG : ∑ i, ∑ j, cornerOcp.toQP.G i j ^ 2 = 4 := by
    rw [cornerOcp_G]
    show ∑ i : Fin 2, ∑ j : Fin 4, (!![-1, 0, 0, 0; 1, 1, -1, 0] : Matrix (Fin 2) (Fin 4) ℝ) i j ^ 2 = _
    simp [Fin.sum_univ_succ]
    norm_num
  refine ⟨?_, Real.sqrt_nonneg _, ?_, Real.sqrt_nonneg _, ?_, Real.sqrt_nonneg _⟩
  · rw [QP.sizeA, hA]; exact Real.sqrt_le_iff.2 ⟨by norm_num, by norm_num⟩
  · rw [QP.sizeH, hH]; exact Real.sqrt_le_iff.2 ⟨by norm_num, by norm_num⟩
  · rw [QP.sizeG, hG]; exact Real.sqrt_le_iff.2 ⟨by norm_num, by norm_num⟩

/-- Options for which one proximal iteration is provably enough. -/
noncomputable def cornerOptions : Params ℝ :=
  { halfOptions with absTol := 9.3e-4, maxNewtonIters := 500000, maxInnerIters := 500000 }

theorem cornerOptions_inRange : cornerOptions.InRange := by
  constructor <;> simp only [cornerOptions, halfOptions, Params.defaults, Between] <;> norm_num

theorem cornerOcp_errFactor : cornerOcp.toQP.errFactor cornerOptions.alpha cornerOptions.sigma0 ≤ 7.29 ∧
    0 ≤ cornerOcp.toQP.errFactor cornerOptions.alpha cornerOptions.sigma0 := by
  obtain ⟨h1, h2, -⟩ := cornerOcp_sizes
  rw [QP.errFactor, show cornerOptions.alpha = 0.999 from rfl, show cornerOptions.sigma0 = 1 from rfl]
  generalize cornerOcp.toQP.sizeA = a at h1 h2
  constructor
  · rw [div_one]
    have : 2 * (a + 1 + 1) / 0.999 ≤ 2 * (0.1415 + 1 + 1) / 0.999 :=
      div_le_div_of_nonneg_right (by linarith) (by norm_num)
    norm_num at this ⊢
    linarith
  · positivity

theorem cornerOcp_reach : cornerOcp.toQP.reach cornerOptions 1e-4 1 ≤ 3.19e-4 ∧
    0 ≤ cornerOcp.toQP.reach cornerOptions 1e-4 1 := by
  obtain ⟨h1, h2⟩ := cornerOcp_errFactor
  rw [QP.reach]
  generalize cornerOcp.toQP.errFactor cornerOptions.alpha cornerOptions.sigma0 = k at h1 h2
  rw [QP.tolSum, cornerOptions, halfOptions]
  norm_num at h1 ⊢
  constructor
  · linarith
  · positivity

theorem cornerOcp_enough {tol : ℝ} (h : 9.3e-4 ≤ tol) :
    cornerOcp.toQP.Enough cornerOptions tol 1e-4 0 0 1 := by
  obtain ⟨e2, e3⟩ := cornerOcp_reach
  obtain ⟨h1, h2, -⟩ := cornerOcp_sizes
  obtain ⟨k1, k2⟩ := cornerOcp_errFactor
  have e4 : 4.64e-4 ≤ cornerOcp.toQP.stepNeeded cornerOptions tol 1e-4 0 1 := by
    rw [QP.stepNeeded, show cornerOptions.sigma0 = 1 from rfl, le_div_iff₀ (by positivity)]
    have : cornerOcp.toQP.sizeA * cornerOcp.toQP.reach cornerOptions 1e-4 1 ≤ 0.1415 * 3.19e-4 :=
      mul_le_mul h1 e2 e3 (by norm_num)
    norm_num at h e2 this ⊢
    linarith
  constructor
  · refine le_trans ?_ e4
    generalize cornerOcp.toQP.errFactor cornerOptions.alpha cornerOptions.sigma0 = k at k1 k2
    simp only [cornerOptions, halfOptions]
    norm_num at k1 ⊢
    linarith
  · have := pow_le_pow_left₀ (by norm_num) e4 2
    have h2 := pow_le_pow_left₀ e3 e2 2
    norm_num at this h2 ⊢
    linarith

theorem cornerOcp_newtonEnough :
    cornerOcp.toQP.NewtonEnough cornerOptions 0 (cornerOcp.toQP.reach cornerOptions 1e-4 1) 1 := by
  obtain ⟨e2, e3⟩ := cornerOcp_reach
  obtain ⟨a1, a2, b1, b2, c1, c2⟩ := cornerOcp_sizes
  obtain ⟨k1, k2⟩ := cornerOcp_errFactor
  generalize cornerOcp.toQP.reach cornerOptions 1e-4 1 = rho at e2 e3
  have sp : cornerOcp.toQP.pairSpeed cornerOptions ≤ 15.62 ∧ 0 ≤ cornerOcp.toQP.pairSpeed cornerOptions := by
    rw [QP.pairSpeed, show cornerOptions.sigma0 = 1 from rfl]
    rw [show cornerOptions.sigma0 = 1 from rfl] at k1 k2
    refine ⟨?_, by positivity⟩
    have := mul_le_mul (show 1 + cornerOcp.toQP.sizeA + 1 ≤ 2.1415 by norm_num at a1 ⊢; linarith) k1 k2
      (by norm_num)
    norm_num at this ⊢
    linarith
  have hF0 : 0 ≤ cornerOcp.toQP.startResidual 0 rho := QP.startResidual_nonneg _ le_rfl e3
  have hF : cornerOcp.toQP.startResidual 0 rho ≤ 6.02e-3 := by
    rw [QP.startResidual]
    have q1 : (1 + cornerOcp.toQP.sizeA) * rho ≤ 1.1415 * 3.19e-4 :=
      mul_le_mul (by norm_num at a1 ⊢; linarith) e2 e3 (by norm_num)
    have q2 : (4 + 2 * (0 + (1 + cornerOcp.toQP.sizeA) * rho)) * (1 + cornerOcp.toQP.sizeA) ≤
        4.001 * 1.1415 :=
      mul_le_mul (by norm_num at q1 ⊢; linarith) (by norm_num at a1 ⊢; linarith) (by linarith) (by norm_num)
    have q3 := mul_le_mul (show cornerOcp.toQP.sizeH + 2 * cornerOcp.toQP.sizeG + cornerOcp.toQP.sizeA +
        (4 + 2 * (0 + (1 + cornerOcp.toQP.sizeA) * rho)) * (1 + cornerOcp.toQP.sizeA) ≤ 18.86 by
      norm_num at a1 b1 c1 q2 ⊢
      linarith) e2 e3 (by norm_num)
    refine q3.trans ?_
    norm_num
  have hB : cornerOcp.toQP.pairBound cornerOptions 0 rho ≤ 0.234 := by
    rw [QP.pairBound, show cornerOptions.sigma0 = 1 from rfl]
    rw [show cornerOptions.sigma0 = 1 from rfl] at k1 k2
    have q1 := mul_le_mul k1 hF hF0 (by norm_num)
    have q2 := mul_le_mul sp.1 hF hF0 (by norm_num)
    have q3 := mul_le_mul (show 1 + cornerOcp.toQP.sizeA + 2 * 1 ≤ 3.1415 by norm_num at a1 ⊢; linarith)
      (add_le_add e2 q1) (by positivity) (by norm_num)
    norm_num at q2 q3 ⊢
    linarith
  have hB0 : 0 ≤ cornerOcp.toQP.pairBound cornerOptions 0 rho :=
    QP.pairBound_nonneg _ cornerOptions_inRange.alpha_pos cornerOptions_inRange.sigma_pos le_rfl e3
  have hs : 3.08e-5 ≤ cornerOcp.toQP.safeStep cornerOptions 0 rho := by
    rw [QP.safeStep, show cornerOptions.eta = 0.49 from rfl, le_div_iff₀ (by positivity)]
    have h1 : (1 + cornerOcp.toQP.pairBound cornerOptions 0 rho) ^ 2 ≤ 1.234 ^ 2 :=
      pow_le_pow_left₀ (by linarith) (by norm_num at hB ⊢; linarith) 2
    have h2 : cornerOcp.toQP.pairSpeed cornerOptions ^ 2 ≤ 15.62 ^ 2 := pow_le_pow_left₀ sp.2 sp.1 2
    have h3 := mul_le_mul h1 h2 (sq_nonneg _) (by norm_num)
    norm_num at h3 ⊢
    linarith
  have hN : cornerOcp.toQP.newtonPerProx cornerOptions 0 rho < 500000 := by
    have hr : 2.98e-5 ≤ cornerOcp.toQP.newtonRate cornerOptions 0 rho := by
      rw [QP.newtonRate, show cornerOptions.eta = 0.49 from rfl, show cornerOptions.beta = 0.99 from rfl]
      norm_num at hs ⊢
      linarith
    have hr0 : 0 < cornerOcp.toQP.newtonRate cornerOptions 0 rho := lt_of_lt_of_le (by norm_num) hr
    have hl : Real.log (cornerOcp.toQP.startResidual 0 rho ^ 2 / cornerOptions.innerTolMin ^ 2) ≤ 11 := by
      rcases eq_or_lt_of_le hF0 with h | h
      · rw [← h]; norm_num
      · rw [show cornerOptions.innerTolMin = 3e-5 from rfl, Real.log_le_iff_le_exp (by positivity)]
        have h1 : (2.7 : ℝ) ^ 11 ≤ Real.exp 11 := by
          have := pow_le_pow_left₀ (by norm_num) (le_trans (by norm_num) Real.exp_one_gt_d9.le :
            (2.7 : ℝ) ≤ Real.exp 1) 11
          rwa [← Real.exp_nat_mul, mul_one] at this
        have h2 := pow_le_pow_left₀ hF0 hF 2
        refine le_trans ?_ h1
        rw [div_le_iff₀ (by norm_num)]
        norm_num at h2 ⊢
        linarith
    have hq : Real.log (cornerOcp.toQP.startResidual 0 rho ^ 2 / cornerOptions.innerTolMin ^ 2) /
        cornerOcp.toQP.newtonRate cornerOptions 0 rho ≤ 400000 := by
      rw [div_le_iff₀ hr0]
      norm_num at hr ⊢
      linarith
    rw [QP.newtonPerProx]
    rw [if_neg (by simp [cornerOptions, halfOptions])]
    have := max_le (show (0 : ℝ) ≤ 400000 by norm_num) hq
    linarith
  refine ⟨?_, ?_, ?_, ?_⟩
  · rw [show cornerOptions.eta = 0.49 from rfl, show cornerOptions.innerTolMin = 3e-5 from rfl]
    have := mul_le_mul (show 1 + cornerOcp.toQP.pairBound cornerOptions 0 rho ≤ 1.234 by
      norm_num at hB ⊢; linarith) sp.1 sp.2 (by norm_num)
    norm_num at this ⊢
    linarith
  · rw [show cornerOptions.beta = 0.99 from rfl, show cornerOptions.maxLinesearchIters.toNat - 1 = 1999 from rfl]
    refine le_trans ?_ hs
    have h1 : (0.99 : ℝ) ^ 100 ≤ 0.37 := by norm_num
    calc (0.99 : ℝ) ^ 1999 ≤ 0.99 ^ 1500 := pow_le_pow_of_le_one (by norm_num) (by norm_num) (by norm_num)
      _ = (0.99 ^ 100) ^ 15 := by rw [← pow_mul]
      _ ≤ 0.37 ^ 15 := pow_le_pow_left₀ (by positivity) h1 15
      _ ≤ _ := by norm_num
  · rw [show cornerOptions.maxInnerIters = 500000 from rfl]
    push_cast
    exact hN
  · rw [show cornerOptions.maxNewtonIters = 500000 from rfl]
    push_cast
    linarith

/-- The guess of the example: `x(0) = -1e-4`, everything else zero. -/
noncomputable def cornerGuess : Fin ((1 + 1) * (1 + 1)) → ℝ := fun i => if i.1 = 0 then -1e-4 else 0

/-- The hypotheses of C48 are met for an optimal control problem with active constraints; the guess is not
a solution to the tolerance, and one proximal iteration is done. -/
theorem C48_example_mpc (junk : MpcJunk ℝ) :
    let s := FBstabMpc.made junk 1 1 1 1 cornerOptions
    let x : CallerVar ℝ := fullGuessOf (nz := (1 + 1) * (1 + 1)) (nl := (1 + 1) * 1) (nv := (1 + 1) * 1)
      cornerGuess 0 0
    ∃ out, (s.solve cornerOcp.toMpc x).result = .ok out ∧ out.eflag = .success ∧ out.proxIters = 1 := by
  intro s x
  have ho : s.ocp cornerOcp.toMpc = cornerOcp := FBstabMpc.made_ocp junk _ _
  have hq : s.qp cornerOcp.toMpc = cornerOcp.toQP := FBstabMpc.made_qp junk _ _
  have hr : s.Reachable := FBstabMpc.made_reachable junk _ (by norm_num) (by norm_num)
    (by norm_num) (by norm_num) (by norm_num [intLimit]) (by norm_num [intLimit]) cornerOptions_inRange
  have hst := absTol_le_stoppingTol (s.realEnv cornerOcp.toMpc).ops (C01_reachable_mpc s hr)
  have hst' : (9.3e-4 : ℝ) ≤ stoppingTol (s.problem cornerOcp.toMpc) s.options := hst
  obtain ⟨g1, g2, g3⟩ := fullGuessOf_point (nz := (1 + 1) * (1 + 1)) (nl := (1 + 1) * 1) (nv := (1 + 1) * 1)
    cornerGuess 0 0
  have g1' : (x.z.toVec ((s.N + 1) * (s.nx + s.nu))).fn = cornerGuess := g1
  have g2' : (x.l.toVec ((s.N + 1) * s.nx)).fn = 0 := g2
  have g3' : (x.v.toVec ((s.N + 1) * s.nc)).fn = 0 := g3
  have hk : (s.qp cornerOcp.toMpc).KKT 0 0 0 := by
    rw [hq]; exact cornerOcp_kkt
  obtain ⟨out, h1, h2⟩ := C48_mpc s hr cornerOcp.toMpc x (cornerOcp.toMpc_fits _ _ _)
    cornerOcp.toMpc_columns (ho ▸ cornerOcp_convex)
    ⟨by show (3e-5 : ℝ) ≤ 3e-5; norm_num,
      le_trans (by show (3e-5 : ℝ) ≤ 9.3e-4; norm_num) hst'⟩ _ _ _ hk 1e-4 0 (by norm_num) (by
      rw [g1', g2', g3']
      show QP.dist2 (nz := 4) (nl := 2) (nv := 2) cornerGuess 0 0 0 0 0 ≤ _
      simp [QP.dist2, dotProduct, cornerGuess]; norm_num) le_rfl
    (by
      have h : ∀ i, cornerOcp.toQP.b i - (cornerOcp.toQP.A *ᵥ 0) i ≤ 0 ∧ (0 : ℝ) ≤ 0 := fun i => by
        rw [mulVec_zero, cornerOcp_b]
        simp
      rw [hq]
      exact h) 0 1 (by rw [hq]; exact cornerOcp_enough hst') (by rw [hq]; exact cornerOcp_newtonEnough)
    (by show ((1 : ℕ) : ℤ) < 2; norm_num)
  refine ⟨out, h1, ?_⟩
  rcases h2 with h | h
  · refine ⟨h.1, le_antisymm h.2.1 (FBstabMpc.one_prox (s := s) (by show 0 < (1 + 1) * (1 + 1); norm_num) ?_
      h1 h.1 ?_)⟩
    · show (1e-10 : ℝ) < 1
      norm_num
    · have et : stoppingTol (s.problem cornerOcp.toMpc) s.options = 9.3e-4 := by
        have e1 : s.options.relTol = 0 := rfl
        have e2 : s.options.absTol = 9.3e-4 := rfl
        rw [stoppingTol, e1, e2, zero_mul, add_zero]
      rw [et, hq, g1', g2', g3']
      refine .inl ⟨(0 : Fin 4), ?_⟩
      have : cornerOcp.toQP.lagrangeGrad cornerGuess 0 0 (0 : Fin 4) = -1e-3 := by
        simp only [QP.lagrangeGrad, mulVec_zero, add_zero, cornerOcp_f, cornerOcp_H]
        show ((!![10, 0, 0, 0; 0, 1, 0, 0; 0, 0, 1, 0; 0, 0, 0, 1] : Matrix (Fin 4) (Fin 4) ℝ) *ᵥ
          cornerGuess) 0 = _
        simp [mulVec, dotProduct, cornerGuess]
        norm_num
      show _ < abs (cornerOcp.toQP.lagrangeGrad cornerGuess 0 0 (0 : Fin 4))
      rw [this]
      norm_num [abs_of_pos]
  · exact absurd h.1 Bool.false_ne_true

end Fbstab
