import Verif.Proofs.Runs
import Verif.Props.Log
import Verif.Props.LineSearch
import Verif.Props.Printing
import Verif.Props.Limits
import Verif.Props.Agreement
import Verif.Props.FalseAlarms
import Verif.Props.StaleResidual
import Verif.Props.Sizes
import Verif.Props.EqualityOnly

/-!
# The hypotheses of the theorems can be met

Two concrete calls that iterate (`run_dense`: minimise `5 z^2` subject to `-0.1 z <= 0` from the infeasible
guess `z = -1e-4`; `run_mpc`: a two-stage optimal control problem) are put through the theorems about calls
that return, and calls that throw or stop early through the others.
-/

namespace Fbstab
open Matrix

theorem half_feasible : halfQP.Feasible fun _ => 1 := by
  refine ⟨Subsingleton.elim _ _, fun i => ?_⟩
  simp [halfQP, mulVec, dotProduct]
  norm_num

theorem IterLines.length {K : Type} [Scalar K] {nz nl nv : Nat} {q : QPOps K nz nl nv} {alpha : K} {x newtons tol}
    {k n : Nat} {log : List (Msg K)} (h : IterLines q alpha x newtons tol k n log) : n = k + log.length := by
  induction h with
  | nil => rfl
  | cons _ ih => rw [ih, List.length_cons]; omega

section
variable (junk : DenseJunk ℝ) (junkM : MpcJunk ℝ) (c : Bool) (d : Display)

/-- C04, C05, C06, C07, C08, C11, C16, C17, C18, C20 apply to a dense call with one proximal iteration. -/
example : ∃ out, ((runSolver junk c d).solve halfQP.toDense runGuess).result = .ok out ∧
    out.proxIters = 1 ∧
    -- C04
    ((out.proxIters : Int) ≤ 2 ∧ (out.newtonIters : Int) ≤ 200000) ∧
    -- C05
    out.eflag = .success ∧
    -- C06, C07
    out.residual = residualNorm ((runSolver junk c d).problem halfQP.toDense) 0.999
      ((runSolver junk c d).returnedPoint halfQP.toDense runGuess) ∧
    out.residual ≤ stoppingTol ((runSolver junk c d).problem halfQP.toDense) (runSolver junk c d).options ∧
    -- C08
    out.initialResidual = residualNorm ((runSolver junk c d).problem halfQP.toDense) 0.999
      (runGuess.guess ((runSolver junk c d).problem halfQP.toDense)) ∧
    -- C11
    ((runSolver junk c d).returnedPoint halfQP.toDense runGuess).y.fn =
      ((runSolver junk c d).qp halfQP.toDense).b - ((runSolver junk c d).qp halfQP.toDense).A *ᵥ
        ((runSolver junk c d).returnedPoint halfQP.toDense runGuess).z.fn ∧
    -- C17
    ((runSolver junk c d).qp halfQP.toDense).NearKKT out.residual (out.residual / 0.999)
      ((runSolver junk c d).returnedPoint halfQP.toDense runGuess).z.fn
      ((runSolver junk c d).returnedPoint halfQP.toDense runGuess).l.fn
      ((runSolver junk c d).returnedPoint halfQP.toDense runGuess).v.fn ∧
    -- C20
    (∀ i, 0 ≤ ((runSolver junk c d).returnedPoint halfQP.toDense runGuess).v i) := by
  obtain ⟨out, h1, h2, h3, h4⟩ := run_dense junk c d
  have hr := runSolver_reachable junk c d
  have hl : 1 ≤ (runSolver junk c d).options.maxProxIters := by show (1 : ℤ) ≤ 2; norm_num
  obtain ⟨-, -, g3⟩ := guessOf_point (nz := 1) (nl := 0) (nv := 1) (fun _ => -1e-4) 0 0
  have a04 := C04_dense C01_validation_total_real _ hr _ _ out h1
  refine ⟨out, h1, h3, ⟨a04.1, a04.2.1⟩, h2, C07_dense _ hl _ _ out h1 (.inl h2),
    run_dense_within junk c d out h1 h2 h3 h4, C08_dense _ _ _ out h1, C11_dense _ _ _ out h1,
    C17_dense _ hr _ _ out h1 (.inl h2), C20_nonneg_dense _ _ _ out h1 (.inl h2) fun i => ?_⟩
  show 0 ≤ (runGuess.v.toVec 1).fn i
  rw [g3]
  exact le_rfl

/-- The same for an optimal control problem. -/
example : ∃ out, ((runSolverMpc junkM c d).solve cornerOcp.toMpc runGuessMpc).result = .ok out ∧
    out.proxIters = 1 ∧
    ((out.proxIters : Int) ≤ 2 ∧ (out.newtonIters : Int) ≤ 500000) ∧ out.eflag = .success ∧
    out.residual = residualNorm ((runSolverMpc junkM c d).problem cornerOcp.toMpc) 0.999
      ((runSolverMpc junkM c d).returnedPoint cornerOcp.toMpc runGuessMpc) ∧
    out.initialResidual = residualNorm ((runSolverMpc junkM c d).problem cornerOcp.toMpc) 0.999
      (runGuessMpc.guess ((runSolverMpc junkM c d).problem cornerOcp.toMpc)) ∧
    ((runSolverMpc junkM c d).returnedPoint cornerOcp.toMpc runGuessMpc).y.fn =
      ((runSolverMpc junkM c d).qp cornerOcp.toMpc).b - ((runSolverMpc junkM c d).qp cornerOcp.toMpc).A *ᵥ
        ((runSolverMpc junkM c d).returnedPoint cornerOcp.toMpc runGuessMpc).z.fn ∧
    ((runSolverMpc junkM c d).qp cornerOcp.toMpc).NearKKT out.residual (out.residual / 0.999)
      ((runSolverMpc junkM c d).returnedPoint cornerOcp.toMpc runGuessMpc).z.fn
      ((runSolverMpc junkM c d).returnedPoint cornerOcp.toMpc runGuessMpc).l.fn
      ((runSolverMpc junkM c d).returnedPoint cornerOcp.toMpc runGuessMpc).v.fn ∧
    (∀ i, 0 ≤ ((runSolverMpc junkM c d).returnedPoint cornerOcp.toMpc runGuessMpc).v i) := by
  obtain ⟨out, h1, h2, h3, h4⟩ := run_mpc junkM c d
  have hr := runSolverMpc_reachable junkM c d
  have hl : 1 ≤ (runSolverMpc junkM c d).options.maxProxIters := by show (1 : ℤ) ≤ 2; norm_num
  obtain ⟨-, -, g3⟩ := fullGuessOf_point (nz := (1 + 1) * (1 + 1)) (nl := (1 + 1) * 1) (nv := (1 + 1) * 1)
    cornerGuess 0 0
  have a04 := C04_mpc real_zero_beq C01_validation_total_real _ hr _ _ out h1
  refine ⟨out, h1, h3, ⟨a04.1, a04.2.1⟩, h2, C07_mpc real_zero_beq _ hl _ _ out h1 (.inl h2),
    C08_mpc real_zero_beq _ _ _ out h1, C11_mpc _ _ _ out h1,
    C17_mpc _ hr _ _ out h1 (.inl h2), C20_nonneg_mpc _ _ _ out h1 (.inl h2) fun i => ?_⟩
  show 0 ≤ (runGuessMpc.v.toVec ((1 + 1) * 1)).fn i
  rw [g3]
  exact le_rfl

/-- C18: the objective returned is compared with that of the feasible point `z = 1`. -/
example : ∃ out, ((runSolver junk c d).solve halfQP.toDense runGuess).result = .ok out ∧
    out.proxIters = 1 ∧
    let xr := (runSolver junk c d).returnedPoint halfQP.toDense runGuess
    let q := (runSolver junk c d).qp halfQP.toDense
    q.objective xr.z.fn ≤ q.objective (fun _ => 1) + out.residual * euclid ((fun _ => 1) - xr.z.fn) +
      out.residual * euclid xr.l.fn + ((1 : ℕ) : ℝ) * (out.residual / (1 - 0.999)) := by
  obtain ⟨out, h1, h2, h3, -⟩ := run_dense junk c d
  have hq := runSolver_qp junk c d
  obtain ⟨-, -, g3⟩ := guessOf_point (nz := 1) (nl := 0) (nv := 1) (fun _ => -1e-4) 0 0
  refine ⟨out, h1, h3, C18_suboptimal_dense _ (runSolver_reachable junk c d) _ _ out (hq ▸ halfQP_convex) h1 h2
    (fun i => ?_) (fun _ => 1) ?_⟩
  · show 0 ≤ (runGuess.v.toVec 1).fn i
    rw [g3]
    exact le_rfl
  · rw [hq]
    exact half_feasible

/-- C05: the other flags do occur. -/
example : (∃ out, ((boxSolver junk).solve boxQP.toDense boxGuess).result = .ok out ∧
      out.eflag = .primalInfeasible) ∧
    (∃ out, ((flatSolver junk).solve flatQP.toDense flatGuess).result = .ok out ∧
      out.eflag = .dualInfeasible) ∧
    (∃ out, ((FBstabDense.made junk 1 0 1 oneStep).solve unitQP.toDense
      (guessOf (nz := 1) (nl := 0) (nv := 1) (fun _ => 1) 0 0)).result = .ok out ∧
      out.eflag = .maxIterations) := by
  refine ⟨(C22_false_alarm junk).2.2.2, ?_, ?_⟩
  · obtain ⟨-, -, -, out, h1, h2, -⟩ := C23_false_alarm junk
    exact ⟨out, h1, h2⟩
  · obtain ⟨-, out, h1, h2, -⟩ := C07_stale junk
    exact ⟨out, h1, h2⟩

/-- C21: a certificate comes with the flag. -/
example : ((boxSolver junk).qp boxQP.toDense).PrimalCertificate (boxSolver junk).options.infeasTol
    ((boxSolver junk).returnedPoint boxQP.toDense boxGuess).l.fn
    ((boxSolver junk).returnedPoint boxQP.toDense boxGuess).v.fn := by
  obtain ⟨h1, -, -, out, h2, h3⟩ := C22_false_alarm junk
  exact (C21_dense _ h1 _ _ out h2 (.inl (.inl h3))).1.1 (.inl h3)

example : ((flatSolver junk).qp flatQP.toDense).DualCertificate (flatSolver junk).options.infeasTol
    ((flatSolver junk).returnedPoint flatQP.toDense flatGuess).z.fn := by
  obtain ⟨h1, -, -, out, h2, h3, -⟩ := C23_false_alarm junk
  exact (C21_dense _ h1 _ _ out h2 (.inr (.inl h3))).2.1 (.inl h3)

/-- C21: the certificates are looked for. -/
example : let s := runSolver junk true d
    let a := s.proxIterate halfQP.toDense runGuess 0
    let b := s.proxIterate halfQP.toDense runGuess 1
    ¬(s.qp halfQP.toDense).DualCertificate s.options.infeasTol (b.z.fn - a.z.fn) := by
  obtain ⟨out, h1, h2, h3, h4⟩ := run_dense junk true d
  exact (C21_not_missed_dense _ (runSolver_reachable junk true d) _ _ out h1 rfl 0 (by omega)).2

/-- C22: exact certificates exist: `z <= -1`, `-z <= 0`. -/
example : ¬∃ z, (⟨0, 0, 0, 0, !![1; -1], ![-1, 0]⟩ : QP 1 0 2).Feasible z := by
  refine C22_exact _ 0 ![1, 1] ⟨?_, ?_⟩ fun i => by fin_cases i <;> simp
  · have : (!![1; -1] : Matrix (Fin 2) (Fin 1) ℝ)ᵀ *ᵥ ![1, 1] = 0 := by
      ext i
      simp [mulVec, dotProduct, Fin.sum_univ_two, Subsingleton.elim i 0]
    show ‖(!![1; -1] : Matrix (Fin 2) (Fin 1) ℝ)ᵀ *ᵥ ![1, 1] + _‖ ≤ _
    rw [this]
    simp
  · simp [dotProduct, Fin.sum_univ_two]

/-- C23: minimise `-z` subject to `-z <= 0` is unbounded. -/
example (M : ℝ) : ∃ z, (⟨0, fun _ => -1, 0, 0, !![-1], 0⟩ : QP 1 0 1).Feasible z ∧
    (⟨0, fun _ => -1, 0, 0, !![-1], 0⟩ : QP 1 0 1).objective z < M := by
  refine C23_exact _ (by simp [Matrix.IsSymm]) (fun _ => 1) ⟨fun i => ?_, ?_, ?_, ?_, ?_⟩ (fun _ => 1)
    ⟨Subsingleton.elim _ _, fun i => ?_⟩ M
  · simp [mulVec, dotProduct, Subsingleton.elim i 0]
  · simp
  · simp
  · simp [dotProduct]
  · rw [pi_norm_const]
    norm_num
  · simp [mulVec, dotProduct, Subsingleton.elim i 0]

/-- C12: a guess at the solution is returned untouched. -/
example : let s := FBstabDense.made junk 1 1 1 unchecked
    let x : CallerVar ℝ := guessOf (nz := 1) (nl := 1) (nv := 1) (fun _ => 1) (fun _ => -1) 0
    (s.solve pinnedQP.toDense x).result = .ok ⟨.success, 0, 0, 0, 0⟩ ∧
      (s.solve pinnedQP.toDense x).x.z = x.z := by
  intro s x
  have hq : s.qp pinnedQP.toDense = pinnedQP := FBstabDense.made_qp junk _ _
  have hr : s.Reachable := FBstabDense.made_reachable junk _ (by norm_num) (by norm_num)
    (by norm_num [intLimit]) unchecked_inRange
  obtain ⟨g1, g2, g3⟩ := guessOf_point (nz := 1) (nl := 1) (nv := 1) (fun _ => 1) (fun _ => -1) 0
  have h0 : residualNorm (s.problem pinnedQP.toDense) s.options.alpha (x.guess (s.problem pinnedQP.toDense)) = 0 := by
    refine (C16_dense s hr pinnedQP.toDense _ (CallerVar.guess_margin (s.realEnv pinnedQP.toDense).ops x)).2 ?_
    rw [hq]
    show pinnedQP.KKT (x.z.toVec 1).fn (x.l.toVec 1).fn (x.v.toVec 1).fn
    rw [g1, g2, g3]
    exact pinnedQP_kkt
  have hst := absTol_le_stoppingTol (s.realEnv pinnedQP.toDense).ops (C01_reachable_dense s hr)
  have := C12_dense s pinnedQP.toDense x (by show (1 : ℤ) ≤ 30; norm_num)
    (by show ¬(1e-2 : ℝ) < 1e-12; norm_num) (pinnedQP.toDense_fits _ _ _) (guessOf_writable _ _ _ _)
    (by rw [h0]; exact le_trans (by show (0 : ℝ) ≤ 1e-6; norm_num) hst)
  rw [h0] at this
  exact ⟨this.1, this.2.1⟩

/-- C09, C10, C39: an object with other memory, which has been used for anything else before. -/
example (junk' : DenseJunk ℝ) (p : DenseProblem ℝ) (x : CallerVar ℝ) :
    ∃ out, (((runSolver junk' c d).solve p x).solver.solve halfQP.toDense runGuess).result = .ok out ∧
      out.proxIters = 1 := by
  obtain ⟨out, h1, h2, h3, h4⟩ := run_dense junk' c d
  exact ⟨out, ((C10_next_dense (by simp) _ p _ x _).ok out h1).1, h3⟩

/-- C10, C13, C14, C36: options that pass validation and make every call throw. -/
noncomputable def disordered : Params ℝ := { Params.defaults with innerTolMin := 1e-2, innerTolMax := 1e-3 }

theorem disordered_inRange : disordered.InRange := by
  constructor <;> simp only [disordered, Params.defaults, Between] <;> norm_num

example : let s := FBstabDense.made junk 1 0 1 disordered
    s.Reachable ∧ (s.solve halfQP.toDense runGuess).result = .error boundsError ∧
      (s.solve halfQP.toDense runGuess).x = runGuess ∧ (s.solve halfQP.toDense runGuess).log = [] := by
  intro s
  have h : (s.solve halfQP.toDense runGuess).result = .error boundsError :=
    C13_throws_order_dense s _ _ (halfQP.toDense_fits _ _ _) (by
      show (1e-3 : ℝ) < 1e-2
      norm_num)
  refine ⟨FBstabDense.made_reachable junk _ (by norm_num) (by norm_num) (by norm_num [intLimit])
    disordered_inRange, h, (C10_dense s _ _ (guessOf_writable _ _ _ _) _ h).1, ?_⟩
  exact C14_throw_dense s _ _ (guessOf_writable _ _ _ _) rfl _ h

/-- C14, C46: the log of a call with one proximal iteration. -/
example : ∃ out l0 l1 rz rl rv, ((runSolver junk c .iter).solve halfQP.toDense runGuess).result = .ok out ∧
    ((runSolver junk c .iter).solve halfQP.toDense runGuess).log = .iterHeader :: [l0, l1] ++
      summary (runSolver junk c .iter).options out rz rl rv
        (stoppingTol ((runSolver junk c .iter).problem halfQP.toDense) (runSolver junk c .iter).options) := by
  obtain ⟨out, h1, h2, h3, -⟩ := run_dense junk c .iter
  obtain ⟨n, lines, rz, rl, rv, e1, -, e2, -, e3, -⟩ :=
    C46_iter_dense _ (by show (1 : ℤ) ≤ 2; norm_num) _ _ rfl out h1
  have hn : n = 2 := by
    rw [e3 ?_, h3]
    rintro ⟨h, -⟩
    rw [h2] at h
    cases h
  have hl := e2.length
  match lines, hl with
  | [l0, l1], _ => exact ⟨out, l0, l1, rz, rl, rv, h1, e1⟩
  | [], h => simp at h; omega
  | [_], h => simp at h; omega
  | _ :: _ :: _ :: _, h => simp at h; omega

/-- C15, C46: the detailed log. -/
example : let s := runSolver junk c .iterDetailed
    ∃ out lines, (s.solve halfQP.toDense runGuess).result = .ok out ∧
      (∃ rest, (s.solve halfQP.toDense runGuess).log = lines ++ rest) ∧
      LineSearchLog s.options [] (s.solve halfQP.toDense runGuess).log ∧
      SubproblemLog s.options
        (fun k => residualNorm (s.problem halfQP.toDense) s.options.alpha (s.proxIterate halfQP.toDense runGuess k))
        (s.newtonsAt halfQP.toDense runGuess)
        (tolAt s.options fun k => residualNorm (s.problem halfQP.toDense) s.options.alpha
          (s.proxIterate halfQP.toDense runGuess k))
        out.newtonIters 0 1 lines := by
  intro s
  obtain ⟨out, h1, h2, h3, -⟩ := run_dense junk c .iterDetailed
  obtain ⟨n, lines, rz, rl, rv, e1, e2, e3, -⟩ :=
    C46_detailed_dense s (by show (1 : ℤ) ≤ 2; norm_num) _ _ rfl out h1
  rw [e3 (.inl h2), h3] at e2
  exact ⟨out, lines, h1, ⟨_, e1⟩, C15_dense C01_validation_total_real s (runSolver_reachable junk c _) _ _
    (guessOf_writable _ _ _ _) rfl, e2⟩

/-- C26: the dense solver given the compact form of the optimal control problem also takes one iteration. -/
example : ∃ out, ((FBstabDense.made junk 4 2 2 (runOptionsMpc c d)).solve
      ((runSolverMpc junkM c d).qp cornerOcp.toMpc).toDense runGuessMpc).result = .ok out ∧
    out.eflag = .success ∧ out.proxIters = 1 := by
  obtain ⟨out, h1, h2, h3, -⟩ := run_mpc junkM c d
  have ho : (runSolverMpc junkM c d).ocp cornerOcp.toMpc = cornerOcp := FBstabMpc.made_ocp junkM _ _
  have hf : MpcFits (runSolverMpc junkM c d).N (runSolverMpc junkM c d).nx (runSolverMpc junkM c d).nu
    (runSolverMpc junkM c d).nc cornerOcp.toMpc runGuessMpc := cornerOcp.toMpc_fits _ _ _
  obtain ⟨e1, e2⟩ := C26_exists (runSolverMpc junkM c d) cornerOcp.toMpc runGuessMpc hf
  have := C26_agree (runSolverMpc junkM c d) cornerOcp.toMpc runGuessMpc hf cornerOcp.toMpc_columns
    (ho ▸ cornerOcp_convex) (runOptionsMpc_inRange c d) (FBstabDense.made junk 4 2 2 (runOptionsMpc c d))
    rfl rfl rfl rfl _ e1 e2
  exact ⟨out, this.1.trans h1, h2, h3⟩

/-- C51: calling again with what was returned. -/
example : let s := runSolver junk c d
    let r := s.solve halfQP.toDense runGuess
    (∃ out, r.result = .ok out ∧ out.proxIters = 1) ∧
    (∃ res, (r.solver.solve halfQP.toDense r.x).result = .ok ⟨.success, res, 0, 0, res⟩) ∧
    (r.solver.solve halfQP.toDense r.x).x = r.x := by
  intro s r
  obtain ⟨out, h1, h2, h3, h4⟩ := run_dense junk c d
  have := C51_dense s (by show (1 : ℤ) ≤ 2; norm_num) _ _ out h1 h2 (run_dense_within junk c d out h1 h2 h3 h4)
  exact ⟨⟨out, h1, h3⟩, ⟨_, this.1⟩, this.2⟩

/-- C52: larger limits. -/
example : let o := { (runSolver junk c d).options with
      maxProxIters := 7, maxNewtonIters := 10 ^ 6, maxInnerIters := 10 ^ 6 }
    let s := (runSolver junk c d).withOptions o
    ∃ out, (s.solve halfQP.toDense runGuess).result = .ok out ∧ out.proxIters = 1 := by
  intro o s
  obtain ⟨out, h1, h2, h3, h4⟩ := run_dense junk c d
  exact ⟨out, (C52_dense _ _ _ out h1 (by rw [h2]; decide)
    (by show (out.newtonIters : Int) < 200000; omega) 7 (10 ^ 6) (10 ^ 6) (by omega) (by omega) (by omega)).1, h3⟩

/-- C53: the check switched off. -/
example (t : ℝ) : let o := { (runSolver junk true d).options with checkFeasibility := false, infeasTol := t }
    let s := (runSolver junk true d).withOptions o
    (s.solve halfQP.toDense runGuess).log = ((runSolver junk true d).solve halfQP.toDense runGuess).log := by
  intro o s
  obtain ⟨out, h1, h2, h3, h4⟩ := run_dense junk true d
  exact (C53_dense _ _ _ out h1 (.inl h2) t).2.2

end

/-- C19, C43: an exact proximal step for `z^2 / 2` with `sigma = 1`, from `z = 1` to `z = 1/2`; the solution is
`z = 0`. -/
example {ops : QPOps ℝ 1 0 1} (I : unitQP.Implements ops) :
    let pt (z : ℝ) : FullVariable ℝ 1 0 1 := ⟨⟨Vec.const z, Vec.const 0, Vec.const 0, Vec.const 1⟩, some ops⟩
    let r : FullResidual ℝ 1 0 1 := ⟨⟨Vec.const 0, Vec.const 0, Vec.const 0, 0, 0, 0⟩, 0.95, some ops⟩
    ∃ r', r.innerResidual (pt 0.5) (pt 1) 1 = .ok r' ∧ r'.norm = 0 ∧
      QP.dist2 (pt 0.5).pt.z.fn (pt 0.5).pt.l.fn (pt 0.5).pt.v.fn 0 0 0 +
        QP.dist2 (pt 0.5).pt.z.fn (pt 0.5).pt.l.fn (pt 0.5).pt.v.fn (pt 1).pt.z.fn (pt 1).pt.l.fn (pt 1).pt.v.fn ≤
      QP.dist2 (pt 1).pt.z.fn (pt 1).pt.l.fn (pt 1).pt.v.fn 0 0 0 := by
  intro pt r
  obtain ⟨r', h⟩ : ∃ r', r.innerResidual (pt 0.5) (pt 1) 1 = .ok r' := ⟨_, rfl⟩
  have ha : (0 : ℝ) < r.alpha := by show (0 : ℝ) < 0.95; norm_num
  have hb : r.alpha < 1 := by show (0.95 : ℝ) < 1; norm_num
  have hy : (pt 0.5).pt.y.fn = unitQP.b - unitQP.A *ᵥ (pt 0.5).pt.z.fn := by
    ext i
    simp [pt, unitQP, mulVec, dotProduct]
  have hz : r'.norm = 0 := by
    refine (C19_zero I r r' (pt 0.5) (pt 1) 1 rfl ha hb hy h).2 ⟨?_, Subsingleton.elim _ _, ?_, ?_, ?_⟩
    · ext i
      simp [QP.lagrangeGrad, pt, unitQP, mulVec, dotProduct]
      norm_num
    · intro i
      simp [pt, unitQP, mulVec, dotProduct]
    · intro i
      simp [pt]
    · intro i
      simp [pt]
  refine ⟨r', h, hz, C43_fejer I unitQP.convex r r' (pt 0.5) (pt 1) 1 one_pos rfl ha hb hy h hz 0 0 0 ?_⟩
  refine ⟨?_, ⟨Subsingleton.elim _ _, ?_⟩, ?_, ?_⟩
  · ext i
    simp [QP.lagrangeGrad, unitQP, mulVec, dotProduct]
  · intro i
    simp [unitQP, mulVec, dotProduct]
  · intro i
    exact le_rfl
  · intro i
    exact .inl rfl

end Fbstab
