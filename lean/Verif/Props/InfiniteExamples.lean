import Verif.Props.Infinite
import Verif.Props.NaNExamples
import Verif.Proofs.NanRiccati

/-!
# Cases that meet the hypotheses of C61
-/

namespace Fbstab

/-- `min z s.t. z <= 0`; with the bound at infinity it has no solution. -/
def fallQP : QP 1 0 1 where
  H := fun _ _ => 0
  f := fun _ => 1
  G := fun i _ => i.elim0
  h := fun i => i.elim0
  A := fun _ _ => 1
  b := fun _ => 0

/-- The vector with the single entry `+inf`. -/
noncomputable def infVec : DVec XReal := ⟨#[XReal.inf]⟩

theorem infVec_get (i : Fin 1) : infVec.toVec 1 i = XReal.inf := by
  obtain rfl : i = 0 := Subsingleton.elim _ _
  simp [infVec, DVec.toVec]

theorem oneSolver_options (junk : DenseJunk XReal) (nv : Nat) :
    (oneSolver junk nv).options = (Params.defaults : Params ℝ).up := by
  simp only [oneSolver, FBstabDense.options, AlgMem.fresh, Params.up, Params.defaults, up_ofScientific]

/-- C61_false_success_dense: default options, `min z s.t. z <= inf`, guess `z = 0`, `v = 1`. -/
example (junk : DenseJunk XReal) :
    ((oneSolver junk 1).solve { fallQP.toDense.up with b := infVec }
      (guessOf (nz := 1) (nl := 0) (nv := 1) 0 0 1).up).result =
        .ok ⟨.success, XReal.inf, 0, 0, XReal.inf⟩ := by
  have hf := (DenseFits.up_iff _ _ _ _ _).2 (fallQP.toDense_fits 0 0 1)
  refine (C61_false_success_dense (oneSolver junk 1) fallQP.toDense infVec
    (guessOf (nz := 1) (nl := 0) (nv := 1) 0 0 1)
    ⟨hf.Hr, hf.Hc, hf.f, hf.Gr, hf.Gc, hf.h, hf.Ar, hf.Ac, rfl, hf.z, hf.l, hf.v⟩ (guessOf_writable _ _ _ _)
    Params.defaults (oneSolver_options junk 1) defaults_inRange ?_ ?_ (fun i => .inl (infVec_get i)) ?_ (0 : Fin 1)
    (infVec_get 0)).1
  · simp only [Params.defaults]; norm_num
  · simp only [Params.defaults]; norm_num
  · intro i _
    have := congrFun (guessOf_point (nz := 1) (nl := 0) (nv := 1) 0 0 1).2.2 i
    show 0 < ((guessOf (nz := 1) (nl := 0) (nv := 1) 0 0 1).v.toVec 1).fn i
    rw [this]
    exact one_pos

/-- A solver for one variable and one constraint, one proximal iteration and one Newton step. -/
noncomputable def oneStepDense (junk : DenseJunk XReal) : FBstabDense XReal :=
  ⟨1, 0, 1, { (AlgMem.fresh (ls := denseSolver XReal 1 0 1)
    { junk.lin 1 0 1 with alpha := 0.95, data := none } (junk.feas 1 0 1)) with opts := oneStepOptions.up }⟩

theorem oneStepDense_reachable (junk : DenseJunk XReal) : (oneStepDense junk).Reachable := by
  refine ⟨junk, 1, 0, 1, _, [.updateOptions oneStepOptions.up], FBstabDense.new_ok junk (by norm_num) one_pos
    (by norm_num [intLimit]), ?_⟩
  simp only [FBstabDense.after, List.foldl, DenseCall.apply, FBstabDense.updateOptions,
    AlgMem.updateParameters, Params.up_validate, C02_inRange_unchanged _ oneStepOptions_inRange]
  rfl

/-- C61_never_dense: `min z s.t. z <= inf` and the guess 0. -/
theorem infDense_returns (junk : DenseJunk XReal) (P : DenseProblem XReal)
    (hP : P = { fallQP.toDense.up with b := infVec }) : ∃ out,
    ((oneStepDense junk).solve P flatGuess.up).result = .ok out ∧ out.eflag ≠ .success := by
  have hf := (DenseFits.up_iff _ _ _ _ _).2 (fallQP.toDense_fits 0 0 0)
  have hfit : DenseFits 1 0 1 P flatGuess.up := by
    rw [hP]
    exact ⟨hf.Hr, hf.Hc, hf.f, hf.Gr, hf.Gc, hf.h, hf.Ar, hf.Ac, rfl, hf.z, hf.l, hf.v⟩
  have hb : P.b.toVec (oneStepDense junk).nv (0 : Fin 1) = XReal.inf := by rw [hP]; exact infVec_get 0
  have hv : ¬0 < flatGuess.up.v.toVec (oneStepDense junk).nv (0 : Fin 1) := by
    have e : flatGuess.up.v.toVec 1 (0 : Fin 1) = up 0 := by
      rw [show flatGuess.up.v.toVec 1 = (flatGuess.v.toVec 1).up from DVec.up_toVec .., Vec.up_get]
      have := congrFun (guessOf_point (nz := 1) (nl := 0) (nv := 1) 0 0 0).2.2 0
      exact congrArg up this
    show ¬0 < flatGuess.up.v.toVec 1 (0 : Fin 1)
    rw [e, up_zero, up_lt]
    exact lt_irrefl _
  have hc := FBstabDense.solve_computes (s := oneStepDense junk) hfit
  have : ∃ fin, ((oneStepDense junk).core P flatGuess.up).2 = .ok fin := by
    refine Core.solve_one_ok ((oneStepDense junk).env P) (FBstabDense.inf_step hb hv).1 ?_ ?_ rfl rfl
    · show ∃ g, denseFactor (P.toData 1 0 1) (up 0.95) _ _ (up 1e-8) = _
      unfold denseFactor
      rw [if_neg (by rw [up_zero, up_le]; norm_num), if_pos (ldlt_one_success _)]
      exact ⟨_, rfl⟩
    · show ¬(up 1e-2) < up 1e-12
      rw [up_lt]; norm_num
  obtain ⟨fin, h⟩ := this
  have hr := (hc.ok fin h (fun e => nomatch e)).1
  refine ⟨_, hr, C61_never_dense _ (oneStepDense_reachable junk) P _ (0 : Fin 1) hb hv ?_ _ hr⟩
  show ¬onesNorm XReal 1 0 1 ≤ up 1e-10
  have h1 := one_le_onesNorm (nz := 1) (nl := 0) (nv := 1) one_pos
  rw [onesNorm_up, up_le]
  intro h
  norm_num at h
  linarith

/-! ## FBstabMpc -/

/-- `d = -inf` in both stages. -/
noncomputable def infSeq : MapSequence XReal where
  data := some #[XReal.negInf, XReal.negInf]
  N := 2
  nr := 1
  nc := 1
  block := by simp
  nonnull := by simp

theorem infSeq_get (k : Fin 2) (i : Fin 1) : infSeq.toVec 1 k i = XReal.negInf := by
  obtain rfl : i = 0 := Subsingleton.elim _ _
  fin_cases k <;> simp [infSeq, MapSequence.toVec]

/-- C61_false_success_mpc: a double integrator without constraints, guess 0 and `v = 1`. -/
example (junk : MpcJunk XReal) :
    ((oneStepSolver junk).solve { cornerOcp.toMpc.up with d := infSeq }
      (fullGuessOf (nz := 4) (nl := 2) (nv := 2) 0 0 1).up).result =
        .ok ⟨.success, XReal.inf, 0, 0, XReal.inf⟩ := by
  have hf := (MpcFits.up_iff _ _ _ _ _ _).2 (cornerOcp.toMpc_fits 0 0 1)
  refine (C61_false_success_mpc (oneStepSolver junk) cornerOcp.toMpc infSeq
    (fullGuessOf (nz := 4) (nl := 2) (nv := 2) 0 0 1)
    ⟨hf.Q, hf.R, hf.S, hf.q, hf.r, hf.A, hf.B, hf.c, hf.E, hf.L, ⟨rfl, rfl⟩, hf.x0, hf.z, hf.l, hf.v, hf.y⟩
    ⟨rfl, rfl, rfl, rfl⟩ oneStepOptions rfl oneStepOptions_inRange ?_ ?_ (fun k i => .inl (infSeq_get k i)) ?_
    (0 : Fin 2) (0 : Fin 1) (infSeq_get 0 0)).1
  · simp only [oneStepOptions, Params.defaults]; norm_num
  · simp only [oneStepOptions, Params.defaults]; norm_num
  · intro k i _
    rw [colBlock_get]
    have := congrFun (ofFn_toVec (n := 2) (1 : Fin 2 → ℝ)) (flatIdx k i)
    show 0 < (DVec.toVec 2 ⟨Array.ofFn (1 : Fin 2 → ℝ)⟩).fn (flatIdx k i)
    rw [this]
    exact one_pos

/-- C61_never_mpc: the same problem with the guess 0. -/
example (junk : MpcJunk XReal) : ∃ out,
    ((oneStepSolver junk).solve { cornerOcp.toMpc.up with d := infSeq }
      (fullGuessOf (nz := 4) (nl := 2) (nv := 2) 0 0 0).up).result = .ok out ∧ out.eflag ≠ .success := by
  obtain ⟨P, hP⟩ : ∃ P : MpcProblem XReal, P = { cornerOcp.toMpc.up with d := infSeq } := ⟨_, rfl⟩
  obtain ⟨X, hX⟩ : ∃ X : CallerVar XReal, X = (fullGuessOf (nz := 4) (nl := 2) (nv := 2) 0 0 0).up := ⟨_, rfl⟩
  rw [← hP, ← hX]
  have hf := (MpcFits.up_iff _ _ _ _ _ _).2 (cornerOcp.toMpc_fits 0 0 0)
  have hfit : MpcFits 1 1 1 1 P X := by
    rw [hP, hX]
    exact ⟨hf.Q, hf.R, hf.S, hf.q, hf.r, hf.A, hf.B, hf.c, hf.E, hf.L, ⟨rfl, rfl⟩, hf.x0, hf.z, hf.l, hf.v, hf.y⟩
  have hcol : P.Columns := by rw [hP]; exact ⟨rfl, rfl, rfl, rfl⟩
  have hb : ∀ (k : Fin 2) (j : Fin 1), P.d.toVec 1 k j = XReal.negInf := by rw [hP]; exact infSeq_get
  have hv0 : ∀ (k : Fin 2), X.v.toVec 2 k = up 0 := by
    intro k
    rw [hX, show (fullGuessOf (nz := 4) (nl := 2) (nv := 2) 0 0 0).up.v.toVec 2 =
      (DVec.toVec 2 ⟨Array.ofFn (0 : Fin 2 → ℝ)⟩).up from DVec.up_toVec .., Vec.up_get]
    congr 1
    exact congrFun (ofFn_toVec (n := 2) (0 : Fin 2 → ℝ)) k
  have hv : ∀ (k : Fin 2) (j : Fin 1), ¬0 < Vec.get (colBlock (k := 2) (m := 1) (X.v.toVec ((1 + 1) * 1)) k) j := by
    intro k j
    rw [colBlock_get]
    show ¬0 < X.v.toVec 2 (flatIdx k j)
    rw [hv0, up_zero, up_lt]
    exact lt_irrefl _
  have hd : ∀ k : Fin 2, (P.toData 1 1 1 1).d k 0 = XReal.negInf := by
    intro k
    rw [← hb k 0]
    simp [MpcProblem.toData]
  have hc := FBstabMpc.solve_computes (s := oneStepSolver junk) XReal.beq_zero hfit hcol
  have hstep := FBstabMpc.inf_step (s := oneStepSolver junk) (p := P) (x := X) (k := (0 : Fin 2)) (j := (0 : Fin 1))
    (hb 0 0) (hv 0 0)
  have : ∃ fin, ((oneStepSolver junk).core XReal.beq_zero P X).2 = .ok fin := by
    refine Core.solve_one_ok ((oneStepSolver junk).env XReal.beq_zero P) hstep.1 ?_ ?_ rfl rfl
    · show ∃ g, RiccatiWs.factor (P.toData 1 1 1 1) (up 0.95) _ _ (up 1e-8) = _
      refine RiccatiWs.factor_inf one_pos _ (by norm_num) _ _ fun k => ⟨(0 : Fin 1), ?_, 0, hv0 _, lt_irrefl _⟩
      exact MpcData.margin_inf_or (d := P.toData 1 1 1 1) (X.z.toVec _) (hd k)
    · show ¬(up 1e-2) < up 1e-12
      rw [up_lt]; norm_num
  obtain ⟨fin, h⟩ := this
  have hr := (hc.ok fin h (fun _ => hfit.y)).1
  exact ⟨_, hr, C61_never_mpc _ (oneStepSolver_reachable junk) P _ (0 : Fin 2) (0 : Fin 1) (hb 0 0) (hv 0 0)
    (oneStepSolver_ones junk _ rfl) _ hr⟩

end Fbstab
