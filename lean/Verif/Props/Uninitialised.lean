import Verif.Props.Finite
import Verif.Props.FalseAlarms
import Verif.Props.Isolation

/-!
# C39 for FBstabDense: NaN in uninitialised memory changes the result
-/

namespace Fbstab

/-- Memory that happens to hold NaN in the workspaces of the feasibility checker, and zeros
elsewhere. -/
noncomputable def DenseJunk.nans : DenseJunk XReal where
  lin := DenseJunk.zeros.lin
  feas := fun _ _ _ => ⟨Vec.const .nan, Vec.const .nan, Vec.const .nan⟩

theorem XReal.add_nan (a : XReal) : a + XReal.nan = XReal.nan := by
  cases a <;> rfl

theorem XReal.mul_nan (a : XReal) : a * XReal.nan = XReal.nan := by
  cases a <;> rfl

/-- NaN in the workspace makes the check blind to dual infeasibility. -/
theorem checkFeasibility_nan {nz nl nv : Nat} (d : DenseData XReal nz nl (nv + 1)) (hv : nv = 0)
    (x : Point XReal nz nl (nv + 1)) (tol : XReal) (ws : FeasWs XReal nz nl (nv + 1))
    (hw : ws.tv = Vec.const .nan) :
    (checkFeasibility d.ops x tol ws).1 ≠ .dualInfeasible := by
  subst hv
  have e : (d.ops.gemvA x.z 1 0 ws.tv).maxCoeff = XReal.nan := by
    rw [hw]
    simp only [Vec.maxCoeff, Fin.foldl_zero, DenseData.ops, DenseData.gemvA, Vec.get_add, Vec.get_smul]
    rw [show (Vec.const XReal.nan : Vec XReal 1) 0 = XReal.nan from Vec.get_ofFn _ _, XReal.mul_nan,
      XReal.add_nan]
  simp only [checkFeasibility, e]
  have h : decide ((XReal.nan : XReal) ≤ x.z.lpNormInf * tol) = false := decide_eq_false XReal.nan_le
  rw [h]
  simp only [Bool.false_and, Bool.not_false, Bool.and_true, Bool.not_true, Bool.and_false]
  split <;> rename_i h1
  · exact fun h => nomatch h
  · simp only [Bool.not_eq_true] at h1
    simp [h1]

/-- If the first check cannot report dual infeasibility, the call does not report it after zero
proximal iterations. -/
theorem Core.solve_not_dual {K : Type} [Scalar K] {nz nl nv : Nat} {E : Core.Env K nz nl nv}
    {ws : FeasWs K nz nl nv} (hw : ∀ x, (checkFeasibility E.ops x E.opts.infeasTol ws).1 ≠ .dualInfeasible)
    {z : Vec K nz} {l : Vec K nl} {v : Vec K nv} {fin : Core.Final K nz nl nv}
    (h : (Core.solve E ws z l v).2 = .ok fin) (h2 : fin.out.eflag = .dualInfeasible) :
    fin.out.proxIters ≠ 0 := by
  intro h3
  obtain ⟨tol, k, s, -, hs, hr⟩ := Core.solve_returned h
  have hk := hs.prox
  have hpr : s.prox = 0 → k = 0 := fun h => by
    have : (Core.start E ws (Core.startPt E z l v) tol).prox = 0 := rfl
    omega
  rcases hr with ⟨-, hx⟩ | ⟨-, rfl⟩
  · cases hx with
    | success => cases h2
    | newton => cases h2
    | @infeasible _ o hi hn hck hfl =>
      have hk0 := hpr h3
      subst hk0
      cases hs
      refine hw _ (?_ : Core.check E (Core.start E ws (Core.startPt E z l v) tol) o = .dualInfeasible)
      revert h2
      show Core.flagOf (Core.check _ _ _) = .dualInfeasible → _
      cases Core.check E (Core.start E ws (Core.startPt E z l v) tol) o <;> simp [Core.flagOf]
  · cases h2

/-- C39 fails for FBstabDense: two freshly constructed objects of the same size with default options,
whose uninitialised memory holds zeros and NaN respectively, do different things when they are asked
to solve the same problem from the same guess: the first reports dual infeasibility after the first
subproblem, the second does not. -/
theorem C39_not_dense : ∃ (s s' : FBstabDense XReal) (p : DenseProblem XReal) (x : CallerVar XReal),
    FBstabDense.new .zeros 1 0 1 = .ok s ∧ FBstabDense.new .nans 1 0 1 = .ok s' ∧
    (∃ out, (s.solve p x).result = .ok out ∧ out.eflag = .dualInfeasible ∧ out.proxIters = 0) ∧
    ¬(∃ out, (s'.solve p x).result = .ok out ∧ out.eflag = .dualInfeasible ∧ out.proxIters = 0) := by
  refine ⟨_, _, flatQP.toDense.up, flatGuess.up,
    FBstabDense.new_ok .zeros (nz := 1) (nl := 0) (nv := 1) (by norm_num) (by norm_num)
      (by norm_num [intLimit]),
    FBstabDense.new_ok .nans (nz := 1) (nl := 0) (nv := 1) (by norm_num) (by norm_num)
      (by norm_num [intLimit]), ?_, ?_⟩
  · obtain ⟨-, -, -, out, h1, h2, h3⟩ := C23_false_alarm .zeros
    have hz : ∀ n, (Vec.const 0 : Vec XReal n) = Vec.up (Vec.const 0) := by
      intro n; rw [up_zero, Vec.const_up]
    have := C49_dense (flatSolver .zeros) ⟨1, 0, 1, AlgMem.fresh (ls := denseSolver XReal 1 0 1)
        { DenseJunk.zeros.lin 1 0 1 with alpha := 0.95, data := none } (DenseJunk.zeros.feas 1 0 1)⟩
        rfl rfl rfl rfl defaults_inRange (.inr ⟨⟨_, hz _⟩, ⟨_, hz _⟩, ⟨_, hz _⟩⟩) flatQP.toDense flatGuess
        (guessOf_writable _ _ _ _)
    refine ⟨out.up, ?_, h2, h3⟩
    rw [this.1, h1]
    rfl
  · rintro ⟨out, h1, h2, h3⟩
    have hf : DenseFits 1 0 1 flatQP.toDense.up flatGuess.up :=
      (DenseFits.up_iff _ _ _ _ _).2 (flatQP.toDense_fits _ _ _)
    have hc := FBstabDense.solve_computes (s := ⟨1, 0, 1, AlgMem.fresh (ls := denseSolver XReal 1 0 1)
        { DenseJunk.nans.lin 1 0 1 with alpha := 0.95, data := none } (DenseJunk.nans.feas 1 0 1)⟩) hf
    cases hp : (FBstabDense.core (⟨1, 0, 1, AlgMem.fresh (ls := denseSolver XReal 1 0 1)
        { DenseJunk.nans.lin 1 0 1 with alpha := 0.95, data := none } (DenseJunk.nans.feas 1 0 1)⟩ :
          FBstabDense XReal) flatQP.toDense.up flatGuess.up).2 with
    | error e =>
      have := h1.symm.trans (hc.error e hp).1
      cases this
    | ok fin =>
      have := h1.symm.trans (hc.ok fin hp ((CallerVar.up_YWritable _ _).2 (guessOf_writable _ _ _ _))).1
      injection this with this
      subst this
      refine Core.solve_not_dual (E := Core.env (denseSem XReal 1 0 1) (flatQP.toDense.up.toData 1 0 1)
        (flatQP.toDense.up.toData 1 0 1).ops Params.defaults) (ws := DenseJunk.nans.feas 1 0 1)
        (fun x => ?_) hp h2 h3
      exact checkFeasibility_nan (nv := 0) (flatQP.toDense.up.toData 1 0 1) rfl x _ _ rfl

end Fbstab
