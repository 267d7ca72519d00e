import Verif.Props.RoundedCertificates
import Verif.Props.DecoupledExamples
import Verif.Props.Finite
import Verif.Proofs.Binary64

/-!
# Cases that meet the hypotheses of C63

Every run in exact arithmetic that reports infeasibility meets them with `u = eta = 0`.
-/

namespace Fbstab

theorem XReal.toReal_up (a : ℝ) : XReal.rounding.toReal (up a) = some a := rfl

theorem reads_up {n : Nat} (x : Vec ℝ n) : XReal.rounding.Reads x.up x.fn := fun i => by
  rw [Vec.up_get]; rfl

theorem readsMat_up {n m : Nat} (x : Mat ℝ n m) : XReal.rounding.ReadsMat x.up x.fn := fun i j => by
  rw [Mat.up_get]; rfl

section
variable {nz nl nv : Nat} {q : QPOps ℝ nz nl nv} {q' : QPOps XReal nz nl nv}

theorem UpOps.multiplierSum (h : UpOps q q') (l : Vec ℝ nl) (v : Vec ℝ nv) :
    Fbstab.multiplierSum q' l.up v.up = (Fbstab.multiplierSum q l v).up := by
  simp only [Fbstab.multiplierSum, up_one, up_zero, Vec.const_up, h.gemvAT, h.gemvGT]

theorem UpOps.primalFinite (h : UpOps q q') (tol : ℝ) (l : Vec ℝ nl) (v : Vec ℝ nv) :
    XReal.rounding.PrimalFinite q' (up tol) l.up v.up where
  sum := by rw [h.multiplierSum]; exact ⟨_, reads_up _⟩
  value := by
    simp only [certificateValue, up_one, up_zero, Vec.const_up, h.axpyh, h.axpyb, Vec.up_dot, up_add]
    exact ⟨_, XReal.toReal_up _⟩
  bound := by
    simp only [Vec.up_lpNormInf, up_cmax, up_mul]
    exact ⟨_, XReal.toReal_up _⟩

theorem UpOps.dualFinite (h : UpOps q q') (tol : ℝ) (z : Vec ℝ nz) :
    XReal.rounding.DualFinite q' (up tol) z.up where
  A := by simp only [up_one, up_zero, Vec.const_up, h.gemvA]; exact ⟨_, reads_up _⟩
  G := by simp only [up_one, up_zero, Vec.const_up, h.gemvG]; exact ⟨_, reads_up _⟩
  H := by simp only [up_one, up_zero, Vec.const_up, h.gemvH]; exact ⟨_, reads_up _⟩
  value := by
    simp only [slope, up_one, up_zero, Vec.const_up, h.axpyf, Vec.up_dot]
    exact ⟨_, XReal.toReal_up _⟩
  bound := by
    simp only [Vec.up_lpNormInf, up_mul]
    exact ⟨_, XReal.toReal_up _⟩

end

theorem DenseData.up_reads {nz nl nv : Nat} (d : DenseData ℝ nz nl nv) :
    XReal.rounding.ReadsDense d.up (QP.ofDense d) :=
  ⟨readsMat_up _, reads_up _, readsMat_up _, reads_up _, readsMat_up _, reads_up _⟩

theorem MpcData.up_reads {N nx nu nc : Nat} (d : MpcData ℝ N nx nu nc) :
    XReal.rounding.ReadsMpc d.up (Ocp.ofMpc d) := by
  constructor <;> first
    | exact reads_up _
    | (intro i; simp only [MpcData.up, Vec.map_get]; first | exact readsMat_up _ | exact reads_up _)

theorem CallerVar.up_point (x : CallerVar ℝ) (nz nl nv : Nat) : x.up.point nz nl nv = (x.point nz nl nv).up := by
  simp only [CallerVar.point, CallerVar.up, Point.up, DVec.up_toVec]

theorem roundOff_zero (nz nl nv : Nat) : roundOff 0 nz nl nv < 1 := by simp [roundOff]

/-- The solver of `C64_example`, with infinities and NaN. -/
noncomputable def splitLift : FBstabDense XReal :=
  ⟨2, 1, 2, AlgMem.fresh (ls := denseSolver XReal 2 1 2) (DenseJunk.zeros.lin 2 1 2) (FeasWs.zeros 2 1 2)⟩

/-- C63, FBstabDense: both flags, of the run of `C64_example`. -/
example : ∃ out l v z, (splitLift.solve splitQP.toDense.up (guessOf (nz := 2) (nl := 1) (nv := 2) 0 0 0).up).result =
      .ok out ∧ out.eflag = .primalDualInfeasible ∧
    splitQP.RoundedPrimalCertificate 1e-8 (roundOff 0 2 1 2) (underFlow 0 2 1 2) l v ∧
    splitQP.RoundedDualCertificate 1e-8 1e-14 (roundOff 0 2 1 2) (underFlow 0 2 1 2) z := by
  obtain ⟨-, out, h1, h2, h3⟩ := C64_example .zeros
  have hw : splitLift.mem.feas.ws.Finite := ⟨⟨Vec.const 0, Vec.const_up 0⟩, ⟨Vec.const 0, Vec.const_up 0⟩,
    ⟨Vec.const 0, Vec.const_up 0⟩⟩
  obtain ⟨e1, e2⟩ := C49_dense (FBstabDense.made .zeros 2 1 2 Params.defaults) splitLift rfl rfl rfl rfl defaults_inRange
    (.inr hw) splitQP.toDense (guessOf (nz := 2) (nl := 1) (nv := 2) 0 0 0) (guessOf_writable _ _ _ _)
  rw [h1] at e1
  have U : UpOps (splitQP.toDense.toData 2 1 2).ops (splitLift.problem splitQP.toDense.up) := by
    show UpOps _ (splitQP.toDense.up.toData 2 1 2).ops
    rw [DenseProblem.up_toData]
    exact DenseData.up_ops _
  have hq : XReal.rounding.ReadsDense (splitQP.toDense.up.toData 2 1 2) splitQP := by
    rw [DenseProblem.up_toData]
    have := DenseData.up_reads (splitQP.toDense.toData 2 1 2)
    rwa [splitQP.toDense_toData] at this
  have et : XReal.rounding.toReal splitLift.options.infeasTol = some 1e-8 := rfl
  have hf1 := U.primalFinite 1e-8 ((((FBstabDense.made .zeros 2 1 2 Params.defaults).solve splitQP.toDense
    (guessOf (nz := 2) (nl := 1) (nv := 2) 0 0 0)).x.point 2 1 2).l)
    ((((FBstabDense.made .zeros 2 1 2 Params.defaults).solve splitQP.toDense
    (guessOf (nz := 2) (nl := 1) (nv := 2) 0 0 0)).x.point 2 1 2).v)
  have hf2 := U.dualFinite 1e-8 ((((FBstabDense.made .zeros 2 1 2 Params.defaults).solve splitQP.toDense
    (guessOf (nz := 2) (nl := 1) (nv := 2) 0 0 0)).x.point 2 1 2).z)
  obtain ⟨l, v, -, -, h4⟩ := C63_primal_dense XReal.rounding splitLift (by show 0 < 2; norm_num) splitQP.toDense.up
    (guessOf (nz := 2) (nl := 1) (nv := 2) 0 0 0).up splitQP hq (roundOff_zero _ _ _) 1e-8 et (by norm_num) _ e1
    (.inr h3) (by rw [e2, CallerVar.up_point]; exact hf1)
  obtain ⟨z, -, h5⟩ := C63_dual_dense XReal.rounding splitLift (by show 0 < 2; norm_num) splitQP.toDense.up
    (guessOf (nz := 2) (nl := 1) (nv := 2) 0 0 0).up splitQP hq (roundOff_zero _ _ _) 1e-8 1e-14 et (by norm_num) rfl _ e1
    (.inr h3) ⟨⟨_, reads_up (Vec.const 0)⟩, ⟨_, reads_up (Vec.const 0)⟩, ⟨_, reads_up (Vec.const 0)⟩⟩
    (by
      intro k hk
      have : out.up.proxIters = 0 := h2
      rw [this] at hk
      exact absurd hk (Nat.not_lt_zero _))
    (by rw [e2, CallerVar.up_point]; exact hf2)
  exact ⟨_, l, v, z, e1, h3, h4, h5⟩

/-- The solver of `C64_example_mpc`, with infinities and NaN, whatever its memory holds. -/
noncomputable def driftLift (junk : MpcJunk XReal) : FBstabMpc XReal :=
  ⟨1, 1, 1, 1, AlgMem.fresh (ls := riccatiSolver XReal 1 1 1 1)
    { junk.lin 1 1 1 1 with alpha := 0.95, data := none } (junk.feas _ _ _)⟩

/-- C63, FBstabMpc: both flags, of the run of `C64_example_mpc`. -/
example (junk : MpcJunk XReal) : ∃ out l v z,
    ((driftLift junk).solve driftOcp.toMpc.up driftGuess.up).result = .ok out ∧
    out.eflag = .primalDualInfeasible ∧
    driftOcp.toQP.RoundedPrimalCertificate 1e-8 (roundOff 0 4 2 2) (underFlow 0 4 2 2) l v ∧
    driftOcp.toQP.RoundedDualCertificate 1e-8 1e-14 (roundOff 0 4 2 2) (underFlow 0 4 2 2) z := by
  obtain ⟨-, out, h1, h2, h3⟩ := C64_example_mpc .zeros
  obtain ⟨e1, e2⟩ := C49_mpc (driftSolver .zeros) (driftLift junk) rfl rfl rfl rfl rfl defaults_inRange
    driftOcp.toMpc driftGuess
  rw [h1] at e1
  have U : UpOps (driftOcp.toMpc.toData 1 1 1 1).ops ((driftLift junk).problem driftOcp.toMpc.up) := by
    show UpOps _ (driftOcp.toMpc.up.toData 1 1 1 1).ops
    rw [MpcProblem.up_toData]
    exact MpcData.up_ops _
  have hq : XReal.rounding.ReadsMpc (driftOcp.toMpc.up.toData 1 1 1 1) driftOcp := by
    rw [MpcProblem.up_toData]
    have := MpcData.up_reads (driftOcp.toMpc.toData 1 1 1 1)
    rwa [driftOcp.toMpc_toData] at this
  have et : XReal.rounding.toReal (driftLift junk).options.infeasTol = some 1e-8 := rfl
  have hf1 := U.primalFinite 1e-8 ((((driftSolver .zeros).solve driftOcp.toMpc driftGuess).x.point
    ((1 + 1) * (1 + 1)) ((1 + 1) * 1) ((1 + 1) * 1)).l) ((((driftSolver .zeros).solve driftOcp.toMpc
    driftGuess).x.point ((1 + 1) * (1 + 1)) ((1 + 1) * 1) ((1 + 1) * 1)).v)
  have hf2 := U.dualFinite 1e-8 ((((driftSolver .zeros).solve driftOcp.toMpc driftGuess).x.point
    ((1 + 1) * (1 + 1)) ((1 + 1) * 1) ((1 + 1) * 1)).z)
  obtain ⟨l, v, -, -, h4⟩ := C63_primal_mpc XReal.rounding (driftLift junk) (by show 0 < 1; norm_num) driftOcp.toMpc.up
    driftGuess.up driftOcp hq (roundOff_zero _ _ _) 1e-8 et (by norm_num) _ e1
    (.inr h3) (by rw [e2, CallerVar.up_point]; exact hf1)
  obtain ⟨z, -, h5⟩ := C63_dual_mpc XReal.rounding (driftLift junk) (by show 0 < 1; norm_num) driftOcp.toMpc.up
    driftGuess.up driftOcp hq (roundOff_zero _ _ _) 1e-8 1e-14 et (by norm_num) rfl _ e1
    (.inr h3) (by rw [e2, CallerVar.up_point]; exact hf2)
  exact ⟨_, l, v, z, e1, h3, h4, h5⟩

end Fbstab
