import Verif.Props.Decoupled
import Verif.Proofs.WitnessMpc
import Verif.Props.FalseAlarms

/-!
# Cases that meet the hypotheses of C64
-/

namespace Fbstab
open Matrix

/-- Minimise `z_1 + z_2^2 / 2` subject to `0 = 1`, `0 <= -1` and `z_2 <= 1`: neither primal nor dual feasible. -/
noncomputable def splitQP : QP 2 1 2 where
  H := fun i j => if i = 1 ∧ j = 1 then 1 else 0
  f := fun i => if i = 0 then 1 else 0
  G := fun _ _ => 0
  h := fun _ => 1
  A := fun i j => if i = 1 ∧ j = 1 then 1 else 0
  b := fun i => if i = 0 then -1 else 1

theorem splitQP_convex : splitQP.Convex where
  symm := Matrix.IsSymm.ext fun i j => by simp only [splitQP, and_comm]
  nonneg := fun z => by
    simp [dotProduct, mulVec, splitQP, Fin.sum_univ_two]
    exact mul_self_nonneg _

theorem splitQP_decoupled : splitQP.Decoupled where
  flat := by ext i; fin_cases i <;> simp [mulVec, dotProduct, splitQP]
  eq := by ext i; simp [mulVec, dotProduct, splitQP]
  ineq := by ext i; fin_cases i <;> simp [mulVec, dotProduct, splitQP]
  range := by
    have : splitQP.G = 0 := rfl
    rw [this, transpose_zero, zero_mulVec]
  void := fun i hi j => by
    fin_cases i
    · simp [splitQP]
    · simp [splitQP] at hi; linarith

/-- A residual of at least 1 at the cold start is above the default tolerances. -/
theorem stopping_defaults {nz nl nv : Nat} {q : QP nz nl nv} {ops : QPOps ℝ nz nl nv} (I : q.Implements ops)
    (h : q.f ⬝ᵥ q.f + q.h ⬝ᵥ q.h + q.b ⬝ᵥ q.b ≤ 100) : stoppingTol ops Params.defaults < 1 := by
  unfold stoppingTol
  rw [I.forcingNorm]
  have h2 : √(q.f ⬝ᵥ q.f + q.h ⬝ᵥ q.h + q.b ⬝ᵥ q.b) ≤ 10 := by
    rw [Real.sqrt_le_left (by norm_num)]
    linarith
  have e1 : (Params.defaults : Params ℝ).absTol = 1e-6 := rfl
  have e2 : (Params.defaults : Params ℝ).relTol = 1e-12 := rfl
  rw [e1, e2]
  generalize √(q.f ⬝ᵥ q.f + q.h ⬝ᵥ q.h + q.b ⬝ᵥ q.b) = r at h2
  norm_num
  linarith

theorem stall_defaults {nz nl nv : Nat} (hz : 0 < nz) :
    (Params.defaults : Params ℝ).stallTol < onesNorm ℝ nz nl nv := by
  refine lt_of_lt_of_le ?_ (one_le_onesNorm hz)
  show (1e-10 : ℝ) < 1
  norm_num

theorem flat_defaults {n : Nat} {f : Fin n → ℝ} {i : Fin n} (h : f i = 1) :
    1e-14 < (Params.defaults : Params ℝ).beta ^ (Params.defaults : Params ℝ).maxLinesearchIters.toNat /
      (Params.defaults : Params ℝ).sigma0 * ‖f‖ := by
  have h1 : 1 ≤ ‖f‖ := by
    have := norm_le_pi_norm f i
    rw [h] at this
    simpa using this
  show (1e-14 : ℝ) < 0.75 ^ 20 / 1e-8 * ‖f‖
  refine lt_of_lt_of_le ?_ (mul_le_mul_of_nonneg_left h1 (by positivity))
  norm_num

theorem splitQP_cold : 1 ≤ splitQP.coldResidual 0.95 := by
  unfold QP.coldResidual
  refine Real.le_sqrt_of_sq_le ?_
  simp [dotProduct, splitQP, Fin.sum_univ_two]
  norm_num

theorem splitQP_size : splitQP.f ⬝ᵥ splitQP.f + splitQP.h ⬝ᵥ splitQP.h + splitQP.b ⬝ᵥ splitQP.b ≤ 100 := by
  simp [dotProduct, splitQP, Fin.sum_univ_two]
  norm_num

theorem splitQP_h : splitQP.h ≠ 0 := fun h => by have := congrFun h 0; simp [splitQP] at this
theorem splitQP_f : splitQP.f 0 = 1 := rfl
theorem splitQP_f_ne : splitQP.f ≠ 0 := fun h => by have := congrFun h 0; simp [splitQP] at this

/-- C64, FBstabDense: both flags. -/
theorem C64_example (junk : DenseJunk ℝ) :
    let s := FBstabDense.made junk 2 1 2 Params.defaults
    let x : CallerVar ℝ := guessOf (nz := 2) (nl := 1) (nv := 2) 0 0 0
    s.Reachable ∧ ∃ out, (s.solve splitQP.toDense x).result = .ok out ∧ out.proxIters = 0 ∧
      out.eflag = .primalDualInfeasible := by
  intro s x
  have hr : s.Reachable := FBstabDense.made_reachable junk _ (by norm_num) (by norm_num)
    (by norm_num [intLimit]) defaults_inRange
  have hq : s.qp splitQP.toDense = splitQP := FBstabDense.made_qp junk _ _
  obtain ⟨g1, g2, g3⟩ := guessOf_point (nz := 2) (nl := 1) (nv := 2) 0 0 0
  have I : (s.qp splitQP.toDense).Implements (s.problem splitQP.toDense) :=
    (s.newtonEnv defaults_inRange _ (hq ▸ splitQP_convex)).ops
  rw [hq] at I
  obtain ⟨out, h1, h2, h3, h4⟩ := C64_dense s hr splitQP.toDense x (splitQP.toDense_fits _ _ _)
    (guessOf_writable _ _ _ _) (hq ▸ splitQP_convex) (hq ▸ splitQP_decoupled) g1 g2 g3
    (by
      rw [hq]
      intro i hi
      have : splitQP.b i = -1 := by
        unfold splitQP at hi ⊢
        dsimp only at hi ⊢
        split at hi
        · rw [if_pos (by assumption)]
        · linarith
      rw [this]
      show (1e-13 * 1e-8 : ℝ) ≤ - -1
      norm_num)
    (.inr (by rw [hq]; exact flat_defaults splitQP_f))
    (by show (1e-12 : ℝ) ≤ 1e-2; norm_num)
    (by
      rw [hq]
      exact lt_of_lt_of_le (stopping_defaults I splitQP_size) splitQP_cold)
    (by
      rw [hq]
      refine lt_of_lt_of_le ?_ splitQP_cold
      show (1e-2 : ℝ) < 1
      norm_num)
    (stall_defaults (by show 0 < 2; norm_num)) (by show (50 : Int) < 200; norm_num) rfl
  refine ⟨hr, out, h1, h2, ?_⟩
  rw [hq] at h3 h4
  have h5 := h3.2 (.inl splitQP_h)
  have h6 := h4.2 splitQP_f_ne
  rcases h5 with h5 | h5
  · rcases h6 with h6 | h6 <;> rw [h5] at h6 <;> cases h6
  · exact h5

/-- Two stages with `x(1) = 0`, `x(0) = 0`, controls that cost `u` and the constraint `1 <= 0`. -/
noncomputable def driftOcp : Ocp 1 1 1 1 where
  Q := fun _ _ _ => 0
  R := fun _ _ _ => 0
  S := fun _ _ _ => 0
  q := fun _ _ => 0
  r := fun _ _ => 1
  A := fun _ _ _ => 0
  B := fun _ _ _ => 0
  c := fun _ _ => 0
  E := fun _ _ _ => 0
  L := fun _ _ _ => 0
  d := fun _ _ => 1
  x0 := fun _ => 0

theorem driftOcp_convex : driftOcp.Convex where
  Qsymm := fun _ => rfl
  Rsymm := fun _ => rfl
  nonneg := fun i x u => by simp [driftOcp, mulVec, dotProduct]

theorem driftOcp_H : driftOcp.toQP.H = 0 := by
  ext a a'
  show (if _ then fromBlocks _ _ _ _ _ _ else (0 : ℝ)) = 0
  split
  · rcases (Ocp.stage a).2 with i | i <;> rcases (Ocp.stage a').2 with j | j <;> rfl
  · rfl

theorem driftOcp_A : driftOcp.toQP.A = 0 := by
  ext a a'
  show (if _ then fromCols _ _ _ _ else (0 : ℝ)) = 0
  split
  · rcases (Ocp.stage a').2 with j | j <;> rfl
  · rfl

theorem driftOcp_h : driftOcp.toQP.h = 0 := by
  ext a
  show -Fin.cases _ _ _ = (0 : ℝ)
  refine neg_eq_zero.2 ?_
  generalize (Ocp.block a).1 = i
  induction i using Fin.cases with
  | zero => rfl
  | succ i => rfl

theorem driftOcp_Gf : driftOcp.toQP.G *ᵥ driftOcp.toQP.f = 0 := by
  ext a
  rw [mulVec, dotProduct, Pi.zero_apply]
  refine Finset.sum_eq_zero fun a' _ => ?_
  show (if _ then fromCols _ _ _ _ else Fin.cases (motive := fun _ => ℝ) _ _ _) * Sum.elim _ _ _ = (0 : ℝ)
  rcases h : (Ocp.stage a').2 with j | j
  · exact mul_zero _
  · split
    · exact MulZeroClass.zero_mul _
    · generalize (Ocp.block a).1 = i
      induction i using Fin.cases with
      | zero => exact MulZeroClass.zero_mul _
      | succ i =>
        show (if _ then _ else (0 : ℝ)) * _ = 0
        split
        · exact MulZeroClass.zero_mul _
        · exact MulZeroClass.zero_mul _

theorem driftOcp_decoupled : driftOcp.toQP.Decoupled where
  flat := by rw [driftOcp_H, zero_mulVec]
  eq := driftOcp_Gf
  ineq := by rw [driftOcp_A, zero_mulVec]
  range := by rw [driftOcp_h, mulVec_zero]
  void := fun i _ j => by rw [driftOcp_A]; rfl

theorem driftOcp_b : driftOcp.toQP.b = fun _ => -1 := rfl

theorem driftOcp_f (a) : driftOcp.toQP.f a = 0 ∨ driftOcp.toQP.f a = 1 := by
  show Sum.elim _ _ _ = (0 : ℝ) ∨ Sum.elim _ _ _ = (1 : ℝ)
  rcases (Ocp.stage a).2 with j | j
  · exact .inl rfl
  · exact .inr rfl

theorem driftOcp_cold : 1 ≤ driftOcp.toQP.coldResidual 0.95 := by
  unfold QP.coldResidual
  refine Real.le_sqrt_of_sq_le ?_
  rw [driftOcp_b]
  have : 0 ≤ driftOcp.toQP.f ⬝ᵥ driftOcp.toQP.f := Finset.sum_nonneg fun i _ => mul_self_nonneg _
  have : 0 ≤ driftOcp.toQP.h ⬝ᵥ driftOcp.toQP.h := Finset.sum_nonneg fun i _ => mul_self_nonneg _
  have : (∑ _i : Fin ((1 + 1) * 1), ((0.95 : ℝ) * min (-1) 0) ^ 2) = 2 * 0.9025 := by
    rw [Finset.sum_const]
    simp
    norm_num
  rw [this]
  norm_num at *
  linarith

theorem driftOcp_f_eq : driftOcp.toQP.f = Ocp.stack driftOcp.q driftOcp.r := rfl

theorem driftOcp_f_one : driftOcp.toQP.f (finProdFinEquiv ((0 : Fin (1 + 1)), Fin.natAdd 1 (0 : Fin 1))) = 1 := by
  rw [driftOcp_f_eq]
  simp only [Ocp.stack, Ocp.stage, Ocp.block, Equiv.symm_apply_apply]
  rw [show finSumFinEquiv.symm (Fin.natAdd 1 (0 : Fin 1)) = Sum.inr (0 : Fin 1) from finSumFinEquiv_symm_apply_natAdd _]
  rfl

theorem driftOcp_size : driftOcp.toQP.f ⬝ᵥ driftOcp.toQP.f + driftOcp.toQP.h ⬝ᵥ driftOcp.toQP.h +
    driftOcp.toQP.b ⬝ᵥ driftOcp.toQP.b ≤ 100 := by
  rw [driftOcp_h, driftOcp_b, dotProduct_zero]
  have h1 : driftOcp.toQP.f ⬝ᵥ driftOcp.toQP.f ≤ ∑ _i : Fin ((1 + 1) * (1 + 1)), (1 : ℝ) := by
    refine Finset.sum_le_sum fun i _ => ?_
    rcases driftOcp_f i with h | h <;> rw [h] <;> norm_num
  have h2 : (∑ _i : Fin ((1 + 1) * (1 + 1)), (1 : ℝ)) = 4 := by
    rw [Finset.sum_const]; simp
  have h3 : (fun _ : Fin ((1 + 1) * 1) => (-1 : ℝ)) ⬝ᵥ (fun _ => -1) = 2 := by
    rw [dotProduct, Finset.sum_const]; simp
  rw [h3]
  rw [h2] at h1
  linarith

noncomputable abbrev driftSolver (junk : MpcJunk ℝ) : FBstabMpc ℝ := FBstabMpc.made junk 1 1 1 1 Params.defaults
noncomputable abbrev driftGuess : CallerVar ℝ :=
  fullGuessOf (nz := (1 + 1) * (1 + 1)) (nl := (1 + 1) * 1) (nv := (1 + 1) * 1) 0 0 0

/-- C64, FBstabMpc: both flags. -/
theorem C64_example_mpc (junk : MpcJunk ℝ) :
    (driftSolver junk).Reachable ∧ ∃ out, ((driftSolver junk).solve driftOcp.toMpc driftGuess).result = .ok out ∧
      out.proxIters = 0 ∧ out.eflag = .primalDualInfeasible := by
  have hr : (driftSolver junk).Reachable := FBstabMpc.made_reachable junk _ (by norm_num) (by norm_num) (by norm_num)
    (by norm_num) (by norm_num [intLimit]) (by norm_num [intLimit]) defaults_inRange
  have ho : (driftSolver junk).ocp driftOcp.toMpc = driftOcp := FBstabMpc.made_ocp junk _ _
  have hq : (driftSolver junk).qp driftOcp.toMpc = driftOcp.toQP := FBstabMpc.made_qp junk _ _
  obtain ⟨g1, g2, g3⟩ := fullGuessOf_point (nz := (1 + 1) * (1 + 1)) (nl := (1 + 1) * 1) (nv := (1 + 1) * 1) 0 0 0
  have I : ((driftSolver junk).qp driftOcp.toMpc).Implements ((driftSolver junk).problem driftOcp.toMpc) :=
    ((driftSolver junk).newtonEnv defaults_inRange _ (ho ▸ driftOcp_convex)).ops
  rw [hq] at I
  obtain ⟨out, h1, h2, h3, h4⟩ := C64_mpc (driftSolver junk) hr driftOcp.toMpc driftGuess (driftOcp.toMpc_fits _ _ _)
    driftOcp.toMpc_columns (ho ▸ driftOcp_convex) (hq ▸ driftOcp_decoupled) g1 g2 g3
    (by
      rw [hq, driftOcp_b]
      intro i _
      show (1e-13 * 1e-8 : ℝ) ≤ - -1
      norm_num)
    (.inr (by rw [hq]; exact flat_defaults driftOcp_f_one))
    (by show (1e-12 : ℝ) ≤ 1e-2; norm_num)
    (by rw [hq]; exact lt_of_lt_of_le (stopping_defaults I driftOcp_size) driftOcp_cold)
    (by
      rw [hq]
      refine lt_of_lt_of_le ?_ driftOcp_cold
      show (1e-2 : ℝ) < 1
      norm_num)
    (stall_defaults (by show 0 < (1 + 1) * (1 + 1); norm_num)) (by show (50 : Int) < 200; norm_num) rfl
  refine ⟨hr, out, h1, h2, ?_⟩
  rw [hq] at h3 h4
  have h5 := h3.2 (.inr ⟨(0 : Fin ((1 + 1) * 1)), by rw [driftOcp_b]; norm_num⟩)
  have h6 := h4.2 fun h => by
    have := driftOcp_f_one
    rw [h] at this
    exact zero_ne_one this
  rcases h5 with h5 | h5
  · rcases h6 with h6 | h6 <;> rw [h5] at h6 <;> cases h6
  · exact h5

end Fbstab
