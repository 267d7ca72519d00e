import Verif.Props.Sensitivity
import Verif.Props.FullConvergenceMpc

/-!
# C69: instances
-/

namespace Fbstab
open Matrix

/-- The problem of the example for C48, from every guess `z` with `|z| <= 1e-4`. -/
theorem half_success (junk : DenseJunk ℝ) {g : ℝ} (hg : |g| ≤ 1e-4) :
    let s := FBstabDense.made junk 1 0 1 halfOptions
    let x : CallerVar ℝ := guessOf (nz := 1) (nl := 0) (nv := 1) (fun _ => g) 0 0
    ∃ out, (s.solve halfQP.toDense x).result = .ok out ∧ out.eflag = .success := by
  intro s x
  have hq : s.qp halfQP.toDense = halfQP := FBstabDense.made_qp junk _ _
  have hr : s.Reachable := FBstabDense.made_reachable junk _ (by norm_num) (by norm_num)
    (by norm_num [intLimit]) halfOptions_inRange
  have hst := absTol_le_stoppingTol (s.realEnv halfQP.toDense).ops (C01_reachable_dense s hr)
  have hst' : (9e-4 : ℝ) ≤ stoppingTol (s.problem halfQP.toDense) s.options := hst
  obtain ⟨g1, g2, g3⟩ := guessOf_point (nz := 1) (nl := 0) (nv := 1) (fun _ => g) 0 0
  have g1' : (x.z.toVec s.nz).fn = fun _ => g := g1
  have g2' : (x.l.toVec s.nl).fn = 0 := g2
  have g3' : (x.v.toVec s.nv).fn = 0 := g3
  have hk : (s.qp halfQP.toDense).KKT 0 0 0 := by
    rw [hq]; exact halfQP_kkt
  obtain ⟨out, h1, h2⟩ := C48_dense s hr halfQP.toDense x (halfQP.toDense_fits _ _ _)
    (guessOf_writable _ _ _ _) (hq ▸ halfQP_convex)
    ⟨by show (3e-5 : ℝ) ≤ 3e-5; norm_num,
      le_trans (by show (3e-5 : ℝ) ≤ 9e-4; norm_num) hst'⟩ _ _ _ hk 1e-4 0 (by norm_num) (by
      rw [g1', g2', g3']
      show QP.dist2 (nz := 1) (nl := 0) (nv := 1) (fun _ => g) 0 0 0 0 0 ≤ _
      have := pow_le_pow_left₀ (abs_nonneg g) hg 2
      rw [sq_abs] at this
      simp [QP.dist2, dotProduct]
      norm_num at *
      linarith) le_rfl
    (by
      have h : ∀ i : Fin 1, halfQP.b i - (halfQP.A *ᵥ 0) i ≤ 0 ∧ (0 : ℝ) ≤ 0 := fun i => by
        rw [mulVec_zero]
        simp [halfQP]
      rw [hq]
      exact h) 0 1 (by rw [hq]; exact halfQP_enough hst') (by rw [hq]; exact halfQP_newtonEnough)
    (by show ((1 : ℕ) : ℤ) < 2; norm_num)
  refine ⟨out, h1, ?_⟩
  rcases h2 with h | h
  · exact h.1
  · exact absurd h.1 Bool.false_ne_true

theorem halfQP_strong : halfQP.StronglyConvex 10 := fun w => by
  have e : halfQP.H *ᵥ w = (10 : ℝ) • w := by
    ext i
    simp [halfQP, Matrix.mulVec, dotProduct, Subsingleton.elim i 0]
  have e2 : euclid w ^ 2 = w ⬝ᵥ w := Real.sq_sqrt (dot_self_nonneg w)
  rw [e, e2, dotProduct_smul, smul_eq_mul]

/-- The hypotheses of C69 are met by two calls with different guesses, `z = -1e-4` and `z = 1e-4`, whatever the
memory of the two objects holds.  The bound, in terms of the residuals: -/
example (junk junk' : DenseJunk ℝ) :
    let s := FBstabDense.made junk 1 0 1 halfOptions
    let s' := FBstabDense.made junk' 1 0 1 halfOptions
    let x : CallerVar ℝ := guessOf (nz := 1) (nl := 0) (nv := 1) (fun _ => -1e-4) 0 0
    let x' : CallerVar ℝ := guessOf (nz := 1) (nl := 0) (nv := 1) (fun _ => 1e-4) 0 0
    ∃ out out', (s.solve halfQP.toDense x).result = .ok out ∧ (s'.solve halfQP.toDense x').result = .ok out' ∧
      out.eflag = .success ∧ out'.eflag = .success ∧
      euclid (n := 1) (fun i => (s.returnedPD halfQP.toDense x).z i - (s'.returnedPD halfQP.toDense x').z i) ≤
        (out.residual + out'.residual + euclid (halfQP.f - halfQP.f)) / 10 +
          √(QP.resultGap halfQP halfQP 0.999 0.999 out.residual out'.residual
            (s.returnedPD halfQP.toDense x) (s'.returnedPD halfQP.toDense x') / 10) := by
  intro s s' x x'
  have hr : s.Reachable := FBstabDense.made_reachable junk _ (by norm_num) (by norm_num)
    (by norm_num [intLimit]) halfOptions_inRange
  have hr' : s'.Reachable := FBstabDense.made_reachable junk' _ (by norm_num) (by norm_num)
    (by norm_num [intLimit]) halfOptions_inRange
  have hq : s.qp halfQP.toDense = halfQP := FBstabDense.made_qp junk _ _
  have hq' : s'.qp halfQP.toDense = halfQP := FBstabDense.made_qp junk' _ _
  obtain ⟨out, h1, h2⟩ := half_success junk (g := -1e-4) (by rw [abs_neg, abs_of_pos] <;> norm_num)
  obtain ⟨out', h1', h2'⟩ := half_success junk' (g := 1e-4) (by rw [abs_of_pos] <;> norm_num)
  obtain ⟨-, -, g3⟩ := guessOf_point (nz := 1) (nl := 0) (nv := 1) (fun _ => -1e-4) 0 0
  obtain ⟨-, -, g3'⟩ := guessOf_point (nz := 1) (nl := 0) (nv := 1) (fun _ => 1e-4) 0 0
  have h := (C69_dense (nz := 1) (nl := 0) (nv := 1) s.mem s'.mem halfQP.toDense halfQP.toDense x x' out out' hr hr'
    (by
      have e : (FBstabDense.qp (⟨1, 0, 1, s.mem⟩ : FBstabDense ℝ) halfQP.toDense) = halfQP := hq
      have e' : (FBstabDense.qp (⟨1, 0, 1, s'.mem⟩ : FBstabDense ℝ) halfQP.toDense) = halfQP := hq'
      rw [e, e']
      exact ⟨rfl, rfl, rfl⟩)
    (fun i => le_of_eq (congrFun g3 i).symm) (fun i => le_of_eq (congrFun g3' i).symm) h1 h2 h1' h2').2 10
    (by norm_num) (by
      have e : (FBstabDense.qp (⟨1, 0, 1, s.mem⟩ : FBstabDense ℝ) halfQP.toDense) = halfQP := hq
      rw [e]
      exact halfQP_strong)
  refine ⟨out, out', h1, h1', h2, h2', ?_⟩
  have e : (FBstabDense.qp (⟨1, 0, 1, s.mem⟩ : FBstabDense ℝ) halfQP.toDense) = halfQP := hq
  have e' : (FBstabDense.qp (⟨1, 0, 1, s'.mem⟩ : FBstabDense ℝ) halfQP.toDense) = halfQP := hq'
  rw [e, e'] at h
  exact h

theorem cornerOcp_strong : cornerOcp.toQP.StronglyConvex 1 := fun w => by
  have e2 : euclid w ^ 2 = w ⬝ᵥ w := Real.sq_sqrt (dot_self_nonneg w)
  rw [cornerOcp_H, e2, one_mul]
  change Fin 4 → ℝ at w
  show ∑ i : Fin 4, w i * w i ≤ ∑ i : Fin 4, w i *
    ((!![10, 0, 0, 0; 0, 1, 0, 0; 0, 0, 1, 0; 0, 0, 0, 1] : Matrix (Fin 4) (Fin 4) ℝ) *ᵥ w) i
  simp [mulVec, dotProduct, Fin.sum_univ_succ]
  nlinarith [mul_self_nonneg (w 0)]

/-- The hypotheses of C69 are met for an optimal control problem: the distance from the solution, which is zero. -/
example (junk : MpcJunk ℝ) :
    let s := FBstabMpc.made junk 1 1 1 1 cornerOptions
    let x : CallerVar ℝ := fullGuessOf (nz := (1 + 1) * (1 + 1)) (nl := (1 + 1) * 1) (nv := (1 + 1) * 1)
      cornerGuess 0 0
    ∃ out, (s.solve cornerOcp.toMpc x).result = .ok out ∧ out.proxIters = 1 ∧
      euclid (s.returnedPD cornerOcp.toMpc x).z ≤ out.residual +
        √(out.residual * (euclid (s.returnedPD cornerOcp.toMpc x).l + 2 / (1 - 0.999))) := by
  intro s x
  have hr : s.Reachable := FBstabMpc.made_reachable junk _ (by norm_num) (by norm_num)
    (by norm_num) (by norm_num) (by norm_num [intLimit]) (by norm_num [intLimit]) cornerOptions_inRange
  have hq : s.qp cornerOcp.toMpc = cornerOcp.toQP := FBstabMpc.made_qp junk _ _
  obtain ⟨out, h1, h2, h3⟩ := C48_example_mpc junk
  obtain ⟨-, -, g3⟩ := fullGuessOf_point (nz := (1 + 1) * (1 + 1)) (nl := (1 + 1) * 1) (nv := (1 + 1) * 1)
    cornerGuess 0 0
  have hk : (s.qp cornerOcp.toMpc).KKT 0 0 0 := by
    rw [hq]; exact cornerOcp_kkt
  have h := (C69_solution_mpc s hr cornerOcp.toMpc x (fun i => le_of_eq (congrFun g3 i).symm) out h1 h2 hk).2 1
    one_pos (by rw [hq]; exact cornerOcp_strong)
  refine ⟨out, h1, h3, ?_⟩
  rw [sub_zero, sub_zero, div_one, div_one] at h
  refine h.trans (le_of_eq ?_)
  congr 3
  have e1 : ∑ i : Fin ((1 + 1) * 1), (0 : Fin ((1 + 1) * 1) → ℝ) i = 0 := by simp
  have e2 : (∑ i : Fin ((s.N + 1) * s.nc), (0 : Fin ((s.N + 1) * s.nc) → ℝ) i) = 0 := e1
  rw [e2, zero_div, add_zero]
  show _ + (((1 + 1) * 1 : ℕ) : ℝ) / (1 - 0.999) = _
  norm_num

end Fbstab
