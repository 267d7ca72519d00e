import Verif.Proofs.Ops

/-!
# The data classes: C27, C28, C29, C30

`QP.Implements` (Spec/QP.lean) spells out `y <- a*M*x + b*y` for every method; `Ocp.toQP`
(Spec/Ocp.lean) is the documented block form.
-/

namespace Fbstab
open Matrix
variable {N nx nu nc : Nat}

/-! ## C27 -/

/-- C27: every method of `MpcData` computes what the interface documents, for the block matrices of
the optimal control problem (`gemvGT` with `a = 1`, the scaling the solver uses). -/
theorem C27_mpc (d : MpcData ℝ N nx nu nc) : (Ocp.ofMpc d).toQP.Implements d.ops := d.implements

/-- C27 for `DenseData`. -/
theorem C27_dense {nz nl nv : Nat} (d : DenseData ℝ nz nl nv) :
    (QP.ofDense d).Implements d.ops := QP.ofDense_implements d

/-- C27: `gemvGT` with `a = 1` and `a = -1`. -/
theorem C27_gemvGT (d : MpcData ℝ N nx nu nc) (x : Vec ℝ ((N + 1) * nx)) (a b : ℝ)
    (y : Vec ℝ ((N + 1) * (nx + nu))) (ha : a = 1 ∨ a = -1) :
    (d.gemvGT x a b y).fn = a • ((Ocp.ofMpc d).toQP.Gᵀ *ᵥ x.fn) + b • y.fn :=
  d.gemvGT_eq x a b y ha

/-- C27: `gemvA` and `gemvAT` are adjoint. -/
theorem C27_adjoint_A (d : MpcData ℝ N nx nu nc) (z : Vec ℝ ((N + 1) * (nx + nu)))
    (v : Vec ℝ ((N + 1) * nc)) :
    (d.gemvA z 1 0 (Vec.const 0)).dot v = (d.gemvAT v 1 0 (Vec.const 0)).dot z := by
  rw [Vec.dot_eq, Vec.dot_eq, show d.gemvA = d.ops.gemvA from rfl,
    show d.gemvAT = d.ops.gemvAT from rfl, d.implements.gemvA, d.implements.gemvAT]
  simp only [one_smul, zero_smul, add_zero]
  rw [mulVec_transpose, ← dotProduct_mulVec, dotProduct_comm]

/-- C27: `gemvG` and `gemvGT` are adjoint. -/
theorem C27_adjoint_G (d : MpcData ℝ N nx nu nc) (z : Vec ℝ ((N + 1) * (nx + nu)))
    (l : Vec ℝ ((N + 1) * nx)) :
    (d.gemvG z 1 0 (Vec.const 0)).dot l = (d.gemvGT l 1 0 (Vec.const 0)).dot z := by
  rw [Vec.dot_eq, Vec.dot_eq, show d.gemvG = d.ops.gemvG from rfl,
    show d.gemvGT = d.ops.gemvGT from rfl, d.implements.gemvG, d.implements.gemvGT]
  simp only [one_smul, zero_smul, add_zero]
  rw [mulVec_transpose, ← dotProduct_mulVec, dotProduct_comm]

/-! ## C28 -/

/-- C28, what the code does for other scalings: the state part of `gemvGT` is right for every `a`. -/
theorem C28_states (d : MpcData ℝ N nx nu nc) (x : Vec ℝ ((N + 1) * nx)) (a b : ℝ)
    (y : Vec ℝ ((N + 1) * (nx + nu))) (i : Fin (N + 1)) (j : Fin nx) :
    Ocp.states (d.gemvGT x a b y).fn i j =
      Ocp.states (a • ((Ocp.ofMpc d).toQP.Gᵀ *ᵥ x.fn) + b • y.fn) i j := by
  obtain ⟨h1, h2⟩ := d.gemvGT_blocks x a b y
  rw [states_fn, states_eq]
  refine Fin.lastCases ?_ (fun i => ?_) i
  · rw [MpcData.xu_x h1]
    simp only [Pi.add_apply, Pi.smul_apply, Ocp.GT_last_x]
    simp [scaleBy_eq]; ring
  · rw [MpcData.xu_x (h2 i)]
    simp only [Pi.add_apply, Pi.smul_apply, Ocp.GT_castSucc_x, MpcData.col_fn]
    simp [scaleBy_eq, Ocp.ofMpc, mulVec, dotProduct]; ring

/-- C28, the defect: for any other `a` the control part is only scaled, `B'v` is dropped. -/
theorem C28_controls (d : MpcData ℝ N nx nu nc) (x : Vec ℝ ((N + 1) * nx)) (a b : ℝ)
    (y : Vec ℝ ((N + 1) * (nx + nu))) (h1 : a ≠ 1) (h2 : a ≠ -1) (i : Fin (N + 1)) (j : Fin nu) :
    Ocp.controls (d.gemvGT x a b y).fn i j = b * Ocp.controls y.fn i j := by
  obtain ⟨e1, e2⟩ := d.gemvGT_blocks x a b y
  rw [controls_fn, controls_fn]
  refine Fin.lastCases ?_ (fun i => ?_) i
  · rw [MpcData.xu_u e1]
    simp [scaleBy_eq]
  · rw [MpcData.xu_u (e2 i)]
    simp [scaleBy_eq, h1, h2]

/-- C28, negation: whenever some `B'v` is not zero, `gemvGT` does not compute `a*G'*x + b*y` for any
`a` other than `0`, `1` and `-1`. -/
theorem C28_false (d : MpcData ℝ N nx nu nc) (x : Vec ℝ ((N + 1) * nx)) (a b : ℝ)
    (y : Vec ℝ ((N + 1) * (nx + nu))) (h0 : a ≠ 0) (h1 : a ≠ 1) (h2 : a ≠ -1) (i : Fin N)
    (j : Fin nu) (hB : ((d.B i).transpose * colBlock x i.succ) j ≠ 0) :
    (d.gemvGT x a b y).fn ≠ a • ((Ocp.ofMpc d).toQP.Gᵀ *ᵥ x.fn) + b • y.fn := by
  intro h
  have h3 := congrFun (congrArg (fun w => Ocp.controls w i.castSucc) h) j
  rw [C28_controls d x a b y h1 h2, controls_eq, controls_eq] at h3
  simp only [Pi.add_apply, Pi.smul_apply, Ocp.GT_castSucc_u, MpcData.col_fn, smul_eq_mul] at h3
  have h4 : a * ((Ocp.ofMpc d).B i)ᵀ.mulVec (colBlock x i.succ).fn j = 0 := by linarith
  rcases mul_eq_zero.1 h4 with h5 | h5
  · exact h0 h5
  · apply hB
    rw [← h5]
    simp [Ocp.ofMpc, mulVec, dotProduct]

/-- The hypotheses of `C28_false` are met: one state, one control, horizon one, `B = 1`, `v = 1`,
`a = 2`. -/
example : ∃ (d : MpcData ℝ 1 1 1 1) (x : Vec ℝ ((1 + 1) * 1)) (y : Vec ℝ ((1 + 1) * (1 + 1))),
    (d.gemvGT x 2 1 y).fn ≠ (2 : ℝ) • ((Ocp.ofMpc d).toQP.Gᵀ *ᵥ x.fn) + (1 : ℝ) • y.fn := by
  refine ⟨⟨Vec.const (Mat.ofFn fun _ _ => 0), Vec.const (Mat.ofFn fun _ _ => 0),
    Vec.const (Mat.ofFn fun _ _ => 0), Vec.const (Vec.const 0), Vec.const (Vec.const 0),
    Vec.const (Mat.ofFn fun _ _ => 0), Vec.const (Mat.ofFn fun _ _ => 1), Vec.const (Vec.const 0),
    Vec.const (Mat.ofFn fun _ _ => 0), Vec.const (Mat.ofFn fun _ _ => 0), Vec.const (Vec.const 0),
    Vec.const 0⟩, Vec.const 1, Vec.const 0, ?_⟩
  exact C28_false _ _ 2 1 _ (by norm_num) (by norm_num) (by norm_num) 0 0 (by simp)

/-! ## C29 -/

/-- C29: the equality constraints are the dynamics and the initial condition, the inequalities are
the stage constraints. -/
theorem C29_feasible (p : Ocp N nx nu nc) (x : Fin (N + 1) → Fin nx → ℝ)
    (u : Fin (N + 1) → Fin nu → ℝ) :
    p.toQP.Feasible (Ocp.stack x u) ↔ p.Admissible x u := by
  have hG : p.toQP.G *ᵥ Ocp.stack x u = p.toQP.h ↔ x 0 = p.x0 ∧
      ∀ i : Fin N, x i.succ = p.A i *ᵥ x i.castSucc + p.B i *ᵥ u i.castSucc + p.c i := by
    rw [funext_iff, forall_flat]
    constructor
    · intro h
      constructor
      · funext j
        have := h 0 j
        rw [Ocp.G_zero, states_stack] at this
        simpa [Ocp.toQP] using this
      · intro i
        funext j
        have := h i.succ j
        rw [Ocp.G_succ, states_stack, controls_stack] at this
        simp [Ocp.toQP] at this
        simp only [Pi.add_apply]
        linarith
    · rintro ⟨h1, h2⟩ i j
      refine Fin.cases ?_ (fun i => ?_) i
      · rw [Ocp.G_zero, states_stack, h1]
        simp [Ocp.toQP]
      · rw [Ocp.G_succ, states_stack, controls_stack, h2]
        simp [Ocp.toQP]
  have hA : (∀ a, (p.toQP.A *ᵥ Ocp.stack x u) a ≤ p.toQP.b a) ↔
      ∀ i j, (p.E i *ᵥ x i) j + (p.L i *ᵥ u i) j + p.d i j ≤ 0 := by
    rw [forall_flat]
    refine forall_congr' fun i => forall_congr' fun j => ?_
    rw [Ocp.A_c, states_stack, controls_stack]
    simp only [Ocp.toQP, block_flatIdx]
    constructor <;> intro h <;> linarith
  exact ⟨fun h => ⟨(hG.1 h.eq).1, (hG.1 h.eq).2, hA.1 h.ineq⟩,
    fun h => ⟨hG.2 ⟨h.init, h.dynamics⟩, hA.2 h.constraints⟩⟩

/-- C29: the quadratic form. -/
theorem C29_quadratic (p : Ocp N nx nu nc) (x : Fin (N + 1) → Fin nx → ℝ)
    (u : Fin (N + 1) → Fin nu → ℝ) :
    Ocp.stack x u ⬝ᵥ p.toQP.H *ᵥ Ocp.stack x u =
      ∑ i, (x i ⬝ᵥ p.Q i *ᵥ x i + 2 * (u i ⬝ᵥ p.S i *ᵥ x i) + u i ⬝ᵥ p.R i *ᵥ u i) := by
  conv_lhs => rw [dotProduct, sum_stage]
  refine Finset.sum_congr rfl fun i _ => ?_
  simp only [Ocp.H_x, Ocp.H_u, states_stack, controls_stack, stack_xIdx, stack_uIdx, mul_add,
    Finset.sum_add_distrib]
  have : ∑ j, x i j * ((p.S i)ᵀ *ᵥ u i) j = u i ⬝ᵥ p.S i *ᵥ x i := by
    show x i ⬝ᵥ (p.S i)ᵀ *ᵥ u i = _
    rw [mulVec_transpose, dotProduct_comm, ← dotProduct_mulVec]
  rw [this]
  simp only [dotProduct]
  ring

/-- C29: the objective is the cost of the trajectory. -/
theorem C29_objective (p : Ocp N nx nu nc) (x : Fin (N + 1) → Fin nx → ℝ)
    (u : Fin (N + 1) → Fin nu → ℝ) : p.toQP.objective (Ocp.stack x u) = p.cost x u := by
  unfold QP.objective Ocp.cost
  rw [C29_quadratic, Finset.mul_sum]
  conv_lhs => rw [dotProduct, sum_stage (F := fun a => p.toQP.f a * Ocp.stack x u a)]
  rw [← Finset.sum_add_distrib]
  refine Finset.sum_congr rfl fun i _ => ?_
  simp only [Ocp.toQP, stack_xIdx, stack_uIdx, dotProduct]
  ring

/-- C29: minimisers of the quadratic program are exactly the optimal trajectories. -/
theorem C29_optimal (p : Ocp N nx nu nc) (z : Fin ((N + 1) * (nx + nu)) → ℝ) :
    p.toQP.Minimiser z ↔ p.Optimal (Ocp.states z) (Ocp.controls z) := by
  constructor
  · rintro ⟨h1, h2⟩
    rw [← stack_split z, C29_feasible] at h1
    refine ⟨h1, fun x' u' h => ?_⟩
    have := h2 _ ((C29_feasible p x' u').2 h)
    rwa [← stack_split z, C29_objective, C29_objective] at this
  · rintro ⟨h1, h2⟩
    rw [← C29_feasible, stack_split] at h1
    refine ⟨h1, fun z' h => ?_⟩
    rw [← stack_split z', C29_feasible] at h
    have := h2 _ _ h
    rwa [← C29_objective, ← C29_objective, stack_split, stack_split] at this

/-- C29: the quadratic program is convex exactly when every stage Hessian is. -/
theorem C29_convex (p : Ocp N nx nu nc) : p.toQP.Convex ↔ p.Convex := by
  constructor
  · rintro ⟨h1, h2⟩
    have entry := fun a b => congrFun (congrFun h1 a) b
    refine ⟨fun i => ?_, fun i => ?_, fun i x u => ?_⟩
    · ext a b
      have := entry (xIdx i a) (xIdx i b)
      simpa [Ocp.toQP] using this
    · ext a b
      have := entry (uIdx i a) (uIdx i b)
      simpa [Ocp.toQP] using this
    · have := h2 (Ocp.stack (fun k => if k = i then x else 0) (fun k => if k = i then u else 0))
      rw [C29_quadratic, Finset.sum_eq_single i] at this
      · simpa using this
      · intro b _ hb; simp [hb]
      · simp
  · rintro ⟨h1, h2, h3⟩
    refine ⟨?_, fun z => ?_⟩
    · ext a b
      revert a b
      rw [forall_stage]
      refine fun i => ⟨fun j => ?_, fun j => ?_⟩ <;> rw [forall_stage] <;>
        refine fun i' => ⟨fun j' => ?_, fun j' => ?_⟩ <;>
        simp only [Ocp.toQP, transpose_apply, of_apply, stage_xIdx, stage_uIdx] <;>
        by_cases e : i' = i <;> simp [e, eq_comm (a := i)]
      · exact (h1 i).apply _ _
      · exact (h2 i).apply _ _
    · rw [← stack_split z, C29_quadratic]
      exact Finset.sum_nonneg fun i _ => h3 _ _ _

/-! ## C30 -/

/-- C30: `ForcingNorm()` is the Euclidean norm of `(f, h, b)`, in both classes. -/
theorem C30_mpc (d : MpcData ℝ N nx nu nc) :
    d.forcingNorm = √((Ocp.ofMpc d).toQP.f ⬝ᵥ (Ocp.ofMpc d).toQP.f +
      (Ocp.ofMpc d).toQP.h ⬝ᵥ (Ocp.ofMpc d).toQP.h +
      (Ocp.ofMpc d).toQP.b ⬝ᵥ (Ocp.ofMpc d).toQP.b) := d.forcingNorm_eq

theorem C30_dense {nz nl nv : Nat} (d : DenseData ℝ nz nl nv) :
    d.forcingNorm = √(d.f.fn ⬝ᵥ d.f.fn + d.h.fn ⬝ᵥ d.h.fn + d.b.fn ⬝ᵥ d.b.fn) :=
  (QP.ofDense_implements d).forcingNorm

/-- C30 in terms of the stages: `|x0|^2 + sum |c|^2 + sum (|q|^2 + |r|^2 + |d|^2)`. -/
theorem C30_stages (d : MpcData ℝ N nx nu nc) :
    d.forcingNorm = √(∑ i, ((d.q i).squaredNorm + (d.r i).squaredNorm + (d.d i).squaredNorm) +
      d.x0.squaredNorm + ∑ i, (d.c i).squaredNorm) := by
  rw [d.forcingNorm_eq]
  congr 1
  simp only [dotProduct]
  rw [sum_stage, sum_flat (k := N + 1) (m := nx), sum_flat (k := N + 1) (m := nc)]
  rw [Fin.sum_univ_succ (f := fun i => ∑ j, (Ocp.ofMpc d).toQP.h (flatIdx i j) *
    (Ocp.ofMpc d).toQP.h (flatIdx i j))]
  simp only [Ocp.toQP, stack_xIdx, stack_uIdx, block_flatIdx, Ocp.ofMpc, Vec.squaredNorm_eq,
    dotProduct, Vec.fn_apply, Fin.cases_zero, Fin.cases_succ, neg_mul_neg, Finset.sum_add_distrib]
  ring

end Fbstab
