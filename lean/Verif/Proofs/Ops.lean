import Verif.Spec.Ocp
import Verif.Proofs.Blocks

/-!
# The data classes implement their quadratic programs
-/

namespace Fbstab
open Matrix

theorem QP.ofDense_implements {nz nl nv : Nat} (d : DenseData ℝ nz nl nv) :
    (QP.ofDense d).Implements d.ops where
  gemvH x a b y := by simp [DenseData.ops, DenseData.gemvH, ofDense, smul_mulVec]
  gemvA x a b y := by simp [DenseData.ops, DenseData.gemvA, ofDense, smul_mulVec]
  gemvG x a b y := by simp [DenseData.ops, DenseData.gemvG, ofDense, smul_mulVec]
  gemvAT x a b y := by simp [DenseData.ops, DenseData.gemvAT, ofDense, smul_mulVec]
  gemvGT x b y := by simp [DenseData.ops, DenseData.gemvGT, ofDense]
  axpyf a y := by simp [DenseData.ops, DenseData.axpyf, ofDense, add_comm]
  axpyh a y := by simp [DenseData.ops, DenseData.axpyh, ofDense, add_comm]
  axpyb a y := by simp [DenseData.ops, DenseData.axpyb, ofDense, add_comm]
  forcingNorm := by
    simp only [DenseData.ops, DenseData.forcingNorm, ofDense, Vec.squaredNorm_eq, scalar_sqrt]
    congr 1; ring

/-! ## Loops over blocks -/

/-- A loop whose `i`-th body changes only block `idx i`, in a way that depends only on that block. -/
theorem forFin_block {σ β ι : Type} [DecidableEq ι] {n : Nat} {f : Fin n → σ → σ} (idx : Fin n → ι)
    (inj : ∀ i j, idx i = idx j → i = j) (B : ι → σ → β) (g : Fin n → β → β)
    (hf : ∀ i w k, B k (f i w) = if k = idx i then g i (B k w) else B k w) (w : σ) :
    (∀ i, B (idx i) (forFin n f w) = g i (B (idx i) w)) ∧
      ∀ k, (∀ i, k ≠ idx i) → B k (forFin n f w) = B k w := by
  have := forFin_induct (n := n) (f := f) (s := w) (P := fun t s =>
    (∀ i, i.1 < t → B (idx i) s = g i (B (idx i) w)) ∧ (∀ i, t ≤ i.1 → B (idx i) s = B (idx i) w) ∧
    ∀ k, (∀ i, k ≠ idx i) → B k s = B k w) ⟨by simp, by simp, by simp⟩ ?_
  · exact ⟨fun i => this.1 i i.2, this.2.2⟩
  · rintro i s ⟨h1, h2, h3⟩
    refine ⟨fun j hj => ?_, fun j hj => ?_, fun k hk => ?_⟩
    · rw [hf]
      by_cases e : j = i
      · subst e
        rw [if_pos rfl, h2 _ (Nat.le_refl _)]
      · rw [if_neg (fun h => e (inj _ _ h))]
        refine h1 _ ?_
        have : j.1 ≠ i.1 := fun h => e (Fin.ext h)
        omega
    · rw [hf, if_neg (fun h => by have := inj _ _ h; subst this; omega)]
      exact h2 _ (by omega)
    · rw [hf, if_neg (hk i)]
      exact h3 k hk

/-! ## Indices -/

section
variable {k m nx nu : Nat}

theorem flatIdx_eq (i : Fin k) (j : Fin m) : flatIdx i j = finProdFinEquiv (i, j) := by
  ext; simp [flatIdx, finProdFinEquiv]; ring

@[simp] theorem block_flatIdx (i : Fin k) (j : Fin m) : Ocp.block (flatIdx i j) = (i, j) := by
  rw [flatIdx_eq, Ocp.block, Equiv.symm_apply_apply]

@[simp] theorem stage_xIdx (i : Fin k) (j : Fin nx) :
    Ocp.stage (xIdx i j : Fin (k * (nx + nu))) = (i, .inl j) := by
  simp [Ocp.stage, xIdx]

@[simp] theorem stage_uIdx (i : Fin k) (j : Fin nu) :
    Ocp.stage (uIdx i j : Fin (k * (nx + nu))) = (i, .inr j) := by
  simp [Ocp.stage, uIdx]

theorem states_eq (z : Fin (k * (nx + nu)) → ℝ) (i : Fin k) (j : Fin nx) :
    Ocp.states z i j = z (xIdx i j) := by rw [Ocp.states, ← flatIdx_eq]; rfl

theorem controls_eq (z : Fin (k * (nx + nu)) → ℝ) (i : Fin k) (j : Fin nu) :
    Ocp.controls z i j = z (uIdx i j) := by rw [Ocp.controls, ← flatIdx_eq]; rfl

theorem states_fn (z : Vec ℝ (k * (nx + nu))) (i : Fin k) :
    Ocp.states z.fn i = (xBlock z i).fn := by ext j; simp [states_eq]

theorem controls_fn (z : Vec ℝ (k * (nx + nu))) (i : Fin k) :
    Ocp.controls z.fn i = (uBlock z i).fn := by ext j; simp [controls_eq]

theorem sum_flat (F : Fin (k * m) → ℝ) : ∑ a, F a = ∑ i, ∑ j, F (flatIdx i j) := by
  rw [← Fintype.sum_prod_type', ← Equiv.sum_comp finProdFinEquiv]
  exact Finset.sum_congr rfl fun x _ => by rw [flatIdx_eq]

theorem sum_stage (F : Fin (k * (nx + nu)) → ℝ) :
    ∑ a, F a = ∑ i, (∑ j, F (xIdx i j) + ∑ j, F (uIdx i j)) := by
  rw [sum_flat]
  exact Finset.sum_congr rfl fun i _ => by rw [Fin.sum_univ_add]; rfl

theorem forall_stage {P : Fin (k * (nx + nu)) → Prop} :
    (∀ a, P a) ↔ ∀ i, (∀ j, P (xIdx i j)) ∧ ∀ j, P (uIdx i j) := by
  refine ⟨fun h i => ⟨fun j => h _, fun j => h _⟩, fun h a => ?_⟩
  rcases xuIdx_surj a with ⟨i, j, rfl⟩ | ⟨i, j, rfl⟩
  · exact (h i).1 j
  · exact (h i).2 j

theorem forall_flat {P : Fin (k * m) → Prop} : (∀ a, P a) ↔ ∀ i j, P (flatIdx i j) := by
  refine ⟨fun h i j => h _, fun h a => ?_⟩
  obtain ⟨i, j, rfl⟩ := flatIdx_surj a
  exact h i j

@[simp] theorem stack_xIdx (x : Fin k → Fin nx → ℝ) (u : Fin k → Fin nu → ℝ) (i : Fin k)
    (j : Fin nx) : Ocp.stack x u (xIdx i j) = x i j := by simp [Ocp.stack]
@[simp] theorem stack_uIdx (x : Fin k → Fin nx → ℝ) (u : Fin k → Fin nu → ℝ) (i : Fin k)
    (j : Fin nu) : Ocp.stack x u (uIdx i j) = u i j := by simp [Ocp.stack]

theorem states_stack (x : Fin k → Fin nx → ℝ) (u : Fin k → Fin nu → ℝ) :
    Ocp.states (Ocp.stack x u) = x := by funext i j; simp [states_eq]
theorem controls_stack (x : Fin k → Fin nx → ℝ) (u : Fin k → Fin nu → ℝ) :
    Ocp.controls (Ocp.stack x u) = u := by funext i j; simp [controls_eq]
theorem stack_split (z : Fin (k * (nx + nu)) → ℝ) :
    Ocp.stack (Ocp.states z) (Ocp.controls z) = z := by
  funext a; revert a
  rw [forall_stage]
  intro i
  simp [states_eq, controls_eq]

end

theorem sum_two {n : Nat} (F : Fin n → ℝ) (a b : Fin n) (hne : b ≠ a)
    (h : ∀ k, k ≠ a → k ≠ b → F k = 0) : ∑ k, F k = F a + F b := by
  rw [← Finset.add_sum_erase _ F (Finset.mem_univ a),
    ← Finset.add_sum_erase (Finset.univ.erase a) F
      (Finset.mem_erase.2 ⟨hne, Finset.mem_univ b⟩), Finset.sum_eq_zero, add_zero]
  intro k hk
  simp only [Finset.mem_erase, Finset.mem_univ, and_true] at hk
  exact h k hk.2 hk.1

/-! ## Products with the stacked matrices -/

namespace Ocp
variable {N nx nu nc : Nat} (p : Ocp N nx nu nc)

theorem H_x (z : Fin ((N + 1) * (nx + nu)) → ℝ) (i : Fin (N + 1)) (j : Fin nx) :
    (p.toQP.H *ᵥ z) (xIdx i j) =
      (p.Q i *ᵥ states z i) j + ((p.S i)ᵀ *ᵥ controls z i) j := by
  simp only [mulVec, dotProduct, sum_stage, toQP, of_apply, stage_xIdx, stage_uIdx, fromBlocks_apply₁₁,
    fromBlocks_apply₁₂, ite_mul, zero_mul]
  rw [Finset.sum_eq_single i]
  · simp [states_eq, controls_eq]
  · intro b _ hb; simp [Ne.symm hb]
  · simp

theorem H_u (z : Fin ((N + 1) * (nx + nu)) → ℝ) (i : Fin (N + 1)) (j : Fin nu) :
    (p.toQP.H *ᵥ z) (uIdx i j) =
      (p.S i *ᵥ states z i) j + (p.R i *ᵥ controls z i) j := by
  simp only [mulVec, dotProduct, sum_stage, toQP, of_apply, stage_xIdx, stage_uIdx, fromBlocks_apply₂₁,
    fromBlocks_apply₂₂, ite_mul, zero_mul]
  rw [Finset.sum_eq_single i]
  · simp [states_eq, controls_eq]
  · intro b _ hb; simp [Ne.symm hb]
  · simp

theorem A_c (z : Fin ((N + 1) * (nx + nu)) → ℝ) (i : Fin (N + 1)) (j : Fin nc) :
    (p.toQP.A *ᵥ z) (flatIdx i j) = (p.E i *ᵥ states z i) j + (p.L i *ᵥ controls z i) j := by
  simp only [mulVec, dotProduct, sum_stage, toQP, of_apply, stage_xIdx, stage_uIdx, block_flatIdx,
    fromCols_apply_inl, fromCols_apply_inr, ite_mul, zero_mul]
  rw [Finset.sum_eq_single i]
  · simp [states_eq, controls_eq]
  · intro b _ hb; simp [hb]
  · simp

theorem AT_x (v : Fin ((N + 1) * nc) → ℝ) (i : Fin (N + 1)) (j : Fin nx) :
    (p.toQP.Aᵀ *ᵥ v) (xIdx i j) = ((p.E i)ᵀ *ᵥ fun a => v (flatIdx i a)) j := by
  simp only [mulVec, dotProduct, sum_flat, toQP, transpose_apply, of_apply, stage_xIdx, block_flatIdx,
    fromCols_apply_inl, ite_mul, zero_mul]
  rw [Finset.sum_eq_single i]
  · simp
  · intro b _ hb; simp [Ne.symm hb]
  · simp

theorem AT_u (v : Fin ((N + 1) * nc) → ℝ) (i : Fin (N + 1)) (j : Fin nu) :
    (p.toQP.Aᵀ *ᵥ v) (uIdx i j) = ((p.L i)ᵀ *ᵥ fun a => v (flatIdx i a)) j := by
  simp only [mulVec, dotProduct, sum_flat, toQP, transpose_apply, of_apply, stage_uIdx, block_flatIdx,
    fromCols_apply_inr, ite_mul, zero_mul]
  rw [Finset.sum_eq_single i]
  · simp
  · intro b _ hb; simp [Ne.symm hb]
  · simp

theorem G_zero (z : Fin ((N + 1) * (nx + nu)) → ℝ) (j : Fin nx) :
    (p.toQP.G *ᵥ z) (flatIdx 0 j) = -states z 0 j := by
  simp only [mulVec, dotProduct, sum_stage, toQP, of_apply, stage_xIdx, stage_uIdx, block_flatIdx,
    fromCols_apply_inl, fromCols_apply_inr, Fin.cases_zero]
  rw [Finset.sum_eq_single 0]
  · simp [states_eq, one_apply]
  · intro b _ hb; simp [hb]
  · simp

theorem G_succ (z : Fin ((N + 1) * (nx + nu)) → ℝ) (i : Fin N) (j : Fin nx) :
    (p.toQP.G *ᵥ z) (flatIdx i.succ j) =
      (p.A i *ᵥ states z i.castSucc) j + (p.B i *ᵥ controls z i.castSucc) j -
        states z i.succ j := by
  have hne : i.castSucc ≠ i.succ := fun h => by
    have := congrArg Fin.val h; simp at this
  simp only [mulVec, dotProduct, sum_stage, toQP, of_apply, stage_xIdx, stage_uIdx, block_flatIdx,
    fromCols_apply_inl, fromCols_apply_inr, Fin.cases_succ]
  rw [sum_two _ i.succ i.castSucc hne]
  · simp [states_eq, controls_eq, one_apply, hne]; ring
  · intro b hb hb'
    simp [hb, hb']

theorem GT_castSucc_x (l : Fin ((N + 1) * nx) → ℝ) (i : Fin N) (j : Fin nx) :
    (p.toQP.Gᵀ *ᵥ l) (xIdx i.castSucc j) =
      ((p.A i)ᵀ *ᵥ fun a => l (flatIdx i.succ a)) j - l (flatIdx i.castSucc j) := by
  have hne : i.castSucc ≠ i.succ := fun h => by
    have := congrArg Fin.val h; simp at this
  simp only [mulVec, dotProduct, sum_flat, toQP, transpose_apply, of_apply, stage_xIdx, block_flatIdx,
    fromCols_apply_inl]
  rw [sum_two _ i.succ i.castSucc hne]
  · simp [one_apply, hne]; ring
  · intro b hb hb'
    refine Finset.sum_eq_zero fun a _ => ?_
    rw [if_neg (Ne.symm hb')]
    revert hb
    refine Fin.cases ?_ (fun b' => ?_) b
    · simp
    · intro hb
      have : i ≠ b' := fun h => hb (by rw [h])
      simp [this]

theorem GT_castSucc_u (l : Fin ((N + 1) * nx) → ℝ) (i : Fin N) (j : Fin nu) :
    (p.toQP.Gᵀ *ᵥ l) (uIdx i.castSucc j) =
      ((p.B i)ᵀ *ᵥ fun a => l (flatIdx i.succ a)) j := by
  have hne : i.castSucc ≠ i.succ := fun h => by
    have := congrArg Fin.val h; simp at this
  simp only [mulVec, dotProduct, sum_flat, toQP, transpose_apply, of_apply, stage_uIdx, block_flatIdx,
    fromCols_apply_inr]
  rw [Finset.sum_eq_single i.succ]
  · simp [hne]
  · intro b _ hb
    refine Finset.sum_eq_zero fun a _ => ?_
    by_cases h : i.castSucc = b
    · simp [h]
    · rw [if_neg h]
      revert hb
      refine Fin.cases ?_ (fun b' => ?_) b
      · simp
      · intro hb
        have : i ≠ b' := fun h => hb (by rw [h])
        simp [this]
  · simp

theorem GT_last_x (l : Fin ((N + 1) * nx) → ℝ) (j : Fin nx) :
    (p.toQP.Gᵀ *ᵥ l) (xIdx (Fin.last N) j) = -l (flatIdx (Fin.last N) j) := by
  simp only [mulVec, dotProduct, sum_flat, toQP, transpose_apply, of_apply, stage_xIdx, block_flatIdx,
    fromCols_apply_inl]
  rw [Finset.sum_eq_single (Fin.last N)]
  · simp [one_apply]
  · intro b _ hb
    refine Finset.sum_eq_zero fun a _ => ?_
    rw [if_neg (Ne.symm hb)]
    refine Fin.cases ?_ (fun b' => ?_) b
    · simp
    · have : Fin.last N ≠ b'.castSucc := (Fin.castSucc_ne_last b').symm
      simp [this]
  · simp

theorem GT_last_u (l : Fin ((N + 1) * nx) → ℝ) (j : Fin nu) :
    (p.toQP.Gᵀ *ᵥ l) (uIdx (Fin.last N) j) = 0 := by
  simp only [mulVec, dotProduct, sum_flat, toQP, transpose_apply, of_apply, stage_uIdx, block_flatIdx,
    fromCols_apply_inr]
  refine Finset.sum_eq_zero fun b _ => Finset.sum_eq_zero fun a _ => ?_
  by_cases h : Fin.last N = b
  · simp [h]
  · rw [if_neg h]
    refine Fin.cases ?_ (fun b' => ?_) b
    · simp
    · have : Fin.last N ≠ b'.castSucc := (Fin.castSucc_ne_last b').symm
      simp [this]

end Ocp

/-! ## The methods of `MpcData` -/

theorem scaleBy_eq {n : Nat} (b : ℝ) (y : Vec ℝ n) (i : Fin n) : scaleBy b y i = b * y i := by
  unfold scaleBy
  by_cases h0 : b = 0
  · simp [h0]
  · by_cases h1 : b = 1
    · simp [h1]
    · simp [h0, h1, mul_comm]

namespace MpcData
variable {N nx nu nc : Nat} (d : MpcData ℝ N nx nu nc)

theorem id_inj {n : Nat} : ∀ i j : Fin n, id i = id j → i = j := fun _ _ h => h

/-- The state and control parts of stage `k`. -/
def xu (k : Fin (N + 1)) (w : Vec ℝ ((N + 1) * (nx + nu))) : Vec ℝ nx × Vec ℝ nu :=
  (xBlock w k, uBlock w k)

theorem gemvH_blocks (x : Vec ℝ ((N + 1) * (nx + nu))) (a b : ℝ)
    (y : Vec ℝ ((N + 1) * (nx + nu))) (i : Fin (N + 1)) :
    xu i (d.gemvH x a b y) =
      (xBlock (scaleBy b y) i + a * (d.Q i * xBlock x i + (d.S i).transpose * uBlock x i),
      uBlock (scaleBy b y) i + a * (d.S i * xBlock x i + d.R i * uBlock x i)) := by
  refine (forFin_block (n := N + 1) id id_inj xu (fun i p =>
    (p.1 + a * (d.Q i * xBlock x i + (d.S i).transpose * uBlock x i),
      p.2 + a * (d.S i * xBlock x i + d.R i * uBlock x i))) ?_ (scaleBy b y)).1 i
  intro i w k
  by_cases hk : k = i
  · subst hk
    simp only [id, if_true, xu, Prod.mk.injEq]
    by_cases h1 : a = 1
    · subst h1; constructor <;> ext j <;> simp
    · by_cases h2 : a = -1
      · subst h2; constructor <;> ext j <;> norm_num <;> ring
      · constructor <;> ext j <;> simp [h1, h2] <;> ring
  · simp only [id, xu, if_neg hk]
    split
    · simp [xBlock_setX, uBlock_setU, hk]
    · split <;> simp [xBlock_setX, uBlock_setU, hk]

theorem gemvA_blocks (x : Vec ℝ ((N + 1) * (nx + nu))) (a b : ℝ) (y : Vec ℝ ((N + 1) * nc))
    (i : Fin (N + 1)) :
    colBlock (d.gemvA x a b y) i =
      colBlock (scaleBy b y) i + a * (d.E i * xBlock x i + d.L i * uBlock x i) := by
  refine (forFin_block (n := N + 1) id id_inj (fun k w => colBlock w k) (fun i p =>
    p + a * (d.E i * xBlock x i + d.L i * uBlock x i)) ?_ (scaleBy b y)).1 i
  intro i w k
  by_cases hk : k = i
  · subst hk
    simp only [id, if_true]
    by_cases h1 : a = 1
    · subst h1; ext j; simp
    · by_cases h2 : a = -1
      · subst h2; ext j; norm_num; ring
      · ext j; simp [h1, h2]; ring
  · simp only [id, if_neg hk]
    split
    · simp [colBlock_setCol, hk]
    · split <;> simp [colBlock_setCol, hk]

theorem gemvAT_blocks (x : Vec ℝ ((N + 1) * nc)) (a b : ℝ)
    (y : Vec ℝ ((N + 1) * (nx + nu))) (i : Fin (N + 1)) :
    xu i (d.gemvAT x a b y) =
      (xBlock (scaleBy b y) i + a * ((d.E i).transpose * colBlock x i),
      uBlock (scaleBy b y) i + a * ((d.L i).transpose * colBlock x i)) := by
  refine (forFin_block (n := N + 1) id id_inj xu (fun i p =>
    (p.1 + a * ((d.E i).transpose * colBlock x i),
      p.2 + a * ((d.L i).transpose * colBlock x i))) ?_ (scaleBy b y)).1 i
  intro i w k
  by_cases hk : k = i
  · subst hk
    simp only [id, if_true, xu, Prod.mk.injEq]
    by_cases h1 : a = 1
    · subst h1; constructor <;> ext j <;> simp
    · by_cases h2 : a = -1
      · subst h2; constructor <;> ext j <;> norm_num <;> ring
      · constructor <;> ext j <;> simp [h1, h2]
  · simp only [id, xu, if_neg hk]
    split
    · simp [xBlock_setX, uBlock_setU, hk]
    · split <;> simp [xBlock_setX, uBlock_setU, hk]

theorem succ_inj {n : Nat} : ∀ i j : Fin n, i.succ = j.succ → i = j := fun _ _ h =>
  Fin.succ_injective _ h
theorem castSucc_inj {n : Nat} : ∀ i j : Fin n, i.castSucc = j.castSucc → i = j := fun _ _ h =>
  Fin.castSucc_injective _ h

theorem gemvG_blocks (x : Vec ℝ ((N + 1) * (nx + nu))) (a b : ℝ) (y : Vec ℝ ((N + 1) * nx)) :
    colBlock (d.gemvG x a b y) 0 = colBlock (scaleBy b y) 0 - a * xBlock x 0 ∧
    ∀ i : Fin N, colBlock (d.gemvG x a b y) i.succ =
      colBlock (scaleBy b y) i.succ +
        a * (d.A i * xBlock x i.castSucc + d.B i * uBlock x i.castSucc - xBlock x i.succ) := by
  have key := forFin_block (n := N) (fun i => i.succ) succ_inj (fun k w => colBlock w k) (fun i p =>
    p + a * (d.A i * xBlock x i.castSucc + d.B i * uBlock x i.castSucc - xBlock x i.succ))
    (f := fun i w =>
      let A := d.A i
      let B := d.B i
      let xm1 := xBlock x i.castSucc
      let um1 := uBlock x i.castSucc
      let xi := xBlock x i.succ
      if a == 1 then
        let w := setCol w i.succ (colBlock w i.succ + (A * xm1 + B * um1))
        setCol w i.succ (colBlock w i.succ - xi)
      else if a == -1 then
        let w := setCol w i.succ (colBlock w i.succ - (A * xm1 + B * um1))
        setCol w i.succ (colBlock w i.succ + xi)
      else
        let w := setCol w i.succ (colBlock w i.succ + a * (A * xm1))
        let w := setCol w i.succ (colBlock w i.succ + a * (B * um1))
        setCol w i.succ (colBlock w i.succ - a * xi)) ?_
    (setCol (scaleBy b y) 0 (colBlock (scaleBy b y) 0 + (-a) * xBlock x 0))
  · refine ⟨(key.2 0 fun i => (Fin.succ_ne_zero i).symm).trans ?_, fun i => (key.1 i).trans ?_⟩
    · ext j; simp; ring
    · simp [colBlock_setCol, Fin.succ_ne_zero]
  · intro i w k
    by_cases hk : k = i.succ
    · subst hk
      simp only [if_true]
      by_cases h1 : a = 1
      · subst h1; ext j; simp; ring
      · by_cases h2 : a = -1
        · subst h2; ext j; norm_num; ring
        · ext j; simp [h1, h2]; ring
    · simp only [if_neg hk]
      split
      · simp [colBlock_setCol, hk]
      · split <;> simp [colBlock_setCol, hk]

/-- `gemvGT` as it is: the control part is scaled correctly for `a = 1` and `a = -1`, and missing
otherwise. -/
theorem gemvGT_blocks (x : Vec ℝ ((N + 1) * nx)) (a b : ℝ) (y : Vec ℝ ((N + 1) * (nx + nu))) :
    xu (Fin.last N) (d.gemvGT x a b y) =
      (xBlock (scaleBy b y) (Fin.last N) - a * colBlock x (Fin.last N),
        uBlock (scaleBy b y) (Fin.last N)) ∧
    ∀ i : Fin N, xu i.castSucc (d.gemvGT x a b y) =
      (xBlock (scaleBy b y) i.castSucc +
        a * ((d.A i).transpose * colBlock x i.succ - colBlock x i.castSucc),
      uBlock (scaleBy b y) i.castSucc + (if a = 1 ∨ a = -1 then a else 0) *
        ((d.B i).transpose * colBlock x i.succ)) := by
  have key := forFin_block (n := N) (fun i => i.castSucc) castSucc_inj xu (fun i p =>
    (p.1 + a * ((d.A i).transpose * colBlock x i.succ - colBlock x i.castSucc),
      p.2 + (if a = 1 ∨ a = -1 then a else 0) * ((d.B i).transpose * colBlock x i.succ)))
    (f := fun i w =>
      let A := d.A i
      let B := d.B i
      let vi := colBlock x i.castSucc
      let vp1 := colBlock x i.succ
      let w := setX w i.castSucc (xBlock w i.castSucc + (-a) * vi)
      if a == 1 then
        let w := setX w i.castSucc (xBlock w i.castSucc + A.transpose * vp1)
        setU w i.castSucc (uBlock w i.castSucc + B.transpose * vp1)
      else if a == -1 then
        let w := setX w i.castSucc (xBlock w i.castSucc - A.transpose * vp1)
        setU w i.castSucc (uBlock w i.castSucc - B.transpose * vp1)
      else
        setX w i.castSucc (xBlock w i.castSucc + a * (A.transpose * vp1))) ?_
    (scaleBy b y)
  · constructor
    · have k2 := key.2 (Fin.last N) fun i => (Fin.castSucc_ne_last i).symm
      simp only [xu, Prod.mk.injEq] at k2 ⊢
      unfold gemvGT
      refine ⟨?_, ?_⟩
      · rw [xBlock_setX_same, k2.1]
        ext j; simp; ring
      · rw [uBlock_setX]
        exact k2.2
    · intro i
      have k1 := key.1 i
      simp only [xu, Prod.mk.injEq] at k1 ⊢
      unfold gemvGT
      refine ⟨?_, ?_⟩
      · rw [xBlock_setX, if_neg (Fin.castSucc_ne_last i)]
        exact k1.1
      · rw [uBlock_setX]
        exact k1.2
  · intro i w k
    by_cases hk : k = i.castSucc
    · subst hk
      simp only [if_true, xu, Prod.mk.injEq]
      by_cases h1 : a = 1
      · subst h1; constructor <;> ext j <;> simp; ring
      · by_cases h2 : a = -1
        · subst h2; constructor <;> ext j <;> norm_num <;> ring
        · constructor <;> ext j <;> simp [h1, h2]; ring
    · simp only [xu, if_neg hk]
      split
      · simp [xBlock_setX, uBlock_setU, hk]
      · split <;> simp [xBlock_setX, uBlock_setU, hk]

theorem axpyf_blocks (a : ℝ) (y : Vec ℝ ((N + 1) * (nx + nu))) (i : Fin (N + 1)) :
    xu i (d.axpyf a y) = (xBlock y i + a * d.q i, uBlock y i + a * d.r i) := by
  refine (forFin_block (n := N + 1) id id_inj xu (fun i p =>
    (p.1 + a * d.q i, p.2 + a * d.r i)) ?_ y).1 i
  intro i w k
  by_cases hk : k = i
  · subst hk
    simp [xu]
  · simp [xu, hk, xBlock_setX, uBlock_setU]

theorem axpyh_blocks (a : ℝ) (y : Vec ℝ ((N + 1) * nx)) :
    colBlock (d.axpyh a y) 0 = colBlock y 0 - a * d.x0 ∧
    ∀ i : Fin N, colBlock (d.axpyh a y) i.succ = colBlock y i.succ - a * d.c i := by
  have key := forFin_block (n := N) (fun i => i.succ) succ_inj (fun k w => colBlock w k)
    (fun i p => p + (-a) * d.c i)
    (f := fun i w => setCol w i.succ (colBlock w i.succ + (-a) * d.c i)) ?_
    (setCol y 0 (colBlock y 0 + (-a) * d.x0))
  · refine ⟨(key.2 0 fun i => (Fin.succ_ne_zero i).symm).trans ?_, fun i => (key.1 i).trans ?_⟩
    · ext j; simp; ring
    · ext j; simp [colBlock_setCol, Fin.succ_ne_zero]; ring
  · intro i w k
    by_cases hk : k = i.succ
    · subst hk; simp
    · simp [colBlock_setCol, hk]

theorem axpyb_blocks (a : ℝ) (y : Vec ℝ ((N + 1) * nc)) (i : Fin (N + 1)) :
    colBlock (d.axpyb a y) i = colBlock y i - a * d.d i := by
  have key := (forFin_block (n := N + 1) id id_inj (fun k w => colBlock w k) (fun i p =>
    p + (-a) * d.d i) (f := fun i w => setCol w i (colBlock w i + (-a) * d.d i)) ?_ y).1 i
  · refine key.trans ?_
    ext j; simp; ring
  · intro i w k
    by_cases hk : k = i
    · subst hk; simp
    · simp [colBlock_setCol, hk]

theorem forcingNorm_eq : d.forcingNorm = √((Ocp.ofMpc d).toQP.f ⬝ᵥ (Ocp.ofMpc d).toQP.f +
    (Ocp.ofMpc d).toQP.h ⬝ᵥ (Ocp.ofMpc d).toQP.h + (Ocp.ofMpc d).toQP.b ⬝ᵥ (Ocp.ofMpc d).toQP.b) := by
  unfold forcingNorm
  rw [scalar_sqrt]
  congr 1
  have h := foldl_add_eq_sum (N + 1) (fun i => (d.q i).squaredNorm + (d.r i).squaredNorm +
    (d.d i).squaredNorm + (Fin.cases d.x0 (fun i => d.c i) i : Vec ℝ nx).squaredNorm) 0
  have e : ∀ (i : Fin (N + 1)) (s : ℝ), s + (d.q i).squaredNorm + (d.r i).squaredNorm +
      (d.d i).squaredNorm + (if h : i.1 = 0 then d.x0.squaredNorm
         else (d.c ⟨i.1 - 1, by have := i.2; omega⟩).squaredNorm) =
      s + ((d.q i).squaredNorm + (d.r i).squaredNorm +
    (d.d i).squaredNorm + (Fin.cases d.x0 (fun i => d.c i) i : Vec ℝ nx).squaredNorm) := by
    intro i s
    refine Fin.cases ?_ (fun i => ?_) i
    · simp; ring
    · simp; ring
  unfold forFin
  simp only [e]
  rw [h, zero_add]
  simp only [dotProduct]
  rw [sum_stage, sum_flat (k := N + 1) (m := nx), sum_flat (k := N + 1) (m := nc)]
  rw [← Finset.sum_add_distrib, ← Finset.sum_add_distrib]
  refine Finset.sum_congr rfl fun i _ => ?_
  simp only [Ocp.toQP, stack_xIdx, stack_uIdx, block_flatIdx, Ocp.ofMpc, Vec.squaredNorm_eq,
    dotProduct, Vec.fn_apply]
  refine Fin.cases ?_ (fun i => ?_) i <;> simp <;> ring

theorem xu_x {k : Fin (N + 1)} {w : Vec ℝ ((N + 1) * (nx + nu))} {p} (h : xu k w = p) :
    xBlock w k = p.1 := by rw [← h]; rfl
theorem xu_u {k : Fin (N + 1)} {w : Vec ℝ ((N + 1) * (nx + nu))} {p} (h : xu k w = p) :
    uBlock w k = p.2 := by rw [← h]; rfl

theorem fn_ext_xu {w : Vec ℝ ((N + 1) * (nx + nu))} {g : Fin ((N + 1) * (nx + nu)) → ℝ}
    (h : ∀ i, (∀ j, xBlock w i j = g (xIdx i j)) ∧ ∀ j, uBlock w i j = g (uIdx i j)) :
    w.fn = g := by
  funext a; revert a
  rw [forall_stage]
  intro i
  simpa using h i

theorem fn_ext_col {m : Nat} {w : Vec ℝ ((N + 1) * m)} {g : Fin ((N + 1) * m) → ℝ}
    (h : ∀ i j, colBlock w i j = g (flatIdx i j)) : w.fn = g := by
  funext a; revert a
  rw [forall_flat]
  intro i j
  simpa using h i j

theorem col_fn {m : Nat} (x : Vec ℝ ((N + 1) * m)) (i : Fin (N + 1)) :
    (fun a => x.fn (flatIdx i a)) = (colBlock x i).fn := by ext a; simp

/-- `gemvGT` computes the documented product for `a = 1` and `a = -1`. -/
theorem gemvGT_eq (x : Vec ℝ ((N + 1) * nx)) (a b : ℝ) (y : Vec ℝ ((N + 1) * (nx + nu)))
    (ha : a = 1 ∨ a = -1) :
    (d.gemvGT x a b y).fn = a • ((Ocp.ofMpc d).toQP.Gᵀ *ᵥ x.fn) + b • y.fn := by
  obtain ⟨h1, h2⟩ := d.gemvGT_blocks x a b y
  refine fn_ext_xu fun i => ?_
  refine Fin.lastCases ?_ (fun i => ?_) i
  · rw [xu_x h1, xu_u h1]
    simp only [Pi.add_apply, Pi.smul_apply, Ocp.GT_last_x, Ocp.GT_last_u]
    constructor <;> intro j <;> simp [scaleBy_eq]; ring
  · rw [xu_x (h2 i), xu_u (h2 i), if_pos ha]
    simp only [Pi.add_apply, Pi.smul_apply, Ocp.GT_castSucc_x, Ocp.GT_castSucc_u, col_fn]
    constructor <;> intro j <;> simp [scaleBy_eq, Ocp.ofMpc, mulVec, dotProduct] <;> ring

theorem implements : (Ocp.ofMpc d).toQP.Implements d.ops where
  gemvH x a b y := by
    refine fn_ext_xu fun i => ?_
    rw [show d.ops.gemvH = d.gemvH from rfl, xu_x (d.gemvH_blocks x a b y i),
      xu_u (d.gemvH_blocks x a b y i)]
    simp only [Pi.add_apply, Pi.smul_apply, Ocp.H_x, Ocp.H_u, states_fn, controls_fn]
    constructor <;> intro j <;> simp [scaleBy_eq, Ocp.ofMpc, mulVec, dotProduct] <;> ring
  gemvA x a b y := by
    refine fn_ext_col fun i j => ?_
    rw [show d.ops.gemvA = d.gemvA from rfl, gemvA_blocks]
    simp only [Pi.add_apply, Pi.smul_apply, Ocp.A_c, states_fn, controls_fn]
    simp [scaleBy_eq, Ocp.ofMpc, mulVec, dotProduct]; ring
  gemvG x a b y := by
    obtain ⟨h1, h2⟩ := d.gemvG_blocks x a b y
    refine fn_ext_col fun i j => ?_
    rw [show d.ops.gemvG = d.gemvG from rfl]
    refine Fin.cases ?_ (fun i => ?_) i
    · rw [h1]
      simp only [Pi.add_apply, Pi.smul_apply, Ocp.G_zero, states_fn]
      simp [scaleBy_eq]; ring
    · rw [h2]
      simp only [Pi.add_apply, Pi.smul_apply, Ocp.G_succ, states_fn, controls_fn]
      simp [scaleBy_eq, Ocp.ofMpc, mulVec, dotProduct]; ring
  gemvAT x a b y := by
    refine fn_ext_xu fun i => ?_
    rw [show d.ops.gemvAT = d.gemvAT from rfl, xu_x (d.gemvAT_blocks x a b y i),
      xu_u (d.gemvAT_blocks x a b y i)]
    simp only [Pi.add_apply, Pi.smul_apply, Ocp.AT_x, Ocp.AT_u, col_fn]
    constructor <;> intro j <;> simp [scaleBy_eq, Ocp.ofMpc, mulVec, dotProduct] <;> ring
  gemvGT x b y := by
    rw [show d.ops.gemvGT = d.gemvGT from rfl, gemvGT_eq d x 1 b y (.inl rfl), one_smul]
  axpyf a y := by
    refine fn_ext_xu fun i => ?_
    rw [show d.ops.axpyf = d.axpyf from rfl, xu_x (d.axpyf_blocks a y i),
      xu_u (d.axpyf_blocks a y i)]
    simp only [Pi.add_apply, Pi.smul_apply, Ocp.toQP, stack_xIdx, stack_uIdx]
    constructor <;> intro j <;> simp [Ocp.ofMpc] <;> ring
  axpyh a y := by
    obtain ⟨h1, h2⟩ := d.axpyh_blocks a y
    refine fn_ext_col fun i j => ?_
    rw [show d.ops.axpyh = d.axpyh from rfl]
    refine Fin.cases ?_ (fun i => ?_) i
    · rw [h1]; simp [Ocp.toQP, Ocp.ofMpc]; ring
    · rw [h2]; simp [Ocp.toQP, Ocp.ofMpc]; ring
  axpyb a y := by
    refine fn_ext_col fun i j => ?_
    rw [show d.ops.axpyb = d.axpyb from rfl, axpyb_blocks]
    simp [Ocp.toQP, Ocp.ofMpc]; ring
  forcingNorm := d.forcingNorm_eq

end MpcData
end Fbstab
