import Verif.Proofs.RoundingKkt
import Verif.Proofs.MpcBlocks

/-!
# The residual of an MPC problem in rounded arithmetic
-/

namespace Fbstab
open Matrix

namespace Ocp
variable {N nx nu nc : Nat} (p : Ocp N nx nu nc)

theorem H_x_size (z : Fin ((N + 1) * (nx + nu)) → ℝ) (i : Fin (N + 1)) (j : Fin nx) :
    (∑ a, |p.Q i j a| * |z (xIdx i a)|) + (∑ a, |p.S i a j| * |z (uIdx i a)|) ≤
      ∑ a, |p.toQP.H (xIdx i j) a| * |z a| := by
  rw [sum_stage]
  refine le_trans (le_of_eq ?_) (Finset.single_le_sum (a := i) (fun b _ => ?_) (Finset.mem_univ i))
  · simp [toQP]
  · positivity

theorem H_u_size (z : Fin ((N + 1) * (nx + nu)) → ℝ) (i : Fin (N + 1)) (j : Fin nu) :
    (∑ a, |p.S i j a| * |z (xIdx i a)|) + (∑ a, |p.R i j a| * |z (uIdx i a)|) ≤
      ∑ a, |p.toQP.H (uIdx i j) a| * |z a| := by
  rw [sum_stage]
  refine le_trans (le_of_eq ?_) (Finset.single_le_sum (a := i) (fun b _ => ?_) (Finset.mem_univ i))
  · simp [toQP]
  · positivity

theorem A_x_size (v : Fin ((N + 1) * nc) → ℝ) (i : Fin (N + 1)) (j : Fin nx) :
    (∑ a, |p.E i a j| * |v (flatIdx i a)|) ≤ ∑ a, |p.toQP.A a (xIdx i j)| * |v a| := by
  rw [sum_flat]
  refine le_trans (le_of_eq ?_) (Finset.single_le_sum (a := i) (fun b _ => ?_) (Finset.mem_univ i))
  · simp [toQP]
  · positivity

theorem A_u_size (v : Fin ((N + 1) * nc) → ℝ) (i : Fin (N + 1)) (j : Fin nu) :
    (∑ a, |p.L i a j| * |v (flatIdx i a)|) ≤ ∑ a, |p.toQP.A a (uIdx i j)| * |v a| := by
  rw [sum_flat]
  refine le_trans (le_of_eq ?_) (Finset.single_le_sum (a := i) (fun b _ => ?_) (Finset.mem_univ i))
  · simp [toQP]
  · positivity

theorem two_le_sum {n : Nat} {f : Fin n → ℝ} (h : ∀ i, 0 ≤ f i) {a b : Fin n} (hne : a ≠ b) :
    f a + f b ≤ ∑ i, f i := by
  rw [← Finset.sum_pair hne]
  exact Finset.sum_le_univ_sum_of_nonneg h

theorem castSucc_ne_succ {n : Nat} (i : Fin n) : i.succ ≠ i.castSucc := fun h => by
  have := congrArg Fin.val h; simp at this

theorem abs_one_entry {n : Nat} (a b : Fin n) : |(-1 : Matrix (Fin n) (Fin n) ℝ) a b| = if a = b then 1 else 0 := by
  by_cases h : a = b <;> simp [Matrix.one_apply, h]

/-- The block of `G` for stage `i + 1` and the states of stage `i + 1`. -/
theorem G_diag (i : Fin (N + 1)) (j k : Fin nx) :
    |p.toQP.G (flatIdx i j) (xIdx i k)| = if j = k then 1 else 0 := by
  rw [← abs_one_entry]
  simp [toQP]

theorem G_A (i : Fin N) (j k : Fin nx) : p.toQP.G (flatIdx i.succ j) (xIdx i.castSucc k) = p.A i j k := by
  simp [toQP, (castSucc_ne_succ i).symm]

theorem G_B (i : Fin N) (j : Fin nx) (k : Fin nu) :
    p.toQP.G (flatIdx i.succ j) (uIdx i.castSucc k) = p.B i j k := by
  simp [toQP, (castSucc_ne_succ i).symm]

theorem sum_ite_abs {n : Nat} (j : Fin n) (f : Fin n → ℝ) :
    ∑ a, (if j = a then (1 : ℝ) else 0) * f a = f j := by simp

theorem GT_x_size (l : Fin ((N + 1) * nx) → ℝ) (i : Fin N) (j : Fin nx) :
    |l (flatIdx i.castSucc j)| + (∑ a, |p.A i a j| * |l (flatIdx i.succ a)|) ≤
      ∑ a, |p.toQP.G a (xIdx i.castSucc j)| * |l a| := by
  rw [sum_flat]
  refine le_trans (le_of_eq ?_) (two_le_sum (a := i.castSucc) (b := i.succ) (fun b => ?_)
    (castSucc_ne_succ i).symm)
  · simp only [G_diag, G_A]
    congr 1
    simp
  · positivity

theorem GT_last_size (l : Fin ((N + 1) * nx) → ℝ) (j : Fin nx) :
    |l (flatIdx (Fin.last N) j)| ≤ ∑ a, |p.toQP.G a (xIdx (Fin.last N) j)| * |l a| := by
  rw [sum_flat]
  refine le_trans (le_of_eq ?_) (Finset.single_le_sum (a := Fin.last N) (fun b _ => ?_) (Finset.mem_univ _))
  · simp only [G_diag]
    simp
  · positivity

theorem GT_u_size (l : Fin ((N + 1) * nx) → ℝ) (i : Fin N) (j : Fin nu) :
    (∑ a, |p.B i a j| * |l (flatIdx i.succ a)|) ≤ ∑ a, |p.toQP.G a (uIdx i.castSucc j)| * |l a| := by
  rw [sum_flat]
  refine le_trans (le_of_eq ?_) (Finset.single_le_sum (a := i.succ) (fun b _ => ?_) (Finset.mem_univ _))
  · simp only [G_B]
  · positivity

theorem G_zero_size (z : Fin ((N + 1) * (nx + nu)) → ℝ) (j : Fin nx) :
    |z (xIdx 0 j)| ≤ ∑ a, |p.toQP.G (flatIdx 0 j) a| * |z a| := by
  rw [sum_stage]
  refine le_trans ?_ (Finset.single_le_sum (a := 0) (fun b _ => ?_) (Finset.mem_univ _))
  · simp only [G_diag]
    refine le_add_of_le_of_nonneg (le_of_eq ?_) (by positivity)
    simp
  · positivity

theorem G_succ_size (z : Fin ((N + 1) * (nx + nu)) → ℝ) (i : Fin N) (j : Fin nx) :
    (∑ a, |p.A i j a| * |z (xIdx i.castSucc a)|) + (∑ a, |p.B i j a| * |z (uIdx i.castSucc a)|) +
      |z (xIdx i.succ j)| ≤ ∑ a, |p.toQP.G (flatIdx i.succ j) a| * |z a| := by
  rw [sum_stage]
  refine le_trans ?_ (two_le_sum (a := i.castSucc) (b := i.succ) (fun b => ?_) (castSucc_ne_succ i).symm)
  · simp only [G_diag, G_A, G_B]
    refine add_le_add le_rfl (le_add_of_le_of_nonneg (le_of_eq ?_) (by positivity))
    simp
  · positivity

end Ocp

namespace Rounding
variable {K : Type} [Scalar K] {u eta : ℝ} {F : Rounding K u eta}

theorem beqOk (F : Rounding K u eta) : BeqOk K where
  zero := (F.beq _ _ _ _ F.zero F.zero).2 rfl
  one_one := (F.beq _ _ _ _ F.one F.one).2 rfl
  one_zero := by
    rw [← Bool.not_eq_true]
    exact fun h => one_ne_zero ((F.beq _ _ _ _ F.one F.zero).1 h)
  neg_neg := (F.beq _ _ _ _ F.neg_one F.neg_one).2 rfl
  neg_one := by
    rw [← Bool.not_eq_true]
    intro h
    have := (F.beq _ _ _ _ F.neg_one F.one).1 h
    norm_num at this

variable {N nx nu nc : Nat} {d : MpcData K N nx nu nc} {p : Ocp N nx nu nc}

/-- Rows of the gradient: states. -/
theorem mpc_grad_x (hb : BeqOk K) (z l v) (i : Fin (N + 1)) (j : Fin nx) :
    (∃ i' : Fin N, i = i'.castSucc ∧ gradLagrangian d.ops z l v (xIdx i j) =
      0 + 1 * d.q i j + ((d.Q i * xBlock z i) j + ((d.S i).transpose * uBlock z i) j) +
        -1 * l (flatIdx i j) + ((d.A i').transpose * colBlock l i'.succ) j +
        ((d.E i).transpose * colBlock v i) j) ∨
    (i = Fin.last N ∧ gradLagrangian d.ops z l v (xIdx i j) =
      0 + 1 * d.q i j + ((d.Q i * xBlock z i) j + ((d.S i).transpose * uBlock z i) j) +
        -1 * l (flatIdx i j) + ((d.E i).transpose * colBlock v i) j) := by
  rw [← xBlock_get]
  simp only [gradLagrangian, MpcData.ops]
  rw [(d.gemvAT_one_gen hb _ _ i).1]
  refine Fin.lastCases (.inr ⟨rfl, ?_⟩) (fun i => .inl ⟨i, rfl, ?_⟩) i
  · rw [(d.gemvGT_one_gen hb _ _).1.1, (d.gemvH_one_gen hb _ _ _).1, (d.axpyf_any_gen _ _ _).1]
    simp only [Vec.get_add, Vec.get_smul, colBlock_get, xBlock_get, Vec.get_const]
  · rw [((d.gemvGT_one_gen hb _ _).2 i).1, (d.gemvH_one_gen hb _ _ _).1, (d.axpyf_any_gen _ _ _).1]
    simp only [Vec.get_add, Vec.get_smul, colBlock_get, xBlock_get, Vec.get_const]

/-- Rows of the gradient: controls. -/
theorem mpc_grad_u (hb : BeqOk K) (z l v) (i : Fin (N + 1)) (j : Fin nu) :
    (∃ i' : Fin N, i = i'.castSucc ∧ gradLagrangian d.ops z l v (uIdx i j) =
      0 + 1 * d.r i j + ((d.S i * xBlock z i) j + (d.R i * uBlock z i) j) +
        ((d.B i').transpose * colBlock l i'.succ) j + ((d.L i).transpose * colBlock v i) j) ∨
    (i = Fin.last N ∧ gradLagrangian d.ops z l v (uIdx i j) =
      0 + 1 * d.r i j + ((d.S i * xBlock z i) j + (d.R i * uBlock z i) j) +
        ((d.L i).transpose * colBlock v i) j) := by
  rw [← uBlock_get]
  simp only [gradLagrangian, MpcData.ops]
  rw [(d.gemvAT_one_gen hb _ _ i).2]
  refine Fin.lastCases (.inr ⟨rfl, ?_⟩) (fun i => .inl ⟨i, rfl, ?_⟩) i
  · rw [(d.gemvGT_one_gen hb _ _).1.2, (d.gemvH_one_gen hb _ _ _).2, (d.axpyf_any_gen _ _ _).2]
    simp only [Vec.get_add, Vec.get_smul, uBlock_get, Vec.get_const]
  · rw [((d.gemvGT_one_gen hb _ _).2 i).2, (d.gemvH_one_gen hb _ _ _).2, (d.axpyf_any_gen _ _ _).2]
    simp only [Vec.get_add, Vec.get_smul, uBlock_get, Vec.get_const]

theorem mpc_eq_zero (hb : BeqOk K) (z) (j : Fin nx) :
    eqDefect d.ops z (flatIdx 0 j) = 0 + -1 * d.x0 j + - -1 * z (xIdx 0 j) := by
  rw [← colBlock_get]
  simp only [eqDefect, MpcData.ops]
  rw [(d.gemvG_neg_gen hb _ _).1, (d.axpyh_any_gen _ _).1]
  simp only [Vec.get_add, Vec.get_smul, colBlock_get, xBlock_get, Vec.get_const]

theorem mpc_eq_succ (hb : BeqOk K) (z) (i : Fin N) (j : Fin nx) :
    eqDefect d.ops z (flatIdx i.succ j) = 0 + -1 * d.c i j -
      ((d.A i * xBlock z i.castSucc) j + (d.B i * uBlock z i.castSucc) j) + z (xIdx i.succ j) := by
  rw [← colBlock_get]
  simp only [eqDefect, MpcData.ops]
  rw [(d.gemvG_neg_gen hb _ _).2 i, (d.axpyh_any_gen _ _).2 i]
  simp only [Vec.get_add, Vec.get_sub, Vec.get_smul, colBlock_get, xBlock_get, Vec.get_const]

theorem near_mulVec' {r c : Nat} {M : Mat K r c} {R : Matrix (Fin r) (Fin c) ℝ} {x : Vec K c} {i : Fin r}
    {b : Fin c → ℝ} (hM : F.ReadsMat M R) (hx : F.Reads x b) (h : F.Fin' ((M * x) i)) :
    F.Near (2 * c) ((M * x) i) ((R *ᵥ b) i) (∑ j, |R i j| * |b j|) :=
  near_mulVec (hM i) hx h

theorem near_mulVecT {r c : Nat} {M : Mat K r c} {R : Matrix (Fin r) (Fin c) ℝ} {x : Vec K r} {i : Fin c}
    {b : Fin r → ℝ} (hM : F.ReadsMat M R) (hx : F.Reads x b) (h : F.Fin' ((M.transpose * x) i)) :
    F.Near (2 * r) ((M.transpose * x) i) ((Rᵀ *ᵥ b) i) (∑ j, |R j i| * |b j|) :=
  near_mulVec (fun j => by rw [Mat.get_transpose]; exact hM j i) hx h

theorem mpcGrad (hx0 : 0 < nx) (h : F.ReadsMpc d p) (z l v) (hf : F.FinVec (gradLagrangian d.ops z l v)) :
    ∃ rz rl rv, F.Reads z rz ∧ F.Reads l rl ∧ F.Reads v rv ∧ ∀ i,
      F.Near (4 * nx + 2 * nu + 2 * nc + 6) (gradLagrangian d.ops z l v i)
        (p.toQP.lagrangeGrad rz rl rv i) (p.toQP.gradSize rz rl rv i) := by
  have hb := F.beqOk
  -- finiteness
  have key : ∀ i : Fin (N + 1), ∀ j : Fin nx, F.Fin' ((d.Q i * xBlock z i) j) ∧
      F.Fin' (((d.S i).transpose * uBlock z i) j) ∧ F.Fin' (l (flatIdx i j)) ∧
      F.Fin' (((d.E i).transpose * colBlock v i) j) := by
    intro i j
    have h0 := hf (xIdx i j)
    rcases mpc_grad_x (d := d) hb z l v i j with ⟨i', -, e⟩ | ⟨-, e⟩
    · rw [e] at h0
      obtain ⟨h1, h2⟩ := fin_add h0
      obtain ⟨h3, h4⟩ := fin_add h1
      obtain ⟨h5, h6⟩ := fin_add h3
      obtain ⟨h7, h8⟩ := fin_add h5
      obtain ⟨h9, h10⟩ := fin_add h8
      exact ⟨h9, h10, (fin_mul h6).2, h2⟩
    · rw [e] at h0
      obtain ⟨h1, h2⟩ := fin_add h0
      obtain ⟨h5, h6⟩ := fin_add h1
      obtain ⟨h7, h8⟩ := fin_add h5
      obtain ⟨h9, h10⟩ := fin_add h8
      exact ⟨h9, h10, (fin_mul h6).2, h2⟩
  have fz : F.FinVec z := by
    intro a
    rcases xuIdx_surj a with ⟨i, j, rfl⟩ | ⟨i, j, rfl⟩
    · have := fin_mulVec (key i ⟨0, hx0⟩).1 j
      rwa [xBlock_get] at this
    · have := fin_mulVec (key i ⟨0, hx0⟩).2.1 j
      rwa [uBlock_get] at this
  have fl : F.FinVec l := by
    intro a
    obtain ⟨i, j, rfl⟩ := flatIdx_surj a
    exact (key i j).2.2.1
  have fv : F.FinVec v := by
    intro a
    obtain ⟨i, j, rfl⟩ := flatIdx_surj a
    have := fin_mulVec (key i ⟨0, hx0⟩).2.2.2 j
    rwa [colBlock_get] at this
  obtain ⟨rz, hz⟩ := fz.reads
  obtain ⟨rl, hl⟩ := fl.reads
  obtain ⟨rv, hv⟩ := fv.reads
  refine ⟨rz, rl, rv, hz, hl, hv, ?_⟩
  have hzx : ∀ i, F.Reads (xBlock z i) (fun j => rz (xIdx i j)) := fun i j => by rw [xBlock_get]; exact hz _
  have hzu : ∀ i, F.Reads (uBlock z i) (fun j => rz (uIdx i j)) := fun i j => by rw [uBlock_get]; exact hz _
  have hlc : ∀ i, F.Reads (colBlock l i) (fun j => rl (flatIdx i j)) := fun i j => by
    rw [colBlock_get]; exact hl _
  have hvc : ∀ i, F.Reads (colBlock v i) (fun j => rv (flatIdx i j)) := fun i j => by
    rw [colBlock_get]; exact hv _
  have sx : ∀ i, Ocp.states rz i = fun j => rz (xIdx i j) := fun i => by funext j; rw [states_eq]
  have su : ∀ i, Ocp.controls rz i = fun j => rz (uIdx i j) := fun i => by funext j; rw [controls_eq]
  rw [forall_stage]
  refine fun i => ⟨fun j => ?_, fun j => ?_⟩
  · have h0 := hf (xIdx i j)
    have hfq : p.toQP.f (xIdx i j) = p.q i j := by simp [Ocp.toQP]
    rcases mpc_grad_x (d := d) hb z l v i j with ⟨i', rfl, e⟩ | ⟨rfl, e⟩
    · rw [e] at h0 ⊢
      obtain ⟨h1, h2⟩ := fin_add h0
      obtain ⟨h3, h4⟩ := fin_add h1
      obtain ⟨h5, h6⟩ := fin_add h3
      obtain ⟨h7, h8⟩ := fin_add h5
      obtain ⟨h9, h10⟩ := fin_add h8
      have n1 := (near_exact F.zero).add (near_exact (h.q _ j)).one_mul (N := 1) le_rfl h7
      have n2 := (near_mulVec' (h.Q _) (hzx _) h9).add (near_mulVecT (h.S _) (hzu _) h10)
        (N := 2 * nx + 2 * nu + 1) le_rfl h8
      have n3 := n1.add n2 (N := 2 * nx + 2 * nu + 3) (by omega) h5
      have n4 := n3.add (near_exact (hl _)).neg_one_mul (N := 2 * nx + 2 * nu + 4) (by omega) h3
      have n5 := n4.add (near_mulVecT (h.A _) (hlc _) h4) (N := 4 * nx + 2 * nu + 5) (by omega) h1
      have n6 := n5.add (near_mulVecT (h.E _) (hvc _) h2) (N := 4 * nx + 2 * nu + 2 * nc + 6) (by omega) h0
      refine (n6.congr (e' := p.toQP.lagrangeGrad rz rl rv (xIdx i'.castSucc j)) ?_ rfl).mono le_rfl ?_
      · simp only [QP.lagrangeGrad, Pi.add_apply, p.H_x, p.GT_castSucc_x, p.AT_x, hfq, sx, su]; ring
      · simp only [QP.gradSize, abs_zero, hfq]
        have a1 := p.H_x_size rz i'.castSucc j
        have a2 := p.GT_x_size rl i' j
        have a3 := p.A_x_size rv i'.castSucc j
        linarith
    · rw [e] at h0 ⊢
      obtain ⟨h1, h2⟩ := fin_add h0
      obtain ⟨h5, h6⟩ := fin_add h1
      obtain ⟨h7, h8⟩ := fin_add h5
      obtain ⟨h9, h10⟩ := fin_add h8
      have n1 := (near_exact F.zero).add (near_exact (h.q _ j)).one_mul (N := 1) le_rfl h7
      have n2 := (near_mulVec' (h.Q _) (hzx _) h9).add (near_mulVecT (h.S _) (hzu _) h10)
        (N := 2 * nx + 2 * nu + 1) le_rfl h8
      have n3 := n1.add n2 (N := 2 * nx + 2 * nu + 3) (by omega) h5
      have n4 := n3.add (near_exact (hl _)).neg_one_mul (N := 2 * nx + 2 * nu + 4) (by omega) h1
      have n6 := n4.add (near_mulVecT (h.E _) (hvc _) h2) (N := 4 * nx + 2 * nu + 2 * nc + 6) (by omega) h0
      refine (n6.congr (e' := p.toQP.lagrangeGrad rz rl rv (xIdx (Fin.last N) j)) ?_ rfl).mono le_rfl ?_
      · simp only [QP.lagrangeGrad, Pi.add_apply, p.H_x, p.GT_last_x, p.AT_x, hfq, sx, su]; ring
      · simp only [QP.gradSize, abs_zero, hfq]
        have a1 := p.H_x_size rz (Fin.last N) j
        have a2 := p.GT_last_size rl j
        have a3 := p.A_x_size rv (Fin.last N) j
        linarith
  · have h0 := hf (uIdx i j)
    have hfq : p.toQP.f (uIdx i j) = p.r i j := by simp [Ocp.toQP]
    rcases mpc_grad_u (d := d) hb z l v i j with ⟨i', rfl, e⟩ | ⟨rfl, e⟩
    · rw [e] at h0 ⊢
      obtain ⟨h1, h2⟩ := fin_add h0
      obtain ⟨h5, h4⟩ := fin_add h1
      obtain ⟨h7, h8⟩ := fin_add h5
      obtain ⟨h9, h10⟩ := fin_add h8
      have n1 := (near_exact F.zero).add (near_exact (h.r _ j)).one_mul (N := 1) le_rfl h7
      have n2 := (near_mulVec' (h.S _) (hzx _) h9).add (near_mulVec' (h.R _) (hzu _) h10)
        (N := 2 * nx + 2 * nu + 1) le_rfl h8
      have n3 := n1.add n2 (N := 2 * nx + 2 * nu + 3) (by omega) h5
      have n5 := n3.add (near_mulVecT (h.B _) (hlc _) h4) (N := 4 * nx + 2 * nu + 5) (by omega) h1
      have n6 := n5.add (near_mulVecT (h.L _) (hvc _) h2) (N := 4 * nx + 2 * nu + 2 * nc + 6) (by omega) h0
      refine (n6.congr (e' := p.toQP.lagrangeGrad rz rl rv (uIdx i'.castSucc j)) ?_ rfl).mono le_rfl ?_
      · simp only [QP.lagrangeGrad, Pi.add_apply, p.H_u, p.GT_castSucc_u, p.AT_u, hfq, sx, su]; ring
      · simp only [QP.gradSize, abs_zero, hfq]
        have a1 := p.H_u_size rz i'.castSucc j
        have a2 := p.GT_u_size rl i' j
        have a3 := p.A_u_size rv i'.castSucc j
        linarith
    · rw [e] at h0 ⊢
      obtain ⟨h5, h2⟩ := fin_add h0
      obtain ⟨h7, h8⟩ := fin_add h5
      obtain ⟨h9, h10⟩ := fin_add h8
      have n1 := (near_exact F.zero).add (near_exact (h.r _ j)).one_mul (N := 1) le_rfl h7
      have n2 := (near_mulVec' (h.S _) (hzx _) h9).add (near_mulVec' (h.R _) (hzu _) h10)
        (N := 2 * nx + 2 * nu + 1) le_rfl h8
      have n3 := n1.add n2 (N := 2 * nx + 2 * nu + 3) (by omega) h5
      have n6 := n3.add (near_mulVecT (h.L _) (hvc _) h2) (N := 4 * nx + 2 * nu + 2 * nc + 6) (by omega) h0
      refine (n6.congr (e' := p.toQP.lagrangeGrad rz rl rv (uIdx (Fin.last N) j)) ?_ rfl).mono le_rfl ?_
      · simp only [QP.lagrangeGrad, Pi.add_apply, p.H_u, p.GT_last_u, p.AT_u, hfq, sx, su]; ring
      · simp only [QP.gradSize, abs_zero, hfq]
        have a1 := p.H_u_size rz (Fin.last N) j
        have a2 : 0 ≤ ∑ a, |p.toQP.G a (uIdx (Fin.last N) j)| * |rl a| := by positivity
        have a3 := p.A_u_size rv (Fin.last N) j
        linarith

theorem mpcEq (h : F.ReadsMpc d p) (z rz) (hz : F.Reads z rz) (hf : F.FinVec (eqDefect d.ops z)) (i) :
    F.Near (4 * nx + 2 * nu + 2 * nc + 6) (eqDefect d.ops z i) (p.toQP.h i - (p.toQP.G *ᵥ rz) i)
      (p.toQP.eqSize rz i) := by
  have hb := F.beqOk
  have hzx : ∀ i, F.Reads (xBlock z i) (fun j => rz (xIdx i j)) := fun i j => by rw [xBlock_get]; exact hz _
  have hzu : ∀ i, F.Reads (uBlock z i) (fun j => rz (uIdx i j)) := fun i j => by rw [uBlock_get]; exact hz _
  have sx : ∀ i, Ocp.states rz i = fun j => rz (xIdx i j) := fun i => by funext j; rw [states_eq]
  have su : ∀ i, Ocp.controls rz i = fun j => rz (uIdx i j) := fun i => by funext j; rw [controls_eq]
  revert i
  rw [forall_flat]
  intro i j
  have h0 := hf (flatIdx i j)
  revert h0
  refine Fin.cases ?_ (fun i => ?_) i
  · rw [mpc_eq_zero hb]
    intro h0
    have hh : p.toQP.h (flatIdx 0 j) = -p.x0 j := by simp [Ocp.toQP]
    obtain ⟨h1, h2⟩ := fin_add h0
    have n1 := (near_exact F.zero).add (near_exact (h.x0 j)).neg_one_mul (N := 1) le_rfl h1
    have n2 := n1.add ((near_exact (hz (xIdx 0 j))).one_mul' F.neg_neg_one)
      (N := 4 * nx + 2 * nu + 2 * nc + 6) (by omega) h0
    refine (n2.congr (e' := p.toQP.h (flatIdx 0 j) - (p.toQP.G *ᵥ rz) (flatIdx 0 j)) ?_ rfl).mono le_rfl ?_
    · rw [hh, p.G_zero, sx]; ring
    · simp only [QP.eqSize, hh, abs_zero, abs_neg]
      have := p.G_zero_size rz j
      linarith
  · rw [mpc_eq_succ hb]
    intro h0
    have hh : p.toQP.h (flatIdx i.succ j) = -p.c i j := by simp [Ocp.toQP]
    obtain ⟨h1, h2⟩ := fin_add h0
    obtain ⟨h3, h4⟩ := fin_sub h1
    obtain ⟨h5, h6⟩ := fin_add h4
    have n1 := (near_exact F.zero).add (near_exact (h.c i j)).neg_one_mul (N := 1) le_rfl h3
    have n2 := (near_mulVec' (h.A i) (hzx _) h5).add (near_mulVec' (h.B i) (hzu _) h6)
      (N := 2 * nx + 2 * nu + 1) le_rfl h4
    have n3 := n1.sub n2 (N := 2 * nx + 2 * nu + 3) (by omega) h1
    have n4 := n3.add (near_exact (hz _)) (N := 4 * nx + 2 * nu + 2 * nc + 6) (by omega) h0
    refine (n4.congr (e' := p.toQP.h (flatIdx i.succ j) - (p.toQP.G *ᵥ rz) (flatIdx i.succ j)) ?_
      rfl).mono le_rfl ?_
    · rw [hh, p.G_succ, sx, su, sx]; ring
    · simp only [QP.eqSize, hh, abs_zero, abs_neg]
      have := p.G_succ_size rz i j
      linarith

/-- The square of `(q, r, d, x0 or c)` at stage `i`. -/
def Ocp.stageSq (p : Ocp N nx nu nc) (i : Fin (N + 1)) : ℝ :=
  (∑ j, p.q i j * p.q i j) + (∑ j, p.r i j * p.r i j) + (∑ j, p.d i j * p.d i j) +
    ∑ j, (Fin.cases (p.x0 j) (fun i => p.c i j) i : ℝ) * (Fin.cases (p.x0 j) (fun i => p.c i j) i : ℝ)

theorem sum_stageSq (p : Ocp N nx nu nc) : ∑ i, Ocp.stageSq p i =
    p.toQP.f ⬝ᵥ p.toQP.f + p.toQP.h ⬝ᵥ p.toQP.h + p.toQP.b ⬝ᵥ p.toQP.b := by
  simp only [dotProduct]
  rw [sum_stage, sum_flat (k := N + 1) (m := nx), sum_flat (k := N + 1) (m := nc),
    ← Finset.sum_add_distrib, ← Finset.sum_add_distrib]
  refine Finset.sum_congr rfl fun i _ => ?_
  simp only [Ocp.stageSq, Ocp.toQP, stack_xIdx, stack_uIdx, block_flatIdx, neg_mul_neg]
  ring

theorem mpcForcing (h : F.ReadsMpc d p) : ∃ S, d.ops.forcingNorm = Scalar.sqrt S ∧ (F.Fin' S →
    F.Near ((N + 1) * (4 * nx + 2 * nu + 2 * nc + 4)) S
      (p.toQP.f ⬝ᵥ p.toQP.f + p.toQP.h ⬝ᵥ p.toQP.h + p.toQP.b ⬝ᵥ p.toQP.b)
      (p.toQP.f ⬝ᵥ p.toQP.f + p.toQP.h ⬝ᵥ p.toQP.h + p.toQP.b ⬝ᵥ p.toQP.b)) := by
  refine ⟨_, rfl, ?_⟩
  rw [← sum_stageSq]
  have step : ∀ (i : Fin (N + 1)) (s : K) (k : Nat) (e : ℝ), (F.Fin' s → F.Near k s e e) →
      F.Fin' (s + (d.q i).squaredNorm + (d.r i).squaredNorm + (d.d i).squaredNorm +
        (if h : i.1 = 0 then d.x0.squaredNorm else (d.c ⟨i.1 - 1, by have := i.2; omega⟩).squaredNorm)) →
      F.Near (k + (4 * nx + 2 * nu + 2 * nc + 4)) (s + (d.q i).squaredNorm + (d.r i).squaredNorm +
        (d.d i).squaredNorm +
        (if h : i.1 = 0 then d.x0.squaredNorm else (d.c ⟨i.1 - 1, by have := i.2; omega⟩).squaredNorm))
        (e + Ocp.stageSq p i) (e + Ocp.stageSq p i) := by
    intro i s k e hs h0
    obtain ⟨h1, h2⟩ := fin_add h0
    obtain ⟨h3, h4⟩ := fin_add h1
    obtain ⟨h5, h6⟩ := fin_add h3
    obtain ⟨h7, h8⟩ := fin_add h5
    have n1 := (hs h7).add (near_squaredNorm (h.q i) h8) (N := k + 2 * nx + 1) (by omega) h5
    have n2 := n1.add (near_squaredNorm (h.r i) h6) (N := k + 2 * nx + 2 * nu + 2) (by omega) h3
    have n3 := n2.add (near_squaredNorm (h.d i) h4) (N := k + 2 * nx + 2 * nu + 2 * nc + 3) (by omega) h1
    have n4 : F.Near (2 * nx)
        (if h : i.1 = 0 then d.x0.squaredNorm else (d.c ⟨i.1 - 1, by have := i.2; omega⟩).squaredNorm)
        (∑ j, (Fin.cases (p.x0 j) (fun i => p.c i j) i : ℝ) * (Fin.cases (p.x0 j) (fun i => p.c i j) i : ℝ))
        (∑ j, (Fin.cases (p.x0 j) (fun i => p.c i j) i : ℝ) *
          (Fin.cases (p.x0 j) (fun i => p.c i j) i : ℝ)) := by
      revert h2
      refine Fin.cases ?_ (fun i => ?_) i
      · intro h2
        simp only [Fin.val_zero, dite_true] at h2 ⊢
        exact near_squaredNorm h.x0 h2
      · intro h2
        simp only [Fin.val_succ, Nat.succ_ne_zero, dite_false, Nat.add_sub_cancel] at h2 ⊢
        exact near_squaredNorm (h.c i) h2
    have n5 := n3.add n4 (N := k + (4 * nx + 2 * nu + 2 * nc + 4)) (by omega) h0
    refine n5.congr ?_ ?_ <;> (unfold Ocp.stageSq; ring)
  have := forFin_induct (n := N + 1) (s := (0 : K)) (f := fun i s => s + (d.q i).squaredNorm +
    (d.r i).squaredNorm + (d.d i).squaredNorm + (if h : i.1 = 0 then d.x0.squaredNorm
         else (d.c ⟨i.1 - 1, by have := i.2; omega⟩).squaredNorm))
    (P := fun t s => F.Fin' s → F.Near (t * (4 * nx + 2 * nu + 2 * nc + 4)) s
      (∑ i : Fin (N + 1), if i.1 < t then Ocp.stageSq p i else 0)
      (∑ i : Fin (N + 1), if i.1 < t then Ocp.stageSq p i else 0)) ?_ ?_
  · intro hS
    have h1 := this hS
    have e : (∑ i : Fin (N + 1), if i.1 < N + 1 then Ocp.stageSq p i else 0) = ∑ i, Ocp.stageSq p i :=
      Finset.sum_congr rfl fun i _ => if_pos i.2
    rw [e] at h1
    exact h1
  · intro _
    have := near_exact (F := F) F.zero
    simpa using this
  · intro i s hs h0
    have h1 := step i s _ _ hs h0
    have e : (∑ k : Fin (N + 1), if k.1 < i.1 + 1 then Ocp.stageSq p k else 0) =
        (∑ k : Fin (N + 1), if k.1 < i.1 then Ocp.stageSq p k else 0) + Ocp.stageSq p i := by
      have : Ocp.stageSq p i = ∑ k : Fin (N + 1), if k = i then Ocp.stageSq p k else 0 := by simp
      rw [this, ← Finset.sum_add_distrib]
      refine Finset.sum_congr rfl fun k _ => ?_
      by_cases hk : k = i
      · subst hk; simp
      · have : k.1 ≠ i.1 := fun h => hk (Fin.ext h)
        have : (k.1 < i.1 + 1) = (k.1 < i.1) := by apply propext; omega
        simp [hk, this]
    rw [e, Nat.succ_mul]
    exact h1

theorem mpcOps (hx0 : 0 < nx) (h : F.ReadsMpc d p) : F.Ops p.toQP d.ops
    (4 * ((N + 1) * (nx + nu) + (N + 1) * nx + (N + 1) * nc) + 4) where
  grad z l v hf := by
    obtain ⟨rz, rl, rv, hz, hl, hv, hn⟩ := mpcGrad hx0 h z l v hf
    refine ⟨rz, rl, rv, hz, hl, hv, fun i => (hn i).mono ?_ le_rfl⟩
    nlinarith
  eq z rz hz hf i := (mpcEq h z rz hz hf i).mono (by nlinarith) le_rfl
  forcing := by
    obtain ⟨S, e, hS⟩ := mpcForcing h
    refine ⟨S, e, fun hf => (hS hf).mono ?_ le_rfl⟩
    nlinarith

end Rounding
end Fbstab
