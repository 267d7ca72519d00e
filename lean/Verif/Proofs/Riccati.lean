import Verif.Proofs.RiccatiSem
import Verif.Proofs.Newton
import Verif.Proofs.Ops

/-!
# The Riccati recursion solves the Newton system
-/

namespace Fbstab
open Matrix

/-! ## Triangular solves with matrices -/

section tri
variable {n m : Nat}

theorem symOf_congr {A B : Mat ℝ n n} (h : LowerEq A B) : symOf A = symOf B := by
  ext i j
  unfold symOf
  dsimp only [of_apply]
  split
  · exact h _ _ ‹_›
  · exact h _ _ (not_le.1 ‹_›).le

theorem symOf_symm {A : Mat ℝ n n} (h : A.fn.IsSymm) : symOf A = A.fn :=
  symOf_eq h fun _ _ _ => rfl

theorem ofRows_get {K : Type} {r c : Nat} (v : Vec (Vec K c) r) (i : Fin r) (j : Fin c) :
    (Mat.ofRows v) i j = v i j := rfl

theorem solveOnTheRightT_spec (L : Mat ℝ n n) (hL : ∀ i, L i i ≠ 0) (X : Mat ℝ m n) :
    (solveOnTheRightT L X).fn * (tri L)ᵀ = X.fn := by
  ext i j
  have h := congrFun (lowerSolve_spec L hL (X.row i)) j
  rw [Vec.fn_apply, Mat.row_get] at h
  rw [Mat.fn_apply, ← h, mul_apply, mulVec, dotProduct]
  refine Finset.sum_congr rfl fun k _ => ?_
  rw [transpose_apply, mul_comm]
  congr 1
  simp only [solveOnTheRightT, Mat.fn, Vec.fn, ofRows_get, Vec.get_ofFn]

theorem stageInv_spec (L : Mat ℝ n n) (hL : ∀ i, L i i ≠ 0) :
    tri L * (tri L)ᵀ * (RiccatiWs.stageInv L).fn = 1 := by
  have col : ∀ j : Fin n, (tri L * (tri L)ᵀ) *ᵥ (fun i => (RiccatiWs.stageInv L) i j) =
      fun i => (1 : Matrix (Fin n) (Fin n) ℝ) i j := by
    intro j
    have e : (fun i => (RiccatiWs.stageInv L) i j) =
        (lowerTSolve L (lowerSolve L ((Mat.identity : Mat ℝ n n).col j))).fn := by
      funext i
      simp only [RiccatiWs.stageInv, lowerTSolveMat, lowerSolveMat, Mat.get_transpose,
        ofRows_get, Vec.get_ofFn, Vec.fn_apply]
      congr 2
      ext a
      simp only [Mat.col_get, Mat.get_transpose, ofRows_get, Vec.get_ofFn]
    rw [e, ← mulVec_mulVec, lowerTSolve_spec L hL, lowerSolve_spec L hL]
    funext i
    simp [one_apply]
  ext i j
  exact congrFun (col j) i

theorem gram_symm (A : Matrix (Fin n) (Fin m) ℝ) : (A * Aᵀ).IsSymm := by
  unfold Matrix.IsSymm
  rw [transpose_mul, transpose_transpose]

theorem gram_dot (A : Matrix (Fin n) (Fin m) ℝ) (x : Fin n → ℝ) :
    x ⬝ᵥ (A * Aᵀ) *ᵥ x = (Aᵀ *ᵥ x) ⬝ᵥ (Aᵀ *ᵥ x) := by
  rw [← mulVec_mulVec, QP.transpose_dot]

theorem dot_self_pos {x : Fin n → ℝ} (h : x ≠ 0) : 0 < x ⬝ᵥ x :=
  lt_of_le_of_ne (dot_self_nonneg x) fun e => h (dot_self_eq_zero.1 e.symm)

theorem stageInv_symm (L : Mat ℝ n n) (hL : ∀ i, L i i ≠ 0) :
    (RiccatiWs.stageInv L).fn.IsSymm := by
  have h := stageInv_spec L hL
  have h' := congrArg transpose h
  rw [transpose_mul, (gram_symm _).eq, transpose_one] at h'
  unfold Matrix.IsSymm
  generalize (RiccatiWs.stageInv L).fn = X at *
  rw [← Matrix.mul_one Xᵀ, ← h, ← Matrix.mul_assoc, h', Matrix.one_mul]

theorem stageInv_nonneg (L : Mat ℝ n n) (hL : ∀ i, L i i ≠ 0) (x : Fin n → ℝ) :
    0 ≤ x ⬝ᵥ (RiccatiWs.stageInv L).fn *ᵥ x := by
  have h : (tri L * (tri L)ᵀ) *ᵥ ((RiccatiWs.stageInv L).fn *ᵥ x) = x := by
    rw [mulVec_mulVec, stageInv_spec L hL, one_mulVec]
  generalize (RiccatiWs.stageInv L).fn *ᵥ x = y at h
  rw [← h, dotProduct_comm, gram_dot]
  exact dot_self_nonneg _

/-- The two triangular solves with `L` multiply with `stageInv L`. -/
theorem stageInv_solve (L : Mat ℝ n n) (hL : ∀ i, L i i ≠ 0) (x : Vec ℝ n) :
    (lowerTSolve L (lowerSolve L x)).fn = (RiccatiWs.stageInv L).fn *ᵥ x.fn := by
  have h1 : (tri L * (tri L)ᵀ) *ᵥ (lowerTSolve L (lowerSolve L x)).fn = x.fn := by
    rw [← mulVec_mulVec, lowerTSolve_spec L hL, lowerSolve_spec L hL]
  have h := congrArg transpose (stageInv_spec L hL)
  rw [transpose_mul, (gram_symm _).eq, transpose_one, (stageInv_symm L hL).eq] at h
  rw [← h1, mulVec_mulVec, h, one_mulVec]

theorem llt_posdef (A : Mat ℝ n n) (B : Matrix (Fin n) (Fin n) ℝ) (h : symOf A = B)
    (hpos : ∀ w, w ≠ 0 → 0 < w ⬝ᵥ B *ᵥ w) :
    (llt A).1 = true ∧ (∀ i, (llt A).2 i i ≠ 0) ∧ tri (llt A).2 * (tri (llt A).2)ᵀ = B := by
  obtain ⟨a, b, c⟩ := llt_spec A (by rw [h]; exact hpos)
  exact ⟨a, fun i => (b i).ne', c.trans h⟩

end tri

namespace RiccatiWs
variable {N nx nu nc : Nat}

/-! ## The factorisation -/

/-- What the recursion establishes about a stage. -/
structure StageOK (Q : Matrix (Fin nx) (Fin nx) ℝ) (R : Matrix (Fin nu) (Fin nu) ℝ)
    (S : Matrix (Fin nu) (Fin nx) ℝ) (L M : Mat ℝ nx nx) (SM : Mat ℝ nu nx) (SG : Mat ℝ nu nu) :
    Prop where
  Mpos : ∀ i, M i i ≠ 0
  SGpos : ∀ i, SG i i ≠ 0
  eqM : tri M * (tri M)ᵀ = Q + (stageInv L).fn
  eqSM : SM.fn * (tri M)ᵀ = S
  eqSG : tri SG * (tri SG)ᵀ = R - SM.fn * SM.fnᵀ

/-- What the recursion establishes about consecutive stages. -/
structure LinkOK (A : Matrix (Fin nx) (Fin nx) ℝ) (B : Matrix (Fin nx) (Fin nu) ℝ) (sigma : ℝ)
    (M : Mat ℝ nx nx) (SM : Mat ℝ nu nx) (SG : Mat ℝ nu nu) (AM : Mat ℝ nx nx) (P : Mat ℝ nx nu)
    (L' : Mat ℝ nx nx) : Prop where
  eqAM : AM.fn * (tri M)ᵀ = A
  eqP : P.fn * (tri SG)ᵀ = AM.fn * SM.fnᵀ - B
  Lpos : ∀ i, L' i i ≠ 0
  eqL : tri L' * (tri L')ᵀ = sigma • 1 + P.fn * P.fnᵀ + AM.fn * AM.fnᵀ

/-- The stage Hessian is uniformly convex. -/
structure StageConvex (sigma : ℝ) (Q : Matrix (Fin nx) (Fin nx) ℝ) (R : Matrix (Fin nu) (Fin nu) ℝ)
    (S : Matrix (Fin nu) (Fin nx) ℝ) : Prop where
  Qsymm : Q.IsSymm
  Rsymm : R.IsSymm
  pos : ∀ x u, sigma * (x ⬝ᵥ x + u ⬝ᵥ u) ≤ x ⬝ᵥ Q *ᵥ x + 2 * (u ⬝ᵥ S *ᵥ x) + u ⬝ᵥ R *ᵥ u

/-- A stage succeeds. -/
theorem stage_ok {sigma : ℝ} (hs : 0 < sigma) {Q : Matrix (Fin nx) (Fin nx) ℝ}
    {R : Matrix (Fin nu) (Fin nu) ℝ} {S : Matrix (Fin nu) (Fin nx) ℝ}
    (hc : StageConvex sigma Q R S) {Q' : Mat ℝ nx nx} {R' : Mat ℝ nu nu} {S' : Mat ℝ nu nx}
    (hQ : symOf Q' = Q) (hR : symOf R' = R) (hS : S'.fn = S) {L : Mat ℝ nx nx}
    (hL : ∀ i, L i i ≠ 0) (M0 : Mat ℝ nx nx) :
    let f1 := llt (M0.assignLower (Q' + stageInv L))
    let SM := solveOnTheRightT f1.2 S'
    let f2 := llt (R' - SM * SM.transpose)
    f1.1 = true ∧ f2.1 = true ∧ StageOK Q R S L f1.2 SM f2.2 := by
  intro f1 SM f2
  have hf1 : f1 = llt (M0.assignLower (Q' + stageInv L)) := rfl
  have e1 : symOf (M0.assignLower (Q' + stageInv L)) = Q + (stageInv L).fn := by
    refine symOf_eq (hc.Qsymm.add (stageInv_symm L hL)) fun i j hij => ?_
    rw [← hQ, Mat.get_assignLower, if_pos hij, Matrix.add_apply, symOf_le _ hij]
    simp
  obtain ⟨a1, a2, a3⟩ := llt_posdef _ _ e1 (fun x hx => by
    have h1 := hc.pos x 0
    have h2 := stageInv_nonneg L hL x
    have h3 := mul_pos hs (dot_self_pos hx)
    rw [add_mulVec, dotProduct_add]
    simp only [zero_dotProduct, dotProduct_zero, mulVec_zero, add_zero, mul_zero] at h1
    linarith)
  rw [← hf1] at a1 a2 a3
  clear_value f1
  have hSM : SM.fn * (tri f1.2)ᵀ = S := by rw [← hS]; exact solveOnTheRightT_spec _ a2 _
  have hf2 : f2 = llt (R' - SM * SM.transpose) := rfl
  clear_value SM
  have e2 : symOf (R' - SM * SM.transpose) = R - SM.fn * SM.fnᵀ := by
    refine symOf_eq (hc.Rsymm.sub (gram_symm _)) fun i j hij => ?_
    rw [← hR, Matrix.sub_apply, symOf_le _ hij, ← Mat.fn_transpose, ← Mat.fn_mul]
    simp only [Mat.fn_apply, Mat.get_sub]
  obtain ⟨b1, b2, b3⟩ := llt_posdef _ _ e2 (fun u hu => by
    -- choose `x` with `M' x = -SM' u`
    set y : Vec ℝ nx := Vec.ofFn fun i => -(SM.fnᵀ *ᵥ u) i with hy
    have hx : (tri f1.2)ᵀ *ᵥ (lowerTSolve f1.2 y).fn = -(SM.fnᵀ *ᵥ u) := by
      rw [lowerTSolve_spec _ a2, hy, Vec.fn_ofFn]
      rfl
    set x := (lowerTSolve f1.2 y).fn
    have h1 := hc.pos x u
    have h2 := stageInv_nonneg L hL x
    have h3 := mul_pos hs (dot_self_pos hu)
    have h4 := mul_nonneg hs.le (dot_self_nonneg x)
    have h5 : x ⬝ᵥ (Q + (stageInv L).fn) *ᵥ x = (SM.fnᵀ *ᵥ u) ⬝ᵥ (SM.fnᵀ *ᵥ u) := by
      rw [← a3, gram_dot, hx, neg_dotProduct_neg]
    have h6 : u ⬝ᵥ S *ᵥ x = -((SM.fnᵀ *ᵥ u) ⬝ᵥ (SM.fnᵀ *ᵥ u)) := by
      rw [← hSM, ← mulVec_mulVec, hx, mulVec_neg, dotProduct_neg, QP.transpose_dot]
    rw [sub_mulVec, dotProduct_sub, gram_dot]
    rw [add_mulVec, dotProduct_add] at h5
    rw [h6] at h1
    linarith)
  rw [← hf2] at b1 b2 b3
  exact ⟨a1, b1, a2, b2, a3, hSM, b3⟩

/-- A link succeeds. -/
theorem link_ok {sigma : ℝ} (hs : 0 < sigma) (A : Mat ℝ nx nx) (B : Mat ℝ nx nu) {M : Mat ℝ nx nx}
    {SM : Mat ℝ nu nx} {SG : Mat ℝ nu nu} (hM : ∀ i, M i i ≠ 0) (hSG : ∀ i, SG i i ≠ 0) :
    let AM := solveOnTheRightT M A
    let P := solveOnTheRightT SG (AM * SM.transpose - B)
    let f3 := llt (sigma * (Mat.identity : Mat ℝ nx nx) + P * P.transpose + AM * AM.transpose)
    f3.1 = true ∧ LinkOK A.fn B.fn sigma M SM SG AM P f3.2 := by
  intro AM P f3
  have hAM : AM.fn * (tri M)ᵀ = A.fn := solveOnTheRightT_spec _ hM _
  have hP : P.fn * (tri SG)ᵀ = AM.fn * SM.fnᵀ - B.fn := by
    rw [show P = solveOnTheRightT SG (AM * SM.transpose - B) from rfl, solveOnTheRightT_spec _ hSG]
    simp
  have hf3 : f3 = llt (sigma * (Mat.identity : Mat ℝ nx nx) + P * P.transpose +
    AM * AM.transpose) := rfl
  clear_value AM P
  have e : symOf (sigma * (Mat.identity : Mat ℝ nx nx) + P * P.transpose + AM * AM.transpose) =
      sigma • 1 + P.fn * P.fnᵀ + AM.fn * AM.fnᵀ := by
    have : (sigma * (Mat.identity : Mat ℝ nx nx) + P * P.transpose + AM * AM.transpose).fn =
        sigma • 1 + P.fn * P.fnᵀ + AM.fn * AM.fnᵀ := by simp
    rw [← this]
    refine symOf_symm ?_
    rw [this]
    exact (((isSymm_one).smul _).add (gram_symm _)).add (gram_symm _)
  obtain ⟨a, b, c⟩ := llt_posdef _ _ e (fun x hx => by
    rw [add_mulVec, add_mulVec, dotProduct_add, dotProduct_add, gram_dot, gram_dot, smul_mulVec,
      one_mulVec, dotProduct_smul, smul_eq_mul]
    have h3 := mul_pos hs (dot_self_pos hx)
    have h1 := dot_self_nonneg (P.fnᵀ *ᵥ x)
    have h2 := dot_self_nonneg (AM.fnᵀ *ᵥ x)
    linarith)
  rw [← hf3] at a b c
  exact ⟨a, hAM, hP, b, c⟩

/-- The invariant of the recursion, `k` stages being complete. -/
structure FacOK (d : MpcData ℝ N nx nu nc) (sigma : ℝ)
    (Q : Fin (N + 1) → Matrix (Fin nx) (Fin nx) ℝ) (R : Fin (N + 1) → Matrix (Fin nu) (Fin nu) ℝ)
    (S : Fin (N + 1) → Matrix (Fin nu) (Fin nx) ℝ) (k : Nat) (w : RiccatiWs ℝ N nx nu nc) :
    Prop where
  eqQ : ∀ i, symOf (w.Q i) = Q i
  eqR : ∀ i, symOf (w.R i) = R i
  eqS : ∀ i, (w.S i).fn = S i
  L0 : w.L 0 = √sigma * (Mat.identity : Mat ℝ nx nx)
  Lpos : ∀ i : Fin (N + 1), i.1 ≤ k → ∀ j, w.L i j j ≠ 0
  stage : ∀ i : Fin (N + 1), i.1 < k → StageOK (Q i) (R i) (S i) (w.L i) (w.M i) (w.SM i) (w.SG i)
  link : ∀ i : Fin N, i.1 < k → LinkOK (d.A i).fn (d.B i).fn sigma (w.M i.castSucc)
    (w.SM i.castSucc) (w.SG i.castSucc) (w.AM i.castSucc) (w.P i.castSucc) (w.L i.succ)

section
variable {d : MpcData ℝ N nx nu nc} {sigma : ℝ}
  {Q : Fin (N + 1) → Matrix (Fin nx) (Fin nx) ℝ} {R : Fin (N + 1) → Matrix (Fin nu) (Fin nu) ℝ}
  {S : Fin (N + 1) → Matrix (Fin nu) (Fin nx) ℝ}

theorem FacOK.step (hs : 0 < sigma) (hc : ∀ i, StageConvex sigma (Q i) (R i) (S i)) (i : Fin N)
    {w : RiccatiWs ℝ N nx nu nc} (h : FacOK d sigma Q R S i.1 w) :
    (factorStep d sigma i (true, w)).1 = true ∧
      FacOK d sigma Q R S (i.1 + 1) (factorStep d sigma i (true, w)).2 := by
  rw [factorStep_true]
  obtain ⟨a1, a2, a3⟩ := stage_ok hs (hc i.castSucc) (h.eqQ _) (h.eqR _) (h.eqS _)
    (h.Lpos i.castSucc (Nat.le_refl _)) (w.M i.castSucc)
  dsimp only at a1 a2 a3 ⊢
  rw [if_pos a1, if_pos a2]
  obtain ⟨b1, b2⟩ := link_ok hs (d.A i) (d.B i) (SM := solveOnTheRightT (llt ((w.M i.castSucc).assignLower
    (w.Q i.castSucc + stageInv (w.L i.castSucc)))).2 (w.S i.castSucc)) a3.Mpos a3.SGpos
  dsimp only at b1 b2 ⊢
  refine ⟨b1, ?_⟩
  have hne : i.castSucc ≠ i.succ := fun e => by
    have := congrArg Fin.val e; simp at this
  exact
    { eqQ := h.eqQ, eqR := h.eqR, eqS := h.eqS
      L0 := by
        dsimp only
        rw [Vec.get_set, if_neg (Fin.succ_ne_zero i).symm]
        exact h.L0
      Lpos := fun j hj => by
        dsimp only
        rw [Vec.get_set]
        split
        · exact b2.Lpos
        · rename_i hji
          refine h.Lpos j ?_
          have : j.1 ≠ i.1 + 1 := fun e => hji (Fin.ext e)
          omega
      stage := fun j hj => by
        dsimp only
        by_cases e : j = i.castSucc
        · subst e
          simp only [Vec.get_set_same, Vec.get_set, if_neg hne]
          exact a3
        · have hj' : j.1 ≠ i.1 := fun h => e (Fin.ext h)
          have e2 : j ≠ i.succ := fun h => by
            have := congrArg Fin.val h
            simp only [Fin.val_succ] at this
            omega
          simp only [Vec.get_set, if_neg e, if_neg e2]
          exact h.stage j (by omega)
      link := fun j hj => by
        dsimp only
        by_cases e : j = i
        · subst e
          simp only [Vec.get_set_same]
          exact b2
        · have hj' : j.1 ≠ i.1 := fun h => e (Fin.ext h)
          have e1 : j.castSucc ≠ i.castSucc := fun h => e (Fin.castSucc_injective _ h)
          have e2 : j.succ ≠ i.succ := fun h => e (Fin.succ_injective _ h)
          simp only [Vec.get_set, if_neg e1, if_neg e2]
          exact h.link j (by omega) }

theorem FacOK.last (hs : 0 < sigma) (hc : ∀ i, StageConvex sigma (Q i) (R i) (S i))
    {w : RiccatiWs ℝ N nx nu nc} (h : FacOK d sigma Q R S N w) :
    (factorStage none (Fin.last N) w).1 = true ∧
      FacOK d sigma Q R S (N + 1) (factorStage none (Fin.last N) w).2 := by
  rw [factorStage_none]
  obtain ⟨a1, a2, a3⟩ := stage_ok hs (hc (Fin.last N)) (h.eqQ _) (h.eqR _) (h.eqS _)
    (h.Lpos (Fin.last N) (Nat.le_refl _)) (w.M (Fin.last N))
  dsimp only at a1 a2 a3 ⊢
  rw [if_pos a1]
  refine ⟨a2, ?_⟩
  exact
    { eqQ := h.eqQ, eqR := h.eqR, eqS := h.eqS, L0 := h.L0
      Lpos := fun j hj => h.Lpos j (by have := j.2; omega)
      stage := fun j hj => by
        dsimp only
        by_cases e : j = Fin.last N
        · subst e
          simp only [Vec.get_set_same]
          exact a3
        · have hj' : j.1 ≠ N := fun h => e (Fin.ext h)
          simp only [Vec.get_set, if_neg e]
          exact h.stage j (by omega)
      link := fun j hj => by
        dsimp only
        have e1 : j.castSucc ≠ Fin.last N := Fin.castSucc_ne_last j
        simp only [Vec.get_set, if_neg e1]
        exact h.link j j.2 }

/-- The factorisation keeps `gamma` and `mus`. -/
theorem factorStep_frame (i : Fin N) (s : Bool × RiccatiWs ℝ N nx nu nc) :
    (factorStep d sigma i s).2.gamma = s.2.gamma ∧ (factorStep d sigma i s).2.mus = s.2.mus := by
  rcases s with ⟨b, w⟩
  cases b with
  | false => rw [factorStep_false]; exact ⟨rfl, rfl⟩
  | true =>
    rw [factorStep_true]
    dsimp only
    split
    · split <;> exact ⟨rfl, rfl⟩
    · exact ⟨rfl, rfl⟩

theorem factorStage_frame (i : Fin (N + 1)) (w : RiccatiWs ℝ N nx nu nc) :
    (factorStage none i w).2.gamma = w.gamma ∧ (factorStage none i w).2.mus = w.mus := by
  rw [factorStage_none]
  dsimp only
  split <;> exact ⟨rfl, rfl⟩

/-- `Initialize` succeeds. -/
theorem initPair_ok (hs : 0 < sigma)
    (x xbar : Point ℝ ((N + 1) * (nx + nu)) ((N + 1) * nx) ((N + 1) * nc))
    (w : RiccatiWs ℝ N nx nu nc)
    (hc : ∀ i, StageConvex sigma (barQ d sigma (barrier x xbar sigma w).Gamma i).fn
      (barR d sigma (barrier x xbar sigma w).Gamma i).fn
      (barS d (barrier x xbar sigma w).Gamma i).fn) :
    (initPair d x xbar sigma w).1 = true ∧
      (initPair d x xbar sigma w).2.gamma = (barrier x xbar sigma w).gamma ∧
      (initPair d x xbar sigma w).2.mus = (barrier x xbar sigma w).mus ∧
      FacOK d sigma (fun i => (barQ d sigma (barrier x xbar sigma w).Gamma i).fn)
        (fun i => (barR d sigma (barrier x xbar sigma w).Gamma i).fn)
        (fun i => (barS d (barrier x xbar sigma w).Gamma i).fn) (N + 1)
        (initPair d x xbar sigma w).2 := by
  obtain ⟨Q, R, S, E', L', e, hi⟩ := augment_loop d sigma (barrier x xbar sigma w)
  unfold initPair
  dsimp only
  rw [e]
  dsimp only
  set w1 : RiccatiWs ℝ N nx nu nc := { barrier x xbar sigma w with
    Q := Q, R := R, S := S, Etemp := E', Ltemp := L'
    L := (barrier x xbar sigma w).L.set 0 (Scalar.sqrt sigma * (Mat.identity : Mat ℝ nx nx)) }
    with hw1
  have h0 : FacOK d sigma (fun i => (barQ d sigma (barrier x xbar sigma w).Gamma i).fn)
      (fun i => (barR d sigma (barrier x xbar sigma w).Gamma i).fn)
      (fun i => (barS d (barrier x xbar sigma w).Gamma i).fn) 0 w1 :=
    { eqQ := fun i => (symOf_congr (hi i).1).trans (symOf_symm (hc i).Qsymm)
      eqR := fun i => (symOf_congr (hi i).2.1).trans (symOf_symm (hc i).Rsymm)
      eqS := fun i => by rw [hw1]; dsimp only; rw [(hi i).2.2]
      L0 := by rw [hw1]; dsimp only; rw [Vec.get_set_same]; rfl
      Lpos := fun i hi j => by
        have : i = 0 := Fin.ext (by simpa using hi)
        subst this
        rw [hw1]; dsimp only; rw [Vec.get_set_same]
        simp [(Real.sqrt_pos.2 hs).ne']
      stage := fun i hi => absurd hi (Nat.not_lt_zero _)
      link := fun i hi => absurd hi (Nat.not_lt_zero _) }
  have h1 := forFin_induct (n := N) (f := factorStep d sigma) (s := (true, w1))
    (P := fun k (s : Bool × RiccatiWs ℝ N nx nu nc) => s.1 = true ∧
      s.2.gamma = (barrier x xbar sigma w).gamma ∧ s.2.mus = (barrier x xbar sigma w).mus ∧
      FacOK d sigma (fun i => (barQ d sigma (barrier x xbar sigma w).Gamma i).fn)
        (fun i => (barR d sigma (barrier x xbar sigma w).Gamma i).fn)
        (fun i => (barS d (barrier x xbar sigma w).Gamma i).fn) k s.2)
    ⟨rfl, rfl, rfl, h0⟩ ?_
  · obtain ⟨a, b, c, e⟩ := h1
    rw [a]
    obtain ⟨f1, f2⟩ := factorStage_frame (Fin.last N) (forFin N (factorStep d sigma) (true, w1)).2
    obtain ⟨g1, g2⟩ := FacOK.last hs hc e
    simp only [Bool.not_true, Bool.false_eq_true, if_false]
    exact ⟨g1, f1.trans b, f2.trans c, g2⟩
  · rintro i ⟨b, s⟩ ⟨h1, h2, h3, h4⟩
    dsimp only at h1 h2 h3 h4
    subst h1
    obtain ⟨f1, f2⟩ := factorStep_frame (d := d) (sigma := sigma) i (true, s)
    obtain ⟨g1, g2⟩ := FacOK.step hs hc i h4
    exact ⟨g1, f1.trans h2, f2.trans h3, g2⟩

end

/-! ## The recursions of `Solve` -/

section
variable {K : Type} [Scalar K]

/-- The state after the forward recursion. -/
structure FwdOK (w f : RiccatiWs K N nx nu nc) (k : Nat) : Prop where
  frame : f.L = w.L ∧ f.M = w.M ∧ f.SG = w.SG ∧ f.SM = w.SM ∧ f.P = w.P ∧ f.AM = w.AM ∧
    f.r1 = w.r1 ∧ f.r2 = w.r2 ∧ f.gamma = w.gamma ∧ f.mus = w.mus
  th0 : f.th 0 = colBlock w.r2 0
  th : ∀ i : Fin N, i.1 < k → f.th i.succ =
    w.P i.castSucc * lowerSolve (w.SG i.castSucc)
      (w.SM i.castSucc * lowerSolve (w.M i.castSucc) (f.h i.castSucc) + uBlock w.r1 i.castSucc) +
    w.AM i.castSucc * lowerSolve (w.M i.castSucc) (f.h i.castSucc) + colBlock w.r2 i.succ
  h : ∀ i : Fin (N + 1), i.1 ≤ k →
    f.h i = lowerTSolve (w.L i) (lowerSolve (w.L i) (f.th i)) - xBlock w.r1 i

theorem FwdOK.loop {w : RiccatiWs K N nx nu nc} (h0 : FwdOK w w 0) :
    FwdOK w (forFin N forwardStep w) N := by
  refine forFin_induct (P := fun k f => FwdOK w f k) h0 ?_
  intro i f hf
  rw [forwardStep_eq]
  obtain ⟨e1, e2, e3, e4, e5, e6, e7, e8, e9, e10⟩ := hf.frame
  have hne : i.castSucc ≠ i.succ := fun e => by
    have := congrArg Fin.val e; simp at this
  dsimp only
  exact
    { frame := hf.frame
      th0 := by
        dsimp only
        rw [Vec.get_set, if_neg (Fin.succ_ne_zero i).symm]
        exact hf.th0
      th := fun j hj => by
        dsimp only
        by_cases e : j = i
        · subst e
          simp only [Vec.get_set_same, Vec.get_set, if_neg hne]
          rw [e2, e3, e4, e5, e6, e7, e8]
        · have hj' : j.1 ≠ i.1 := fun h => e (Fin.ext h)
          have n1 : j.succ ≠ i.succ := fun h => e (Fin.succ_injective _ h)
          have n2 : j.castSucc ≠ i.succ := fun h => by
            have := congrArg Fin.val h
            simp only [Fin.val_succ, Fin.val_castSucc] at this
            omega
          simp only [Vec.get_set, if_neg n1, if_neg n2]
          exact hf.th j (by omega)
      h := fun j hj => by
        dsimp only
        by_cases e : j = i.succ
        · subst e
          simp only [Vec.get_set_same]
          rw [e1, e7]
        · have hj' : j.1 ≠ i.1 + 1 := fun h => e (Fin.ext h)
          simp only [Vec.get_set, if_neg e]
          exact hf.h j (by omega) }

theorem solvePre_fwd (d : MpcData K N nx nu nc)
    (r : Resid K ((N + 1) * (nx + nu)) ((N + 1) * nx) ((N + 1) * nc))
    (w : RiccatiWs K N nx nu nc) : FwdOK (solvePre d r w) (solvePre d r w) 0 where
  frame := ⟨rfl, rfl, rfl, rfl, rfl, rfl, rfl, rfl, rfl, rfl⟩
  th0 := by simp only [solvePre, Vec.get_set_same]
  th i hi := absurd hi (Nat.not_lt_zero _)
  h i hi := by
    have : i = 0 := Fin.ext (by simpa using hi)
    subst this
    simp only [solvePre, Vec.get_set_same]

/-- The result of the backward recursion. -/
theorem backward_ok (w : RiccatiWs K N nx nu nc)
    (dx : Point K ((N + 1) * (nx + nu)) ((N + 1) * nx) ((N + 1) * nc)) :
    (xBlock (backward w dx).1 (Fin.last N) = lastX w ∧
      uBlock (backward w dx).1 (Fin.last N) = lastU w ∧
      colBlock (backward w dx).2.1 (Fin.last N) = lastL w) ∧
    ∀ i : Fin N,
      xBlock (backward w dx).1 i.castSucc = stepX w i (colBlock (backward w dx).2.1 i.succ) ∧
      uBlock (backward w dx).1 i.castSucc = stepU w i (colBlock (backward w dx).2.1 i.succ) ∧
      colBlock (backward w dx).2.1 i.castSucc =
        stepL w i (colBlock (backward w dx).2.1 i.succ) := by
  unfold backward
  have := forFinRev_induct (n := N) (f := backwardStep w)
    (s := (setU (setX dx.z (Fin.last N) (lastX w)) (Fin.last N) (lastU w),
      setCol dx.l (Fin.last N) (lastL w), lastX w))
    (P := fun k (s : Vec K ((N + 1) * (nx + nu)) × Vec K ((N + 1) * nx) × Vec K nx) =>
      (xBlock s.1 (Fin.last N) = lastX w ∧ uBlock s.1 (Fin.last N) = lastU w ∧
        colBlock s.2.1 (Fin.last N) = lastL w) ∧
      ∀ i : Fin N, k ≤ i.1 → xBlock s.1 i.castSucc = stepX w i (colBlock s.2.1 i.succ) ∧
        uBlock s.1 i.castSucc = stepU w i (colBlock s.2.1 i.succ) ∧
        colBlock s.2.1 i.castSucc = stepL w i (colBlock s.2.1 i.succ)) ?_ ?_
  · exact ⟨this.1, fun i => this.2 i (Nat.zero_le _)⟩
  · refine ⟨by simp, fun i hi => ?_⟩
    have := i.2
    omega
  · rintro i s ⟨h1, h2⟩
    rw [backwardStep_eq]
    have n1 : Fin.last N ≠ i.castSucc := (Fin.castSucc_ne_last i).symm
    refine ⟨by simpa [xBlock_setX, uBlock_setU, colBlock_setCol, n1] using h1, fun j hj => ?_⟩
    have n2 : j.succ ≠ i.castSucc := fun h => by
      have := congrArg Fin.val h
      simp only [Fin.val_succ, Fin.val_castSucc] at this
      omega
    by_cases e : j = i
    · subst e
      simp [colBlock_setCol, n2]
    · have hj' : j.1 ≠ i.1 := fun h => e (Fin.ext h)
      have n3 : j.castSucc ≠ i.castSucc := fun h => e (Fin.castSucc_injective _ h)
      simp only [xBlock_setX, uBlock_setX, xBlock_setU, uBlock_setU, colBlock_setCol, if_neg n2,
        if_neg n3]
      exact h2 j (by omega)

end

/-! ## The block equations -/

section
variable {Q : Matrix (Fin nx) (Fin nx) ℝ} {R : Matrix (Fin nu) (Fin nu) ℝ}
  {S : Matrix (Fin nu) (Fin nx) ℝ} {L M : Mat ℝ nx nx} {SM : Mat ℝ nu nx} {SG : Mat ℝ nu nu}

/-- The gradient equations of a stage. -/
theorem StageOK.grad (H : StageOK Q R S L M SM SG)
    {tx x h th r1x a a' l : Fin nx → ℝ} {tu u r1u p b' : Fin nu → ℝ}
    (htx : tri M *ᵥ tx = h) (htu : tri SG *ᵥ tu = SM.fn *ᵥ tx + r1u)
    (hh : h = (stageInv L).fn *ᵥ th - r1x) (ha : tri M *ᵥ a = a')
    (hp : tri SG *ᵥ p = SM.fn *ᵥ a - b') (hu : (tri SG)ᵀ *ᵥ u = tu + p)
    (hx : (tri M)ᵀ *ᵥ x = -(tx + SM.fnᵀ *ᵥ u + a)) (hl : l = -((stageInv L).fn *ᵥ (th + x))) :
    Q *ᵥ x + Sᵀ *ᵥ u + a' - l = r1x ∧ S *ᵥ x + R *ᵥ u + b' = r1u := by
  have hS : tri M * SM.fnᵀ = Sᵀ := by
    rw [← H.eqSM, transpose_mul, transpose_transpose]
  constructor
  · have h1 := congrArg (fun w => tri M *ᵥ w) hx
    simp only [mulVec_mulVec, H.eqM, mulVec_neg, mulVec_add, htx, ha, hS, add_mulVec] at h1
    rw [hl, mulVec_add]
    rw [hh] at h1
    have : Q *ᵥ x = -((stageInv L).fn *ᵥ th - r1x + Sᵀ *ᵥ u + a') - (stageInv L).fn *ᵥ x :=
      eq_sub_of_add_eq h1
    rw [this]
    abel
  · have h1 := congrArg (fun w => tri SG *ᵥ w) hu
    simp only [mulVec_mulVec, H.eqSG, mulVec_add, htu, hp, sub_mulVec] at h1
    have h2 := congrArg (fun w => SM.fn *ᵥ w) hx
    simp only [mulVec_mulVec, H.eqSM, mulVec_neg, mulVec_add] at h2
    rw [h2]
    have : R *ᵥ u = SM.fn *ᵥ tx + r1u + (SM.fn *ᵥ a - b') + (SM.fn * SM.fnᵀ) *ᵥ u :=
      sub_eq_iff_eq_add.1 h1
    rw [this]
    abel

/-- The dynamics equation of a link. -/
theorem LinkOK.dynamics {A : Matrix (Fin nx) (Fin nx) ℝ} {B : Matrix (Fin nx) (Fin nu) ℝ}
    {sigma : ℝ} {AM : Mat ℝ nx nx} {P : Mat ℝ nx nu} {L' : Mat ℝ nx nx}
    (H : LinkOK A B sigma M SM SG AM P L')
    {tx x th' x' lp r2 : Fin nx → ℝ} {tu u : Fin nu → ℝ}
    (hu : (tri SG)ᵀ *ᵥ u = tu + P.fnᵀ *ᵥ lp)
    (hx : (tri M)ᵀ *ᵥ x = -(tx + SM.fnᵀ *ᵥ u + AM.fnᵀ *ᵥ lp))
    (hth : th' = P.fn *ᵥ tu + AM.fn *ᵥ tx + r2)
    (hl : (tri L' * (tri L')ᵀ) *ᵥ lp = -(th' + x')) :
    A *ᵥ x + B *ᵥ u - x' - sigma • lp = r2 := by
  have h1 := congrArg (fun w => AM.fn *ᵥ w) hx
  simp only [mulVec_mulVec, H.eqAM, mulVec_neg, mulVec_add] at h1
  have h2 := congrArg (fun w => P.fn *ᵥ w) hu
  simp only [mulVec_mulVec, H.eqP, mulVec_add, sub_mulVec] at h2
  rw [H.eqL, add_mulVec, add_mulVec, smul_mulVec, one_mulVec] at hl
  have h3 : B *ᵥ u = (AM.fn * SM.fnᵀ) *ᵥ u - (P.fn *ᵥ tu + (P.fn * P.fnᵀ) *ᵥ lp) := by
    rw [← h2]; abel
  have h4 : x' = -th' - (sigma • lp + (P.fn * P.fnᵀ) *ᵥ lp + (AM.fn * AM.fnᵀ) *ᵥ lp) := by
    rw [hl]; abel
  rw [h1, h3, h4, hth]
  abel

end

/-! ## Assembly -/

theorem diagMul_mulVec {n m : Nat} (g : Fin n → ℝ) (E : Matrix (Fin n) (Fin m) ℝ) (x : Fin m → ℝ) :
    (diagonal g * E) *ᵥ x = fun i => g i * (E *ᵥ x) i := by
  rw [← mulVec_mulVec]
  funext i
  rw [mulVec_diagonal]

theorem bar_convex {d : MpcData ℝ N nx nu nc} (hc : (Ocp.ofMpc d).Convex) {sigma : ℝ}
    {Gamma : Vec ℝ ((N + 1) * nc)} (hG : ∀ i, 0 ≤ Gamma i) (i : Fin (N + 1)) :
    StageConvex sigma (barQ d sigma Gamma i).fn (barR d sigma Gamma i).fn
      (barS d Gamma i).fn := by
  have hsym : ∀ {m : Nat} (E : Matrix (Fin nc) (Fin m) ℝ),
      (Eᵀ * (diagonal (colBlock Gamma i).fn * E)).IsSymm := by
    intro m E
    unfold Matrix.IsSymm
    rw [transpose_mul, transpose_mul, transpose_transpose, diagonal_transpose, Matrix.mul_assoc]
  refine ⟨?_, ?_, fun x u => ?_⟩
  · simp only [barQ, Mat.fn_add, Mat.fn_smul, Mat.fn_identity, Mat.fn_mul, Mat.fn_transpose,
      Mat.fn_diagMul]
    exact (IsSymm.add (hc.Qsymm i) ((isSymm_one).smul _)).add (hsym _)
  · simp only [barR, Mat.fn_add, Mat.fn_smul, Mat.fn_identity, Mat.fn_mul, Mat.fn_transpose,
      Mat.fn_diagMul]
    exact (IsSymm.add (hc.Rsymm i) ((isSymm_one).smul _)).add (hsym _)
  · simp only [barQ, barR, barS, Mat.fn_add, Mat.fn_smul, Mat.fn_identity, Mat.fn_mul,
      Mat.fn_transpose, Mat.fn_diagMul, add_mulVec, smul_mulVec, one_mulVec, dotProduct_add,
      dotProduct_smul, smul_eq_mul, ← mulVec_mulVec]
    rw [dotProduct_comm x ((d.E i).fnᵀ *ᵥ _), dotProduct_comm u ((d.L i).fnᵀ *ᵥ _),
      dotProduct_comm u ((d.L i).fnᵀ *ᵥ _), QP.transpose_dot, QP.transpose_dot, QP.transpose_dot]
    have h1 : 0 ≤ x ⬝ᵥ (d.Q i).fn *ᵥ x + 2 * (u ⬝ᵥ (d.S i).fn *ᵥ x) + u ⬝ᵥ (d.R i).fn *ᵥ u :=
      hc.nonneg i x u
    generalize (d.E i).fn *ᵥ x = e
    generalize (d.L i).fn *ᵥ u = l
    have h2 : (diagonal (colBlock Gamma i).fn *ᵥ e) ⬝ᵥ e +
        2 * ((diagonal (colBlock Gamma i).fn *ᵥ e) ⬝ᵥ l) +
        (diagonal (colBlock Gamma i).fn *ᵥ l) ⬝ᵥ l =
        ∑ j, (colBlock Gamma i) j * ((e j + l j) * (e j + l j)) := by
      simp only [dotProduct, mulVec_diagonal, Finset.mul_sum, ← Finset.sum_add_distrib,
        Vec.fn_apply]
      exact Finset.sum_congr rfl fun j _ => by ring
    have h3 : 0 ≤ ∑ j, (colBlock Gamma i) j * ((e j + l j) * (e j + l j)) :=
      Finset.sum_nonneg fun j _ => mul_nonneg (by rw [colBlock_get]; exact hG _) (mul_self_nonneg _)
    linarith

theorem fn_mul_neg_one {n : Nat} (x : Vec ℝ n) : (Vec.ofFn fun j => x j * (-1)).fn = -x.fn := by
  funext j
  simp

/-- The block equations of the Newton system, in the variables of the recursion. -/
structure BlockEqs (d : MpcData ℝ N nx nu nc) (sigma : ℝ)
    (Q : Fin (N + 1) → Matrix (Fin nx) (Fin nx) ℝ) (R : Fin (N + 1) → Matrix (Fin nu) (Fin nu) ℝ)
    (S : Fin (N + 1) → Matrix (Fin nu) (Fin nx) ℝ) (r1 : Vec ℝ ((N + 1) * (nx + nu)))
    (r2 : Vec ℝ ((N + 1) * nx)) (z : Vec ℝ ((N + 1) * (nx + nu))) (l : Vec ℝ ((N + 1) * nx)) :
    Prop where
  lastX : Q (Fin.last N) *ᵥ (xBlock z (Fin.last N)).fn +
    (S (Fin.last N))ᵀ *ᵥ (uBlock z (Fin.last N)).fn - (colBlock l (Fin.last N)).fn =
      (xBlock r1 (Fin.last N)).fn
  lastU : S (Fin.last N) *ᵥ (xBlock z (Fin.last N)).fn +
    R (Fin.last N) *ᵥ (uBlock z (Fin.last N)).fn = (uBlock r1 (Fin.last N)).fn
  stageX : ∀ i : Fin N, Q i.castSucc *ᵥ (xBlock z i.castSucc).fn +
    (S i.castSucc)ᵀ *ᵥ (uBlock z i.castSucc).fn + (d.A i).fnᵀ *ᵥ (colBlock l i.succ).fn -
      (colBlock l i.castSucc).fn = (xBlock r1 i.castSucc).fn
  stageU : ∀ i : Fin N, S i.castSucc *ᵥ (xBlock z i.castSucc).fn +
    R i.castSucc *ᵥ (uBlock z i.castSucc).fn + (d.B i).fnᵀ *ᵥ (colBlock l i.succ).fn =
      (uBlock r1 i.castSucc).fn
  init : -(xBlock z 0).fn - sigma • (colBlock l 0).fn = (colBlock r2 0).fn
  dyn : ∀ i : Fin N, (d.A i).fn *ᵥ (xBlock z i.castSucc).fn +
    (d.B i).fn *ᵥ (uBlock z i.castSucc).fn - (xBlock z i.succ).fn -
      sigma • (colBlock l i.succ).fn = (colBlock r2 i.succ).fn

theorem blockEqs {d : MpcData ℝ N nx nu nc} {sigma : ℝ} (hs : 0 < sigma)
    {Q : Fin (N + 1) → Matrix (Fin nx) (Fin nx) ℝ} {R : Fin (N + 1) → Matrix (Fin nu) (Fin nu) ℝ}
    {S : Fin (N + 1) → Matrix (Fin nu) (Fin nx) ℝ} {w f : RiccatiWs ℝ N nx nu nc}
    (hF : FacOK d sigma Q R S (N + 1) w) (hf : FwdOK w f N)
    (dx : Point ℝ ((N + 1) * (nx + nu)) ((N + 1) * nx) ((N + 1) * nc)) :
    BlockEqs d sigma Q R S w.r1 w.r2 (backward f dx).1 (backward f dx).2.1 := by
  obtain ⟨e1, e2, e3, e4, e5, e6, e7, e8, e9, e10⟩ := hf.frame
  have hL : ∀ i j, w.L i j j ≠ 0 := fun i => hF.Lpos i (Nat.le_of_lt i.2)
  have hst := fun i : Fin (N + 1) => hF.stage i i.2
  have hlk := fun i : Fin N => hF.link i (Nat.lt_succ_of_lt i.2)
  have hh : ∀ i, (f.h i).fn = (stageInv (w.L i)).fn *ᵥ (f.th i).fn - (xBlock w.r1 i).fn := fun i => by
    rw [hf.h i (Nat.lt_succ_iff.1 i.2), Vec.fn_sub, stageInv_solve _ (hL i)]
  obtain ⟨⟨b1, b2, b3⟩, b4⟩ := backward_ok f dx
  generalize (backward f dx).1 = z at *
  generalize (backward f dx).2.1 = l at *
  -- `L L' l = -(th + x)`
  have hinv : ∀ i, (colBlock l i).fn = -((stageInv (w.L i)).fn *ᵥ ((f.th i).fn + (xBlock z i).fn)) := by
    intro i
    refine Fin.lastCases ?_ (fun i => ?_) i
    · rw [b3, RiccatiWs.lastL, fn_mul_neg_one, e1, stageInv_solve _ (hL _), b1, Vec.fn_add,
        add_comm (RiccatiWs.lastX f).fn]
    · rw [(b4 i).2.2, stepL, fn_mul_neg_one, e1, stageInv_solve _ (hL _), (b4 i).1, Vec.fn_add]
  have hgram : ∀ i, (tri (w.L i) * (tri (w.L i))ᵀ) *ᵥ (colBlock l i).fn =
      -((f.th i).fn + (xBlock z i).fn) := by
    intro i
    rw [hinv, mulVec_neg, mulVec_mulVec, stageInv_spec _ (hL i), one_mulVec]
  have htx : ∀ i, tri (w.M i) *ᵥ (lowerSolve (w.M i) (f.h i)).fn = (f.h i).fn := fun i =>
    lowerSolve_spec _ (hst i).Mpos _
  have htu : ∀ i, tri (w.SG i) *ᵥ (lowerSolve (w.SG i) (w.SM i * lowerSolve (w.M i) (f.h i) +
      uBlock w.r1 i)).fn = (w.SM i).fn *ᵥ (lowerSolve (w.M i) (f.h i)).fn + (uBlock w.r1 i).fn := by
    intro i
    rw [lowerSolve_spec _ (hst i).SGpos, Vec.fn_add, Mat.fn_mulVec]
  have hgl := (hst (Fin.last N)).grad (a := 0) (a' := 0) (p := 0) (b' := 0)
    (x := (xBlock z (Fin.last N)).fn) (u := (uBlock z (Fin.last N)).fn)
    (htx (Fin.last N)) (htu (Fin.last N)) (hh (Fin.last N)) (mulVec_zero _)
    (by rw [mulVec_zero, mulVec_zero, sub_zero])
    (by rw [b2, RiccatiWs.lastU, e2, e3, e4, e7, lowerTSolve_spec _ (hst _).SGpos, add_zero])
    (by rw [b1, RiccatiWs.lastX, fn_mul_neg_one, e2, e4, mulVec_neg, lowerTSolve_spec _ (hst _).Mpos, b2,
      Vec.fn_add, Mat.fn_mulVec, Mat.fn_transpose, add_zero])
    (hinv (Fin.last N))
  have hu : ∀ i : Fin N, (tri (w.SG i.castSucc))ᵀ *ᵥ (uBlock z i.castSucc).fn =
      (lowerSolve (w.SG i.castSucc) (w.SM i.castSucc * lowerSolve (w.M i.castSucc) (f.h i.castSucc) +
      uBlock w.r1 i.castSucc)).fn + (w.P i.castSucc).fnᵀ *ᵥ (colBlock l i.succ).fn := by
    intro i
    rw [(b4 i).2.1, stepU, e2, e3, e4, e5, e7, lowerTSolve_spec _ (hst _).SGpos, Vec.fn_add,
      Mat.fn_mulVec, Mat.fn_transpose]
  have hx : ∀ i : Fin N, (tri (w.M i.castSucc))ᵀ *ᵥ (xBlock z i.castSucc).fn =
      -((lowerSolve (w.M i.castSucc) (f.h i.castSucc)).fn +
        (w.SM i.castSucc).fnᵀ *ᵥ (uBlock z i.castSucc).fn +
        (w.AM i.castSucc).fnᵀ *ᵥ (colBlock l i.succ).fn) := by
    intro i
    rw [(b4 i).1, stepX, fn_mul_neg_one, e2, e4, e6, mulVec_neg, lowerTSolve_spec _ (hst _).Mpos,
      (b4 i).2.1, Vec.fn_add, Vec.fn_add, Mat.fn_mulVec, Mat.fn_transpose, Mat.fn_mulVec,
      Mat.fn_transpose]
  have hgi : ∀ i : Fin N, _ ∧ _ := fun i => (hst i.castSucc).grad
    (a := (w.AM i.castSucc).fnᵀ *ᵥ (colBlock l i.succ).fn)
    (a' := (d.A i).fnᵀ *ᵥ (colBlock l i.succ).fn)
    (p := (w.P i.castSucc).fnᵀ *ᵥ (colBlock l i.succ).fn)
    (b' := (d.B i).fnᵀ *ᵥ (colBlock l i.succ).fn)
    (htx _) (htu _) (hh _)
    (by rw [mulVec_mulVec, ← (hlk i).eqAM, transpose_mul, transpose_transpose])
    (by
      have := congrArg transpose (hlk i).eqP
      rw [transpose_mul, transpose_transpose, transpose_sub, transpose_mul, transpose_transpose] at this
      rw [mulVec_mulVec, mulVec_mulVec, this, sub_mulVec])
    (hu i) (hx i) (hinv _)
  refine ⟨?_, ?_, fun i => (hgi i).1, fun i => (hgi i).2, ?_, fun i => ?_⟩
  · rw [← hgl.1, add_zero]
  · rw [← hgl.2, add_zero]
  · have h := hgram 0
    rw [hF.L0, hf.th0] at h
    have e : tri (√sigma * (Mat.identity : Mat ℝ nx nx)) = √sigma • 1 := by
      ext i j
      simp only [tri, of_apply, smul_apply, one_apply, smul_eq_mul, Mat.get_smul, Mat.get_identity]
      by_cases hij : i = j
      · subst hij; simp
      · simp [hij]
    rw [e, transpose_smul, transpose_one, smul_mul_smul_comm, Matrix.one_mul,
      Real.mul_self_sqrt hs.le, smul_mulVec, one_mulVec] at h
    rw [h]
    abel
  · refine (hlk i).dynamics (hu i) (hx i) ?_ (hgram i.succ)
    rw [hf.th i i.2]
    simp only [Vec.fn_add, Mat.fn_mulVec]

end RiccatiWs

open RiccatiWs in
theorem riccati_newton {N nx nu nc : Nat} (d : MpcData ℝ N nx nu nc) (hc : (Ocp.ofMpc d).Convex)
    {alpha sigma : ℝ} (h0 : 0 < alpha) (h1 : alpha < 1) (hs : 0 < sigma)
    (x xbar : Point ℝ ((N + 1) * (nx + nu)) ((N + 1) * nx) ((N + 1) * nc)) :
    RiccatiWs.factor d alpha x xbar sigma = .ok (some (RiccatiWs.step d alpha x xbar sigma)) ∧
    ∀ r, (Ocp.ofMpc d).toQP.NewtonSystem sigma (fun i => (slopes alpha sigma x xbar i).1)
      (fun i => (slopes alpha sigma x xbar i).2) r.z.fn r.l.fn r.v.fn
      (RiccatiWs.step d alpha x xbar sigma r).z.fn (RiccatiWs.step d alpha x xbar sigma r).l.fn
      (RiccatiWs.step d alpha x xbar sigma r).v.fn := by
  have hmu : ∀ i, 0 < (barrier x xbar sigma (RiccatiWs.zero d alpha)).mus i := fun i => by
    simp only [barrier, Vec.get_ofFn]; exact pfbMu_pos h0 h1 hs _ _ _ _
  have hGam : ∀ i, (barrier x xbar sigma (RiccatiWs.zero d alpha)).Gamma i =
      (barrier x xbar sigma (RiccatiWs.zero d alpha)).gamma i /
        (barrier x xbar sigma (RiccatiWs.zero d alpha)).mus i := fun i => by
    simp only [barrier, Vec.get_ofFn]
  have hgam : ∀ i, (barrier x xbar sigma (RiccatiWs.zero d alpha)).gamma i =
      (slopes alpha sigma x xbar i).1 := fun i => by
    simp only [barrier, Vec.get_ofFn]; rfl
  have hmus : ∀ i, (barrier x xbar sigma (RiccatiWs.zero d alpha)).mus i =
      (slopes alpha sigma x xbar i).2 + sigma * (slopes alpha sigma x xbar i).1 := fun i => by
    simp only [barrier, Vec.get_ofFn]; rfl
  have hG0 : ∀ i, 0 ≤ (barrier x xbar sigma (RiccatiWs.zero d alpha)).Gamma i := fun i => by
    rw [hGam, hgam]
    exact div_nonneg (pfbGradient_nonneg h0 h1 _ _).1 (hmu i).le
  obtain ⟨hok, hg, hm, hF⟩ := initPair_ok hs x xbar (RiccatiWs.zero d alpha)
    (fun i => bar_convex hc hG0 i)
  refine ⟨by unfold RiccatiWs.factor; rw [if_neg (not_le.2 hs), if_pos hok], fun r => ?_⟩
  unfold RiccatiWs.step
  generalize (initPair d x xbar sigma (RiccatiWs.zero d alpha)).2 = wF at hg hm hF ⊢
  generalize barrier x xbar sigma (RiccatiWs.zero d alpha) = wB at *
  have hfw := FwdOK.loop (solvePre_fwd d r wF)
  generalize hf : forFin N forwardStep (solvePre d r wF) = f at hfw ⊢
  have hF' : FacOK d sigma (fun i => (barQ d sigma wB.Gamma i).fn)
      (fun i => (barR d sigma wB.Gamma i).fn) (fun i => (barS d wB.Gamma i).fn) (N + 1)
      (solvePre d r wF) :=
    { eqQ := hF.eqQ, eqR := hF.eqR, eqS := hF.eqS, L0 := hF.L0, Lpos := hF.Lpos
      stage := hF.stage, link := hF.link }
  have hB := blockEqs hs hF' hfw ⟨Vec.const 0, Vec.const 0, Vec.const 0, Vec.const 0⟩
  obtain ⟨-, -, -, -, -, -, -, -, eg, em⟩ := hfw.frame
  unfold solvePost
  dsimp only
  generalize (backward f ⟨Vec.const 0, Vec.const 0, Vec.const 0, Vec.const 0⟩).1 = z at hB ⊢
  generalize (backward f ⟨Vec.const 0, Vec.const 0, Vec.const 0, Vec.const 0⟩).2.1 = l at hB ⊢
  have eg' : f.gamma = wB.gamma := eg.trans hg
  have em' : f.mus = wB.mus := em.trans hm
  rw [eg', em']
  -- the dual step
  set dv : Vec ℝ ((N + 1) * nc) :=
    (r.v + Vec.cwiseProduct wB.gamma (d.gemvA z 1 0 f.r3)).cwiseQuotient wB.mus with hdv
  have hA : (d.gemvA z 1 0 f.r3).fn = (Ocp.ofMpc d).toQP.A *ᵥ z.fn := by
    rw [show d.gemvA = d.ops.gemvA from rfl, d.implements.gemvA]
    simp
  have hdvi : ∀ i, dv i = wB.Gamma i * ((Ocp.ofMpc d).toQP.A *ᵥ z.fn) i + r.v i / wB.mus i := by
    intro i
    rw [← hA, hdv, hGam]
    simp only [Vec.cwiseQuotient, Vec.cwiseProduct, Vec.get_ofFn, Vec.get_add, Vec.fn_apply]
    rw [add_div]
    ring
  -- the right-hand sides
  have hr2 : (solvePre d r wF).r2 = -r.l := rfl
  have hr1 : (solvePre d r wF).r1 = d.gemvAT (r.v.cwiseQuotient wB.mus) (-1) 1 r.z := by
    rw [← hm]; rfl
  have hr1x : ∀ i, (xBlock (solvePre d r wF).r1 i).fn = (xBlock r.z i).fn -
      (d.E i).fnᵀ *ᵥ (colBlock (r.v.cwiseQuotient wB.mus) i).fn := by
    intro i
    rw [hr1, MpcData.xu_x (d.gemvAT_blocks _ _ _ _ i)]
    funext j
    simp [scaleBy_eq, sub_eq_add_neg, mulVec, dotProduct]
  have hr1u : ∀ i, (uBlock (solvePre d r wF).r1 i).fn = (uBlock r.z i).fn -
      (d.L i).fnᵀ *ᵥ (colBlock (r.v.cwiseQuotient wB.mus) i).fn := by
    intro i
    rw [hr1, MpcData.xu_u (d.gemvAT_blocks _ _ _ _ i)]
    funext j
    simp [scaleBy_eq, sub_eq_add_neg, mulVec, dotProduct]
  have hcol : ∀ i, (colBlock dv i).fn =
      diagonal (colBlock wB.Gamma i).fn *ᵥ ((d.E i).fn *ᵥ (xBlock z i).fn +
        (d.L i).fn *ᵥ (uBlock z i).fn) + (colBlock (r.v.cwiseQuotient wB.mus) i).fn := by
    intro i
    funext j
    simp only [Vec.fn_apply, colBlock_get, Pi.add_apply, mulVec_diagonal]
    rw [hdvi, Ocp.A_c, states_fn, controls_fn]
    simp only [Vec.cwiseQuotient, Vec.get_ofFn]
    rfl
  have hx : ∀ i, (barQ d sigma wB.Gamma i).fn *ᵥ (xBlock z i).fn +
      (barS d wB.Gamma i).fnᵀ *ᵥ (uBlock z i).fn =
      (d.Q i).fn *ᵥ (xBlock z i).fn + (d.S i).fnᵀ *ᵥ (uBlock z i).fn + sigma • (xBlock z i).fn +
      (d.E i).fnᵀ *ᵥ ((colBlock dv i).fn - (colBlock (r.v.cwiseQuotient wB.mus) i).fn) := by
    intro i
    rw [hcol, add_sub_cancel_right]
    simp only [barQ, barS, Mat.fn_add, Mat.fn_smul, Mat.fn_identity, Mat.fn_mul, Mat.fn_transpose,
      Mat.fn_diagMul, transpose_add, transpose_mul, transpose_transpose, diagonal_transpose,
      add_mulVec, smul_mulVec, one_mulVec, mulVec_add, ← mulVec_mulVec]
    abel
  have hu : ∀ i, (barS d wB.Gamma i).fn *ᵥ (xBlock z i).fn +
      (barR d sigma wB.Gamma i).fn *ᵥ (uBlock z i).fn =
      (d.S i).fn *ᵥ (xBlock z i).fn + (d.R i).fn *ᵥ (uBlock z i).fn + sigma • (uBlock z i).fn +
      (d.L i).fnᵀ *ᵥ ((colBlock dv i).fn - (colBlock (r.v.cwiseQuotient wB.mus) i).fn) := by
    intro i
    rw [hcol, add_sub_cancel_right]
    simp only [barR, barS, Mat.fn_add, Mat.fn_smul, Mat.fn_identity, Mat.fn_mul, Mat.fn_transpose,
      Mat.fn_diagMul, add_mulVec, smul_mulVec, one_mulVec, mulVec_add, ← mulVec_mulVec]
    abel
  refine ⟨?_, ?_, fun i => ?_⟩
  · symm
    refine MpcData.fn_ext_xu fun i => ?_
    refine Fin.lastCases ?_ (fun i => ?_) i
    · simp only [Pi.add_apply, Pi.smul_apply, Ocp.H_x, Ocp.H_u, Ocp.GT_last_x, Ocp.GT_last_u,
        Ocp.AT_x, Ocp.AT_u, states_fn, controls_fn, MpcData.col_fn]
      have ex := hB.lastX
      have eu := hB.lastU
      rw [hx, hr1x, mulVec_sub] at ex
      rw [hu, hr1u, mulVec_sub] at eu
      refine ⟨fun j => ?_, fun j => ?_⟩
      · have := congrFun ex j
        simp only [Pi.add_apply, Pi.sub_apply, Pi.smul_apply, Vec.fn_apply, smul_eq_mul,
          xBlock_get, colBlock_get] at this
        simp only [Ocp.ofMpc, smul_eq_mul, Vec.fn_apply, xBlock_get]
        linarith
      · have := congrFun eu j
        simp only [Pi.add_apply, Pi.sub_apply, Pi.smul_apply, Vec.fn_apply, smul_eq_mul,
          uBlock_get] at this
        simp only [Ocp.ofMpc, smul_eq_mul, Vec.fn_apply, uBlock_get]
        linarith
    · simp only [Pi.add_apply, Pi.smul_apply, Ocp.H_x, Ocp.H_u, Ocp.GT_castSucc_x,
        Ocp.GT_castSucc_u, Ocp.AT_x, Ocp.AT_u, states_fn, controls_fn, MpcData.col_fn]
      have ex := hB.stageX i
      have eu := hB.stageU i
      rw [hx, hr1x, mulVec_sub] at ex
      rw [hu, hr1u, mulVec_sub] at eu
      refine ⟨fun j => ?_, fun j => ?_⟩
      · have := congrFun ex j
        simp only [Pi.add_apply, Pi.sub_apply, Pi.smul_apply, Vec.fn_apply, smul_eq_mul,
          xBlock_get, colBlock_get] at this
        simp only [Ocp.ofMpc, smul_eq_mul, Vec.fn_apply, xBlock_get]
        linarith
      · have := congrFun eu j
        simp only [Pi.add_apply, Pi.sub_apply, Pi.smul_apply, Vec.fn_apply, smul_eq_mul,
          uBlock_get] at this
        simp only [Ocp.ofMpc, smul_eq_mul, Vec.fn_apply, uBlock_get]
        linarith
  · symm
    refine MpcData.fn_ext_col fun i j => ?_
    refine Fin.cases ?_ (fun i => ?_) i
    · simp only [Pi.add_apply, Pi.smul_apply, Pi.neg_apply, Ocp.G_zero, states_fn]
      have := congrFun hB.init j
      rw [hr2] at this
      simp only [Pi.sub_apply, Pi.smul_apply, Pi.neg_apply, Vec.fn_apply, smul_eq_mul, xBlock_get,
        colBlock_get, Vec.get_neg] at this
      simp only [smul_eq_mul, Vec.fn_apply, xBlock_get, colBlock_get]
      linarith
    · simp only [Pi.add_apply, Pi.smul_apply, Pi.neg_apply, Ocp.G_succ, states_fn, controls_fn]
      have := congrFun (hB.dyn i) j
      rw [hr2] at this
      simp only [Pi.add_apply, Pi.sub_apply, Pi.smul_apply, Vec.fn_apply, smul_eq_mul, xBlock_get,
        colBlock_get, Vec.get_neg] at this
      simp only [smul_eq_mul, Vec.fn_apply, xBlock_get, colBlock_get, Ocp.ofMpc]
      linarith
  · have h2 : (slopes alpha sigma x xbar i).2 = wB.mus i - sigma * wB.gamma i := by
      rw [hmus, hgam]; ring
    have h3 := hmu i
    rw [h2, ← hgam i, Vec.fn_apply, Vec.fn_apply, hdvi, hGam]
    field_simp
    ring

end Fbstab
