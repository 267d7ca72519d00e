import Verif.Proofs.NanOps

/-!
# NaN in the MPC data and in the Riccati recursion
-/

namespace Fbstab

section tri
variable {n : Nat} {L : Mat XReal n n} {x : Vec XReal n} {i : Fin n}

theorem lowerSolve_nan (h : x i = .nan) : lowerSolve L x i = .nan := by
  refine forFin_induct (P := fun _ (s : Vec XReal n) => s i = .nan) h ?_
  intro k s hs
  rw [Vec.get_set]
  split
  · rename_i e; subst e; rw [hs]; simp
  · exact hs

theorem lowerTSolve_nan (h : x i = .nan) : lowerTSolve L x i = .nan := by
  refine forFinRev_induct (P := fun _ (s : Vec XReal n) => s i = .nan) h ?_
  intro k s hs
  rw [Vec.get_set]
  split
  · rename_i e; subst e; rw [hs]; simp
  · exact hs

theorem unitLowerSolve_nan (h : x i = .nan) : unitLowerSolve L x i = .nan := by
  refine forFin_induct (P := fun _ (s : Vec XReal n) => s i = .nan) h ?_
  intro k s hs
  rw [Vec.get_set]
  split
  · rename_i e; subst e; rw [hs]; simp
  · exact hs

theorem unitLowerTSolve_nan (h : x i = .nan) : unitLowerTSolve L x i = .nan := by
  refine forFinRev_induct (P := fun _ (s : Vec XReal n) => s i = .nan) h ?_
  intro k s hs
  rw [Vec.get_set]
  split
  · rename_i e; subst e; rw [hs]; simp
  · exact hs

end tri

namespace RiccatiWs
variable {N nx nu nc : Nat} {d : MpcData XReal N nx nu nc}

/-- What the forward recursion does with NaN. -/
theorem forward_nan (r : Resid XReal ((N + 1) * (nx + nu)) ((N + 1) * nx) ((N + 1) * nc))
    (w : RiccatiWs XReal N nx nu nc) :
    let f := forFin N forwardStep (solvePre d r w)
    f.mus = w.mus ∧ f.r1 = d.gemvAT (r.v.cwiseQuotient w.mus) (-1) 1 r.z ∧
    ∀ (i : Fin (N + 1)) (j : Fin nx), f.r1 (xIdx i j) = .nan ∨ r.l (flatIdx i j) = .nan →
      f.h i j = .nan := by
  intro f
  have key := forFin_induct (n := N) (f := forwardStep) (s := solvePre d r w)
    (P := fun k (s : RiccatiWs XReal N nx nu nc) => s.mus = w.mus ∧ s.r2 = -r.l ∧
      s.r1 = d.gemvAT (r.v.cwiseQuotient w.mus) (-1) 1 r.z ∧
      ∀ (i : Fin (N + 1)) (j : Fin nx), i.1 ≤ k → s.r1 (xIdx i j) = .nan ∨ r.l (flatIdx i j) = .nan →
        s.h i j = .nan) ?_ ?_
  · exact ⟨key.1, key.2.2.1, fun i j h => key.2.2.2 i j (Nat.lt_succ_iff.1 i.2) h⟩
  · refine ⟨rfl, rfl, rfl, fun i j hi h => ?_⟩
    have : i = 0 := Fin.ext (by simpa using hi)
    subst this
    simp only [solvePre, Vec.get_set_same, Vec.get_sub, xBlock_get]
    rcases h with h | h
    · rw [show (solvePre d r w).r1 = d.gemvAT (r.v.cwiseQuotient w.mus) (-1) 1 r.z from rfl] at h
      rw [h]; simp
    · rw [lowerTSolve_nan (lowerSolve_nan (by simp [h]))]; simp
  · rintro k s ⟨h1, h2, h3, h4⟩
    rw [forwardStep_eq]
    refine ⟨h1, h2, h3, fun i j hi h => ?_⟩
    dsimp only at h ⊢
    rw [Vec.get_set]
    split
    · rename_i e
      subst e
      simp only [Vec.get_sub, xBlock_get]
      rcases h with h | h
      · rw [h]; simp
      · rw [lowerTSolve_nan (lowerSolve_nan (by simp [h2, h]))]; simp
    · rename_i e
      refine h4 i j ?_ h
      have : i.1 ≠ k.1 + 1 := fun h => e (Fin.ext h)
      omega

theorem backward_nan {w : RiccatiWs XReal N nx nu nc}
    (dx : Point XReal ((N + 1) * (nx + nu)) ((N + 1) * nx) ((N + 1) * nc)) (i : Fin (N + 1)) :
    (∀ j, w.h i j = .nan → (backward w dx).1 (xIdx i j) = .nan) ∧
    (∀ j, w.r1 (uIdx i j) = .nan → (backward w dx).1 (uIdx i j) = .nan) := by
  have hX : ∀ j, w.h (Fin.last N) j = .nan → lastX w j = .nan := fun j h => by
    simp only [lastX, Vec.get_ofFn]
    rw [lowerTSolve_nan]
    · rfl
    · rw [Vec.get_add, lowerSolve_nan h]; simp
  have hU : ∀ j, w.r1 (uIdx (Fin.last N) j) = .nan → lastU w j = .nan := fun j h => by
    simp only [lastU]
    exact lowerTSolve_nan (lowerSolve_nan (by simp [h]))
  have sX : ∀ (i : Fin N) lp j, w.h i.castSucc j = .nan → stepX w i lp j = .nan := fun i lp j h => by
    simp only [stepX, Vec.get_ofFn]
    rw [lowerTSolve_nan]
    · rfl
    · rw [Vec.get_add, Vec.get_add, lowerSolve_nan h]; simp
  have sU : ∀ (i : Fin N) lp j, w.r1 (uIdx i.castSucc j) = .nan → stepU w i lp j = .nan :=
    fun i lp j h => by
      simp only [stepU]
      refine lowerTSolve_nan ?_
      rw [Vec.get_add, lowerSolve_nan (by simp [h])]; simp
  have key := forFinRev_induct (n := N) (f := backwardStep w)
    (s := (setU (setX dx.z (Fin.last N) (lastX w)) (Fin.last N) (lastU w),
      setCol dx.l (Fin.last N) (lastL w), lastX w))
    (P := fun k s => ∀ i : Fin (N + 1), k ≤ i.1 → (∀ j, w.h i j = .nan → xBlock s.1 i j = .nan) ∧
      (∀ j, w.r1 (uIdx i j) = .nan → uBlock s.1 i j = .nan)) ?_ ?_
  · have := key i (Nat.zero_le _)
    simp only [xBlock_get, uBlock_get] at this
    exact this
  · intro i hi
    have : i = Fin.last N := Fin.ext (by have := i.2; simp only [Fin.val_last]; omega)
    subst this
    simp only [xBlock_setU, xBlock_setX_same, uBlock_setU_same]
    exact ⟨hX, hU⟩
  · intro k s hs i hi
    rw [backwardStep_eq]
    simp only [xBlock_setX, uBlock_setX, xBlock_setU, uBlock_setU]
    by_cases e : i = k.castSucc
    · subst e
      simp only [if_true]
      exact ⟨sX k _, sU k _⟩
    · simp only [if_neg e]
      refine hs i ?_
      have : i.1 ≠ k.1 := fun h => e (Fin.ext h)
      omega

/-- The Riccati recursion does not lose NaN. -/
theorem step_nan {alpha sigma : XReal}
    {x xbar : Point XReal ((N + 1) * (nx + nu)) ((N + 1) * nx) ((N + 1) * nc)}
    {r : Resid XReal ((N + 1) * (nx + nu)) ((N + 1) * nx) ((N + 1) * nc)}
    (h : r.z.HasNaN ∨ r.l.HasNaN ∨ r.v.HasNaN) : (step d alpha x xbar sigma r).HasNaN := by
  obtain ⟨h1, h2, h3⟩ := forward_nan (d := d) r (initPair d x xbar sigma (zero d alpha)).2
  have hb := backward_nan (w := forFin N forwardStep (solvePre d r
    (initPair d x xbar sigma (zero d alpha)).2)) ⟨Vec.const 0, Vec.const 0, Vec.const 0, Vec.const 0⟩
  rcases h with ⟨a, h⟩ | ⟨a, h⟩ | ⟨a, h⟩
  · refine .inl ⟨a, ?_⟩
    show (backward _ _).1 a = _
    rcases xuIdx_surj a with ⟨i, j, rfl⟩ | ⟨i, j, rfl⟩
    · refine (hb i).1 j (h3 i j (.inl ?_))
      rw [h2, ← xBlock_get, (d.gemvAT_neg _ _ i).1, Vec.get_sub, xBlock_get, h]; simp
    · refine (hb i).2 j ?_
      rw [h2, ← uBlock_get, (d.gemvAT_neg _ _ i).2, Vec.get_sub, uBlock_get, h]; simp
  · obtain ⟨i, j, rfl⟩ := flatIdx_surj a
    exact .inl ⟨xIdx i j, (hb i).1 j (h3 i j (.inr h))⟩
  · refine .inr (.inr ⟨a, ?_⟩)
    show (Vec.cwiseQuotient _ _) a = _
    simp only [Vec.cwiseQuotient, Vec.get_ofFn, Vec.get_add, h]
    simp

end RiccatiWs

namespace MpcData
variable {N nx nu nc : Nat} {d : MpcData XReal N nx nu nc}

theorem grad_x (z l v) (i : Fin (N + 1)) : ∃ p : Vec XReal nx,
    xBlock (gradLagrangian d.ops z l v) i =
      xBlock (Vec.const 0 : Vec XReal ((N + 1) * (nx + nu))) i + (1 : XReal) * d.q i +
        (d.Q i * xBlock z i + (d.S i).transpose * uBlock z i) + (-1 : XReal) * colBlock l i + p +
        (d.E i).transpose * colBlock v i ∨
    xBlock (gradLagrangian d.ops z l v) i =
      xBlock (Vec.const 0 : Vec XReal ((N + 1) * (nx + nu))) i + (1 : XReal) * d.q i +
        (d.Q i * xBlock z i + (d.S i).transpose * uBlock z i) + (-1 : XReal) * colBlock l i +
        (d.E i).transpose * colBlock v i := by
  simp only [gradLagrangian, ops]
  rw [(d.gemvAT_one _ _ i).1]
  refine Fin.lastCases ?_ (fun i => ?_) i
  · rw [(d.gemvGT_one _ _).1.1, (d.gemvH_one _ _ _).1, (d.axpyf_any _ _ _).1]
    exact ⟨Vec.const 0, .inr rfl⟩
  · rw [((d.gemvGT_one _ _).2 i).1, (d.gemvH_one _ _ _).1, (d.axpyf_any _ _ _).1]
    exact ⟨_, .inl rfl⟩

/-- NaN in a state row of the gradient. -/
theorem grad_x_nan {z l v} (i : Fin (N + 1)) (j : Fin nx)
    (h : d.q i j = .nan ∨ (∃ k, d.Q i j k = .nan) ∨ (∃ k, d.E i k j = .nan) ∨
      (xBlock z i).HasNaN ∨ (uBlock z i).HasNaN ∨ l (flatIdx i j) = .nan ∨ (colBlock v i).HasNaN) :
    gradLagrangian d.ops z l v (xIdx i j) = .nan := by
  rw [← xBlock_get]
  have key : (d.q i j = .nan ∨ (∃ k, d.Q i j k = .nan) ∨ (xBlock z i).HasNaN ∨ (uBlock z i).HasNaN ∨
      l (flatIdx i j) = .nan) → (xBlock (Vec.const 0 : Vec XReal ((N + 1) * (nx + nu))) i +
        (1 : XReal) * d.q i + (d.Q i * xBlock z i + (d.S i).transpose * uBlock z i) +
        (-1 : XReal) * colBlock l i) j = .nan := by
    simp only [Vec.get_add, Vec.get_smul, colBlock_get]
    rintro (h | ⟨k, h⟩ | h | h | h)
    · rw [h]; simp
    · rw [mulVec_nan_left h]; simp
    · rw [mulVec_nan_right _ h]; simp
    · rw [mulVec_nan_right (d.S i).transpose h]; simp
    · rw [h]; simp
  have key2 : ((∃ k, d.E i k j = .nan) ∨ (colBlock v i).HasNaN) →
      ((d.E i).transpose * colBlock v i) j = .nan := by
    rintro (⟨k, h⟩ | h)
    · exact mulVec_nan_left (j := k) (by simp [h]) _
    · exact mulVec_nan_right _ h _
  have : (d.q i j = .nan ∨ (∃ k, d.Q i j k = .nan) ∨ (xBlock z i).HasNaN ∨ (uBlock z i).HasNaN ∨
      l (flatIdx i j) = .nan) ∨ ((∃ k, d.E i k j = .nan) ∨ (colBlock v i).HasNaN) := by tauto
  obtain ⟨p, e | e⟩ := grad_x (d := d) z l v i <;> rw [e] <;> rcases this with h | h
  · rw [Vec.get_add, Vec.get_add, key h]; simp
  · rw [Vec.get_add, key2 h]; simp
  · rw [Vec.get_add, key h]; simp
  · rw [Vec.get_add, key2 h]; simp

theorem grad_u (z l v) (i : Fin (N + 1)) : ∃ p : Vec XReal nu,
    uBlock (gradLagrangian d.ops z l v) i =
      uBlock (Vec.const 0 : Vec XReal ((N + 1) * (nx + nu))) i + (1 : XReal) * d.r i +
        (d.S i * xBlock z i + d.R i * uBlock z i) + p + (d.L i).transpose * colBlock v i ∨
    uBlock (gradLagrangian d.ops z l v) i =
      uBlock (Vec.const 0 : Vec XReal ((N + 1) * (nx + nu))) i + (1 : XReal) * d.r i +
        (d.S i * xBlock z i + d.R i * uBlock z i) + (d.L i).transpose * colBlock v i := by
  simp only [gradLagrangian, ops]
  rw [(d.gemvAT_one _ _ i).2]
  refine Fin.lastCases ?_ (fun i => ?_) i
  · rw [(d.gemvGT_one _ _).1.2, (d.gemvH_one _ _ _).2, (d.axpyf_any _ _ _).2]
    exact ⟨Vec.const 0, .inr rfl⟩
  · rw [((d.gemvGT_one _ _).2 i).2, (d.gemvH_one _ _ _).2, (d.axpyf_any _ _ _).2]
    exact ⟨_, .inl rfl⟩

/-- NaN in a control row of the gradient. -/
theorem grad_u_nan {z l v} (i : Fin (N + 1)) (j : Fin nu)
    (h : d.r i j = .nan ∨ (∃ k, d.S i j k = .nan) ∨ (∃ k, d.R i j k = .nan) ∨
      (∃ k, d.L i k j = .nan) ∨ (xBlock z i).HasNaN ∨ (uBlock z i).HasNaN ∨ (colBlock v i).HasNaN) :
    gradLagrangian d.ops z l v (uIdx i j) = .nan := by
  rw [← uBlock_get]
  have key : (d.r i j = .nan ∨ (∃ k, d.S i j k = .nan) ∨ (∃ k, d.R i j k = .nan) ∨
      (xBlock z i).HasNaN ∨ (uBlock z i).HasNaN) →
      (uBlock (Vec.const 0 : Vec XReal ((N + 1) * (nx + nu))) i +
        (1 : XReal) * d.r i + (d.S i * xBlock z i + d.R i * uBlock z i)) j = .nan := by
    simp only [Vec.get_add, Vec.get_smul]
    rintro (h | ⟨k, h⟩ | ⟨k, h⟩ | h | h)
    · rw [h]; simp
    · rw [mulVec_nan_left h]; simp
    · rw [mulVec_nan_left h]; simp
    · rw [mulVec_nan_right _ h]; simp
    · rw [mulVec_nan_right (d.R i) h]; simp
  have key2 : ((∃ k, d.L i k j = .nan) ∨ (colBlock v i).HasNaN) →
      ((d.L i).transpose * colBlock v i) j = .nan := by
    rintro (⟨k, h⟩ | h)
    · exact mulVec_nan_left (j := k) (by simp [h]) _
    · exact mulVec_nan_right _ h _
  have : (d.r i j = .nan ∨ (∃ k, d.S i j k = .nan) ∨ (∃ k, d.R i j k = .nan) ∨
      (xBlock z i).HasNaN ∨ (uBlock z i).HasNaN) ∨
      ((∃ k, d.L i k j = .nan) ∨ (colBlock v i).HasNaN) := by tauto
  obtain ⟨p, e | e⟩ := grad_u (d := d) z l v i <;> rw [e] <;> rcases this with h | h
  · rw [Vec.get_add, Vec.get_add, key h]; simp
  · rw [Vec.get_add, key2 h]; simp
  · rw [Vec.get_add, key h]; simp
  · rw [Vec.get_add, key2 h]; simp

theorem grad_A_nan {z l v} (i : Fin N) (j k : Fin nx) (h : d.A i j k = .nan) :
    gradLagrangian d.ops z l v (xIdx i.castSucc k) = .nan := by
  rw [← xBlock_get]
  simp only [gradLagrangian, ops]
  rw [(d.gemvAT_one _ _ _).1, ((d.gemvGT_one _ _).2 i).1, Vec.get_add, Vec.get_add,
    mulVec_nan_left (m := (d.A i).transpose) (j := j) (by simp [h])]
  simp

theorem grad_B_nan {z l v} (i : Fin N) (j : Fin nx) (k : Fin nu) (h : d.B i j k = .nan) :
    gradLagrangian d.ops z l v (uIdx i.castSucc k) = .nan := by
  rw [← uBlock_get]
  simp only [gradLagrangian, ops]
  rw [(d.gemvAT_one _ _ _).2, ((d.gemvGT_one _ _).2 i).2, Vec.get_add, Vec.get_add,
    mulVec_nan_left (m := (d.B i).transpose) (j := j) (by simp [h])]
  simp

theorem eqDefect_zero_nan {z} (j : Fin nx) (h : d.x0 j = .nan) :
    eqDefect d.ops z (flatIdx 0 j) = .nan := by
  rw [← colBlock_get]
  simp only [eqDefect, ops]
  rw [(d.gemvG_neg _ _).1, (d.axpyh_any _ _).1]
  simp [h]

theorem eqDefect_succ_nan {z} (i : Fin N) (j : Fin nx)
    (h : d.c i j = .nan ∨ (∃ k, d.A i j k = .nan) ∨ (∃ k, d.B i j k = .nan)) :
    eqDefect d.ops z (flatIdx i.succ j) = .nan := by
  rw [← colBlock_get]
  simp only [eqDefect, ops]
  rw [(d.gemvG_neg _ _).2 i, (d.axpyh_any _ _).2 i]
  simp only [Vec.get_add, Vec.get_sub, Vec.get_smul]
  rcases h with h | ⟨k, h⟩ | ⟨k, h⟩
  · simp [h]
  · rw [mulVec_nan_left h]; simp
  · rw [mulVec_nan_left h]; simp

theorem margin_nan {z} (i : Fin (N + 1)) (j : Fin nc)
    (h : d.d i j = .nan ∨ (∃ k, d.E i j k = .nan) ∨ (∃ k, d.L i j k = .nan)) :
    margin d.ops z (flatIdx i j) = .nan := by
  rw [← colBlock_get]
  simp only [margin, ops]
  rw [d.gemvA_neg _ _ i, d.axpyb_any _ _ i]
  simp only [Vec.get_add, Vec.get_sub, Vec.get_smul]
  rcases h with h | ⟨k, h⟩ | ⟨k, h⟩
  · simp [h]
  · rw [mulVec_nan_left h]; simp
  · rw [mulVec_nan_left h]; simp

theorem forcingNorm_nan (h : (∃ i, (d.q i).HasNaN) ∨ (∃ i, (d.r i).HasNaN) ∨ (∃ i, (d.d i).HasNaN) ∨
    (∃ i, (d.c i).HasNaN) ∨ d.x0.HasNaN) : d.ops.forcingNorm = .nan := by
  have h : ∃ i : Fin (N + 1), (d.q i).HasNaN ∨ (d.r i).HasNaN ∨ (d.d i).HasNaN ∨
      (if h : i.1 = 0 then d.x0.squaredNorm
         else (d.c ⟨i.1 - 1, by have := i.2; omega⟩).squaredNorm) = .nan := by
    rcases h with ⟨i, h⟩ | ⟨i, h⟩ | ⟨i, h⟩ | ⟨i, h⟩ | h
    · exact ⟨i, .inl h⟩
    · exact ⟨i, .inr (.inl h)⟩
    · exact ⟨i, .inr (.inr (.inl h))⟩
    · exact ⟨i.succ, .inr (.inr (.inr (by simp [h.squaredNorm])))⟩
    · exact ⟨0, .inr (.inr (.inr (by simp [h.squaredNorm])))⟩
  obtain ⟨i, h⟩ := h
  simp only [ops, forcingNorm]
  have := forFin_induct (n := N + 1) (s := (0 : XReal)) (f := fun i s => s + (d.q i).squaredNorm +
    (d.r i).squaredNorm + (d.d i).squaredNorm + (if h : i.1 = 0 then d.x0.squaredNorm
         else (d.c ⟨i.1 - 1, by have := i.2; omega⟩).squaredNorm))
    (P := fun t s => i.1 < t → s = .nan) (fun h => absurd h (Nat.not_lt_zero _)) ?_
  · rw [this i.2]; rfl
  · intro k s hs hk
    by_cases e : k = i
    · subst e
      rcases h with h | h | h | h
      · rw [h.squaredNorm]; simp
      · rw [h.squaredNorm]; simp
      · rw [h.squaredNorm]; simp
      · rw [h]; simp
    · rw [hs (by have : k.1 ≠ i.1 := fun h => e (Fin.ext h); omega)]; simp

end MpcData
end Fbstab
