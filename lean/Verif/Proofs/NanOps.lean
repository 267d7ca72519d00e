import Verif.Proofs.Nan
import Verif.Proofs.DenseSem
import Verif.Proofs.RiccatiSem
import Verif.Proofs.Ops

/-!
# NaN in the problem data and in the residuals
-/

namespace Fbstab

namespace XReal
theorem beq_one_one : ((1 : XReal) == 1) = true := by
  show decide ((1 : EReal) = 1) = true
  simp
theorem beq_one_zero : ((1 : XReal) == 0) = false := by
  show decide ((1 : EReal) = 0) = false
  simp
theorem beq_neg_one : ((-1 : XReal) == -1) = true := by
  show decide ((-1 : EReal) = -1) = true
  simp
theorem beq_neg_one_one : ((-1 : XReal) == 1) = false := by
  show decide ((-1 : EReal) = 1) = false
  refine decide_eq_false fun h => ?_
  have := congrArg EReal.toReal h
  rw [show (-1 : EReal) = ((-1 : ℝ) : EReal) from by simp, EReal.toReal_coe, EReal.toReal_one] at this
  norm_num at this
end XReal

theorem scaleBy_one {n : Nat} (y : Vec XReal n) : scaleBy 1 y = y := by
  simp [scaleBy, XReal.beq_one_zero, XReal.beq_one_one]

/-! ## Dense data -/

namespace DenseData
variable {nz nl nv : Nat} {d : DenseData XReal nz nl nv}

theorem grad_nan (i : Fin nz) {z : Vec XReal nz} {l : Vec XReal nl} {v : Vec XReal nv}
    (h : d.f i = .nan ∨ (∃ j, d.H i j = .nan) ∨ (∃ j, d.G j i = .nan) ∨ (∃ j, d.A j i = .nan) ∨
      z.HasNaN ∨ l.HasNaN ∨ v.HasNaN) : gradLagrangian d.ops z l v i = .nan := by
  simp only [gradLagrangian, ops, gemvAT, gemvGT, gemvH, axpyf, Vec.get_add, Vec.get_smul]
  rcases h with h | ⟨j, h⟩ | ⟨j, h⟩ | ⟨j, h⟩ | h | h | h
  · simp [h]
  · rw [mulVec_nan_left (m := (1 : XReal) * d.H) (j := j) (by simp [h])]; simp
  · rw [mulVec_nan_left (m := (1 : XReal) * d.G.transpose) (j := j) (by simp [h])]; simp
  · rw [mulVec_nan_left (m := (1 : XReal) * d.A.transpose) (j := j) (by simp [h])]; simp
  · rw [mulVec_nan_right _ h]; simp
  · rw [mulVec_nan_right _ h]; simp
  · rw [mulVec_nan_right _ h]; simp

theorem eqDefect_nan (i : Fin nl) {z : Vec XReal nz}
    (h : d.h i = .nan ∨ (∃ j, d.G i j = .nan) ∨ z.HasNaN) : eqDefect d.ops z i = .nan := by
  simp only [eqDefect, ops, gemvG, axpyh, Vec.get_add, Vec.get_smul]
  rcases h with h | ⟨j, h⟩ | h
  · simp [h]
  · rw [mulVec_nan_left (m := (-1 : XReal) * d.G) (j := j) (by simp [h])]; simp
  · rw [mulVec_nan_right _ h]; simp

theorem margin_nan (i : Fin nv) {z : Vec XReal nz}
    (h : d.b i = .nan ∨ (∃ j, d.A i j = .nan) ∨ z.HasNaN) : margin d.ops z i = .nan := by
  simp only [margin, ops, gemvA, axpyb, Vec.get_add, Vec.get_smul]
  rcases h with h | ⟨j, h⟩ | h
  · simp [h]
  · rw [mulVec_nan_left (m := (-1 : XReal) * d.A) (j := j) (by simp [h])]; simp
  · rw [mulVec_nan_right _ h]; simp

theorem forcingNorm_nan (h : d.f.HasNaN ∨ d.h.HasNaN ∨ d.b.HasNaN) : d.ops.forcingNorm = .nan := by
  simp only [ops, forcingNorm]
  rcases h with h | h | h <;> simp [h.squaredNorm]

end DenseData

/-! ## MPC data -/

namespace MpcData
variable {N nx nu nc : Nat} (d : MpcData XReal N nx nu nc)

/-- The state and control parts of stage `k`. -/
def xu' {K : Type} (k : Fin (N + 1)) (w : Vec K ((N + 1) * (nx + nu))) : Vec K nx × Vec K nu :=
  (xBlock w k, uBlock w k)

theorem gemvH_one (x y : Vec XReal ((N + 1) * (nx + nu))) (i : Fin (N + 1)) :
    xBlock (d.gemvH x 1 1 y) i = xBlock y i + (d.Q i * xBlock x i + (d.S i).transpose * uBlock x i) ∧
    uBlock (d.gemvH x 1 1 y) i = uBlock y i + (d.S i * xBlock x i + d.R i * uBlock x i) := by
  have := (forFin_block (n := N + 1) id id_inj xu' (fun i p =>
    (p.1 + (d.Q i * xBlock x i + (d.S i).transpose * uBlock x i),
      p.2 + (d.S i * xBlock x i + d.R i * uBlock x i))) (f := fun i w =>
        setU (setX w i (xBlock w i + (d.Q i * xBlock x i + (d.S i).transpose * uBlock x i))) i
          (uBlock (setX w i (xBlock w i + (d.Q i * xBlock x i + (d.S i).transpose * uBlock x i))) i +
            (d.S i * xBlock x i + d.R i * uBlock x i))) ?_ y).1 i
  · simp only [gemvH, XReal.beq_one_one, if_true, scaleBy_one]
    exact Prod.mk.inj this
  · intro i w k
    by_cases hk : k = i
    · subst hk; simp [xu']
    · simp [xu', hk, xBlock_setX, uBlock_setU]

theorem gemvA_neg (x : Vec XReal ((N + 1) * (nx + nu))) (y : Vec XReal ((N + 1) * nc))
    (i : Fin (N + 1)) : colBlock (d.gemvA x (-1) 1 y) i =
      colBlock y i - (d.E i * xBlock x i + d.L i * uBlock x i) := by
  have := (forFin_block (n := N + 1) id id_inj (fun k w => colBlock w k) (fun i p =>
    p - (d.E i * xBlock x i + d.L i * uBlock x i)) (f := fun i w =>
      setCol w i (colBlock w i - (d.E i * xBlock x i + d.L i * uBlock x i))) ?_ y).1 i
  · simp only [gemvA, XReal.beq_neg_one, XReal.beq_neg_one_one, Bool.false_eq_true, if_false, if_true,
      scaleBy_one]
    exact this
  · intro i w k
    by_cases hk : k = i
    · subst hk; simp
    · simp [hk, colBlock_setCol]

theorem gemvAT_one (x : Vec XReal ((N + 1) * nc)) (y : Vec XReal ((N + 1) * (nx + nu)))
    (i : Fin (N + 1)) :
    xBlock (d.gemvAT x 1 1 y) i = xBlock y i + (d.E i).transpose * colBlock x i ∧
    uBlock (d.gemvAT x 1 1 y) i = uBlock y i + (d.L i).transpose * colBlock x i := by
  have := (forFin_block (n := N + 1) id id_inj xu' (fun i p =>
    (p.1 + (d.E i).transpose * colBlock x i,
      p.2 + (d.L i).transpose * colBlock x i)) (f := fun i w =>
        setU (setX w i (xBlock w i + (d.E i).transpose * colBlock x i)) i
          (uBlock (setX w i (xBlock w i + (d.E i).transpose * colBlock x i)) i +
            (d.L i).transpose * colBlock x i)) ?_ y).1 i
  · simp only [gemvAT, XReal.beq_one_one, if_true, scaleBy_one]
    exact Prod.mk.inj this
  · intro i w k
    by_cases hk : k = i
    · subst hk; simp [xu']
    · simp [xu', hk, xBlock_setX, uBlock_setU]

theorem gemvAT_neg (x : Vec XReal ((N + 1) * nc)) (y : Vec XReal ((N + 1) * (nx + nu)))
    (i : Fin (N + 1)) :
    xBlock (d.gemvAT x (-1) 1 y) i = xBlock y i - (d.E i).transpose * colBlock x i ∧
    uBlock (d.gemvAT x (-1) 1 y) i = uBlock y i - (d.L i).transpose * colBlock x i := by
  have := (forFin_block (n := N + 1) id id_inj xu' (fun i p =>
    (p.1 - (d.E i).transpose * colBlock x i,
      p.2 - (d.L i).transpose * colBlock x i)) (f := fun i w =>
        setU (setX w i (xBlock w i - (d.E i).transpose * colBlock x i)) i
          (uBlock (setX w i (xBlock w i - (d.E i).transpose * colBlock x i)) i -
            (d.L i).transpose * colBlock x i)) ?_ y).1 i
  · simp only [gemvAT, XReal.beq_neg_one, XReal.beq_neg_one_one, Bool.false_eq_true, if_false, if_true,
      scaleBy_one]
    exact Prod.mk.inj this
  · intro i w k
    by_cases hk : k = i
    · subst hk; simp [xu']
    · simp [xu', hk, xBlock_setX, uBlock_setU]

theorem gemvG_neg (x : Vec XReal ((N + 1) * (nx + nu))) (y : Vec XReal ((N + 1) * nx)) :
    colBlock (d.gemvG x (-1) 1 y) 0 = colBlock y 0 + (- -1 : XReal) * xBlock x 0 ∧
    ∀ i : Fin N, colBlock (d.gemvG x (-1) 1 y) i.succ =
      colBlock y i.succ - (d.A i * xBlock x i.castSucc + d.B i * uBlock x i.castSucc) +
        xBlock x i.succ := by
  have key := forFin_block (n := N) (fun i => i.succ) succ_inj (fun k w => colBlock w k) (fun i p =>
    p - (d.A i * xBlock x i.castSucc + d.B i * uBlock x i.castSucc) + xBlock x i.succ)
    (f := fun i w =>
      let w := setCol w i.succ (colBlock w i.succ -
        (d.A i * xBlock x i.castSucc + d.B i * uBlock x i.castSucc))
      setCol w i.succ (colBlock w i.succ + xBlock x i.succ)) ?_
    (setCol y 0 (colBlock y 0 + (- -1 : XReal) * xBlock x 0))
  · simp only [gemvG, XReal.beq_neg_one, XReal.beq_neg_one_one, Bool.false_eq_true, if_false, if_true,
      scaleBy_one]
    refine ⟨(key.2 0 fun i => (Fin.succ_ne_zero i).symm).trans ?_, fun i => (key.1 i).trans ?_⟩
    · simp
    · simp [colBlock_setCol, Fin.succ_ne_zero]
  · intro i w k
    by_cases hk : k = i.succ
    · subst hk; simp
    · simp [colBlock_setCol, hk]

theorem gemvGT_one (x : Vec XReal ((N + 1) * nx)) (y : Vec XReal ((N + 1) * (nx + nu))) :
    (xBlock (d.gemvGT x 1 1 y) (Fin.last N) =
      xBlock y (Fin.last N) + (-1 : XReal) * colBlock x (Fin.last N) ∧
      uBlock (d.gemvGT x 1 1 y) (Fin.last N) = uBlock y (Fin.last N)) ∧
    ∀ i : Fin N, xBlock (d.gemvGT x 1 1 y) i.castSucc =
        xBlock y i.castSucc + (-1 : XReal) * colBlock x i.castSucc + (d.A i).transpose * colBlock x i.succ ∧
      uBlock (d.gemvGT x 1 1 y) i.castSucc =
        uBlock y i.castSucc + (d.B i).transpose * colBlock x i.succ := by
  have key := forFin_block (n := N) (fun i => i.castSucc) castSucc_inj xu' (fun i p =>
    (p.1 + (-1 : XReal) * colBlock x i.castSucc + (d.A i).transpose * colBlock x i.succ,
      p.2 + (d.B i).transpose * colBlock x i.succ))
    (f := fun i w =>
      let w := setX w i.castSucc (xBlock w i.castSucc + (-1 : XReal) * colBlock x i.castSucc)
      let w := setX w i.castSucc (xBlock w i.castSucc + (d.A i).transpose * colBlock x i.succ)
      setU w i.castSucc (uBlock w i.castSucc + (d.B i).transpose * colBlock x i.succ)) ?_ y
  · have k2 := Prod.mk.inj (key.2 (Fin.last N) fun i => (Fin.castSucc_ne_last i).symm)
    simp only [gemvGT, XReal.beq_one_one, if_true, scaleBy_one]
    refine ⟨⟨?_, ?_⟩, fun i => ?_⟩
    · rw [xBlock_setX_same, k2.1]
    · rw [uBlock_setX]; exact k2.2
    · have k1 := Prod.mk.inj (key.1 i)
      refine ⟨?_, ?_⟩
      · rw [xBlock_setX, if_neg (Fin.castSucc_ne_last i)]; exact k1.1
      · rw [uBlock_setX]; exact k1.2
  · intro i w k
    by_cases hk : k = i.castSucc
    · subst hk; simp [xu']
    · simp [xu', hk, xBlock_setX, uBlock_setU]

theorem axpyf_any (a : XReal) (y : Vec XReal ((N + 1) * (nx + nu))) (i : Fin (N + 1)) :
    xBlock (d.axpyf a y) i = xBlock y i + a * d.q i ∧ uBlock (d.axpyf a y) i = uBlock y i + a * d.r i := by
  refine Prod.mk.inj ((forFin_block (n := N + 1) id id_inj xu' (fun i p =>
    (p.1 + a * d.q i, p.2 + a * d.r i)) ?_ y).1 i)
  intro i w k
  by_cases hk : k = i
  · subst hk; simp [xu']
  · simp [xu', hk, xBlock_setX, uBlock_setU]

theorem axpyh_any (a : XReal) (y : Vec XReal ((N + 1) * nx)) :
    colBlock (d.axpyh a y) 0 = colBlock y 0 + (-a) * d.x0 ∧
    ∀ i : Fin N, colBlock (d.axpyh a y) i.succ = colBlock y i.succ + (-a) * d.c i := by
  have key := forFin_block (n := N) (fun i => i.succ) succ_inj (fun k w => colBlock w k)
    (fun i p => p + (-a) * d.c i)
    (f := fun i w => setCol w i.succ (colBlock w i.succ + (-a) * d.c i)) ?_
    (setCol y 0 (colBlock y 0 + (-a) * d.x0))
  · refine ⟨(key.2 0 fun i => (Fin.succ_ne_zero i).symm).trans ?_, fun i => (key.1 i).trans ?_⟩
    · simp
    · simp [colBlock_setCol, Fin.succ_ne_zero]
  · intro i w k
    by_cases hk : k = i.succ
    · subst hk; simp
    · simp [colBlock_setCol, hk]

theorem axpyb_any (a : XReal) (y : Vec XReal ((N + 1) * nc)) (i : Fin (N + 1)) :
    colBlock (d.axpyb a y) i = colBlock y i + (-a) * d.d i := by
  refine (forFin_block (n := N + 1) id id_inj (fun k w => colBlock w k) (fun i p =>
    p + (-a) * d.d i) (f := fun i w => setCol w i (colBlock w i + (-a) * d.d i)) ?_ y).1 i
  intro i w k
  by_cases hk : k = i
  · subst hk; simp
  · simp [colBlock_setCol, hk]

end MpcData
end Fbstab
