import Verif.Proofs.Ops

/-!
# The methods of `MpcData`, block by block, in any arithmetic
-/

namespace Fbstab
variable {K : Type} [Scalar K]

/-- `==` distinguishes 0, 1 and -1. -/
structure BeqOk (K : Type) [Scalar K] : Prop where
  zero : ((0 : K) == 0) = true
  one_one : ((1 : K) == 1) = true
  one_zero : ((1 : K) == 0) = false
  neg_neg : ((-1 : K) == -1) = true
  neg_one : ((-1 : K) == 1) = false

theorem BeqOk.scaleBy_one (h : BeqOk K) {n : Nat} (y : Vec K n) : scaleBy 1 y = y := by
  simp [scaleBy, h.one_zero, h.one_one]

theorem BeqOk.scaleBy_zero (h : BeqOk K) {n : Nat} (y : Vec K n) : scaleBy 0 y = Vec.const 0 := by
  simp [scaleBy, h.zero]

namespace MpcData
variable {N nx nu nc : Nat} (d : MpcData K N nx nu nc)

/-- The state and control parts of stage `k`. -/
def xuK {K : Type} (k : Fin (N + 1)) (w : Vec K ((N + 1) * (nx + nu))) : Vec K nx × Vec K nu :=
  (xBlock w k, uBlock w k)

theorem gemvH_one_gen (h : BeqOk K) (x y : Vec K ((N + 1) * (nx + nu))) (i : Fin (N + 1)) :
    xBlock (d.gemvH x 1 1 y) i = xBlock y i + (d.Q i * xBlock x i + (d.S i).transpose * uBlock x i) ∧
    uBlock (d.gemvH x 1 1 y) i = uBlock y i + (d.S i * xBlock x i + d.R i * uBlock x i) := by
  have := (forFin_block (n := N + 1) id id_inj xuK (fun i p =>
    (p.1 + (d.Q i * xBlock x i + (d.S i).transpose * uBlock x i),
      p.2 + (d.S i * xBlock x i + d.R i * uBlock x i))) (f := fun i w =>
        setU (setX w i (xBlock w i + (d.Q i * xBlock x i + (d.S i).transpose * uBlock x i))) i
          (uBlock (setX w i (xBlock w i + (d.Q i * xBlock x i + (d.S i).transpose * uBlock x i))) i +
            (d.S i * xBlock x i + d.R i * uBlock x i))) ?_ y).1 i
  · simp only [gemvH, h.one_one, if_true, h.scaleBy_one]
    exact Prod.mk.inj this
  · intro i w k
    by_cases hk : k = i
    · subst hk; simp [xuK]
    · simp [xuK, hk, xBlock_setX, uBlock_setU]

theorem gemvA_neg_gen (h : BeqOk K) (x : Vec K ((N + 1) * (nx + nu))) (y : Vec K ((N + 1) * nc))
    (i : Fin (N + 1)) : colBlock (d.gemvA x (-1) 1 y) i =
      colBlock y i - (d.E i * xBlock x i + d.L i * uBlock x i) := by
  have := (forFin_block (n := N + 1) id id_inj (fun k w => colBlock w k) (fun i p =>
    p - (d.E i * xBlock x i + d.L i * uBlock x i)) (f := fun i w =>
      setCol w i (colBlock w i - (d.E i * xBlock x i + d.L i * uBlock x i))) ?_ y).1 i
  · simp only [gemvA, h.neg_neg, h.neg_one, Bool.false_eq_true, if_false, if_true,
      h.scaleBy_one]
    exact this
  · intro i w k
    by_cases hk : k = i
    · subst hk; simp
    · simp [hk, colBlock_setCol]

theorem gemvA_one_gen (h : BeqOk K) (x : Vec K ((N + 1) * (nx + nu))) (y : Vec K ((N + 1) * nc))
    (i : Fin (N + 1)) : colBlock (d.gemvA x 1 1 y) i =
      colBlock y i + (d.E i * xBlock x i + d.L i * uBlock x i) := by
  have := (forFin_block (n := N + 1) id id_inj (fun k w => colBlock w k) (fun i p =>
    p + (d.E i * xBlock x i + d.L i * uBlock x i)) (f := fun i w =>
      setCol w i (colBlock w i + (d.E i * xBlock x i + d.L i * uBlock x i))) ?_ y).1 i
  · simp only [gemvA, h.one_one, if_true, h.scaleBy_one]
    exact this
  · intro i w k
    by_cases hk : k = i
    · subst hk; simp
    · simp [hk, colBlock_setCol]

theorem gemvG_one_gen (h : BeqOk K) (x : Vec K ((N + 1) * (nx + nu))) (y : Vec K ((N + 1) * nx)) :
    colBlock (d.gemvG x 1 1 y) 0 = colBlock y 0 + (-1 : K) * xBlock x 0 ∧
    ∀ i : Fin N, colBlock (d.gemvG x 1 1 y) i.succ =
      colBlock y i.succ + (d.A i * xBlock x i.castSucc + d.B i * uBlock x i.castSucc) -
        xBlock x i.succ := by
  have key := forFin_block (n := N) (fun i => i.succ) succ_inj (fun k w => colBlock w k) (fun i p =>
    p + (d.A i * xBlock x i.castSucc + d.B i * uBlock x i.castSucc) - xBlock x i.succ)
    (f := fun i w =>
      let w := setCol w i.succ (colBlock w i.succ +
        (d.A i * xBlock x i.castSucc + d.B i * uBlock x i.castSucc))
      setCol w i.succ (colBlock w i.succ - xBlock x i.succ)) ?_
    (setCol y 0 (colBlock y 0 + (-1 : K) * xBlock x 0))
  · simp only [gemvG, h.one_one, if_true, h.scaleBy_one]
    refine ⟨(key.2 0 fun i => (Fin.succ_ne_zero i).symm).trans ?_, fun i => (key.1 i).trans ?_⟩
    · simp
    · simp [colBlock_setCol, Fin.succ_ne_zero]
  · intro i w k
    by_cases hk : k = i.succ
    · subst hk; simp
    · simp [colBlock_setCol, hk]

/-- With `b = 0` the old contents do not matter. -/
theorem gemvH_zero_gen (h : BeqOk K) (x a y) : d.gemvH x a 0 y = d.gemvH x a 1 (Vec.const 0) := by
  simp only [gemvH, h.scaleBy_one, h.scaleBy_zero]

theorem gemvA_zero_gen (h : BeqOk K) (x a y) : d.gemvA x a 0 y = d.gemvA x a 1 (Vec.const 0) := by
  simp only [gemvA, h.scaleBy_one, h.scaleBy_zero]

theorem gemvG_zero_gen (h : BeqOk K) (x a y) : d.gemvG x a 0 y = d.gemvG x a 1 (Vec.const 0) := by
  simp only [gemvG, h.scaleBy_one, h.scaleBy_zero]

theorem gemvAT_one_gen (h : BeqOk K) (x : Vec K ((N + 1) * nc)) (y : Vec K ((N + 1) * (nx + nu)))
    (i : Fin (N + 1)) :
    xBlock (d.gemvAT x 1 1 y) i = xBlock y i + (d.E i).transpose * colBlock x i ∧
    uBlock (d.gemvAT x 1 1 y) i = uBlock y i + (d.L i).transpose * colBlock x i := by
  have := (forFin_block (n := N + 1) id id_inj xuK (fun i p =>
    (p.1 + (d.E i).transpose * colBlock x i,
      p.2 + (d.L i).transpose * colBlock x i)) (f := fun i w =>
        setU (setX w i (xBlock w i + (d.E i).transpose * colBlock x i)) i
          (uBlock (setX w i (xBlock w i + (d.E i).transpose * colBlock x i)) i +
            (d.L i).transpose * colBlock x i)) ?_ y).1 i
  · simp only [gemvAT, h.one_one, if_true, h.scaleBy_one]
    exact Prod.mk.inj this
  · intro i w k
    by_cases hk : k = i
    · subst hk; simp [xuK]
    · simp [xuK, hk, xBlock_setX, uBlock_setU]

theorem gemvAT_neg_gen (h : BeqOk K) (x : Vec K ((N + 1) * nc)) (y : Vec K ((N + 1) * (nx + nu)))
    (i : Fin (N + 1)) :
    xBlock (d.gemvAT x (-1) 1 y) i = xBlock y i - (d.E i).transpose * colBlock x i ∧
    uBlock (d.gemvAT x (-1) 1 y) i = uBlock y i - (d.L i).transpose * colBlock x i := by
  have := (forFin_block (n := N + 1) id id_inj xuK (fun i p =>
    (p.1 - (d.E i).transpose * colBlock x i,
      p.2 - (d.L i).transpose * colBlock x i)) (f := fun i w =>
        setU (setX w i (xBlock w i - (d.E i).transpose * colBlock x i)) i
          (uBlock (setX w i (xBlock w i - (d.E i).transpose * colBlock x i)) i -
            (d.L i).transpose * colBlock x i)) ?_ y).1 i
  · simp only [gemvAT, h.neg_neg, h.neg_one, Bool.false_eq_true, if_false, if_true,
      h.scaleBy_one]
    exact Prod.mk.inj this
  · intro i w k
    by_cases hk : k = i
    · subst hk; simp [xuK]
    · simp [xuK, hk, xBlock_setX, uBlock_setU]

theorem gemvG_neg_gen (h : BeqOk K) (x : Vec K ((N + 1) * (nx + nu))) (y : Vec K ((N + 1) * nx)) :
    colBlock (d.gemvG x (-1) 1 y) 0 = colBlock y 0 + (- -1 : K) * xBlock x 0 ∧
    ∀ i : Fin N, colBlock (d.gemvG x (-1) 1 y) i.succ =
      colBlock y i.succ - (d.A i * xBlock x i.castSucc + d.B i * uBlock x i.castSucc) +
        xBlock x i.succ := by
  have key := forFin_block (n := N) (fun i => i.succ) succ_inj (fun k w => colBlock w k) (fun i p =>
    p - (d.A i * xBlock x i.castSucc + d.B i * uBlock x i.castSucc) + xBlock x i.succ)
    (f := fun i w =>
      let w := setCol w i.succ (colBlock w i.succ -
        (d.A i * xBlock x i.castSucc + d.B i * uBlock x i.castSucc))
      setCol w i.succ (colBlock w i.succ + xBlock x i.succ)) ?_
    (setCol y 0 (colBlock y 0 + (- -1 : K) * xBlock x 0))
  · simp only [gemvG, h.neg_neg, h.neg_one, Bool.false_eq_true, if_false, if_true,
      h.scaleBy_one]
    refine ⟨(key.2 0 fun i => (Fin.succ_ne_zero i).symm).trans ?_, fun i => (key.1 i).trans ?_⟩
    · simp
    · simp [colBlock_setCol, Fin.succ_ne_zero]
  · intro i w k
    by_cases hk : k = i.succ
    · subst hk; simp
    · simp [colBlock_setCol, hk]

theorem gemvGT_one_gen (h : BeqOk K) (x : Vec K ((N + 1) * nx)) (y : Vec K ((N + 1) * (nx + nu))) :
    (xBlock (d.gemvGT x 1 1 y) (Fin.last N) =
      xBlock y (Fin.last N) + (-1 : K) * colBlock x (Fin.last N) ∧
      uBlock (d.gemvGT x 1 1 y) (Fin.last N) = uBlock y (Fin.last N)) ∧
    ∀ i : Fin N, xBlock (d.gemvGT x 1 1 y) i.castSucc =
        xBlock y i.castSucc + (-1 : K) * colBlock x i.castSucc + (d.A i).transpose * colBlock x i.succ ∧
      uBlock (d.gemvGT x 1 1 y) i.castSucc =
        uBlock y i.castSucc + (d.B i).transpose * colBlock x i.succ := by
  have key := forFin_block (n := N) (fun i => i.castSucc) castSucc_inj xuK (fun i p =>
    (p.1 + (-1 : K) * colBlock x i.castSucc + (d.A i).transpose * colBlock x i.succ,
      p.2 + (d.B i).transpose * colBlock x i.succ))
    (f := fun i w =>
      let w := setX w i.castSucc (xBlock w i.castSucc + (-1 : K) * colBlock x i.castSucc)
      let w := setX w i.castSucc (xBlock w i.castSucc + (d.A i).transpose * colBlock x i.succ)
      setU w i.castSucc (uBlock w i.castSucc + (d.B i).transpose * colBlock x i.succ)) ?_ y
  · have k2 := Prod.mk.inj (key.2 (Fin.last N) fun i => (Fin.castSucc_ne_last i).symm)
    simp only [gemvGT, h.one_one, if_true, h.scaleBy_one]
    refine ⟨⟨?_, ?_⟩, fun i => ?_⟩
    · rw [xBlock_setX_same, k2.1]
    · rw [uBlock_setX]; exact k2.2
    · have k1 := Prod.mk.inj (key.1 i)
      refine ⟨?_, ?_⟩
      · rw [xBlock_setX, if_neg (Fin.castSucc_ne_last i)]; exact k1.1
      · rw [uBlock_setX]; exact k1.2
  · intro i w k
    by_cases hk : k = i.castSucc
    · subst hk; simp [xuK]
    · simp [xuK, hk, xBlock_setX, uBlock_setU]

theorem axpyf_any_gen (a : K) (y : Vec K ((N + 1) * (nx + nu))) (i : Fin (N + 1)) :
    xBlock (d.axpyf a y) i = xBlock y i + a * d.q i ∧ uBlock (d.axpyf a y) i = uBlock y i + a * d.r i := by
  refine Prod.mk.inj ((forFin_block (n := N + 1) id id_inj xuK (fun i p =>
    (p.1 + a * d.q i, p.2 + a * d.r i)) ?_ y).1 i)
  intro i w k
  by_cases hk : k = i
  · subst hk; simp [xuK]
  · simp [xuK, hk, xBlock_setX, uBlock_setU]

theorem axpyh_any_gen (a : K) (y : Vec K ((N + 1) * nx)) :
    colBlock (d.axpyh a y) 0 = colBlock y 0 + (-a) * d.x0 ∧
    ∀ i : Fin N, colBlock (d.axpyh a y) i.succ = colBlock y i.succ + (-a) * d.c i := by
  have key := forFin_block (n := N) (fun i => i.succ) succ_inj (fun k w => colBlock w k)
    (fun i p => p + (-a) * d.c i)
    (f := fun i w => setCol w i.succ (colBlock w i.succ + (-a) * d.c i)) ?_
    (setCol y 0 (colBlock y 0 + (-a) * d.x0))
  · refine ⟨(key.2 0 fun i => (Fin.succ_ne_zero i).symm).trans ?_, fun i => (key.1 i).trans ?_⟩
    · simp
    · simp [colBlock_setCol, Fin.succ_ne_zero]
  · intro i w k
    by_cases hk : k = i.succ
    · subst hk; simp
    · simp [colBlock_setCol, hk]

theorem axpyb_any_gen (a : K) (y : Vec K ((N + 1) * nc)) (i : Fin (N + 1)) :
    colBlock (d.axpyb a y) i = colBlock y i + (-a) * d.d i := by
  refine (forFin_block (n := N + 1) id id_inj (fun k w => colBlock w k) (fun i p =>
    p + (-a) * d.d i) (f := fun i w => setCol w i (colBlock w i + (-a) * d.d i)) ?_ y).1 i
  intro i w k
  by_cases hk : k = i
  · subst hk; simp
  · simp [colBlock_setCol, hk]

end MpcData
end Fbstab
