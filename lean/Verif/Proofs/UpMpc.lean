import Verif.Proofs.UpDense
import Verif.Proofs.Workspace

/-!
# The Riccati solver commutes with the embedding of the reals
-/

namespace Fbstab

noncomputable def MpcData.up {N nx nu nc : Nat} (d : MpcData ℝ N nx nu nc) : MpcData XReal N nx nu nc where
  Q := d.Q.map Mat.up
  R := d.R.map Mat.up
  S := d.S.map Mat.up
  q := d.q.map Vec.up
  r := d.r.map Vec.up
  A := d.A.map Mat.up
  B := d.B.map Mat.up
  c := d.c.map Vec.up
  E := d.E.map Mat.up
  L := d.L.map Mat.up
  d := d.d.map Vec.up
  x0 := d.x0.up

section blocks
variable {k m nx nu : Nat}

theorem up_colBlock (w : Vec ℝ (k * m)) (i : Fin k) : colBlock w.up i = (colBlock w i).up := by
  simp only [colBlock, Vec.up_get, Vec.ofFn_up]
theorem up_xBlock (w : Vec ℝ (k * (nx + nu))) (i : Fin k) : xBlock w.up i = (xBlock w i).up := by
  simp only [xBlock, Vec.up_get, Vec.ofFn_up]
theorem up_uBlock (w : Vec ℝ (k * (nx + nu))) (i : Fin k) : uBlock w.up i = (uBlock w i).up := by
  simp only [uBlock, Vec.up_get, Vec.ofFn_up]
theorem up_setCol (w : Vec ℝ (k * m)) (i : Fin k) (v : Vec ℝ m) :
    setCol w.up i v.up = (setCol w i v).up :=
  forFin_up Vec.up _ _ (fun j s => by simp only [Vec.up_get, Vec.up_set]) w
theorem up_setX (w : Vec ℝ (k * (nx + nu))) (i : Fin k) (v : Vec ℝ nx) :
    setX w.up i v.up = (setX w i v).up :=
  forFin_up Vec.up _ _ (fun j s => by simp only [Vec.up_get, Vec.up_set]) w
theorem up_setU (w : Vec ℝ (k * (nx + nu))) (i : Fin k) (v : Vec ℝ nu) :
    setU w.up i v.up = (setU w i v).up :=
  forFin_up Vec.up _ _ (fun j s => by simp only [Vec.up_get, Vec.up_set]) w
theorem up_scaleBy (b : ℝ) (y : Vec ℝ k) : scaleBy (up b) y.up = (scaleBy b y).up := by
  simp only [scaleBy, up_zero, up_one, up_beq, Vec.up_get, up_mul, Vec.const_up, Vec.ofFn_up]
  split
  · rfl
  · split <;> rfl

end blocks

theorem Vec.up_iteB {n : Nat} (p : Prop) [Decidable p] (a b : Vec ℝ n) :
    (if p then a.up else b.up) = (if p then a else b).up := by split <;> rfl

section
variable {N nx nu nc : Nat} (d : MpcData ℝ N nx nu nc)

theorem MpcData.up_ops : UpOps d.ops d.up.ops where
  gemvH x a b y := by
    simp only [ops, MpcData.gemvH, MpcData.up, up_scaleBy, Vec.map_get]
    exact forFin_up Vec.up _ _ (fun i s => by
      simp only [up_xBlock, up_uBlock, Mat.up_mulVec, Mat.up_transpose, Vec.up_add, Vec.up_sub,
        Vec.up_smul, up_setX, up_setU, up_one, up_neg, up_beq, Vec.up_iteB]) _
  gemvA x a b y := by
    simp only [ops, MpcData.gemvA, MpcData.up, up_scaleBy, Vec.map_get]
    exact forFin_up Vec.up _ _ (fun i s => by
      simp only [up_xBlock, up_uBlock, up_colBlock, Mat.up_mulVec, Mat.up_transpose, Vec.up_add, Vec.up_sub,
        Vec.up_smul, up_setCol, up_one, up_neg, up_beq, Vec.up_iteB]) _
  gemvG x a b y := by
    simp only [ops, MpcData.gemvG, MpcData.up, up_scaleBy, Vec.map_get, up_neg, up_xBlock, up_colBlock,
      Vec.up_smul, Vec.up_add, up_setCol]
    exact forFin_up Vec.up _ _ (fun i s => by
      simp only [up_xBlock, up_uBlock, up_colBlock, Mat.up_mulVec, Mat.up_transpose, Vec.up_add, Vec.up_sub,
        Vec.up_smul, up_setCol, up_one, up_neg, up_beq, Vec.up_iteB]) _
  gemvAT x a b y := by
    simp only [ops, MpcData.gemvAT, MpcData.up, up_scaleBy, Vec.map_get]
    exact forFin_up Vec.up _ _ (fun i s => by
      simp only [up_xBlock, up_uBlock, up_colBlock, Mat.up_mulVec, Mat.up_transpose, Vec.up_add, Vec.up_sub,
        Vec.up_smul, up_setX, up_setU, up_one, up_neg, up_beq, Vec.up_iteB]) _
  gemvGT x a b y := by
    have := forFin_up Vec.up (fun (i : Fin N) (w : Vec ℝ ((N + 1) * (nx + nu))) =>
      let A := d.A i
      let B := d.B i
      let vi := colBlock x i.castSucc
      let vp1 := colBlock x i.succ
      let w := setX w i.castSucc (xBlock w i.castSucc + (-a) * vi)
      if a == 1 then
        let w := setX w i.castSucc (xBlock w i.castSucc + A.transpose * vp1)
        setU w i.castSucc (uBlock w i.castSucc + B.transpose * vp1)
      else if a == -1 then
        let w := setX w i.castSucc (xBlock w i.castSucc - A.transpose * vp1)
        setU w i.castSucc (uBlock w i.castSucc - B.transpose * vp1)
      else
        setX w i.castSucc (xBlock w i.castSucc + a * (A.transpose * vp1)))
      (fun (i : Fin N) (w : Vec XReal ((N + 1) * (nx + nu))) =>
      let A := d.up.A i
      let B := d.up.B i
      let vi := colBlock x.up i.castSucc
      let vp1 := colBlock x.up i.succ
      let w := setX w i.castSucc (xBlock w i.castSucc + (-(Fbstab.up a)) * vi)
      if (Fbstab.up a) == 1 then
        let w := setX w i.castSucc (xBlock w i.castSucc + A.transpose * vp1)
        setU w i.castSucc (uBlock w i.castSucc + B.transpose * vp1)
      else if (Fbstab.up a) == -1 then
        let w := setX w i.castSucc (xBlock w i.castSucc - A.transpose * vp1)
        setU w i.castSucc (uBlock w i.castSucc - B.transpose * vp1)
      else
        setX w i.castSucc (xBlock w i.castSucc + (Fbstab.up a) * (A.transpose * vp1)))
      (fun i s => by
        simp only [MpcData.up, Vec.map_get, up_xBlock, up_uBlock, up_colBlock, Mat.up_mulVec,
          Mat.up_transpose, Vec.up_add, Vec.up_sub,
          Vec.up_smul, up_setX, up_setU, up_one, up_neg, up_beq, Vec.up_iteB]) (scaleBy b y)
    simp only [ops, MpcData.gemvGT, up_scaleBy]
    rw [this]
    simp only [up_neg, up_xBlock, up_colBlock, Vec.up_smul, Vec.up_add, up_setX]
  axpyf a y := by
    simp only [ops, MpcData.axpyf, MpcData.up, Vec.map_get]
    exact forFin_up Vec.up _ _ (fun i s => by
      simp only [up_xBlock, up_uBlock, Vec.up_add, Vec.up_smul, up_setX, up_setU]) _
  axpyh a y := by
    simp only [ops, MpcData.axpyh, MpcData.up, Vec.map_get, up_neg, up_colBlock, Vec.up_smul, Vec.up_add,
      up_setCol]
    exact forFin_up Vec.up _ _ (fun i s => by
      simp only [up_colBlock, Vec.up_add, Vec.up_smul, up_setCol]) _
  axpyb a y := by
    simp only [ops, MpcData.axpyb, MpcData.up, Vec.map_get, up_neg]
    exact forFin_up Vec.up _ _ (fun i s => by
      simp only [up_colBlock, Vec.up_add, Vec.up_smul, up_setCol]) _
  forcingNorm := by
    simp only [ops, MpcData.forcingNorm]
    have h := forFin_up_inv Fbstab.up (fun (i : Fin (N + 1)) (s : ℝ) =>
      let s := s + (d.q i).squaredNorm
      let s := s + (d.r i).squaredNorm
      let s := s + (d.d i).squaredNorm
      s + (if h : i.1 = 0 then d.x0.squaredNorm
         else (d.c ⟨i.1 - 1, by have := i.2; omega⟩).squaredNorm))
      (fun (i : Fin (N + 1)) (s : XReal) =>
      let s := s + (d.up.q i).squaredNorm
      let s := s + (d.up.r i).squaredNorm
      let s := s + (d.up.d i).squaredNorm
      s + (if h : i.1 = 0 then d.up.x0.squaredNorm
         else (d.up.c ⟨i.1 - 1, by have := i.2; omega⟩).squaredNorm)) (fun _ s => 0 ≤ s)
      (fun i s hs => by
        simp only [MpcData.up, Vec.map_get, Vec.up_squaredNorm, Fbstab.up_add]
        have h1 := (d.q i).squaredNorm_nonneg
        have h2 := (d.r i).squaredNorm_nonneg
        have h3 := (d.d i).squaredNorm_nonneg
        have h4 := d.x0.squaredNorm_nonneg
        split
        · exact ⟨by rw [Fbstab.up_add], by linarith⟩
        · rename_i hi
          have h5 := (d.c ⟨i.1 - 1, by have := i.2; omega⟩).squaredNorm_nonneg
          exact ⟨by rw [Fbstab.up_add], by linarith⟩) 0 (le_refl _)
    rw [up_zero, h.1, up_sqrt h.2]
    rfl

end

/-! ## The workspace -/

noncomputable def RiccatiWs.up {N nx nu nc : Nat} (w : RiccatiWs ℝ N nx nu nc) :
    RiccatiWs XReal N nx nu nc where
  Q := w.Q.map Mat.up
  R := w.R.map Mat.up
  S := w.S.map Mat.up
  P := w.P.map Mat.up
  SG := w.SG.map Mat.up
  M := w.M.map Mat.up
  L := w.L.map Mat.up
  SM := w.SM.map Mat.up
  AM := w.AM.map Mat.up
  h := w.h.map Vec.up
  th := w.th.map Vec.up
  gamma := w.gamma.up
  mus := w.mus.up
  Gamma := w.Gamma.up
  Etemp := w.Etemp.up
  Ltemp := w.Ltemp.up
  Linv := w.Linv.up
  tx := w.tx.up
  tl := w.tl.up
  tu := w.tu.up
  r1 := w.r1.up
  r2 := w.r2.up
  r3 := w.r3.up
  data := w.data.map MpcData.up
  alpha := Fbstab.up w.alpha

namespace RiccatiWs
variable {N nx nu nc : Nat} (d : MpcData ℝ N nx nu nc)

noncomputable def upB (s : Bool × RiccatiWs ℝ N nx nu nc) : Bool × RiccatiWs XReal N nx nu nc :=
  (s.1, s.2.up)

/-- The diagonals that are divided by, `k` stages being complete. -/
structure Diag (k : Nat) (w : RiccatiWs ℝ N nx nu nc) : Prop where
  L : ∀ i, i.1 ≤ k → ∀ j, w.L i j j ≠ 0
  M : ∀ i, i.1 < k → ∀ j, w.M i j j ≠ 0
  SG : ∀ i, i.1 < k → ∀ j, w.SG i j j ≠ 0

theorem up_augment (sigma : ℝ) (i : Fin (N + 1)) (w : RiccatiWs ℝ N nx nu nc) :
    augment d.up (Fbstab.up sigma) i w.up = (augment d sigma i w).up := by
  simp only [augment, RiccatiWs.up, MpcData.up, Vec.map_get, Mat.up_identity, Mat.up_smul, Mat.up_add,
    Mat.up_assignLower, Vec.map_set, up_colBlock, Mat.up_diagMul, Mat.up_transpose, Mat.up_mul]

theorem up_barrier {sigma : ℝ} {w : RiccatiWs ℝ N nx nu nc} (h0 : 0 < w.alpha) (h1 : w.alpha < 1)
    (hs : 0 < sigma) (x xbar : Point ℝ ((N + 1) * (nx + nu)) ((N + 1) * nx) ((N + 1) * nc)) :
    barrier x.up xbar.up (Fbstab.up sigma) w.up = (barrier x xbar sigma w).up := by
  have hm := fun i => (pfbMu_pos h0 h1 hs x.y x.v xbar.v i).ne'
  simp only [barrier, RiccatiWs.up, Point.up, up_pfbGamma, up_pfbMu, Vec.ofFn_up, Vec.get_ofFn,
    Vec.up_get, up_div _ (hm _)]

theorem up_stageInv {L : Mat ℝ nx nx} (h : ∀ j, L j j ≠ 0) : stageInv L.up = (stageInv L).up := by
  simp only [stageInv, Mat.up_identity, up_lowerSolveMat h, up_lowerTSolveMat h]

theorem up_factorStep (sigma : ℝ) (i : Fin N) (s : Bool × RiccatiWs ℝ N nx nu nc)
    (h : s.1 = true → Diag i.1 s.2) :
    factorStep d.up (Fbstab.up sigma) i (upB s) = upB (factorStep d sigma i s) ∧
      ((factorStep d sigma i s).1 = true → Diag (i.1 + 1) (factorStep d sigma i s).2) := by
  obtain ⟨b, w⟩ := s
  cases b with
  | false =>
    refine ⟨rfl, fun h => ?_⟩
    rw [factorStep_false] at h
    cases h
  | true =>
    have h := h rfl
    have hL := h.L i.castSucc (le_refl _)
    dsimp only at hL
    rw [show upB (true, w) = (true, w.up) from rfl, factorStep_true, factorStep_true]
    have eQ : ∀ j, w.up.Q j = (w.Q j).up := fun j => Vec.map_get _ _ _
    have eR : ∀ j, w.up.R j = (w.R j).up := fun j => Vec.map_get _ _ _
    have eS : ∀ j, w.up.S j = (w.S j).up := fun j => Vec.map_get _ _ _
    have eL : ∀ j, w.up.L j = (w.L j).up := fun j => Vec.map_get _ _ _
    have eM : ∀ j, w.up.M j = (w.M j).up := fun j => Vec.map_get _ _ _
    have eA : ∀ j, d.up.A j = (d.A j).up := fun j => Vec.map_get _ _ _
    have eB : ∀ j, d.up.B j = (d.B j).up := fun j => Vec.map_get _ _ _
    have d1 := llt_diag ((w.M i.castSucc).assignLower (w.Q i.castSucc + stageInv (w.L i.castSucc)))
    simp only [eQ, eR, eS, eL, eM, eA, eB, up_stageInv hL, Mat.up_add, Mat.up_assignLower, up_llt,
      upPair]
    generalize llt ((w.M i.castSucc).assignLower (w.Q i.castSucc + stageInv (w.L i.castSucc))) = f1 at d1 ⊢
    rcases f1 with ⟨b1, m⟩
    cases b1 with
    | false =>
      simp only [if_false, Bool.false_eq_true, upB]
      refine ⟨?_, fun h => h.elim⟩
      simp only [RiccatiWs.up, Vec.map_set]
    | true =>
      have d1 := d1 rfl
      dsimp only at d1
      simp only [if_true, up_solveOnTheRightT d1, Mat.up_transpose, Mat.up_mul, Mat.up_sub, up_llt, upPair]
      generalize solveOnTheRightT m (w.S i.castSucc) = SM
      generalize solveOnTheRightT m (d.A i) = AM
      have d2 := llt_diag (w.R i.castSucc - SM * SM.transpose)
      generalize llt (w.R i.castSucc - SM * SM.transpose) = f2 at d2 ⊢
      rcases f2 with ⟨b2, g⟩
      cases b2 with
      | false =>
        simp only [if_false, Bool.false_eq_true, upB]
        refine ⟨?_, fun h => h.elim⟩
        simp only [RiccatiWs.up, Vec.map_set]
      | true =>
        have d2 := d2 rfl
        dsimp only at d2
        simp only [if_true, up_solveOnTheRightT d2, Mat.up_transpose, Mat.up_mul, Mat.up_add,
          Mat.up_identity, Mat.up_smul, up_llt, upPair]
        generalize solveOnTheRightT g (AM * SM.transpose - d.B i) = P
        have d3 := llt_diag (sigma * (Mat.identity : Mat ℝ nx nx) + P * P.transpose + AM * AM.transpose)
        generalize llt (sigma * (Mat.identity : Mat ℝ nx nx) + P * P.transpose + AM * AM.transpose) = f3
          at d3 ⊢
        refine ⟨?_, fun h3 => ?_⟩
        · simp only [upB, RiccatiWs.up, Vec.map_set]
        · have d3 := d3 h3
          constructor
          · intro j hj
            simp only [Vec.get_set]
            split
            · exact d3
            · rename_i hne
              apply h.L
              have : j.1 ≠ i.1 + 1 := fun e => hne (Fin.ext e)
              omega
          · intro j hj
            simp only [Vec.get_set]
            split
            · exact d1
            · rename_i hne
              apply h.M
              have : j.1 ≠ i.1 := fun e => hne (Fin.ext e)
              omega
          · intro j hj
            simp only [Vec.get_set]
            split
            · exact d2
            · rename_i hne
              apply h.SG
              have : j.1 ≠ i.1 := fun e => hne (Fin.ext e)
              omega

theorem up_factorLast (w : RiccatiWs ℝ N nx nu nc) (h : Diag N w) :
    factorStage none (Fin.last N) w.up = upB (factorStage none (Fin.last N) w) ∧
      ((factorStage none (Fin.last N) w).1 = true → Diag (N + 1) (factorStage none (Fin.last N) w).2) := by
  have hL := h.L (Fin.last N) (le_refl _)
  rw [factorStage_none, factorStage_none]
  have eQ : ∀ j, w.up.Q j = (w.Q j).up := fun j => Vec.map_get _ _ _
  have eR : ∀ j, w.up.R j = (w.R j).up := fun j => Vec.map_get _ _ _
  have eS : ∀ j, w.up.S j = (w.S j).up := fun j => Vec.map_get _ _ _
  have eL : ∀ j, w.up.L j = (w.L j).up := fun j => Vec.map_get _ _ _
  have eM : ∀ j, w.up.M j = (w.M j).up := fun j => Vec.map_get _ _ _
  have d1 := llt_diag ((w.M (Fin.last N)).assignLower (w.Q (Fin.last N) + stageInv (w.L (Fin.last N))))
  simp only [eQ, eR, eS, eL, eM, up_stageInv hL, Mat.up_add, Mat.up_assignLower, up_llt, upPair]
  generalize llt ((w.M (Fin.last N)).assignLower (w.Q (Fin.last N) + stageInv (w.L (Fin.last N)))) = f1
    at d1 ⊢
  rcases f1 with ⟨b1, m⟩
  cases b1 with
  | false =>
    simp only [if_false, Bool.false_eq_true, upB]
    refine ⟨?_, fun h => h.elim⟩
    simp only [RiccatiWs.up, Vec.map_set]
  | true =>
    have d1 := d1 rfl
    dsimp only at d1
    simp only [if_true, up_solveOnTheRightT d1, Mat.up_transpose, Mat.up_mul, Mat.up_sub, up_llt, upPair]
    generalize solveOnTheRightT m (w.S (Fin.last N)) = SM
    have d2 := llt_diag (w.R (Fin.last N) - SM * SM.transpose)
    generalize llt (w.R (Fin.last N) - SM * SM.transpose) = f2 at d2 ⊢
    refine ⟨by simp only [upB, RiccatiWs.up, Vec.map_set], fun h2 => ?_⟩
    have d2 := d2 h2
    have ne : ∀ j : Fin (N + 1), j ≠ Fin.last N → j.1 < N := by
      intro j hj
      have : j.1 ≠ N := fun e => hj (Fin.ext e)
      have := j.2
      omega
    constructor
    · intro j hj; exact h.L j (by have := j.2; omega)
    · intro j hj
      simp only [Vec.get_set]
      split
      · exact d1
      · exact h.M j (ne j ‹_›)
    · intro j hj
      simp only [Vec.get_set]
      split
      · exact d2
      · exact h.SG j (ne j ‹_›)

theorem up_initPair {sigma : ℝ} {w : RiccatiWs ℝ N nx nu nc} (h0 : 0 < w.alpha) (h1 : w.alpha < 1)
    (hs : 0 < sigma) (x xbar : Point ℝ ((N + 1) * (nx + nu)) ((N + 1) * nx) ((N + 1) * nc)) :
    initPair d.up x.up xbar.up (Fbstab.up sigma) w.up = upB (initPair d x xbar sigma w) ∧
      ((initPair d x xbar sigma w).1 = true → Diag (N + 1) (initPair d x xbar sigma w).2) := by
  have e1 : forFin (N + 1) (augment d.up (Fbstab.up sigma)) (barrier x.up xbar.up (Fbstab.up sigma) w.up) =
      (forFin (N + 1) (augment d sigma) (barrier x xbar sigma w)).up := by
    rw [up_barrier h0 h1 hs]
    exact forFin_up RiccatiWs.up _ _ (fun i s => up_augment d sigma i s) _
  unfold initPair
  rw [e1]
  generalize forFin (N + 1) (augment d sigma) (barrier x xbar sigma w) = p
  dsimp only
  have e2 : ({ p.up with L := p.up.L.set 0 (Scalar.sqrt (Fbstab.up sigma) * (Mat.identity : Mat XReal nx nx)) } :
      RiccatiWs XReal N nx nu nc) =
      RiccatiWs.up { p with L := p.L.set 0 (Scalar.sqrt sigma * (Mat.identity : Mat ℝ nx nx)) } := by
    simp only [RiccatiWs.up, up_sqrt hs.le, Mat.up_identity, Mat.up_smul, Vec.map_set]
    rfl
  rw [e2]
  have hd0 : Diag 0 { p with L := p.L.set 0 (Scalar.sqrt sigma * (Mat.identity : Mat ℝ nx nx)) } := by
    constructor
    · intro i hi j
      have : i = 0 := Fin.ext (by simpa using hi)
      subst this
      simp only [Vec.get_set_same, Mat.get_smul, Mat.get_identity, if_true, mul_one]
      exact Real.sqrt_ne_zero'.mpr hs
    · intro i hi; exact absurd hi (Nat.not_lt_zero _)
    · intro i hi; exact absurd hi (Nat.not_lt_zero _)
  generalize ({ p with L := p.L.set 0 (Scalar.sqrt sigma * (Mat.identity : Mat ℝ nx nx)) } :
    RiccatiWs ℝ N nx nu nc) = p' at hd0 ⊢
  have hl := forFin_up_inv upB (factorStep d sigma) (factorStep d.up (Fbstab.up sigma))
    (fun k s => s.1 = true → Diag k s.2) (fun i s hs => up_factorStep d sigma i s hs) (true, p')
    (fun _ => hd0)
  rw [show ((true, p'.up) : Bool × RiccatiWs XReal N nx nu nc) = upB (true, p') from rfl, hl.1]
  have h2 := hl.2
  generalize forFin N (factorStep d sigma) (true, p') = s at h2 ⊢
  rcases s with ⟨b, u⟩
  cases b with
  | false =>
    refine ⟨rfl, fun h => ?_⟩
    simp at h
  | true =>
    simp only [upB, Bool.not_true, if_false, Bool.false_eq_true]
    exact up_factorLast u (h2 rfl)

/-- All diagonals. -/
def Nonzero (w : RiccatiWs ℝ N nx nu nc) : Prop :=
  (∀ i j, w.L i j j ≠ 0) ∧ (∀ i j, w.M i j j ≠ 0) ∧ ∀ i j, w.SG i j j ≠ 0

theorem up_forwardStep (i : Fin N) {w : RiccatiWs ℝ N nx nu nc} (h : Nonzero w) :
    forwardStep i w.up = (forwardStep i w).up ∧ Nonzero (forwardStep i w) := by
  obtain ⟨hL, hM, hS⟩ := h
  rw [forwardStep_eq, forwardStep_eq]
  refine ⟨?_, hL, hM, hS⟩
  simp only [RiccatiWs.up, Vec.map_get, up_lowerSolve (hM _), up_lowerSolve (hS _), up_lowerSolve (hL _),
    up_lowerTSolve (hL _), Mat.up_mulVec, up_uBlock, up_xBlock, up_colBlock, Vec.up_add, Vec.up_sub,
    Vec.map_set]

variable {d}

section
variable (r : Resid ℝ ((N + 1) * (nx + nu)) ((N + 1) * nx) ((N + 1) * nc))
  {w : RiccatiWs ℝ N nx nu nc} (h : Nonzero w)
include h

theorem up_solvePre (hm : ∀ i, w.mus i ≠ 0) :
    solvePre d.up r.up w.up = (solvePre d r w).up ∧ Nonzero (solvePre d r w) := by
  obtain ⟨hL, hM, hS⟩ := h
  refine ⟨?_, hL, hM, hS⟩
  have e := d.up_ops.gemvAT
  simp only [MpcData.ops] at e
  have e' : ∀ x, d.up.gemvAT (Vec.up x) (-1) 1 r.z.up = (d.gemvAT x (-1) 1 r.z).up := by
    intro x
    rw [up_one, up_neg, e]
  simp only [solvePre, RiccatiWs.up, Resid.up, Vec.up_cwiseQuotient _ hm, e', Vec.up_neg, up_colBlock,
    up_xBlock, Vec.map_get, up_lowerSolve (hL _), up_lowerTSolve (hL _), Vec.up_sub, Vec.map_set]

theorem up_lastU : lastU w.up = (lastU w).up := by
  obtain ⟨hL, hM, hS⟩ := h
  simp only [lastU, RiccatiWs.up, Vec.map_get, up_lowerSolve (hM _), up_lowerSolve (hS _),
    up_lowerTSolve (hS _), Mat.up_mulVec, up_uBlock, Vec.up_add]

theorem up_lastX : lastX w.up = (lastX w).up := by
  have e := up_lastU h
  obtain ⟨hL, hM, hS⟩ := h
  simp only [lastX, e]
  simp only [RiccatiWs.up, Vec.map_get, up_lowerSolve (hM _), up_lowerTSolve (hM _), Mat.up_transpose,
    Mat.up_mulVec, Vec.up_add, Vec.up_get, up_one, up_neg, up_mul, Vec.ofFn_up]

theorem up_lastL : lastL w.up = (lastL w).up := by
  have e := up_lastX h
  obtain ⟨hL, hM, hS⟩ := h
  simp only [lastL, e]
  simp only [RiccatiWs.up, Vec.map_get, up_lowerSolve (hL _), up_lowerTSolve (hL _), 
    Vec.up_add, Vec.up_get, up_one, up_neg, up_mul, Vec.ofFn_up]

theorem up_stepU (i : Fin N) (lp : Vec ℝ nx) : stepU w.up i lp.up = (stepU w i lp).up := by
  obtain ⟨hL, hM, hS⟩ := h
  simp only [stepU, RiccatiWs.up, Vec.map_get, up_lowerSolve (hM _), up_lowerSolve (hS _),
    up_lowerTSolve (hS _), Mat.up_mulVec, Mat.up_transpose, up_uBlock, Vec.up_add]

theorem up_stepX (i : Fin N) (lp : Vec ℝ nx) : stepX w.up i lp.up = (stepX w i lp).up := by
  have e := up_stepU h
  obtain ⟨hL, hM, hS⟩ := h
  simp only [stepX, e]
  simp only [RiccatiWs.up, Vec.map_get, up_lowerSolve (hM _), up_lowerTSolve (hM _), Mat.up_transpose,
    Mat.up_mulVec, Vec.up_add, Vec.up_get, up_one, up_neg, up_mul, Vec.ofFn_up]

theorem up_stepL (i : Fin N) (lp : Vec ℝ nx) : stepL w.up i lp.up = (stepL w i lp).up := by
  have e := up_stepX h
  obtain ⟨hL, hM, hS⟩ := h
  simp only [stepL, e]
  simp only [RiccatiWs.up, Vec.map_get, up_lowerSolve (hL _), up_lowerTSolve (hL _), 
    Vec.up_add, Vec.up_get, up_one, up_neg, up_mul, Vec.ofFn_up]

theorem up_backward (dx : Point ℝ ((N + 1) * (nx + nu)) ((N + 1) * nx) ((N + 1) * nc)) :
    backward w.up dx.up = ((backward w dx).1.up, (backward w dx).2.1.up, (backward w dx).2.2.up) := by
  have hM := h.2.1
  have := forFinRev_up (fun (s : Vec ℝ ((N + 1) * (nx + nu)) × Vec ℝ ((N + 1) * nx) × Vec ℝ nx) =>
      (s.1.up, s.2.1.up, s.2.2.up)) (backwardStep w) (backwardStep w.up) (fun i s => by
        simp only [backwardStep_eq, up_colBlock, up_stepU h, up_stepX h, up_stepL h, up_setU, up_setX,
          up_setCol]
        simp only [RiccatiWs.up, Vec.map_get, up_lowerSolve (hM _)])
      (setU (setX dx.z (Fin.last N) (lastX w)) (Fin.last N) (lastU w),
        setCol dx.l (Fin.last N) (lastL w), lastX w)
  simp only [backward, Point.up, up_lastX h, up_lastU h, up_lastL h, up_setU, up_setX, up_setCol]
  exact this

theorem up_solvePost (hm : ∀ i, w.mus i ≠ 0)
    (dx : Point ℝ ((N + 1) * (nx + nu)) ((N + 1) * nx) ((N + 1) * nc)) :
    solvePost d.up r.up dx.up w.up = (solvePost d r dx w).up := by
  have e1 := d.up_ops.gemvA
  have e2 := d.up_ops.axpyb
  simp only [MpcData.ops] at e1 e2
  simp only [solvePost, up_backward h]
  simp only [Point.up, RiccatiWs.up, Resid.up, up_one, up_zero, up_neg, e1, e2, Vec.up_cwiseProduct, Vec.up_add,
    Vec.up_cwiseQuotient _ hm]

end

/-- `mus` is set by the barrier and not touched later. -/
theorem initPair_mus (sigma : ℝ) (w : RiccatiWs ℝ N nx nu nc)
    (x xbar : Point ℝ ((N + 1) * (nx + nu)) ((N + 1) * nx) ((N + 1) * nc)) :
    (initPair d x xbar sigma w).2.mus = Vec.ofFn fun i => pfbMu w.alpha sigma x.y x.v xbar.v i := by
  obtain ⟨Q, R, S, E1, L1, e, h⟩ := augment_loop d sigma (barrier x xbar sigma w)
  unfold initPair
  rw [e]
  dsimp only
  have h1 := forFin_induct (n := N) (P := fun _ (s : Bool × RiccatiWs ℝ N nx nu nc) =>
    s.2.mus = Vec.ofFn fun i => pfbMu w.alpha sigma x.y x.v xbar.v i) (f := factorStep d sigma)
    (s := (true, { barrier x xbar sigma w with
      Q := Q, R := R, S := S, Etemp := E1, Ltemp := L1
      L := (barrier x xbar sigma w).L.set 0
        (Scalar.sqrt sigma * (Mat.identity : Mat ℝ nx nx)) })) rfl ?_
  · generalize forFin N (factorStep d sigma) (true, _) = s at h1 ⊢
    rcases s with ⟨b, u⟩
    cases b with
    | false =>
      simp only [Bool.not_false, if_true]
      exact h1
    | true =>
      simp only [Bool.not_true, if_false, Bool.false_eq_true]
      rw [factorStage_none]
      dsimp only
      split <;> exact h1
  · rintro i ⟨b, u⟩ h
    cases b with
    | false =>
      rw [factorStep_false]; exact h
    | true =>
      rw [factorStep_true]
      dsimp only
      split
      · split <;> exact h
      · exact h

theorem forward_mus (w : RiccatiWs ℝ N nx nu nc) : (forFin N forwardStep w).mus = w.mus := by
  refine forFin_induct (P := fun _ (s : RiccatiWs ℝ N nx nu nc) => s.mus = w.mus) rfl ?_
  intro i s hs
  rw [forwardStep_eq]
  exact hs

variable (d)

theorem up_zeroWs (alpha : ℝ) : zero d.up (Fbstab.up alpha) = (zero d alpha).up := by
  have hM : ∀ (n r c : Nat) (a : Mat ℝ r c), (Vec.const a : Vec (Mat ℝ r c) n).map Mat.up =
      Vec.const a.up := fun n r c a => (Vec.const_map Mat.up a).symm
  have hV : ∀ (n r : Nat) (a : Vec ℝ r), (Vec.const a : Vec (Vec ℝ r) n).map Vec.up =
      Vec.const a.up := fun n r a => (Vec.const_map Vec.up a).symm
  have hm : ∀ r c : Nat, (Mat.ofFn fun _ _ => (0 : XReal) : Mat XReal r c) =
      (Mat.ofFn fun _ _ => (0 : ℝ)).up := fun r c => by rw [← Mat.ofFn_up]; rfl
  have hv : ∀ n : Nat, (Vec.const (0 : XReal) : Vec XReal n) = (Vec.const (0 : ℝ)).up := fun n => by
    rw [← Vec.const_up]; rfl
  simp only [zero, RiccatiWs.up, Option.map_some, hM, hV, hm, hv]

theorem up_factor {alpha sigma : ℝ} (h0 : 0 < alpha) (h1 : alpha < 1) (hs : 0 < sigma)
    (x xbar : Point ℝ ((N + 1) * (nx + nu)) ((N + 1) * nx) ((N + 1) * nc)) :
    match factor d alpha x xbar sigma with
    | .error e => factor d.up (Fbstab.up alpha) x.up xbar.up (Fbstab.up sigma) = .error e
    | .ok none => factor d.up (Fbstab.up alpha) x.up xbar.up (Fbstab.up sigma) = .ok none
    | .ok (some g) => ∃ g', factor d.up (Fbstab.up alpha) x.up xbar.up (Fbstab.up sigma) = .ok (some g') ∧
      ∀ r, g' r.up = (g r).up := by
  obtain ⟨e, hd⟩ := up_initPair d (w := zero d alpha) h0 h1 hs x xbar
  have hmus := initPair_mus (d := d) sigma (zero d alpha) x xbar
  simp only [factor, up_zero, up_le, if_neg (not_le.mpr hs), up_zeroWs, e]
  have eb : (upB (initPair d x xbar sigma (zero d alpha))).1 =
    (initPair d x xbar sigma (zero d alpha)).1 := rfl
  rw [eb]
  cases hb : (initPair d x xbar sigma (zero d alpha)).1 with
  | false => rfl
  | true =>
    refine ⟨_, rfl, fun r => ?_⟩
    have hd := hd hb
    have hN : Nonzero (initPair d x xbar sigma (zero d alpha)).2 :=
      ⟨fun i => hd.L i (Nat.le_of_lt i.2), fun i => hd.M i i.2, fun i => hd.SG i i.2⟩
    have hm : ∀ i, (initPair d x xbar sigma (zero d alpha)).2.mus i ≠ 0 := fun i => by
      rw [hmus, Vec.get_ofFn]
      exact (pfbMu_pos h0 h1 hs x.y x.v xbar.v i).ne'
    simp only [step, up_zeroWs, e]
    obtain ⟨e1, n1⟩ := up_solvePre (d := d) r hN hm
    rw [show (upB (initPair d x xbar sigma (zero d alpha))).2 =
      (initPair d x xbar sigma (zero d alpha)).2.up from rfl, e1]
    obtain ⟨e2, n2⟩ := forFin_up_inv RiccatiWs.up (forwardStep (K := ℝ)) forwardStep (fun _ w => Nonzero w)
      (fun i s hs => up_forwardStep i hs) _ n1
    rw [e2]
    have hm2 : ∀ i, (forFin N forwardStep (solvePre d r (initPair d x xbar sigma (zero d alpha)).2)).mus i ≠ 0 := by
      rw [forward_mus]; exact hm
    have e3 := up_solvePost (d := d) r n2 hm2 ⟨Vec.const 0, Vec.const 0, Vec.const 0, Vec.const 0⟩
    rw [← e3]
    simp only [Point.up, Vec.const_up, up_zero]

end RiccatiWs

theorem MapSequence.up_toMat (r c : Nat) (s : MapSequence ℝ) (k : Nat) :
    s.up.toMat r c k = (s.toMat r c k).up := by
  ext i j
  simp only [MapSequence.toMat, Mat.get_ofFn, Mat.up_get, MapSequence.up, up_zero]
  cases s.data with
  | none => simp
  | some a =>
    simp only [Option.map_some, Option.getD_some]
    simp only [Array.getD_eq_getD_getElem?, Array.getElem?_map]
    cases a[k * s.nr * s.nc + j.1 * s.nr + i.1]? <;> rfl

theorem MapSequence.up_toVec (r : Nat) (s : MapSequence ℝ) (k : Nat) :
    s.up.toVec r k = (s.toVec r k).up := by
  ext i
  simp only [MapSequence.toVec, Vec.get_ofFn, Vec.up_get, MapSequence.up, up_zero]
  cases s.data with
  | none => simp
  | some a =>
    simp only [Option.map_some, Option.getD_some]
    simp only [Array.getD_eq_getD_getElem?, Array.getElem?_map]
    cases a[k * s.nr * s.nc + i.1]? <;> rfl

theorem MpcProblem.up_toData (N nx nu nc : Nat) (p : MpcProblem ℝ) :
    p.up.toData N nx nu nc = (p.toData N nx nu nc).up := by
  have hm : ∀ (n r c : Nat) (s : MapSequence ℝ),
      (Vec.ofFn fun i : Fin n => s.up.toMat r c i.1) = (Vec.ofFn fun i : Fin n => s.toMat r c i.1).map Mat.up := by
    intro n r c s
    refine Vec.ext fun i => ?_
    rw [Vec.map_get, Vec.get_ofFn, Vec.get_ofFn, MapSequence.up_toMat]
  have hv : ∀ (n r : Nat) (s : MapSequence ℝ),
      (Vec.ofFn fun i : Fin n => s.up.toVec r i.1) = (Vec.ofFn fun i : Fin n => s.toVec r i.1).map Vec.up := by
    intro n r s
    refine Vec.ext fun i => ?_
    rw [Vec.map_get, Vec.get_ofFn, Vec.get_ofFn, MapSequence.up_toVec]
  simp only [MpcProblem.toData, MpcProblem.up, MpcData.up, hm, hv, DVec.up_toVec]

theorem MpcProblem.up_validate (p : MpcProblem ℝ) : p.up.validate = p.validate := by
  simp only [MpcProblem.validate, MpcProblem.up, DVec.up_size]
  rfl

end Fbstab
