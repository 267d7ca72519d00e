import Verif.Proofs.Blocks
import Verif.Proofs.Simulation

/-!
# The Riccati solver does not depend on its workspaces
-/

namespace Fbstab

namespace Vec
variable {K : Type} {n : Nat}

@[simp] theorem get_set_same (v : Vec K n) (i : Fin n) (a : K) : (v.set i a) i = a := by
  rw [get_set, if_pos rfl]

@[simp] theorem set_set (v : Vec K n) (i : Fin n) (a b : K) : (v.set i a).set i b = v.set i b := by
  ext j; simp only [get_set]; split <;> rfl

end Vec

namespace RiccatiWs
variable {K : Type} [Scalar K] {N nx nu nc : Nat}

/-- `Linv` of a stage: the inverse of `L L'`. -/
def stageInv (L : Mat K nx nx) : Mat K nx nx :=
  lowerTSolveMat L (lowerSolveMat L (Mat.identity : Mat K nx nx))

theorem factorStage_some (A : Mat K nx nx) (i : Fin (N + 1)) (w : RiccatiWs K N nx nu nc) :
    factorStage (some A) i w =
      let f1 := llt ((w.M i).assignLower (w.Q i + stageInv (w.L i)))
      let SM := solveOnTheRightT f1.2 (w.S i)
      let f2 := llt (w.R i - SM * SM.transpose)
      if f1.1 then (f2.1, { w with
        Linv := stageInv (w.L i), M := w.M.set i f1.2, AM := w.AM.set i (solveOnTheRightT f1.2 A)
        SM := w.SM.set i SM, SG := w.SG.set i f2.2 })
      else (false, { w with Linv := stageInv (w.L i), M := w.M.set i f1.2 }) := by
  have e : lowerTSolveMat (w.L i) (lowerSolveMat (w.L i) (Mat.identity : Mat K nx nx)) =
    stageInv (w.L i) := rfl
  simp only [factorStage, Vec.get_set_same, Vec.set_set, e]
  generalize llt ((w.M i).assignLower (w.Q i + stageInv (w.L i))) = f
  rcases f with ⟨b, X⟩
  cases b <;> simp only [Bool.not_false, Bool.not_true, if_true, if_false, Bool.false_eq_true]

theorem factorStage_none (i : Fin (N + 1)) (w : RiccatiWs K N nx nu nc) :
    factorStage none i w =
      let f1 := llt ((w.M i).assignLower (w.Q i + stageInv (w.L i)))
      let SM := solveOnTheRightT f1.2 (w.S i)
      let f2 := llt (w.R i - SM * SM.transpose)
      if f1.1 then (f2.1, { w with
        Linv := stageInv (w.L i), M := w.M.set i f1.2
        SM := w.SM.set i SM, SG := w.SG.set i f2.2 })
      else (false, { w with Linv := stageInv (w.L i), M := w.M.set i f1.2 }) := by
  have e : lowerTSolveMat (w.L i) (lowerSolveMat (w.L i) (Mat.identity : Mat K nx nx)) =
    stageInv (w.L i) := rfl
  simp only [factorStage, Vec.get_set_same, Vec.set_set, e]
  generalize llt ((w.M i).assignLower (w.Q i + stageInv (w.L i))) = f
  rcases f with ⟨b, X⟩
  cases b <;> simp only [Bool.not_false, Bool.not_true, if_true, if_false, Bool.false_eq_true]

theorem factorStep_false (d : MpcData K N nx nu nc) (sigma : K) (i : Fin N)
    (w : RiccatiWs K N nx nu nc) : factorStep d sigma i (false, w) = (false, w) := rfl

/-- A step of the recursion that does not fail. -/
theorem factorStep_true (d : MpcData K N nx nu nc) (sigma : K) (i : Fin N)
    (w : RiccatiWs K N nx nu nc) :
    factorStep d sigma i (true, w) =
      let f1 := llt ((w.M i.castSucc).assignLower (w.Q i.castSucc + stageInv (w.L i.castSucc)))
      let SM := solveOnTheRightT f1.2 (w.S i.castSucc)
      let AM := solveOnTheRightT f1.2 (d.A i)
      let f2 := llt (w.R i.castSucc - SM * SM.transpose)
      let P := solveOnTheRightT f2.2 (AM * SM.transpose - d.B i)
      let f3 := llt (sigma * (Mat.identity : Mat K nx nx) + P * P.transpose + AM * AM.transpose)
      if f1.1 then
        if f2.1 then (f3.1, { w with
          Linv := stageInv (w.L i.castSucc), M := w.M.set i.castSucc f1.2
          AM := w.AM.set i.castSucc AM
          SM := w.SM.set i.castSucc SM, SG := w.SG.set i.castSucc f2.2, P := w.P.set i.castSucc P
          L := w.L.set i.succ f3.2 })
        else (false, { w with
          Linv := stageInv (w.L i.castSucc), M := w.M.set i.castSucc f1.2
          AM := w.AM.set i.castSucc AM, SM := w.SM.set i.castSucc SM
          SG := w.SG.set i.castSucc f2.2 })
      else (false, { w with
        Linv := stageInv (w.L i.castSucc), M := w.M.set i.castSucc f1.2 }) := by
  simp only [factorStep, factorStage_some, Bool.not_true, if_false, Bool.false_eq_true]
  generalize llt ((w.M i.castSucc).assignLower (w.Q i.castSucc +
    stageInv (w.L i.castSucc))) = f
  rcases f with ⟨b, X⟩
  cases b
  · simp only [Bool.not_false, if_true, if_false, Bool.false_eq_true]
  · simp only [if_true]
    generalize llt (w.R i.castSucc - solveOnTheRightT X (w.S i.castSucc) *
      (solveOnTheRightT X (w.S i.castSucc)).transpose) = f
    rcases f with ⟨b, Y⟩
    cases b
    · simp only [Bool.not_false, if_true, if_false, Bool.false_eq_true]
    · simp only [Bool.not_true, if_false, Bool.false_eq_true, Vec.get_set_same, Vec.set_set, if_true]

/-- Agreement of two workspaces during the factorisation, `k` stages being complete. -/
structure FRel (k : Nat) (w w' : RiccatiWs K N nx nu nc) : Prop where
  data : w.data = w'.data
  alpha : w.alpha = w'.alpha
  gamma : w.gamma = w'.gamma
  mus : w.mus = w'.mus
  Q : ∀ i, LowerEq (w.Q i) (w'.Q i)
  R : ∀ i, LowerEq (w.R i) (w'.R i)
  S : ∀ i, w.S i = w'.S i
  L : ∀ i, i.1 ≤ k → LowerEq (w.L i) (w'.L i)
  M : ∀ i, i.1 < k → LowerEq (w.M i) (w'.M i)
  SG : ∀ i, i.1 < k → LowerEq (w.SG i) (w'.SG i)
  SM : ∀ i, i.1 < k → w.SM i = w'.SM i
  P : ∀ i : Fin N, i.1 < k → w.P i.castSucc = w'.P i.castSucc
  AM : ∀ i : Fin N, i.1 < k → w.AM i.castSucc = w'.AM i.castSucc

theorem stageInv_congr {L L' : Mat K nx nx} (h : LowerEq L L') : stageInv L = stageInv L' := by
  simp only [stageInv, h.lowerSolveMat, h.lowerTSolveMat]

theorem FRel.stage {k : Nat} {w w' : RiccatiWs K N nx nu nc} (h : FRel k w w') (i : Fin (N + 1))
    (hi : i.1 ≤ k) :
    let f := llt ((w.M i).assignLower (w.Q i + stageInv (w.L i)))
    let f' := llt ((w'.M i).assignLower (w'.Q i + stageInv (w'.L i)))
    f.1 = f'.1 ∧ LowerEq f.2 f'.2 := by
  apply LowerEq.llt
  refine (LowerEq.of_assign _ _).trans (LowerEq.trans ?_ (LowerEq.of_assign _ _).symm)
  rw [stageInv_congr (h.L i hi)]
  exact (h.Q i).add (LowerEq.refl _)

theorem lt_or_eq_of_lt_succ' {a b : Nat} (h : a < b + 1) : a < b ∨ a = b := by omega

theorem FRel.step (d : MpcData K N nx nu nc) (sigma : K) (i : Fin N)
    (s s' : Bool × RiccatiWs K N nx nu nc)
    (h : s.1 = s'.1 ∧ (s.1 = true → FRel i.1 s.2 s'.2)) :
    (factorStep d sigma i s).1 = (factorStep d sigma i s').1 ∧
      ((factorStep d sigma i s).1 = true →
        FRel (i.1 + 1) (factorStep d sigma i s).2 (factorStep d sigma i s').2) := by
  rcases s with ⟨b, w⟩
  rcases s' with ⟨b', w'⟩
  obtain ⟨hb, h⟩ := h
  dsimp only at hb h
  subst hb
  cases b with
  | false =>
    simp only [factorStep_false]
    exact ⟨trivial, fun e => absurd e Bool.false_ne_true⟩
  | true =>
    have h := h rfl
    rw [factorStep_true, factorStep_true]
    obtain ⟨e1, l1⟩ := h.stage i.castSucc (Nat.le_refl _)
    dsimp only at e1 l1 ⊢
    generalize llt ((w.M i.castSucc).assignLower (w.Q i.castSucc +
        stageInv (w.L i.castSucc))) = f1 at e1 l1 ⊢
    generalize llt ((w'.M i.castSucc).assignLower (w'.Q i.castSucc +
        stageInv (w'.L i.castSucc))) = f1' at e1 l1 ⊢
    rcases f1 with ⟨b1, m⟩
    rcases f1' with ⟨b1', m'⟩
    dsimp only at e1 l1 ⊢
    subst e1
    cases b1 with
    | false =>
      simp only [if_false, Bool.false_eq_true]
      exact ⟨trivial, fun e => e.elim⟩
    | true =>
      simp only [if_true]
      rw [l1.solveOnTheRightT (d.A i), l1.solveOnTheRightT (w.S i.castSucc), h.S]
      generalize solveOnTheRightT m' (w'.S i.castSucc) = SM
      generalize solveOnTheRightT m' (d.A i) = AM
      obtain ⟨e2, l2⟩ := LowerEq.llt
        ((h.R i.castSucc).sub (LowerEq.refl (SM * SM.transpose)))
      generalize llt (w.R i.castSucc - SM * SM.transpose) = f2 at e2 l2 ⊢
      generalize llt (w'.R i.castSucc - SM * SM.transpose) = f2' at e2 l2 ⊢
      rcases f2 with ⟨b2, g⟩
      rcases f2' with ⟨b2', g'⟩
      dsimp only at e2 l2 ⊢
      subst e2
      rw [l2.solveOnTheRightT]
      generalize solveOnTheRightT g' (AM * SM.transpose - d.B i) = P
      generalize llt (sigma * (Mat.identity : Mat K nx nx) + P * P.transpose + AM * AM.transpose)
        = f3
      cases b2 with
      | false =>
        simp only [if_false, Bool.false_eq_true]
        exact ⟨trivial, fun e => e.elim⟩
      | true =>
        simp only [if_true]
        refine ⟨trivial, fun _ => ?_⟩
        have ne : ∀ j : Fin (N + 1), j ≠ i.castSucc → j.1 < i.1 + 1 → j.1 < i.1 := by
          intro j hj h2
          have : j.1 ≠ i.1 := fun e => hj (Fin.ext e)
          omega
        have ne' : ∀ j : Fin N, j.castSucc ≠ i.castSucc → j.1 < i.1 + 1 → j.1 < i.1 := by
          intro j hj h2
          exact ne j.castSucc hj h2
        exact
          { data := h.data, alpha := h.alpha, gamma := h.gamma, mus := h.mus
            Q := h.Q, R := h.R, S := h.S
            L := fun j hj => by
              simp only [Vec.get_set]
              split
              · exact LowerEq.refl _
              · rename_i hne
                apply h.L
                have : j.1 ≠ i.1 + 1 := fun e => hne (Fin.ext e)
                omega
            M := fun j hj => by
              simp only [Vec.get_set]
              split
              · exact l1
              · exact h.M j (ne j ‹_› hj)
            SG := fun j hj => by
              simp only [Vec.get_set]
              split
              · exact l2
              · exact h.SG j (ne j ‹_› hj)
            SM := fun j hj => by
              simp only [Vec.get_set]
              split
              · rfl
              · exact h.SM j (ne j ‹_› hj)
            P := fun j hj => by
              simp only [Vec.get_set]
              split
              · rfl
              · exact h.P j (ne' j ‹_› hj)
            AM := fun j hj => by
              simp only [Vec.get_set]
              split
              · rfl
              · exact h.AM j (ne' j ‹_› hj) }

theorem FRel.last {w w' : RiccatiWs K N nx nu nc} (h : FRel N w w') :
    (factorStage none (Fin.last N) w).1 = (factorStage none (Fin.last N) w').1 ∧
      ((factorStage none (Fin.last N) w).1 = true →
        FRel (N + 1) (factorStage none (Fin.last N) w).2 (factorStage none (Fin.last N) w').2) := by
  rw [factorStage_none, factorStage_none]
  obtain ⟨e1, l1⟩ := h.stage (Fin.last N) (Nat.le_refl _)
  dsimp only at e1 l1 ⊢
  generalize llt ((w.M (Fin.last N)).assignLower (w.Q (Fin.last N) +
      stageInv (w.L (Fin.last N)))) = f1 at e1 l1 ⊢
  generalize llt ((w'.M (Fin.last N)).assignLower (w'.Q (Fin.last N) +
      stageInv (w'.L (Fin.last N)))) = f1' at e1 l1 ⊢
  rcases f1 with ⟨b1, m⟩
  rcases f1' with ⟨b1', m'⟩
  dsimp only at e1 l1 ⊢
  subst e1
  cases b1 with
  | false =>
    simp only [if_false, Bool.false_eq_true]
    exact ⟨trivial, fun e => e.elim⟩
  | true =>
    simp only [if_true]
    rw [l1.solveOnTheRightT (w.S (Fin.last N)), h.S]
    generalize solveOnTheRightT m' (w'.S (Fin.last N)) = SM
    obtain ⟨e2, l2⟩ := LowerEq.llt
      ((h.R (Fin.last N)).sub (LowerEq.refl (SM * SM.transpose)))
    generalize llt (w.R (Fin.last N) - SM * SM.transpose) = f2 at e2 l2 ⊢
    generalize llt (w'.R (Fin.last N) - SM * SM.transpose) = f2' at e2 l2 ⊢
    rcases f2 with ⟨b2, g⟩
    rcases f2' with ⟨b2', g'⟩
    dsimp only at e2 l2 ⊢
    subst e2
    refine ⟨rfl, fun _ => ?_⟩
    have ne : ∀ j : Fin (N + 1), j ≠ Fin.last N → j.1 < N := by
      intro j hj
      have : j.1 ≠ N := fun e => hj (Fin.ext e)
      have := j.2
      omega
    exact
      { data := h.data, alpha := h.alpha, gamma := h.gamma, mus := h.mus
        Q := h.Q, R := h.R, S := h.S
        L := fun j hj => h.L j (by have := j.2; omega)
        M := fun j hj => by
          simp only [Vec.get_set]
          split
          · exact l1
          · exact h.M j (ne j ‹_›)
        SG := fun j hj => by
          simp only [Vec.get_set]
          split
          · exact l2
          · exact h.SG j (ne j ‹_›)
        SM := fun j hj => by
          simp only [Vec.get_set]
          split
          · rfl
          · exact h.SM j (ne j ‹_›)
        P := fun j hj => h.P j j.2
        AM := fun j hj => h.AM j j.2 }

/-- The stage data after augmentation. -/
def barQ (d : MpcData K N nx nu nc) (sigma : K) (Gamma : Vec K ((N + 1) * nc)) (i : Fin (N + 1)) :
    Mat K nx nx :=
  d.Q i + sigma * (Mat.identity : Mat K nx nx) +
    (d.E i).transpose * Mat.diagMul (colBlock Gamma i) (d.E i)
def barR (d : MpcData K N nx nu nc) (sigma : K) (Gamma : Vec K ((N + 1) * nc)) (i : Fin (N + 1)) :
    Mat K nu nu :=
  d.R i + sigma * (Mat.identity : Mat K nu nu) +
    (d.L i).transpose * Mat.diagMul (colBlock Gamma i) (d.L i)
def barS (d : MpcData K N nx nu nc) (Gamma : Vec K ((N + 1) * nc)) (i : Fin (N + 1)) :
    Mat K nu nx :=
  d.S i + (d.L i).transpose * Mat.diagMul (colBlock Gamma i) (d.E i)

theorem augment_eq (d : MpcData K N nx nu nc) (sigma : K) (i : Fin (N + 1))
    (w : RiccatiWs K N nx nu nc) :
    ∃ Q' R' E' L', augment d sigma i w = { w with
        Q := w.Q.set i Q', R := w.R.set i R', S := w.S.set i (barS d w.Gamma i)
        Etemp := E', Ltemp := L' } ∧
      LowerEq Q' (barQ d sigma w.Gamma i) ∧ LowerEq R' (barR d sigma w.Gamma i) := by
  have e : augment d sigma i w = { w with
      Q := w.Q.set i (((w.Q i).assignLower (d.Q i + sigma * (Mat.identity : Mat K nx nx))).assignLower
        ((w.Q i).assignLower (d.Q i + sigma * (Mat.identity : Mat K nx nx)) +
          (d.E i).transpose * Mat.diagMul (colBlock w.Gamma i) (d.E i)))
      R := w.R.set i (((w.R i).assignLower (d.R i + sigma * (Mat.identity : Mat K nu nu))).assignLower
        ((w.R i).assignLower (d.R i + sigma * (Mat.identity : Mat K nu nu)) +
          (d.L i).transpose * Mat.diagMul (colBlock w.Gamma i) (d.L i)))
      S := w.S.set i (barS d w.Gamma i)
      Etemp := Mat.diagMul (colBlock w.Gamma i) (d.E i)
      Ltemp := Mat.diagMul (colBlock w.Gamma i) (d.L i) } := by
    simp only [augment, Vec.get_set_same, Vec.set_set, barS]
  refine ⟨_, _, _, _, e, ?_, ?_⟩
  · refine (LowerEq.of_assign _ _).trans ?_
    exact (LowerEq.of_assign _ _).add (LowerEq.refl _)
  · refine (LowerEq.of_assign _ _).trans ?_
    exact (LowerEq.of_assign _ _).add (LowerEq.refl _)

/-- The state after the augmentation loop. -/
theorem augment_loop (d : MpcData K N nx nu nc) (sigma : K) (w : RiccatiWs K N nx nu nc) :
    ∃ Q R S E' L', forFin (N + 1) (augment d sigma) w =
        { w with Q := Q, R := R, S := S, Etemp := E', Ltemp := L' } ∧
      ∀ i, LowerEq (Q i) (barQ d sigma w.Gamma i) ∧ LowerEq (R i) (barR d sigma w.Gamma i) ∧
        S i = barS d w.Gamma i := by
  have := forFin_induct (n := N + 1) (f := augment d sigma) (s := w)
    (P := fun k s => ∃ Q R S E' L', s = { w with Q := Q, R := R, S := S, Etemp := E', Ltemp := L' } ∧
      ∀ i : Fin (N + 1), i.1 < k → LowerEq (Q i) (barQ d sigma w.Gamma i) ∧
        LowerEq (R i) (barR d sigma w.Gamma i) ∧ S i = barS d w.Gamma i)
    ⟨w.Q, w.R, w.S, w.Etemp, w.Ltemp, rfl, fun i h => absurd h (Nat.not_lt_zero _)⟩ ?_
  · obtain ⟨Q, R, S, E', L', h, hi⟩ := this
    exact ⟨Q, R, S, E', L', h, fun i => hi i i.2⟩
  · rintro i s ⟨Q, R, S, E', L', h, hi⟩
    obtain ⟨Q', R', E'', L'', e, h1, h2⟩ := augment_eq d sigma i s
    have hG : s.Gamma = w.Gamma := by rw [h]
    rw [hG] at e h1 h2
    refine ⟨s.Q.set i Q', s.R.set i R', s.S.set i (barS d w.Gamma i), E'', L'', ?_, ?_⟩
    · rw [e, h]
    · intro j hj
      have hQ : s.Q = Q := by rw [h]
      have hR : s.R = R := by rw [h]
      have hS : s.S = S := by rw [h]
      simp only [Vec.get_set, hQ, hR, hS]
      by_cases hji : j = i
      · simp only [if_pos hji]
        rw [hji]
        exact ⟨h1, h2, rfl⟩
      · simp only [if_neg hji]
        apply hi
        have : j.1 ≠ i.1 := fun e => hji (Fin.ext e)
        omega

/-- `Initialize` with linked data and positive `sigma`. -/
def initPair (d : MpcData K N nx nu nc)
    (x xbar : Point K ((N + 1) * (nx + nu)) ((N + 1) * nx) ((N + 1) * nc)) (sigma : K)
    (w : RiccatiWs K N nx nu nc) : Bool × RiccatiWs K N nx nu nc :=
  let w := forFin (N + 1) (augment d sigma) (barrier x xbar sigma w)
  let s := forFin N (factorStep d sigma)
    (true, { w with L := w.L.set 0 (Scalar.sqrt sigma * (Mat.identity : Mat K nx nx)) })
  if !s.1 then (false, s.2) else factorStage none (Fin.last N) s.2

theorem init_eq (d : MpcData K N nx nu nc)
    (x xbar : Point K ((N + 1) * (nx + nu)) ((N + 1) * nx) ((N + 1) * nc)) (sigma : K)
    (w : RiccatiWs K N nx nu nc) (hd : w.data = some d) (hs : ¬ sigma ≤ 0) :
    init x xbar sigma w = .ok (initPair d x xbar sigma w).1 (initPair d x xbar sigma w).2 := by
  simp only [init, hd, if_neg hs, initPair]
  generalize forFin N (factorStep d sigma) _ = s
  rcases s with ⟨b, w⟩
  cases b <;> simp only [Bool.not_false, Bool.not_true, if_true, if_false, Bool.false_eq_true]

/-- The state before the recursion. -/
theorem preLoop_rel (d : MpcData K N nx nu nc)
    (x xbar : Point K ((N + 1) * (nx + nu)) ((N + 1) * nx) ((N + 1) * nc)) (sigma : K)
    (w w' : RiccatiWs K N nx nu nc) (hd : w.data = w'.data) (ha : w.alpha = w'.alpha) :
    let p := forFin (N + 1) (augment d sigma) (barrier x xbar sigma w)
    let p' := forFin (N + 1) (augment d sigma) (barrier x xbar sigma w')
    FRel 0 { p with L := p.L.set 0 (Scalar.sqrt sigma * (Mat.identity : Mat K nx nx)) }
      { p' with L := p'.L.set 0 (Scalar.sqrt sigma * (Mat.identity : Mat K nx nx)) } := by
  obtain ⟨Q, R, S, E1, L1, e, h⟩ := augment_loop d sigma (barrier x xbar sigma w)
  obtain ⟨Q', R', S', E1', L1', e', h'⟩ := augment_loop d sigma (barrier x xbar sigma w')
  have hG : (barrier x xbar sigma w').Gamma = (barrier x xbar sigma w).Gamma := by
    simp only [barrier, ha]
  rw [e, e']
  rw [hG] at h'
  dsimp only
  exact
    { data := hd, alpha := ha
      gamma := by simp only [barrier, ha]
      mus := by simp only [barrier, ha]
      Q := fun i => (h i).1.trans (h' i).1.symm
      R := fun i => (h i).2.1.trans (h' i).2.1.symm
      S := fun i => (h i).2.2.trans (h' i).2.2.symm
      L := fun i hi => by
        have : i = 0 := Fin.ext (by simpa using hi)
        subst this
        simp only [Vec.get_set_same]
        exact LowerEq.refl _
      M := fun i hi => absurd hi (Nat.not_lt_zero _)
      SG := fun i hi => absurd hi (Nat.not_lt_zero _)
      SM := fun i hi => absurd hi (Nat.not_lt_zero _)
      P := fun i hi => absurd hi (Nat.not_lt_zero _)
      AM := fun i hi => absurd hi (Nat.not_lt_zero _) }

theorem initPair_rel (d : MpcData K N nx nu nc)
    (x xbar : Point K ((N + 1) * (nx + nu)) ((N + 1) * nx) ((N + 1) * nc)) (sigma : K)
    (w w' : RiccatiWs K N nx nu nc) (hd : w.data = w'.data) (ha : w.alpha = w'.alpha) :
    (initPair d x xbar sigma w).1 = (initPair d x xbar sigma w').1 ∧
      ((initPair d x xbar sigma w).1 = true →
        FRel (N + 1) (initPair d x xbar sigma w).2 (initPair d x xbar sigma w').2) := by
  have h0 := preLoop_rel d x xbar sigma w w' hd ha
  dsimp only at h0
  unfold initPair
  generalize forFin (N + 1) (augment d sigma) (barrier x xbar sigma w) = p at h0 ⊢
  generalize forFin (N + 1) (augment d sigma) (barrier x xbar sigma w') = p' at h0 ⊢
  dsimp only
  have h1 := forFin_rel (n := N) (R := fun k (s s' : Bool × RiccatiWs K N nx nu nc) =>
    s.1 = s'.1 ∧ (s.1 = true → FRel k s.2 s'.2)) (f := factorStep d sigma) (g := factorStep d sigma)
    (s := (true, { p with L := p.L.set 0 (Scalar.sqrt sigma * (Mat.identity : Mat K nx nx)) }))
    (t := (true, { p' with L := p'.L.set 0 (Scalar.sqrt sigma * (Mat.identity : Mat K nx nx)) }))
    ⟨rfl, fun _ => h0⟩ (fun i s t h => FRel.step d sigma i s t h)
  generalize forFin N (factorStep d sigma) (true, { p with
    L := p.L.set 0 (Scalar.sqrt sigma * (Mat.identity : Mat K nx nx)) }) = s at h1 ⊢
  generalize forFin N (factorStep d sigma) (true, { p' with
    L := p'.L.set 0 (Scalar.sqrt sigma * (Mat.identity : Mat K nx nx)) }) = s' at h1 ⊢
  rcases s with ⟨b, u⟩
  rcases s' with ⟨b', u'⟩
  obtain ⟨hb, h1⟩ := h1
  dsimp only at hb h1 ⊢
  subst hb
  cases b with
  | false =>
    simp only [Bool.not_false, if_true]
    exact ⟨trivial, fun e => absurd e Bool.false_ne_true⟩
  | true =>
    simp only [Bool.not_true, if_false, Bool.false_eq_true]
    exact (h1 rfl).last

/-- `Initialize` does not touch `data_` and `alpha_`. -/
theorem initPair_frame (d : MpcData K N nx nu nc)
    (x xbar : Point K ((N + 1) * (nx + nu)) ((N + 1) * nx) ((N + 1) * nc)) (sigma : K)
    (w : RiccatiWs K N nx nu nc) :
    (initPair d x xbar sigma w).2.data = w.data ∧ (initPair d x xbar sigma w).2.alpha = w.alpha := by
  obtain ⟨Q, R, S, E1, L1, e, h⟩ := augment_loop d sigma (barrier x xbar sigma w)
  unfold initPair
  rw [e]
  dsimp only
  have h1 := forFin_induct (n := N) (P := fun _ (s : Bool × RiccatiWs K N nx nu nc) =>
    s.2.data = w.data ∧ s.2.alpha = w.alpha) (f := factorStep d sigma)
    (s := (true, { barrier x xbar sigma w with
      Q := Q, R := R, S := S, Etemp := E1, Ltemp := L1
      L := (barrier x xbar sigma w).L.set 0
        (Scalar.sqrt sigma * (Mat.identity : Mat K nx nx)) })) ⟨rfl, rfl⟩ ?_
  · generalize forFin N (factorStep d sigma) (true, _) = s at h1 ⊢
    rcases s with ⟨b, u⟩
    cases b with
    | false =>
      simp only [Bool.not_false, if_true]
      exact h1
    | true =>
      simp only [Bool.not_true, if_false, Bool.false_eq_true]
      rw [factorStage_none]
      dsimp only
      split <;> exact h1
  · rintro i ⟨b, u⟩ h
    cases b with
    | false =>
      rw [factorStep_false]; exact h
    | true =>
      rw [factorStep_true]
      dsimp only
      split
      · split <;> exact h
      · exact h

/-! ## Solve -/

/-- The state before the forward recursion of `Solve`. -/
def solvePre (d : MpcData K N nx nu nc)
    (r : Resid K ((N + 1) * (nx + nu)) ((N + 1) * nx) ((N + 1) * nc))
    (w : RiccatiWs K N nx nu nc) : RiccatiWs K N nx nu nc :=
  let r3 := r.v.cwiseQuotient w.mus
  let r1 := d.gemvAT r3 (-1) 1 r.z
  let th0 := colBlock (-r.l) 0
  { w with
    r1 := r1, r3 := r3, r2 := -r.l, th := w.th.set 0 th0
    h := w.h.set 0 (lowerTSolve (w.L 0) (lowerSolve (w.L 0) th0) - xBlock r1 0) }

/-- `u(N)` -/
def lastU (w : RiccatiWs K N nx nu nc) : Vec K nu :=
  lowerTSolve (w.SG (Fin.last N)) (lowerSolve (w.SG (Fin.last N))
    (w.SM (Fin.last N) * lowerSolve (w.M (Fin.last N)) (w.h (Fin.last N)) +
      uBlock w.r1 (Fin.last N)))
/-- `x(N)` -/
def lastX (w : RiccatiWs K N nx nu nc) : Vec K nx :=
  Vec.ofFn fun j => (lowerTSolve (w.M (Fin.last N)) (lowerSolve (w.M (Fin.last N))
    (w.h (Fin.last N)) + (w.SM (Fin.last N)).transpose * lastU w)) j * (-1)
/-- `l(N)` -/
def lastL (w : RiccatiWs K N nx nu nc) : Vec K nx :=
  Vec.ofFn fun j => (lowerTSolve (w.L (Fin.last N)) (lowerSolve (w.L (Fin.last N))
    (lastX w + w.th (Fin.last N)))) j * (-1)

/-- The backward recursion. -/
def backward (w : RiccatiWs K N nx nu nc)
    (dx : Point K ((N + 1) * (nx + nu)) ((N + 1) * nx) ((N + 1) * nc)) :
    Vec K ((N + 1) * (nx + nu)) × Vec K ((N + 1) * nx) × Vec K nx :=
  forFinRev N (backwardStep w) (setU (setX dx.z (Fin.last N) (lastX w)) (Fin.last N) (lastU w),
    setCol dx.l (Fin.last N) (lastL w), lastX w)

/-- The result of `Solve` from the state after the forward recursion. -/
def solvePost (d : MpcData K N nx nu nc)
    (r : Resid K ((N + 1) * (nx + nu)) ((N + 1) * nx) ((N + 1) * nc))
    (dx : Point K ((N + 1) * (nx + nu)) ((N + 1) * nx) ((N + 1) * nc))
    (w : RiccatiWs K N nx nu nc) : Point K ((N + 1) * (nx + nu)) ((N + 1) * nx) ((N + 1) * nc) :=
  let s := backward w dx
  ⟨s.1, s.2.1, (r.v + Vec.cwiseProduct w.gamma (d.gemvA s.1 1 0 w.r3)).cwiseQuotient w.mus,
    d.axpyb 1 (d.gemvA s.1 (-1) 0 dx.y)⟩

theorem forwardStep_eq (i : Fin N) (w : RiccatiWs K N nx nu nc) :
    forwardStep i w =
      let tx := lowerSolve (w.M i.castSucc) (w.h i.castSucc)
      let tu := lowerSolve (w.SG i.castSucc) (w.SM i.castSucc * tx + uBlock w.r1 i.castSucc)
      let th := w.P i.castSucc * tu + w.AM i.castSucc * tx + colBlock w.r2 i.succ
      { w with
        tx := tx, tu := tu, th := w.th.set i.succ th
        h := w.h.set i.succ (lowerTSolve (w.L i.succ) (lowerSolve (w.L i.succ) th) -
          xBlock w.r1 i.succ) } := by
  simp only [forwardStep, Vec.get_set_same, Vec.set_set]

theorem solve_eq (d : MpcData K N nx nu nc)
    (r : Resid K ((N + 1) * (nx + nu)) ((N + 1) * nx) ((N + 1) * nc))
    (dx : Point K ((N + 1) * (nx + nu)) ((N + 1) * nx) ((N + 1) * nc))
    (w : RiccatiWs K N nx nu nc) (hd : w.data = some d) :
    let f := forFin N forwardStep (solvePre d r w)
    ∃ tx tu tl r3, solve r dx w = .ok (true, solvePost d r dx f)
      { f with tx := tx, tu := tu, tl := tl, r3 := r3 } := by
  intro f
  have hf : f = forFin N forwardStep (solvePre d r w) := rfl
  clear_value f
  simp only [solve, hd, Vec.get_set_same, Vec.set_set]
  have e : ({ w with
      r1 := d.gemvAT (r.v.cwiseQuotient w.mus) (-1) 1 r.z
      r3 := r.v.cwiseQuotient w.mus, r2 := -r.l
      th := w.th.set 0 (colBlock (-r.l) 0), data := some d
      h := w.h.set 0 (lowerTSolve (w.L 0) (lowerSolve (w.L 0) (colBlock (-r.l) 0)) -
        xBlock (d.gemvAT (r.v.cwiseQuotient w.mus) (-1) 1 r.z) 0) } : RiccatiWs K N nx nu nc)
      = solvePre d r w := by
    simp only [solvePre, hd]
  rw [e, ← hf]
  exact ⟨_, _, _, _, rfl⟩

/-- Agreement of two workspaces during `Solve`, `h` and `th` being computed up to stage `k`. -/
structure SRel (k : Nat) (w w' : RiccatiWs K N nx nu nc) : Prop where
  gamma : w.gamma = w'.gamma
  mus : w.mus = w'.mus
  L : ∀ i, LowerEq (w.L i) (w'.L i)
  M : ∀ i, LowerEq (w.M i) (w'.M i)
  SG : ∀ i, LowerEq (w.SG i) (w'.SG i)
  SM : ∀ i, w.SM i = w'.SM i
  P : ∀ i : Fin N, w.P i.castSucc = w'.P i.castSucc
  AM : ∀ i : Fin N, w.AM i.castSucc = w'.AM i.castSucc
  r1 : w.r1 = w'.r1
  r2 : w.r2 = w'.r2
  h : ∀ i, i.1 ≤ k → w.h i = w'.h i
  th : ∀ i, i.1 ≤ k → w.th i = w'.th i

theorem SRel.pre (d : MpcData K N nx nu nc)
    (r : Resid K ((N + 1) * (nx + nu)) ((N + 1) * nx) ((N + 1) * nc))
    {w w' : RiccatiWs K N nx nu nc} (h : FRel (N + 1) w w') :
    SRel 0 (solvePre d r w) (solvePre d r w') where
  gamma := h.gamma
  mus := h.mus
  L i := h.L i (Nat.le_of_lt i.2)
  M i := h.M i i.2
  SG i := h.SG i i.2
  SM i := h.SM i i.2
  P i := h.P i (Nat.lt_succ_of_lt i.2)
  AM i := h.AM i (Nat.lt_succ_of_lt i.2)
  r1 := by simp only [solvePre, h.mus]
  r2 := rfl
  h i hi := by
    have : i = 0 := Fin.ext (by simpa using hi)
    subst this
    simp only [solvePre, Vec.get_set_same, h.mus, (h.L 0 (Nat.zero_le _)).lowerSolve,
      (h.L 0 (Nat.zero_le _)).lowerTSolve]
  th i hi := by
    have : i = 0 := Fin.ext (by simpa using hi)
    subst this
    simp only [solvePre, Vec.get_set_same]

theorem SRel.step (i : Fin N) {w w' : RiccatiWs K N nx nu nc} (h : SRel i.1 w w') :
    SRel (i.1 + 1) (forwardStep i w) (forwardStep i w') := by
  have htx : lowerSolve (w.M i.castSucc) (w.h i.castSucc) =
      lowerSolve (w'.M i.castSucc) (w'.h i.castSucc) := by
    rw [(h.M i.castSucc).lowerSolve, h.h i.castSucc (Nat.le_refl _)]
  rw [forwardStep_eq, forwardStep_eq]
  dsimp only
  rw [htx, h.SM, h.r1, (h.SG i.castSucc).lowerSolve, h.P, h.AM, h.r2, (h.L i.succ).lowerSolve,
    (h.L i.succ).lowerTSolve]
  have ne : ∀ j : Fin (N + 1), j ≠ i.succ → j.1 ≤ i.1 + 1 → j.1 ≤ i.1 := by
    intro j hj h2
    have : j.1 ≠ i.1 + 1 := fun e => hj (Fin.ext e)
    omega
  exact
    { gamma := h.gamma, mus := h.mus, L := h.L, M := h.M, SG := h.SG, SM := h.SM, P := h.P
      AM := h.AM, r1 := rfl, r2 := rfl
      h := fun j hj => by
        simp only [Vec.get_set]
        split
        · rfl
        · exact h.h j (ne j ‹_› hj)
      th := fun j hj => by
        simp only [Vec.get_set]
        split
        · rfl
        · exact h.th j (ne j ‹_› hj) }

theorem SRel.lastU {w w' : RiccatiWs K N nx nu nc} (h : SRel N w w') : lastU w = lastU w' := by
  simp only [RiccatiWs.lastU, (h.SG _).lowerSolve, (h.SG _).lowerTSolve, h.SM, (h.M _).lowerSolve,
    h.h (Fin.last N) (Nat.le_refl _), h.r1]

theorem SRel.lastX {w w' : RiccatiWs K N nx nu nc} (h : SRel N w w') : lastX w = lastX w' := by
  simp only [RiccatiWs.lastX, h.lastU, h.SM, (h.M _).lowerSolve, (h.M _).lowerTSolve,
    h.h (Fin.last N) (Nat.le_refl _)]

theorem SRel.lastL {w w' : RiccatiWs K N nx nu nc} (h : SRel N w w') : lastL w = lastL w' := by
  simp only [RiccatiWs.lastL, h.lastX, (h.L _).lowerSolve, (h.L _).lowerTSolve,
    h.th (Fin.last N) (Nat.le_refl _)]

/-- `u(i)`, `x(i)`, `l(i)` from `l(i+1)`. -/
def stepU (w : RiccatiWs K N nx nu nc) (i : Fin N) (lp : Vec K nx) : Vec K nu :=
  lowerTSolve (w.SG i.castSucc) (lowerSolve (w.SG i.castSucc)
    (w.SM i.castSucc * lowerSolve (w.M i.castSucc) (w.h i.castSucc) + uBlock w.r1 i.castSucc) +
    (w.P i.castSucc).transpose * lp)
def stepX (w : RiccatiWs K N nx nu nc) (i : Fin N) (lp : Vec K nx) : Vec K nx :=
  Vec.ofFn fun j => (lowerTSolve (w.M i.castSucc) (lowerSolve (w.M i.castSucc) (w.h i.castSucc) +
    (w.SM i.castSucc).transpose * stepU w i lp + (w.AM i.castSucc).transpose * lp)) j * (-1)
def stepL (w : RiccatiWs K N nx nu nc) (i : Fin N) (lp : Vec K nx) : Vec K nx :=
  Vec.ofFn fun j => (lowerTSolve (w.L i.castSucc) (lowerSolve (w.L i.castSucc)
    (w.th i.castSucc + stepX w i lp))) j * (-1)

theorem backwardStep_eq (w : RiccatiWs K N nx nu nc) (i : Fin N)
    (s : Vec K ((N + 1) * (nx + nu)) × Vec K ((N + 1) * nx) × Vec K nx) :
    backwardStep w i s =
      (setX (setU s.1 i.castSucc (stepU w i (colBlock s.2.1 i.succ))) i.castSucc
          (stepX w i (colBlock s.2.1 i.succ)),
        setCol s.2.1 i.castSucc (stepL w i (colBlock s.2.1 i.succ)),
        lowerSolve (w.M i.castSucc) (w.h i.castSucc)) := rfl

theorem SRel.stepU {w w' : RiccatiWs K N nx nu nc} (h : SRel N w w') (i : Fin N) (lp : Vec K nx) :
    stepU w i lp = stepU w' i lp := by
  simp only [RiccatiWs.stepU, (h.SG _).lowerSolve, (h.SG _).lowerTSolve, h.SM, (h.M _).lowerSolve,
    h.h i.castSucc (Nat.le_of_lt i.2), h.r1, h.P]

theorem SRel.stepX {w w' : RiccatiWs K N nx nu nc} (h : SRel N w w') (i : Fin N) (lp : Vec K nx) :
    stepX w i lp = stepX w' i lp := by
  simp only [RiccatiWs.stepX, h.stepU, h.SM, (h.M _).lowerSolve, (h.M _).lowerTSolve,
    h.h i.castSucc (Nat.le_of_lt i.2), h.AM]

theorem SRel.stepL {w w' : RiccatiWs K N nx nu nc} (h : SRel N w w') (i : Fin N) (lp : Vec K nx) :
    stepL w i lp = stepL w' i lp := by
  simp only [RiccatiWs.stepL, h.stepX, (h.L _).lowerSolve, (h.L _).lowerTSolve,
    h.th i.castSucc (Nat.le_of_lt i.2)]

/-- The backward recursion overwrites all of `dz`, `dl`. -/
theorem SRel.backward {w w' : RiccatiWs K N nx nu nc} (h : SRel N w w')
    (dx dx' : Point K ((N + 1) * (nx + nu)) ((N + 1) * nx) ((N + 1) * nc)) :
    (backward w dx).1 = (backward w' dx').1 ∧ (backward w dx).2.1 = (backward w' dx').2.1 := by
  have := forFinRev_rel (n := N)
    (R := fun k (s s' : Vec K ((N + 1) * (nx + nu)) × Vec K ((N + 1) * nx) × Vec K nx) =>
      ∀ i : Fin (N + 1), k ≤ i.1 → xBlock s.1 i = xBlock s'.1 i ∧ uBlock s.1 i = uBlock s'.1 i ∧
        colBlock s.2.1 i = colBlock s'.2.1 i)
    (f := backwardStep w) (g := backwardStep w')
    (s := (setU (setX dx.z (Fin.last N) (RiccatiWs.lastX w)) (Fin.last N) (RiccatiWs.lastU w),
      setCol dx.l (Fin.last N) (RiccatiWs.lastL w), RiccatiWs.lastX w))
    (t := (setU (setX dx'.z (Fin.last N) (RiccatiWs.lastX w')) (Fin.last N) (RiccatiWs.lastU w'),
      setCol dx'.l (Fin.last N) (RiccatiWs.lastL w'), RiccatiWs.lastX w')) ?_ ?_
  · refine ⟨vec_ext_xu (fun i => (this i (Nat.zero_le _)).1) (fun i => (this i (Nat.zero_le _)).2.1),
      vec_ext_col fun i => (this i (Nat.zero_le _)).2.2⟩
  · intro i hi
    have : i = Fin.last N := Fin.ext (by have := i.2; simp only [Fin.val_last]; omega)
    subst this
    simp [h.lastX, h.lastU, h.lastL]
  · intro i s t hst j hj
    rw [backwardStep_eq, backwardStep_eq, (hst i.succ (Nat.le_refl _)).2.2]
    simp only [xBlock_setX, uBlock_setX, xBlock_setU, uBlock_setU, colBlock_setCol]
    by_cases hji : j = i.castSucc
    · simp only [if_pos hji]
      exact ⟨h.stepX i _, h.stepU i _, h.stepL i _⟩
    · simp only [if_neg hji]
      apply hst
      have : j.1 ≠ i.1 := fun e => hji (Fin.ext e)
      omega

theorem gemvA_zero (h0 : ((0 : K) == 0) = true) (d : MpcData K N nx nu nc)
    (x : Vec K ((N + 1) * (nx + nu))) (a : K) (y y' : Vec K ((N + 1) * nc)) :
    d.gemvA x a 0 y = d.gemvA x a 0 y' := by
  simp only [MpcData.gemvA, scaleBy, h0, if_true]

theorem SRel.post (h0 : ((0 : K) == 0) = true) (d : MpcData K N nx nu nc)
    (r : Resid K ((N + 1) * (nx + nu)) ((N + 1) * nx) ((N + 1) * nc))
    (dx dx' : Point K ((N + 1) * (nx + nu)) ((N + 1) * nx) ((N + 1) * nc))
    {w w' : RiccatiWs K N nx nu nc} (h : SRel N w w') :
    solvePost d r dx w = solvePost d r dx' w' := by
  obtain ⟨h1, h2⟩ := h.backward dx dx'
  simp only [solvePost, h1, h2, h.mus, h.gamma]
  rw [gemvA_zero h0 d _ 1 w.r3 w'.r3, gemvA_zero h0 d _ (-1) dx.y dx'.y]

theorem forward_frame (w : RiccatiWs K N nx nu nc) :
    (forFin N forwardStep w).data = w.data ∧ (forFin N forwardStep w).alpha = w.alpha := by
  refine forFin_induct (P := fun _ (s : RiccatiWs K N nx nu nc) =>
    s.data = w.data ∧ s.alpha = w.alpha) ⟨rfl, rfl⟩ ?_
  intro i s hs
  rw [forwardStep_eq]
  exact hs

/-- A workspace full of zeros. -/
def zero (d : MpcData K N nx nu nc) (alpha : K) : RiccatiWs K N nx nu nc where
  Q := Vec.const (Mat.ofFn fun _ _ => 0)
  R := Vec.const (Mat.ofFn fun _ _ => 0)
  S := Vec.const (Mat.ofFn fun _ _ => 0)
  P := Vec.const (Mat.ofFn fun _ _ => 0)
  SG := Vec.const (Mat.ofFn fun _ _ => 0)
  M := Vec.const (Mat.ofFn fun _ _ => 0)
  L := Vec.const (Mat.ofFn fun _ _ => 0)
  SM := Vec.const (Mat.ofFn fun _ _ => 0)
  AM := Vec.const (Mat.ofFn fun _ _ => 0)
  h := Vec.const (Vec.const 0)
  th := Vec.const (Vec.const 0)
  gamma := Vec.const 0
  mus := Vec.const 0
  Gamma := Vec.const 0
  Etemp := Mat.ofFn fun _ _ => 0
  Ltemp := Mat.ofFn fun _ _ => 0
  Linv := Mat.ofFn fun _ _ => 0
  tx := Vec.const 0
  tl := Vec.const 0
  tu := Vec.const 0
  r1 := Vec.const 0
  r2 := Vec.const 0
  r3 := Vec.const 0
  data := some d
  alpha := alpha

/-- The solution map after a factorisation. -/
def step (d : MpcData K N nx nu nc) (alpha : K)
    (x xbar : Point K ((N + 1) * (nx + nu)) ((N + 1) * nx) ((N + 1) * nc)) (sigma : K)
    (r : Resid K ((N + 1) * (nx + nu)) ((N + 1) * nx) ((N + 1) * nc)) :
    Point K ((N + 1) * (nx + nu)) ((N + 1) * nx) ((N + 1) * nc) :=
  solvePost d r ⟨Vec.const 0, Vec.const 0, Vec.const 0, Vec.const 0⟩
    (forFin N forwardStep (solvePre d r (initPair d x xbar sigma (zero d alpha)).2))

/-- What `Initialize` does. -/
def factor (d : MpcData K N nx nu nc) (alpha : K)
    (x xbar : Point K ((N + 1) * (nx + nu)) ((N + 1) * nx) ((N + 1) * nc)) (sigma : K) :
    Except Err (Option (Resid K ((N + 1) * (nx + nu)) ((N + 1) * nx) ((N + 1) * nc) →
      Point K ((N + 1) * (nx + nu)) ((N + 1) * nx) ((N + 1) * nc))) :=
  if sigma ≤ 0 then
    .error (.runtimeError "In RiccatiLinearSolver::Initialize: sigma must be positive.")
  else if (initPair d x xbar sigma (zero d alpha)).1 then .ok (some (step d alpha x xbar sigma))
  else .ok none

end RiccatiWs

/-- The Riccati solver as a function.  The only law of arithmetic needed is `0 == 0`. -/
def riccatiSem (K : Type) [Scalar K] (h0 : ((0 : K) == 0) = true) (N nx nu nc : Nat) :
    LinSem (riccatiSolver K N nx nu nc) where
  factor := RiccatiWs.factor
  Ready d a (st : RiccatiWs K N nx nu nc) := st.data = some d ∧ st.alpha = a
  ready _ _ _ := ⟨rfl, rfl⟩
  spec d a (w : RiccatiWs K N nx nu nc) x xbar sigma := by
    rintro ⟨hd, ha⟩
    unfold RiccatiWs.factor
    by_cases hs : sigma ≤ 0
    · rw [if_pos hs]
      refine ⟨w, ?_, hd, ha⟩
      show RiccatiWs.init x xbar sigma w = _
      simp only [RiccatiWs.init, if_pos hs]
      rfl
    · rw [if_neg hs]
      obtain ⟨hb, hr⟩ := RiccatiWs.initPair_rel d x xbar sigma w (RiccatiWs.zero d a) hd ha
      obtain ⟨f1, f2⟩ := RiccatiWs.initPair_frame d x xbar sigma w
      have hi : (riccatiSolver K N nx nu nc).init x xbar sigma w = _ :=
        RiccatiWs.init_eq d x xbar sigma w hd hs
      cases hf : (RiccatiWs.initPair d x xbar sigma (RiccatiWs.zero d a)).1 with
      | false =>
        rw [hb, hf] at hi
        exact ⟨_, hi, f1.trans hd, f2.trans ha⟩
      | true =>
        rw [hb, hf] at hi
        refine ⟨_, hi, fun r dx => ?_⟩
        have hr := hr (hb.trans hf)
        have h1 := forFin_rel (n := N) (R := fun k s s' => RiccatiWs.SRel k s s')
          (RiccatiWs.SRel.pre d r hr) (fun i s t h => RiccatiWs.SRel.step i h)
        have h2 := h1.post h0 d r dx ⟨Vec.const 0, Vec.const 0, Vec.const 0, Vec.const 0⟩
        obtain ⟨g1, g2⟩ := RiccatiWs.forward_frame
          (RiccatiWs.solvePre d r (RiccatiWs.initPair d x xbar sigma w).2)
        have h3 : ∃ st'', RiccatiWs.solve r dx (RiccatiWs.initPair d x xbar sigma w).2 =
            .ok (true, RiccatiWs.step d a x xbar sigma r) st'' ∧
            st''.data = some d ∧ st''.alpha = a := by
          obtain ⟨tx, tu, tl, r3, e⟩ := RiccatiWs.solve_eq d r dx
            (RiccatiWs.initPair d x xbar sigma w).2 (f1.trans hd)
          rw [e, h2]
          exact ⟨_, rfl, g1.trans (f1.trans hd), g2.trans (f2.trans ha)⟩
        exact h3

end Fbstab
