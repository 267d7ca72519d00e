import Verif.Model.EigenTri

/-!
# Induction principles for the loops, and what the triangular routines read
-/

namespace Fbstab

section loops
variable {σ τ : Type}

theorem forFin_succ (n : Nat) (f : Fin (n + 1) → σ → σ) (s : σ) :
    forFin (n + 1) f s = f (Fin.last n) (forFin n (fun i => f i.castSucc) s) := by
  simp only [forFin, Fin.foldl_succ_last]

theorem forFinRev_succ (n : Nat) (f : Fin (n + 1) → σ → σ) (s : σ) :
    forFinRev (n + 1) f s = forFinRev n (fun i => f i.castSucc) (f (Fin.last n) s) := by
  simp only [forFinRev, Fin.foldr_succ_last]

/-- Loop invariants for `forFin`. -/
theorem forFin_induct {n : Nat} (P : Nat → σ → Prop) {f : Fin n → σ → σ} {s : σ} (h0 : P 0 s)
    (hs : ∀ (i : Fin n) s, P i.1 s → P (i.1 + 1) (f i s)) : P n (forFin n f s) := by
  induction n with
  | zero => simpa [forFin] using h0
  | succ n ih =>
    rw [forFin_succ]
    exact hs (Fin.last n) _ (ih fun i s h => hs i.castSucc s h)

/-- Loop invariants for `forFinRev`; `P k` holds when indices `≥ k` have been processed. -/
theorem forFinRev_induct {n : Nat} (P : Nat → σ → Prop) {f : Fin n → σ → σ} {s : σ} (h0 : P n s)
    (hs : ∀ (i : Fin n) s, P (i.1 + 1) s → P i.1 (f i s)) : P 0 (forFinRev n f s) := by
  induction n generalizing s with
  | zero => simpa [forFinRev] using h0
  | succ n ih =>
    rw [forFinRev_succ]
    exact ih (hs (Fin.last n) _ h0) fun i s h => hs i.castSucc s h

/-- Relational loop invariants. -/
theorem forFin_rel {n : Nat} (R : Nat → σ → τ → Prop) {f : Fin n → σ → σ} {g : Fin n → τ → τ}
    {s : σ} {t : τ} (h0 : R 0 s t)
    (hs : ∀ (i : Fin n) s t, R i.1 s t → R (i.1 + 1) (f i s) (g i t)) :
    R n (forFin n f s) (forFin n g t) := by
  induction n with
  | zero => simpa [forFin] using h0
  | succ n ih =>
    rw [forFin_succ, forFin_succ]
    exact hs (Fin.last n) _ _ (ih fun i s t h => hs i.castSucc s t h)

theorem forFinRev_rel {n : Nat} (R : Nat → σ → τ → Prop) {f : Fin n → σ → σ} {g : Fin n → τ → τ}
    {s : σ} {t : τ} (h0 : R n s t)
    (hs : ∀ (i : Fin n) s t, R (i.1 + 1) s t → R i.1 (f i s) (g i t)) :
    R 0 (forFinRev n f s) (forFinRev n g t) := by
  induction n generalizing s t with
  | zero => simpa [forFinRev] using h0
  | succ n ih =>
    rw [forFinRev_succ, forFinRev_succ]
    exact ih (hs (Fin.last n) _ _ h0) fun i s t h => hs i.castSucc s t h

end loops

variable {K : Type} [Scalar K] {n m : Nat}

/-- Two matrices agree on and below the diagonal. -/
def LowerEq (A B : Mat K n n) : Prop := ∀ i j, j ≤ i → A i j = B i j

namespace LowerEq
variable {A B C : Mat K n n}

omit [Scalar K] in
theorem refl (A : Mat K n n) : LowerEq A A := fun _ _ _ => rfl
omit [Scalar K] in
theorem symm (h : LowerEq A B) : LowerEq B A := fun i j hij => (h i j hij).symm
omit [Scalar K] in
theorem trans (h : LowerEq A B) (h' : LowerEq B C) : LowerEq A C :=
  fun i j hij => (h i j hij).trans (h' i j hij)

omit [Scalar K] in
theorem of_assign (A B : Mat K n n) : LowerEq (A.assignLower B) B := fun i j hij => by
  simp [hij]

theorem add {A' B' : Mat K n n} (h : LowerEq A B) (h' : LowerEq A' B') :
    LowerEq (A + A') (B + B') := fun i j hij => by simp [h i j hij, h' i j hij]
theorem sub {A' B' : Mat K n n} (h : LowerEq A B) (h' : LowerEq A' B') :
    LowerEq (A - A') (B - B') := fun i j hij => by simp [h i j hij, h' i j hij]

theorem lowerSolve (h : LowerEq A B) : lowerSolve A = lowerSolve B := by
  unfold Fbstab.lowerSolve
  congr; funext x; congr; funext i x
  congr 2
  · congr 1
    exact dotIf_congr (fun j hj => h i j (Fin.le_of_lt hj)) fun _ _ => rfl
  · exact h i i (Fin.le_refl i)

theorem lowerTSolve (h : LowerEq A B) : lowerTSolve A = lowerTSolve B := by
  unfold Fbstab.lowerTSolve
  congr; funext x; congr; funext i x
  congr 2
  · congr 1
    exact dotIf_congr (fun j hj => h j i (Fin.le_of_lt hj)) fun _ _ => rfl
  · exact h i i (Fin.le_refl i)

theorem lowerSolveMat (h : LowerEq A B) (X : Mat K n m) : lowerSolveMat A X = lowerSolveMat B X := by
  simp only [Fbstab.lowerSolveMat, h.lowerSolve]
theorem lowerTSolveMat (h : LowerEq A B) (X : Mat K n m) :
    lowerTSolveMat A X = lowerTSolveMat B X := by
  simp only [Fbstab.lowerTSolveMat, h.lowerTSolve]
theorem solveOnTheRightT (h : LowerEq A B) (X : Mat K m n) :
    solveOnTheRightT A X = solveOnTheRightT B X := by
  simp only [Fbstab.solveOnTheRightT, h.lowerSolve]

theorem lltStep (k : Fin n) (b : Bool) (h : LowerEq A B) :
    (lltStep k (b, A)).1 = (lltStep k (b, B)).1 ∧
      LowerEq (lltStep k (b, A)).2 (lltStep k (b, B)).2 := by
  cases b with
  | false => exact ⟨rfl, h⟩
  | true =>
    have hx : A k k - dotIf n (fun j => j < k) (fun j => A k j) (fun j => A k j) =
        B k k - dotIf n (fun j => j < k) (fun j => B k j) (fun j => B k j) := by
      congr 1
      · exact h k k (Fin.le_refl k)
      · exact dotIf_congr (fun j hj => h k j (Fin.le_of_lt hj)) fun j hj => h k j (Fin.le_of_lt hj)
    simp only [Fbstab.lltStep, if_true, hx]
    split
    · exact ⟨rfl, h⟩
    · refine ⟨rfl, fun i j hij => ?_⟩
      simp only [Mat.get_ofFn]
      split
      · rename_i hjk
        split
        · rfl
        · split
          · rename_i hki
            congr 2
            · exact h i k (Fin.le_of_lt hki)
            · exact dotIf_congr (fun l hl => h i l (Fin.le_of_lt (Fin.lt_trans hl hki)))
                fun l hl => h k l (Fin.le_of_lt hl)
          · exact h i j hij
      · exact h i j hij

theorem llt (h : LowerEq A B) : (llt A).1 = (llt B).1 ∧ LowerEq (llt A).2 (llt B).2 := by
  unfold Fbstab.llt
  refine forFin_rel (R := fun _ (s t : Bool × Mat K n n) => s.1 = t.1 ∧ LowerEq s.2 t.2) ⟨rfl, h⟩ ?_
  rintro i ⟨b, A⟩ ⟨b', B⟩ ⟨hb, h⟩
  dsimp only at hb h
  subst hb
  exact h.lltStep i b

theorem ldltCompute (h : LowerEq A B) : ldltCompute A = ldltCompute B := by
  have h1 : ldltPerm A = ldltPerm B := by
    unfold ldltPerm
    congr; funext k p
    have : ∀ i, A i i = B i i := fun i => h i i (Fin.le_refl i)
    simp only [this]
  have h2 : ∀ p, permuteLower p A = permuteLower p B := by
    intro p
    ext i j
    simp only [permuteLower, Mat.get_ofFn]
    split
    · exact h _ _ ‹_›
    · exact h _ _ (Fin.le_of_lt (Fin.not_le.mp ‹_›))
  unfold Fbstab.ldltCompute
  simp only [h1, h2]

end LowerEq
end Fbstab
