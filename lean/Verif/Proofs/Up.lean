import Verif.Spec.Finite
import Verif.Spec.RealScalar
import Verif.Model.Riccati

/-!
# The model commutes with the embedding of the reals: vectors, matrices, triangular solves

Every operation of the model on finite numbers gives the finite number that exact arithmetic gives, if
no division by zero and no square root of a negative number occurs.
-/

namespace Fbstab

theorem up_add (a b : ℝ) : up a + up b = up (a + b) := by
  show XReal.add _ _ = _
  simp only [XReal.add, up, EReal.coe_ne_top, EReal.coe_ne_bot, false_and, or_self, if_false,
    EReal.coe_add]

theorem up_neg (a : ℝ) : -up a = up (-a) := by
  show XReal.neg _ = _
  simp only [XReal.neg, up, EReal.coe_neg]

theorem up_sub (a b : ℝ) : up a - up b = up (a - b) := by
  show up a + -up b = _
  rw [up_neg, up_add, sub_eq_add_neg]

theorem up_mul (a b : ℝ) : up a * up b = up (a * b) := by
  show XReal.mul _ _ = _
  simp only [XReal.mul, up, EReal.coe_ne_top, EReal.coe_ne_bot, and_false, or_self, if_false,
    EReal.coe_mul]

theorem up_div (a : ℝ) {b : ℝ} (hb : b ≠ 0) : up a / up b = up (a / b) := by
  show XReal.div _ _ = _
  have : (b : EReal) ≠ 0 := by simpa using hb
  simp only [XReal.div, up, EReal.coe_ne_top, EReal.coe_ne_bot, or_self, if_false, this, false_and,
    EReal.coe_div]

theorem up_sqrt {a : ℝ} (ha : 0 ≤ a) : Scalar.sqrt (up a) = up √a := by
  show XReal.sqrt _ = _
  have : ¬(a : EReal) < 0 := by simpa using ha
  simp only [XReal.sqrt, up, this, if_false, EReal.coe_ne_top, EReal.toReal_coe]

theorem up_zero : (0 : XReal) = up 0 := rfl
theorem up_one : (1 : XReal) = up 1 := rfl
theorem up_ofScientific (m : Nat) (s : Bool) (e : Nat) :
    (OfScientific.ofScientific m s e : XReal) = up (OfScientific.ofScientific m s e) := rfl
theorem up_lt (a b : ℝ) : (up a < up b) = (a < b) := propext EReal.coe_lt_coe_iff
theorem up_le (a b : ℝ) : (up a ≤ up b) = (a ≤ b) := propext EReal.coe_le_coe_iff
theorem up_beq (a b : ℝ) : (up a == up b) = (a == b) := by
  show decide ((a : EReal) = b) = decide (a = b)
  simp
theorem up_inj {a b : ℝ} : up a = up b ↔ a = b := by simp [up]
theorem up_decide_lt (a b : ℝ) (h : Decidable (up a < up b)) :
    @decide (up a < up b) h = decide (a < b) := by
  rw [decide_eq_decide, up_lt]
theorem up_decide_le (a b : ℝ) (h : Decidable (up a ≤ up b)) :
    @decide (up a ≤ up b) h = decide (a ≤ b) := by
  rw [decide_eq_decide, up_le]
theorem up_ite (p : Prop) [Decidable p] (a b : ℝ) :
    (if p then up a else up b) = up (if p then a else b) := by split <;> rfl

theorem up_cmax (a b : ℝ) : cmax (up a) (up b) = up (cmax a b) := by
  simp only [cmax, up_lt, up_ite]
theorem up_cmin (a b : ℝ) : cmin (up a) (up b) = up (cmin a b) := by
  simp only [cmin, up_lt, up_ite]
theorem up_cabs (a : ℝ) : cabs (up a) = up (cabs a) := by
  simp only [cabs, up_zero, up_lt, up_neg, up_ite]
theorem up_saturate (x a b : ℝ) :
    saturate (up x) (up a) (up b) = (saturate x a b).map up := by
  simp only [saturate, up_lt, up_cmin, up_cmax]
  split <;> rfl

section loops
variable {σ τ : Type} {n : Nat}

theorem forFin_up (m : σ → τ) (f : Fin n → σ → σ) (g : Fin n → τ → τ)
    (h : ∀ i s, g i (m s) = m (f i s)) (s : σ) : forFin n g (m s) = m (forFin n f s) := by
  unfold forFin
  induction n generalizing s with
  | zero => simp
  | succ n ih =>
    rw [Fin.foldl_succ, Fin.foldl_succ, h]
    exact ih (fun i => f i.succ) (fun i => g i.succ) (fun i s => h _ _) _

theorem forFinRev_up (m : σ → τ) (f : Fin n → σ → σ) (g : Fin n → τ → τ)
    (h : ∀ i s, g i (m s) = m (f i s)) (s : σ) : forFinRev n g (m s) = m (forFinRev n f s) := by
  unfold forFinRev
  induction n generalizing s with
  | zero => simp
  | succ n ih =>
    rw [Fin.foldr_succ, Fin.foldr_succ,
      ih (fun i => f i.succ) (fun i => g i.succ) (fun i s => h _ _) _, h]

/-- With an invariant of the real loop. -/
theorem forFin_up_inv (m : σ → τ) (f : Fin n → σ → σ) (g : Fin n → τ → τ) (P : Nat → σ → Prop)
    (h : ∀ (i : Fin n) s, P i.1 s → g i (m s) = m (f i s) ∧ P (i.1 + 1) (f i s)) (s : σ) (h0 : P 0 s) :
    forFin n g (m s) = m (forFin n f s) ∧ P n (forFin n f s) := by
  unfold forFin
  induction n generalizing s P with
  | zero => exact ⟨by simp, by simpa using h0⟩
  | succ n ih =>
    rw [Fin.foldl_succ, Fin.foldl_succ, (h 0 s h0).1]
    have := ih (fun i => f i.succ) (fun i => g i.succ) (fun k s => P (k + 1) s)
      (fun i s hs => h i.succ s hs) (f 0 s) (h 0 s h0).2
    exact this

theorem sumFin_up (n : Nat) (f : Fin n → ℝ) : sumFin n (fun i => up (f i)) = up (sumFin n f) := by
  unfold sumFin
  rw [up_zero]
  exact forFin_up up (fun i s => s + f i) (fun i s => s + up (f i)) (fun i s => up_add _ _) 0

theorem dotFin_up (n : Nat) (x y : Fin n → ℝ) :
    dotFin n (fun i => up (x i)) (fun i => up (y i)) = up (dotFin n x y) := by
  simp only [XReal.dotFin_eq, dotFin_real, up_mul, sumFin_up]

theorem dotIf_up (n : Nat) (p : Fin n → Prop) [DecidablePred p] (x y : Fin n → ℝ) :
    dotIf n p (fun i => up (x i)) (fun i => up (y i)) = up (dotIf n p x y) := by
  simp only [XReal.dotIf_eq, dotIf_real, up_zero, up_mul, up_ite, sumFin_up]

end loops

namespace Vec
variable {n : Nat} {A B : Type}

theorem up_get (x : Vec ℝ n) (i : Fin n) : x.up i = Fbstab.up (x i) := by simp [Vec.up]
theorem ofFn_up (f : Fin n → ℝ) : Vec.ofFn (fun i => Fbstab.up (f i)) = (Vec.ofFn f).up := by
  ext i; simp [up_get]
theorem up_set (x : Vec ℝ n) (i : Fin n) (a : ℝ) : x.up.set i (Fbstab.up a) = (x.set i a).up := by
  ext j; simp only [get_set, up_get, up_ite]
theorem map_get (g : A → B) (x : Vec A n) (i : Fin n) : x.map g i = g (x i) := by simp [Vec.map]
theorem ofFn_map (g : A → B) (f : Fin n → A) : Vec.ofFn (fun i => g (f i)) = (Vec.ofFn f).map g := by
  ext i; simp [map_get]
theorem map_set (g : A → B) (x : Vec A n) (i : Fin n) (a : A) :
    (x.map g).set i (g a) = (x.set i a).map g := by
  ext j; simp only [get_set, map_get]; split <;> rfl
theorem const_up (a : ℝ) : (Vec.const (Fbstab.up a) : Vec XReal n) = (Vec.const a).up := by
  ext i; simp [up_get]
theorem const_map (g : A → B) (a : A) : (Vec.const (g a) : Vec B n) = (Vec.const a).map g := by
  ext i; simp [map_get]
theorem up_add (x y : Vec ℝ n) : x.up + y.up = (x + y).up := by
  ext i; simp [up_get, Fbstab.up_add]
theorem up_sub (x y : Vec ℝ n) : x.up - y.up = (x - y).up := by
  ext i; simp [up_get, Fbstab.up_sub]
theorem up_neg (x : Vec ℝ n) : -x.up = (-x).up := by
  ext i; simp [up_get, Fbstab.up_neg]
theorem up_smul (a : ℝ) (x : Vec ℝ n) : Fbstab.up a * x.up = (a * x).up := by
  ext i; simp [up_get, Fbstab.up_mul]
theorem up_dot (x y : Vec ℝ n) : x.up.dot y.up = Fbstab.up (x.dot y) := by
  simp only [Vec.dot, up_get, dotFin_up]
theorem up_squaredNorm (x : Vec ℝ n) : x.up.squaredNorm = Fbstab.up x.squaredNorm := by
  simp only [Vec.squaredNorm, up_get, dotFin_up]
theorem up_norm (x : Vec ℝ n) : x.up.norm = Fbstab.up x.norm := by
  simp only [Vec.norm, up_squaredNorm, up_sqrt x.squaredNorm_nonneg]; rfl
theorem up_cwiseQuotient (x : Vec ℝ n) {y : Vec ℝ n} (h : ∀ i, y i ≠ 0) :
    x.up.cwiseQuotient y.up = (x.cwiseQuotient y).up := by
  ext i; simp [Vec.cwiseQuotient, up_get, up_div _ (h i)]
theorem up_cwiseProduct (x y : Vec ℝ n) : x.up.cwiseProduct y.up = (x.cwiseProduct y).up := by
  ext i; simp [Vec.cwiseProduct, up_get, Fbstab.up_mul]
theorem up_cwiseMax (x : Vec ℝ n) (a : ℝ) : x.up.cwiseMax (Fbstab.up a) = (x.cwiseMax a).up := by
  ext i; simp only [Vec.cwiseMax, up_get, up_cmax, get_ofFn]
theorem up_lpNormInf (x : Vec ℝ n) : x.up.lpNormInf = Fbstab.up x.lpNormInf := by
  unfold Vec.lpNormInf
  rw [up_zero]
  exact forFin_up Fbstab.up (fun i s => cmax s (cabs (x i))) (fun i s => cmax s (cabs (x.up i)))
    (fun i s => by simp only [up_get, up_cabs, up_cmax]) 0
theorem up_maxCoeff : {n : Nat} → (x : Vec ℝ n) → x.up.maxCoeff = Fbstab.up x.maxCoeff
  | 0, _ => rfl
  | n + 1, x => by
    show Fin.foldl n (fun acc i => cmax acc (x.up i.succ)) (x.up 0) = Fbstab.up
      (Fin.foldl n (fun acc i => cmax acc (x i.succ)) (x 0))
    rw [up_get]
    exact forFin_up Fbstab.up (fun i s => cmax s (x i.succ)) (fun i s => cmax s (x.up i.succ))
      (fun i s => by simp only [up_get, up_cmax]) _
theorem up_append {m k : Nat} (x : Vec ℝ m) (y : Vec ℝ k) : Vec.append x.up y.up = (Vec.append x y).up := by
  ext i
  simp only [Vec.append, get_ofFn, up_get]
  refine Fin.addCases (fun i => ?_) (fun i => ?_) i <;> simp
theorem up_head {m k : Nat} (x : Vec ℝ (m + k)) : x.up.head = x.head.up := by
  ext i; simp [Vec.head, up_get]
theorem up_tail {m k : Nat} (x : Vec ℝ (m + k)) : x.up.tail = x.tail.up := by
  ext i; simp [Vec.tail, up_get]

end Vec

noncomputable def Mat.up {r c : Nat} (m : Mat ℝ r c) : Mat XReal r c :=
  Mat.ofFn fun i j => Fbstab.up (m i j)

namespace Mat
variable {r c k n : Nat}

theorem up_get (x : Mat ℝ r c) (i : Fin r) (j : Fin c) : x.up i j = Fbstab.up (x i j) := by
  simp [Mat.up]
theorem ofFn_up (f : Fin r → Fin c → ℝ) :
    Mat.ofFn (fun i j => Fbstab.up (f i j)) = (Mat.ofFn f).up := by
  ext i j; simp [up_get]
theorem up_row (x : Mat ℝ r c) (i : Fin r) : x.up.row i = (x.row i).up := by
  ext j; simp [up_get, Vec.up_get]
theorem up_col (x : Mat ℝ r c) (j : Fin c) : x.up.col j = (x.col j).up := by
  ext i; simp [up_get, Vec.up_get]
theorem ofRows_up (f : Fin r → Vec ℝ c) :
    Mat.ofRows (Vec.ofFn fun i => (f i).up) = (Mat.ofRows (Vec.ofFn f)).up := by
  ext i j
  rw [up_get]
  simp only [Mat.get, Vec.get_ofFn, Vec.up_get]
theorem up_add (x y : Mat ℝ r c) : x.up + y.up = (x + y).up := by
  ext i j; simp [up_get, Fbstab.up_add]
theorem up_sub (x y : Mat ℝ r c) : x.up - y.up = (x - y).up := by
  ext i j; simp [up_get, Fbstab.up_sub]
theorem up_smul (a : ℝ) (x : Mat ℝ r c) : Fbstab.up a * x.up = (a * x).up := by
  ext i j; simp [up_get, Fbstab.up_mul]
theorem up_mulVec (m : Mat ℝ r c) (x : Vec ℝ c) : m.up * x.up = (m * x).up := by
  ext i
  rw [Vec.up_get]
  simp only [get_mulVec, up_get, Vec.up_get, dotFin_up]
theorem up_mul (m : Mat ℝ r c) (m' : Mat ℝ c k) : m.up * m'.up = (m * m').up := by
  ext i j
  rw [up_get]
  simp only [get_mul, up_get, dotFin_up]
theorem up_transpose (m : Mat ℝ r c) : m.up.transpose = m.transpose.up := by
  ext i j; simp [up_get]
theorem up_identity : (Mat.identity : Mat XReal n n) = (Mat.identity : Mat ℝ n n).up := by
  ext i j
  simp only [up_get, get_identity, up_zero, up_one, up_ite]
theorem up_diagMul (d : Vec ℝ r) (m : Mat ℝ r c) : Mat.diagMul d.up m.up = (Mat.diagMul d m).up := by
  ext i j; simp [up_get, Vec.up_get, Fbstab.up_mul]
theorem up_assignLower (x y : Mat ℝ n n) : Mat.assignLower x.up y.up = (Mat.assignLower x y).up := by
  ext i j; simp only [up_get, get_assignLower, up_ite]

end Mat

section tri
variable {n m : Nat}

theorem up_lowerSolve {L : Mat ℝ n n} (h : ∀ i, L i i ≠ 0) (x : Vec ℝ n) :
    lowerSolve L.up x.up = (lowerSolve L x).up :=
  forFin_up Vec.up _ _ (fun i s => by
    simp only [Mat.up_get, Vec.up_get, dotIf_up, up_mul, up_zero, up_ite, up_sub, up_div _ (h i),
      Vec.up_set]) x

theorem up_lowerTSolve {L : Mat ℝ n n} (h : ∀ i, L i i ≠ 0) (x : Vec ℝ n) :
    lowerTSolve L.up x.up = (lowerTSolve L x).up :=
  forFinRev_up Vec.up _ _ (fun i s => by
    simp only [Mat.up_get, Vec.up_get, dotIf_up, up_mul, up_zero, up_ite, up_sub, up_div _ (h i),
      Vec.up_set]) x

theorem up_lowerSolveMat {L : Mat ℝ n n} (h : ∀ i, L i i ≠ 0) (X : Mat ℝ n m) :
    lowerSolveMat L.up X.up = (lowerSolveMat L X).up := by
  simp only [lowerSolveMat, Mat.up_col, up_lowerSolve h, Mat.ofRows_up, Mat.up_transpose]

theorem up_lowerTSolveMat {L : Mat ℝ n n} (h : ∀ i, L i i ≠ 0) (X : Mat ℝ n m) :
    lowerTSolveMat L.up X.up = (lowerTSolveMat L X).up := by
  simp only [lowerTSolveMat, Mat.up_col, up_lowerTSolve h, Mat.ofRows_up, Mat.up_transpose]

theorem up_solveOnTheRightT {L : Mat ℝ n n} (h : ∀ i, L i i ≠ 0) (X : Mat ℝ m n) :
    solveOnTheRightT L.up X.up = (solveOnTheRightT L X).up := by
  simp only [solveOnTheRightT, Mat.up_row, up_lowerSolve h, Mat.ofRows_up]

/-- The result of a factorisation. -/
noncomputable def upPair (s : Bool × Mat ℝ n n) : Bool × Mat XReal n n := (s.1, s.2.up)

theorem up_llt (A : Mat ℝ n n) : llt A.up = upPair (llt A) :=
  forFin_up upPair lltStep lltStep (fun k s => by
    obtain ⟨b, A⟩ := s
    cases b with
    | false => rfl
    | true =>
      simp only [lltStep, upPair, if_true, Mat.up_get, dotIf_up, up_mul, up_zero, up_ite, up_sub, up_le]
      by_cases hx : A k k - dotIf n (fun j => j < k) (fun j => A k j) (fun j => A k j) ≤ 0
      · rw [if_pos hx, if_pos hx]
      · rw [if_neg hx, if_neg hx]
        have hp := not_le.mp hx
        simp only [up_sqrt hp.le, up_div _ (Real.sqrt_ne_zero'.mpr hp), up_ite, Mat.ofFn_up]
        rfl) (true, A)

/-- A successful factorisation has a positive diagonal. -/
theorem llt_diag (A : Mat ℝ n n) (h : (llt A).1 = true) (i : Fin n) : (llt A).2 i i ≠ 0 := by
  have := (forFin_up_inv (n := n) (fun s : Bool × Mat ℝ n n => s) lltStep lltStep
    (fun k s => s.1 = true → ∀ i : Fin n, i.1 < k → s.2 i i ≠ 0) (fun k s hs => ⟨rfl, ?_⟩) (true, A)
    (fun _ i hi => absurd hi (Nat.not_lt_zero _))).2 h i i.2
  · exact this
  · obtain ⟨b, A⟩ := s
    cases b with
    | false => intro h; simp [lltStep] at h
    | true =>
      simp only [lltStep, if_true]
      split
      · intro h; simp at h
      · rename_i hx
        intro _ i hi
        simp only [Mat.get_ofFn]
        by_cases hik : i = k
        · subst hik
          simp only [if_true]
          exact Real.sqrt_ne_zero'.mpr (not_le.mp hx)
        · simp only [if_neg hik]
          exact hs rfl i (by
            have : i.1 ≠ k.1 := fun e => hik (Fin.ext e)
            omega)

theorem up_ldltPerm (A : Mat ℝ n n) : ldltPerm A.up = ldltPerm A := by
  simp only [ldltPerm, Mat.up_get, up_cabs, up_lt]

theorem up_permuteLower (p : Vec (Fin n) n) (A : Mat ℝ n n) :
    permuteLower p A.up = (permuteLower p A).up := by
  simp only [permuteLower, Mat.up_get, up_ite, Mat.ofFn_up]

noncomputable def LdltState.up (s : LdltState ℝ n) : LdltState XReal n := ⟨s.ret, s.zeroPivot, s.mat.up⟩
noncomputable def Ldlt.up (s : Ldlt ℝ n) : Ldlt XReal n := ⟨s.perm, s.mat.up, s.success⟩

theorem up_ldltStep (k : Fin n) (s : LdltState ℝ n) : ldltStep k s.up = (ldltStep k s).up := by
  simp only [ldltStep, LdltState.up, Mat.up_get, dotIf_up, up_mul, up_zero, up_ite, up_sub, up_cabs,
    up_decide_lt, Vec.get_ofFn, up_beq, LdltState.mk.injEq, true_and]
  set d := s.mat k k - dotIf n (fun j => j < k) (fun j => s.mat k j) (fun j => s.mat j j * s.mat k j)
  by_cases hd : 0 < cabs d
  · have hd' : d ≠ 0 := fun e => by rw [e] at hd; simp [cabs] at hd
    simp only [hd, decide_true, if_true, up_div _ hd', up_ite, Mat.ofFn_up]
  · simp only [hd, decide_false, Bool.false_eq_true, if_false, up_ite, Mat.ofFn_up]

theorem up_ldltCompute (A : Mat ℝ n n) : ldltCompute A.up = (ldltCompute A).up := by
  simp only [ldltCompute, up_ldltPerm, up_permuteLower]
  have := forFin_up LdltState.up ldltStep ldltStep up_ldltStep
    ⟨true, false, permuteLower (ldltPerm A) A⟩
  rw [show (⟨true, false, (permuteLower (ldltPerm A) A).up⟩ : LdltState XReal n) =
    LdltState.up ⟨true, false, permuteLower (ldltPerm A) A⟩ from rfl, this]
  rfl

theorem up_unitLowerSolve (L : Mat ℝ n n) (x : Vec ℝ n) :
    unitLowerSolve L.up x.up = (unitLowerSolve L x).up :=
  forFin_up Vec.up _ _ (fun i s => by
    simp only [Mat.up_get, Vec.up_get, dotIf_up, up_mul, up_zero, up_ite, up_sub, Vec.up_set]) x

theorem up_unitLowerTSolve (L : Mat ℝ n n) (x : Vec ℝ n) :
    unitLowerTSolve L.up x.up = (unitLowerTSolve L x).up :=
  forFinRev_up Vec.up _ _ (fun i s => by
    simp only [Mat.up_get, Vec.up_get, dotIf_up, up_mul, up_zero, up_ite, up_sub, Vec.up_set]) x

theorem up_ldltSolve (f : Ldlt ℝ n) (r : Vec ℝ n) : f.up.solve r.up = (f.solve r).up := by
  unfold Ldlt.solve
  have e : ∀ x : Vec ℝ n, (Vec.ofFn fun i =>
      if (2.2250738585072014e-308 : XReal) < cabs (f.up.mat i i) then x.up i / f.up.mat i i else 0) =
      Vec.up (Vec.ofFn fun i =>
        if (2.2250738585072014e-308 : ℝ) < cabs (f.mat i i) then x i / f.mat i i else 0) := by
    intro x
    ext i
    simp only [Vec.get_ofFn, Vec.up_get, Ldlt.up, Mat.up_get, up_cabs, up_ofScientific, up_lt]
    split
    · rename_i h
      refine up_div _ fun e => ?_
      rw [e] at h
      have h0 : (0 : ℝ) < 2.2250738585072014e-308 := by
        set_option exponentiation.threshold 400 in norm_num
      simp only [cabs, lt_irrefl, if_false] at h
      exact absurd h (not_lt.mpr h0.le)
    · rfl
  have e0 : (Vec.ofFn fun i => r.up (f.up.perm i)) = (Vec.ofFn fun i => r (f.perm i)).up := by
    simp only [Vec.up_get, Vec.ofFn_up]; rfl
  have em : f.up.mat = f.mat.up := rfl
  simp only [e0]
  simp only [em] at e ⊢
  rw [up_unitLowerSolve, e, up_unitLowerTSolve]
  exact forFin_up Vec.up _ _ (fun i s => by simp only [Vec.up_get, Vec.up_set]; rfl) r

end tri

end Fbstab
