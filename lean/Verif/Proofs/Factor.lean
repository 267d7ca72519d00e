import Verif.Proofs.Triangular

/-!
# The factorisations over the reals

`llt` factors every positive definite matrix; `ldltCompute` factors every quasi-definite matrix and
`Ldlt.solve` then solves the system.
-/

namespace Fbstab
open Matrix
variable {n m : Nat}

/-- The symmetric matrix a factorisation reads from the lower triangle. -/
def symOf (A : Mat ℝ n n) : Matrix (Fin n) (Fin n) ℝ := of fun i j => if j ≤ i then A i j else A j i

theorem symOf_le (A : Mat ℝ n n) {i j : Fin n} (h : j ≤ i) : symOf A i j = A i j := by
  simp [symOf, h]

theorem symOf_comm (A : Mat ℝ n n) (i j : Fin n) : symOf A i j = symOf A j i := by
  rcases lt_trichotomy i j with h | h | h
  · simp [symOf, h.not_ge, h.le]
  · rw [h]
  · simp [symOf, h.not_ge, h.le]

theorem symOf_eq {A : Mat ℝ n n} {M : Matrix (Fin n) (Fin n) ℝ} (hM : M.IsSymm)
    (h : ∀ i j, j ≤ i → A i j = M i j) : symOf A = M := by
  ext i j
  by_cases hij : j ≤ i
  · rw [symOf_le A hij, h i j hij]
  · rw [symOf_comm, symOf_le A (not_le.1 hij).le, h j i (not_le.1 hij).le]
    exact hM.apply i j

theorem lower_products (M : Matrix (Fin n) (Fin n) ℝ) (hM : ∀ i j, M i j = M j i)
    (N : Fin n → Fin n → ℝ) (d : Fin n → ℝ) (k : Fin n) (hN0 : ∀ i l, i < l → N i l = 0)
    (h : ∀ i j, j < k → j ≤ i → M i j = ∑ l, if l ≤ j then N i l * d l * N j l else 0) (i j : Fin n)
    (hij : i < k ∨ j < k) :
    M i j = ∑ l, if l < k then N i l * d l * N j l else 0 := by
  wlog hle : j ≤ i generalizing i j with H
  · rw [hM, H j i hij.symm (not_le.1 hle).le]
    exact Finset.sum_congr rfl fun l _ => by split <;> ring
  · have hj : j < k := by
      rcases hij with h | h
      · exact lt_of_le_of_lt hle h
      · exact h
    rw [h i j hj hle]
    refine Finset.sum_congr rfl fun l _ => ?_
    by_cases hl : l ≤ j
    · rw [if_pos hl, if_pos (lt_of_le_of_lt hl hj)]
    · rw [if_neg hl, hN0 j l (not_le.1 hl), mul_zero, ite_self]

/-- `llt` succeeds on a positive definite matrix and returns its Cholesky factor. -/
theorem llt_spec (A : Mat ℝ n n) (hpos : ∀ w, w ≠ 0 → 0 < w ⬝ᵥ symOf A *ᵥ w) :
    (llt A).1 = true ∧ (∀ i, 0 < (llt A).2 i i) ∧ tri (llt A).2 * (tri (llt A).2)ᵀ = symOf A := by
  have key := forFin_induct (n := n) (P := fun k (s : Bool × Mat ℝ n n) => s.1 = true ∧
      (∀ j : Fin n, j.1 < k → 0 < s.2 j j) ∧
      (∀ j : Fin n, j.1 < k → ∀ i, j ≤ i →
        (∑ l, if l < j then s.2 i l * s.2 j l else 0) + s.2 i j * s.2 j j = A i j) ∧
      (∀ i j : Fin n, k ≤ j.1 → j ≤ i → s.2 i j = A i j))
    (f := lltStep) (s := (true, A)) ⟨rfl, by simp, by simp, fun _ _ _ _ => rfl⟩ (by
      rintro k ⟨b, L⟩ ⟨hb, hd, hf, hu⟩
      dsimp only at hb hd hf hu
      subst hb
      obtain ⟨w, hwk, hwgt, hwlt, hpiv⟩ := exists_pivot_vector (symOf A)
        (fun i l => if l ≤ i then L i l else 0) (fun _ => 1) k
        (by intro l hl; simpa using (hd l hl).ne')
        (by intro i l _ hil; simp [hil.not_ge])
        (by
          intro i j _ _ hij
          refine lower_products (symOf A) (symOf_comm A) (fun i l => if l ≤ i then L i l else 0)
            (fun _ => 1) k ?_ ?_ i j hij
          · intro i l hil; simp [hil.not_ge]
          · intro i j hjk hji
            rw [symOf_le A hji, ← hf j hjk i hji, ← sum_le_split j (fun l => L i l * L j l)]
            refine Finset.sum_congr rfl fun l _ => ?_
            by_cases hl : l ≤ j
            · simp [hl, hl.trans hji]
            · simp [hl])
      have hx : 0 < L k k - ∑ j, if j < k then L k j * L k j else 0 := by
        have hw : w ≠ 0 := fun h => by rw [h] at hwk; exact zero_ne_one hwk
        have h0 := hpos w hw
        have h1 : w ⬝ᵥ symOf A *ᵥ w = (symOf A *ᵥ w) k := by
          rw [dotProduct, Finset.sum_eq_single k]
          · rw [hwk, one_mul]
          · intro i _ hi
            rcases lt_or_gt_of_ne hi with h | h
            · rw [hwlt i h, mul_zero]
            · rw [hwgt i h, zero_mul]
          · simp
        rw [h1, hpiv, symOf_le A le_rfl, ← hu k k le_rfl le_rfl] at h0
        refine lt_of_lt_of_eq h0 ?_
        congr 1
        refine Finset.sum_congr rfl fun l _ => ?_
        by_cases hl : l < k
        · simp [hl, hl.le]
        · simp [hl]
      have hstep : lltStep k (true, L) = (true, Mat.ofFn fun i j =>
          if j = k then
            if i = k then √(L k k - ∑ j, if j < k then L k j * L k j else 0)
            else if k < i then
              (L i k - ∑ l, if l < k then L i l * L k l else 0) /
                √(L k k - ∑ j, if j < k then L k j * L k j else 0)
            else L i j
          else L i j) := by
        simp only [lltStep, dotIf_real, sumFin_eq_sum, scalar_sqrt, if_true]
        rw [if_neg (not_le.2 hx)]
      rw [hstep]
      have hs := Real.sqrt_pos.2 hx
      have hss := Real.mul_self_sqrt hx.le
      generalize hsd : √(L k k - ∑ j, if j < k then L k j * L k j else 0) = s at *
      have hlt : ∀ j, j < k → ∀ i, (∑ l, if l < j then
            (Mat.ofFn fun i j => if j = k then if i = k then s else if k < i then
              (L i k - ∑ l, if l < k then L i l * L k l else 0) / s else L i j else L i j) i l *
            (Mat.ofFn fun i j => if j = k then if i = k then s else if k < i then
              (L i k - ∑ l, if l < k then L i l * L k l else 0) / s else L i j else L i j) j l else 0) =
            ∑ l, if l < j then L i l * L j l else 0 := by
        intro j hj i
        refine Finset.sum_congr rfl fun l _ => ?_
        by_cases hl : l < j
        · simp [hl, (hl.trans hj).ne]
        · simp [hl]
      refine ⟨rfl, ?_, ?_, ?_⟩
      · intro j hj
        by_cases h : j = k
        · subst h; simpa using hs
        · have : j.1 < k.1 := by
            have : j.1 ≠ k.1 := fun e => h (Fin.ext e)
            omega
          simpa [h] using hd j this
      · intro j hj i hji
        by_cases h : j = k
        · subst h
          have hsum : (∑ l, if l < j then
              (Mat.ofFn fun i j' => if j' = j then if i = j then s else if j < i then
                (L i j - ∑ l, if l < j then L i l * L j l else 0) / s else L i j' else L i j') i l *
              (Mat.ofFn fun i j' => if j' = j then if i = j then s else if j < i then
                (L i j - ∑ l, if l < j then L i l * L j l else 0) / s else L i j' else L i j') j l else 0) =
              ∑ l, if l < j then L i l * L j l else 0 := by
            refine Finset.sum_congr rfl fun l _ => ?_
            by_cases hl : l < j
            · simp [hl, hl.ne]
            · simp [hl]
          rw [hsum, ← hu i j le_rfl hji]
          by_cases hi : i = j
          · subst hi
            simp only [Mat.get_ofFn, if_true]
            rw [hss]
            ring
          · have : j < i := lt_of_le_of_ne hji (Ne.symm hi)
            simp only [Mat.get_ofFn, if_true, if_neg hi, if_pos this]
            rw [div_mul_cancel₀ _ hs.ne']
            ring
        · have hjk : j < k := by
            have : j.1 ≠ k.1 := fun e => h (Fin.ext e)
            exact Fin.lt_def.2 (by omega)
          rw [hlt j hjk i]
          simpa [h] using hf j hjk i hji
      · intro i j hkj hji
        have h : j ≠ k := fun e => by subst e; omega
        simpa [h] using hu i j (by omega) hji)
  obtain ⟨h1, h2, h3, _⟩ := key
  refine ⟨h1, fun i => h2 i i.2, ?_⟩
  have hlow : ∀ i j, j ≤ i → (tri (llt A).2 * (tri (llt A).2)ᵀ) i j = symOf A i j := by
    intro i j hji
    rw [symOf_le A hji, ← h3 j j.2 i hji, mul_apply]
    show _ = (∑ l, if l < j then (llt A).2 i l * (llt A).2 j l else 0) + (llt A).2 i j * (llt A).2 j j
    rw [← sum_le_split j (fun l => (llt A).2 i l * (llt A).2 j l)]
    refine Finset.sum_congr rfl fun l _ => ?_
    by_cases hl : l ≤ j
    · simp [tri, hl, hl.trans hji]
    · simp [tri, hl]
  ext i j
  by_cases h : j ≤ i
  · exact hlow i j h
  · rw [symOf_comm, ← hlow j i (not_le.1 h).le, mul_apply, mul_apply]
    exact Finset.sum_congr rfl fun l _ => by simp [mul_comm]

/-- A symmetric matrix that becomes positive definite, with modulus `sigma`, when some of its rows
change sign. -/
def QuasiDefinite (sigma : ℝ) (s : Fin n → ℝ) (M : Matrix (Fin n) (Fin n) ℝ) : Prop :=
  (∀ i, |s i| = 1) ∧ ∀ w : Fin n → ℝ, sigma * (w ⬝ᵥ w) ≤ ∑ i, s i * (w i * (M *ᵥ w) i)

theorem ldltLoop_spec {sigma : ℝ} (hsig : 0 < sigma) {sg : Fin n → ℝ} (A : Mat ℝ n n)
    (hq : QuasiDefinite sigma sg (symOf A)) :
    (forFin n ldltStep ⟨true, false, A⟩).ret = true ∧
    (∀ i, sigma ≤ |(forFin n ldltStep ⟨true, false, A⟩).mat i i|) ∧
    utri (forFin n ldltStep ⟨true, false, A⟩).mat *
      diagonal (fun i => (forFin n ldltStep ⟨true, false, A⟩).mat i i) *
      (utri (forFin n ldltStep ⟨true, false, A⟩).mat)ᵀ = symOf A := by
  have key := forFin_induct (n := n) (P := fun k (s : LdltState ℝ n) => s.ret = true ∧
      s.zeroPivot = false ∧
      (∀ j : Fin n, j.1 < k → sigma ≤ |s.mat j j|) ∧
      (∀ j : Fin n, j.1 < k → ∀ i, j < i →
        (∑ l, if l < j then s.mat i l * (s.mat l l * s.mat j l) else 0) + s.mat i j * s.mat j j
          = A i j) ∧
      (∀ j : Fin n, j.1 < k →
        (∑ l, if l < j then s.mat j l * (s.mat l l * s.mat j l) else 0) + s.mat j j = A j j) ∧
      (∀ i j : Fin n, k ≤ j.1 → j ≤ i → s.mat i j = A i j))
    (f := ldltStep) (s := ⟨true, false, A⟩)
    ⟨rfl, rfl, by simp, by simp, by simp, fun _ _ _ _ => rfl⟩ (by
      rintro k ⟨b, z, L⟩ ⟨hb, hz, hd, hf, hg, hu⟩
      dsimp only at hb hz hd hf hg hu
      subst hb hz
      have hd0 : ∀ j : Fin n, j.1 < k.1 → L j j ≠ 0 := fun j hj h => by
        have := hd j hj
        rw [h, abs_zero] at this
        exact absurd hsig (not_lt.2 this)
      obtain ⟨w, hwk, hwgt, hwlt, hpiv⟩ := exists_pivot_vector (symOf A)
        (fun i l => if l < i then L i l else if l = i then 1 else 0) (fun l => L l l) k
        (by intro l hl; simp)
        (by intro i l _ hil; simp [hil.not_gt, hil.ne'])
        (by
          intro i j _ _ hij
          refine lower_products (symOf A) (symOf_comm A)
            (fun i l => if l < i then L i l else if l = i then 1 else 0) (fun l => L l l) k ?_ ?_ i j hij
          · intro i l hil; simp [hil.not_gt, hil.ne']
          · intro i j hjk hji
            rw [symOf_le A hji, sum_le_split j (fun l => (if l < i then L i l else if l = i then 1 else 0)
              * L l l * (if l < j then L j l else if l = j then 1 else 0))]
            have hsum : ∀ l, (if l < j then (if l < i then L i l else if l = i then 1 else 0)
                * L l l * (if l < j then L j l else if l = j then 1 else 0) else 0) =
                if l < j then L i l * (L l l * L j l) else 0 := by
              intro l
              by_cases hl : l < j
              · simp [hl, lt_of_lt_of_le hl hji, mul_assoc]
              · simp [hl]
            rw [Finset.sum_congr rfl fun l _ => hsum l]
            by_cases h : i = j
            · subst h
              rw [← hg i hjk]; simp
            · have hji' : j < i := lt_of_le_of_ne hji (Ne.symm h)
              rw [← hf j hjk i hji']; simp [hji'])
      have hx : sigma ≤ |L k k - ∑ j, if j < k then L k j * (L j j * L k j) else 0| := by
        have h0 := hq.2 w
        have h1 : ∑ i, sg i * (w i * (symOf A *ᵥ w) i) = sg k * (symOf A *ᵥ w) k := by
          rw [Finset.sum_eq_single k]
          · rw [hwk, one_mul]
          · intro i _ hi
            rcases lt_or_gt_of_ne hi with h | h
            · rw [hwlt i h, mul_zero, mul_zero]
            · rw [hwgt i h, zero_mul, mul_zero]
          · simp
        have h2 : 1 ≤ w ⬝ᵥ w := by
          rw [dotProduct]
          calc (1 : ℝ) = w k * w k := by rw [hwk, one_mul]
            _ ≤ ∑ i, w i * w i := Finset.single_le_sum (f := fun i => w i * w i)
                (fun i _ => mul_self_nonneg _) (Finset.mem_univ k)
        have h3 : (symOf A *ᵥ w) k = L k k - ∑ j, if j < k then L k j * (L j j * L k j) else 0 := by
          rw [hpiv, symOf_le A le_rfl, ← hu k k le_rfl le_rfl]
          congr 1
          refine Finset.sum_congr rfl fun l _ => ?_
          by_cases hl : l < k
          · simp [hl, mul_assoc]
          · simp [hl]
        rw [← h3]
        calc sigma ≤ sigma * (w ⬝ᵥ w) := le_mul_of_one_le_right hsig.le h2
          _ ≤ sg k * (symOf A *ᵥ w) k := h0.trans_eq h1
          _ ≤ |sg k * (symOf A *ᵥ w) k| := le_abs_self _
          _ = |(symOf A *ᵥ w) k| := by rw [abs_mul, hq.1, one_mul]
      have hstep : ldltStep k ⟨true, false, L⟩ = ⟨true, false, Mat.ofFn fun i j =>
          if j = k then
            if i = k then (L k k - ∑ j, if j < k then L k j * (L j j * L k j) else 0)
            else if k < i then
              (L i k - ∑ j, if j < k then L i j * (L j j * L k j) else 0) /
                (L k k - ∑ j, if j < k then L k j * (L j j * L k j) else 0)
            else L i j
          else L i j⟩ := by
        have hv : 0 < |L k k - ∑ j, if j < k then L k j * (L j j * L k j) else 0| :=
          lt_of_lt_of_le hsig hx
        simp only [ldltStep, dotIf_real, sumFin_eq_sum, cabs_eq_abs, hv, decide_true, Bool.true_or,
          Bool.and_true, Bool.true_and, Bool.not_true, Bool.or_false, Vec.get_ofFn, if_true]
        rfl
      rw [hstep]
      have hne : (L k k - ∑ j, if j < k then L k j * (L j j * L k j) else 0) ≠ 0 := fun h => by
        rw [h, abs_zero] at hx
        exact absurd hsig (not_lt.2 hx)
      generalize hsd : (L k k - ∑ j, if j < k then L k j * (L j j * L k j) else 0) = s at *
      set L' : Mat ℝ n n := Mat.ofFn fun i j => if j = k then if i = k then s else if k < i then
              (L i k - ∑ j, if j < k then L i j * (L j j * L k j) else 0) / s else L i j else L i j
        with hL'
      have hcol : ∀ i j, j ≠ k → L' i j = L i j := fun i j h => by simp [hL', h]
      have hkk : L' k k = s := by simp [hL']
      have hik : ∀ i, k < i → L' i k = (L i k - ∑ j, if j < k then L i j * (L j j * L k j) else 0) / s :=
        fun i h => by simp [hL', h, h.ne']
      have hlt : ∀ j, j ≤ k → ∀ i, (∑ l, if l < j then L' i l * (L' l l * L' j l) else 0) =
            ∑ l, if l < j then L i l * (L l l * L j l) else 0 := by
        intro j hj i
        refine Finset.sum_congr rfl fun l _ => ?_
        by_cases hl : l < j
        · have := (lt_of_lt_of_le hl hj).ne
          rw [hcol i l this, hcol l l this, hcol j l this]
        · simp [hl]
      have hcase : ∀ j : Fin n, j.1 < k.1 + 1 → j = k ∨ (j ≠ k ∧ j < k) := fun j hj => by
        by_cases h : j = k
        · exact .inl h
        · have : j.1 ≠ k.1 := fun e => h (Fin.ext e)
          exact .inr ⟨h, Fin.lt_def.2 (by omega)⟩
      refine ⟨rfl, rfl, ?_, ?_, ?_, ?_⟩
      · intro j hj
        dsimp only
        rcases hcase j hj with h | ⟨h, h'⟩
        · rw [h, hkk]; exact hx
        · rw [hcol j j h]; exact hd j h'
      · intro j hj i hji
        dsimp only
        rcases hcase j hj with h | ⟨h, h'⟩
        · subst h
          rw [hlt j le_rfl, hkk, hik i hji, ← hu i j le_rfl hji.le, div_mul_cancel₀ _ hne]
          ring
        · rw [hlt j h'.le, hcol i j h, hcol j j h]
          exact hf j h' i hji
      · intro j hj
        dsimp only
        rcases hcase j hj with h | ⟨h, h'⟩
        · subst h
          rw [hlt j le_rfl, hkk, ← hu j j le_rfl le_rfl, ← hsd]
          ring
        · rw [hlt j h'.le, hcol j j h]
          exact hg j h'
      · intro i j hkj hji
        dsimp only
        have h : j ≠ k := fun e => by subst e; omega
        rw [hcol i j h]
        exact hu i j (by omega) hji)
  obtain ⟨h1, _, h2, h3, h4, _⟩ := key
  refine ⟨h1, fun i => h2 i i.2, ?_⟩
  generalize (forFin n ldltStep ⟨true, false, A⟩).mat = L at *
  have hent : ∀ i j, (utri L * diagonal (fun i => L i i) * (utri L)ᵀ) i j =
      ∑ l, (if l < i then L i l else if l = i then 1 else 0) * L l l *
        (if l < j then L j l else if l = j then 1 else 0) := by
    intro i j
    rw [mul_apply]
    refine Finset.sum_congr rfl fun l _ => ?_
    rw [mul_diagonal]
    simp [utri]
  have hlow : ∀ i j, j ≤ i → (utri L * diagonal (fun i => L i i) * (utri L)ᵀ) i j = symOf A i j := by
    intro i j hji
    rw [symOf_le A hji, hent]
    have hsum : ∀ l, (if l < i then L i l else if l = i then 1 else 0) * L l l *
        (if l < j then L j l else if l = j then 1 else 0) =
        (if l < j then L i l * (L l l * L j l) else 0) +
          if l = j then (if j < i then L i j * L j j else L j j) else 0 := by
      intro l
      rcases lt_trichotomy l j with h | h | h
      · simp [h, h.ne, lt_of_lt_of_le h hji, mul_assoc]
      · subst h
        rcases hji.lt_or_eq with h | h
        · simp [h]
        · simp [h]
      · simp [h.not_gt, h.ne']
    rw [Finset.sum_congr rfl fun l _ => hsum l, Finset.sum_add_distrib,
      Finset.sum_ite_eq' Finset.univ j, if_pos (Finset.mem_univ j)]
    rcases hji.lt_or_eq with h | h
    · rw [if_pos h]; exact h3 j j.2 i h
    · subst h
      rw [if_neg (lt_irrefl _)]; exact h4 j j.2
  ext i j
  by_cases h : j ≤ i
  · exact hlow i j h
  · rw [symOf_comm, ← hlow j i (not_le.1 h).le, hent, hent]
    exact Finset.sum_congr rfl fun l _ => by ring

/-- The pivoting produces a permutation. -/
theorem ldltPerm_injective {K : Type} [Scalar K] (A : Mat K n n) :
    Function.Injective fun i => ldltPerm A i := by
  unfold ldltPerm
  refine forFin_induct (P := fun _ (p : Vec (Fin n) n) => Function.Injective fun i => p i)
    (fun i j h => by simpa using h) ?_
  intro k p hp
  dsimp only
  generalize forFin n _ k = b
  have : (fun i => ((p.set k (p b)).set b (p k)) i) = fun i => p (Equiv.swap k b i) := by
    funext i
    rw [Vec.get_set, Vec.get_set, Equiv.swap_apply_def]
    by_cases h1 : i = b
    · subst h1
      rw [if_pos rfl]
      split
      · simp [*]
      · simp
    · rw [if_neg h1]
      split
      · rfl
      · rfl
  rw [this]
  exact hp.comp (Equiv.swap k b).injective

theorem scatter_spec (p : Vec (Fin n) n) (hp : Function.Injective fun i => p i) (x r : Vec ℝ n)
    (i : Fin n) : (forFin n (fun i out => out.set (p i) (x i)) r) (p i) = x i := by
  have := forFin_induct (n := n)
    (P := fun k (s : Vec ℝ n) => ∀ i : Fin n, i.1 < k → s (p i) = x i)
    (f := fun i out => out.set (p i) (x i)) (s := r) (by simp) (by
      intro k s hs i hi
      rw [Vec.get_set]
      by_cases h : i = k
      · subst h; simp
      · have : p i ≠ p k := fun e => h (hp e)
        rw [if_neg this]
        exact hs i (by have : i.1 ≠ k.1 := fun e => h (Fin.ext e); omega))
  exact this i i.2

set_option exponentiation.threshold 400 in
/-- The smallest normal double is positive. -/
theorem tiny_pos : (0 : ℝ) < 2.2250738585072014e-308 := by norm_num

set_option exponentiation.threshold 400 in
theorem tiny_lt {s : ℝ} (h : 1e-10 ≤ s) : 2.2250738585072014e-308 < s :=
  lt_of_lt_of_le (by norm_num) h

theorem permute_mulVec (A : Mat ℝ n n) (y : Fin n → ℝ) (i : Fin n) :
    (symOf (permuteLower (ldltPerm A) A) *ᵥ fun j => y (ldltPerm A j)) i
      = (symOf A *ᵥ y) (ldltPerm A i) := by
  have hbij : Function.Bijective fun i => ldltPerm A i :=
    Finite.injective_iff_bijective.1 (ldltPerm_injective A)
  have hperm : ∀ i j, symOf (permuteLower (ldltPerm A) A) i j
      = symOf A (ldltPerm A i) (ldltPerm A j) := by
    intro i j
    have : ∀ i j, (permuteLower (ldltPerm A) A) i j = symOf A (ldltPerm A i) (ldltPerm A j) := by
      intro i j
      simp [permuteLower, symOf]
    by_cases h : j ≤ i
    · rw [symOf_le _ h, this]
    · rw [symOf_comm, symOf_le _ (not_le.1 h).le, this, symOf_comm]
  simp only [mulVec, dotProduct, hperm]
  exact Function.Bijective.sum_comp hbij fun j => symOf A (ldltPerm A i) j * y j

theorem permute_quasiDefinite {sigma : ℝ} {sg : Fin n → ℝ} {A : Mat ℝ n n}
    (hq : QuasiDefinite sigma sg (symOf A)) :
    QuasiDefinite sigma (fun i => sg (ldltPerm A i)) (symOf (permuteLower (ldltPerm A) A)) := by
  have hbij : Function.Bijective fun i => ldltPerm A i :=
    Finite.injective_iff_bijective.1 (ldltPerm_injective A)
  refine ⟨fun i => hq.1 _, fun w => ?_⟩
  obtain ⟨w', hw'⟩ : ∃ w' : Fin n → ℝ, w = fun j => w' (ldltPerm A j) := by
    obtain ⟨g, hg1, hg2⟩ := Function.bijective_iff_has_inverse.1 hbij
    exact ⟨fun j => w (g j), funext fun j => (congrArg w (hg1 j)).symm⟩
  subst hw'
  have := hq.2 w'
  simp only [permute_mulVec]
  rw [Function.Bijective.sum_comp hbij fun i => sg i * (w' i * (symOf A *ᵥ w') i)]
  have e : (fun j => w' (ldltPerm A j)) ⬝ᵥ (fun j => w' (ldltPerm A j)) = w' ⬝ᵥ w' :=
    Function.Bijective.sum_comp hbij fun j => w' j * w' j
  rw [e]
  exact this

/-- The pivots of a quasi-definite matrix are bounded away from zero. -/
theorem ldlt_pivots {sigma : ℝ} (h0 : 0 < sigma) {sg : Fin n → ℝ} (A : Mat ℝ n n)
    (hq : QuasiDefinite sigma sg (symOf A)) (i : Fin n) : sigma ≤ |(ldltCompute A).mat i i| :=
  (ldltLoop_spec h0 _ (permute_quasiDefinite hq)).2.1 i

/-- `LDLT` succeeds on a quasi-definite matrix and `solve` returns the solution of the system. -/
theorem ldlt_spec {sigma : ℝ} (hsig : 2.2250738585072014e-308 < sigma) {sg : Fin n → ℝ}
    (A : Mat ℝ n n) (hq : QuasiDefinite sigma sg (symOf A)) :
    (ldltCompute A).success = true ∧
      ∀ r : Vec ℝ n, symOf A *ᵥ ((ldltCompute A).solve r).fn = r.fn := by
  have h0 : 0 < sigma := tiny_pos.trans hsig
  have hinj := ldltPerm_injective A
  have hbij : Function.Bijective fun i => ldltPerm A i := Finite.injective_iff_bijective.1 hinj
  have hmv := permute_mulVec A
  have hq' := permute_quasiDefinite hq
  obtain ⟨h1, h2, h3⟩ := ldltLoop_spec h0 _ hq'
  refine ⟨h1, fun r => ?_⟩
  funext i
  obtain ⟨i, rfl⟩ := hbij.2 i
  dsimp only
  rw [← hmv]
  unfold ldltCompute Ldlt.solve
  dsimp only
  simp only [Vec.fn_apply, scatter_spec _ hinj]
  have hd : ∀ i, (2.2250738585072014e-308 : ℝ) <
      cabs ((forFin n ldltStep ⟨true, false, permuteLower (ldltPerm A) A⟩).mat i i) := fun i => by
    rw [cabs_eq_abs]; exact lt_of_lt_of_le hsig (h2 i)
  simp only [if_pos (hd _)]
  clear hd
  generalize hL : (forFin n ldltStep ⟨true, false, permuteLower (ldltPerm A) A⟩).mat = L at *
  have hd0 : ∀ i, L i i ≠ 0 := fun i h => by
    have := h2 i
    rw [h, abs_zero] at this
    exact absurd h0 (not_lt.2 this)
  rw [← h3, ← mulVec_mulVec, ← mulVec_mulVec]
  have e1 := unitLowerTSolve_spec L (Vec.ofFn fun i => (unitLowerSolve L (Vec.ofFn fun i =>
    r (ldltPerm A i))) i / L i i)
  have e2 := unitLowerSolve_spec L (Vec.ofFn fun i => r (ldltPerm A i))
  unfold Vec.fn at e1 e2
  rw [e1]
  have e3 : (diagonal (fun i => L i i) *ᵥ fun i => (Vec.ofFn fun i => (unitLowerSolve L (Vec.ofFn fun i =>
    r (ldltPerm A i))) i / L i i : Vec ℝ n) i) = fun i => (unitLowerSolve L (Vec.ofFn fun i =>
    r (ldltPerm A i))) i := by
    funext i
    rw [mulVec_diagonal, Vec.get_ofFn, mul_div_cancel₀ _ (hd0 i)]
  rw [e3, e2]
  simp

end Fbstab
