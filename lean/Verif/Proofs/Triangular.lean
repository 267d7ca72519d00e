import Verif.Spec.RealScalar
import Verif.Proofs.Loops
import Mathlib.Tactic.FieldSimp
import Mathlib.LinearAlgebra.Matrix.Symmetric

/-!
# Triangular solves and factorisations over the reals
-/

namespace Fbstab
open Matrix
variable {n m : Nat}

/-- The lower triangle. -/
def tri (L : Mat ℝ n n) : Matrix (Fin n) (Fin n) ℝ := of fun i j => if j ≤ i then L i j else 0

/-- The lower triangle with ones on the diagonal. -/
def utri (L : Mat ℝ n n) : Matrix (Fin n) (Fin n) ℝ :=
  of fun i j => if j < i then L i j else if j = i then 1 else 0

theorem sum_le_split (i : Fin n) (f : Fin n → ℝ) :
    (∑ j, if j ≤ i then f j else 0) = (∑ j, if j < i then f j else 0) + f i := by
  have : ∀ j, (if j ≤ i then f j else 0) = (if j < i then f j else 0) + if j = i then f j else 0 := by
    intro j
    rcases lt_trichotomy j i with h | h | h
    · simp [h, h.le, h.ne]
    · simp [h]
    · simp [h.not_ge, h.not_gt, h.ne']
  simp only [this, Finset.sum_add_distrib, Finset.sum_ite_eq', Finset.mem_univ, if_true]

theorem sum_ge_split (i : Fin n) (f : Fin n → ℝ) :
    (∑ j, if i ≤ j then f j else 0) = (∑ j, if i < j then f j else 0) + f i := by
  have : ∀ j, (if i ≤ j then f j else 0) = (if i < j then f j else 0) + if j = i then f j else 0 := by
    intro j
    rcases lt_trichotomy j i with h | h | h
    · simp [h.not_ge, h.not_gt, h.ne]
    · simp [h]
    · simp [h, h.le, h.ne']
  simp only [this, Finset.sum_add_distrib, Finset.sum_ite_eq', Finset.mem_univ, if_true]

theorem tri_mulVec (L : Mat ℝ n n) (y : Fin n → ℝ) (i : Fin n) :
    (tri L *ᵥ y) i = (∑ j, if j < i then L i j * y j else 0) + L i i * y i := by
  rw [← sum_le_split i (fun j => L i j * y j)]
  simp [tri, mulVec, dotProduct, ite_mul]

theorem triT_mulVec (L : Mat ℝ n n) (y : Fin n → ℝ) (i : Fin n) :
    ((tri L)ᵀ *ᵥ y) i = (∑ j, if i < j then L j i * y j else 0) + L i i * y i := by
  rw [← sum_ge_split i (fun j => L j i * y j)]
  simp [tri, mulVec, dotProduct, ite_mul]

theorem utri_mulVec (L : Mat ℝ n n) (y : Fin n → ℝ) (i : Fin n) :
    (utri L *ᵥ y) i = (∑ j, if j < i then L i j * y j else 0) + y i := by
  simp only [utri, mulVec, dotProduct, of_apply]
  have : ∀ j, (if j < i then L i j else if j = i then 1 else 0) * y j =
      (if j < i then L i j * y j else 0) + if j = i then y j else 0 := by
    intro j
    rcases lt_trichotomy j i with h | h | h
    · simp [h, h.ne]
    · simp [h]
    · simp [h.not_gt, h.ne']
  simp only [this, Finset.sum_add_distrib, Finset.sum_ite_eq', Finset.mem_univ, if_true]

theorem utriT_mulVec (L : Mat ℝ n n) (y : Fin n → ℝ) (i : Fin n) :
    ((utri L)ᵀ *ᵥ y) i = (∑ j, if i < j then L j i * y j else 0) + y i := by
  simp only [utri, mulVec, dotProduct, of_apply, transpose_apply]
  have : ∀ j, (if i < j then L j i else if i = j then 1 else 0) * y j =
      (if i < j then L j i * y j else 0) + if j = i then y j else 0 := by
    intro j
    rcases lt_trichotomy j i with h | h | h
    · simp [h.not_gt, h.ne, h.ne']
    · simp [h]
    · simp [h, h.ne']
  simp only [this, Finset.sum_add_distrib, Finset.sum_ite_eq', Finset.mem_univ, if_true]

/-- A sum over `j < i` does not see an assignment to entry `k >= i`. -/
theorem sum_lt_set {f : Fin n → ℝ} (x : Vec ℝ n) {i k : Fin n} (h : i ≤ k) (a : ℝ) :
    (∑ j, if j < i then f j * (x.set k a) j else 0) = ∑ j, if j < i then f j * x j else 0 := by
  refine Finset.sum_congr rfl fun j _ => ?_
  by_cases hj : j < i
  · rw [if_pos hj, if_pos hj, Vec.get_set, if_neg (lt_of_lt_of_le hj h).ne]
  · rw [if_neg hj, if_neg hj]

theorem sum_gt_set {f : Fin n → ℝ} (x : Vec ℝ n) {i k : Fin n} (h : k ≤ i) (a : ℝ) :
    (∑ j, if i < j then f j * (x.set k a) j else 0) = ∑ j, if i < j then f j * x j else 0 := by
  refine Finset.sum_congr rfl fun j _ => ?_
  by_cases hj : i < j
  · rw [if_pos hj, if_pos hj, Vec.get_set, if_neg (lt_of_le_of_lt h hj).ne']
  · rw [if_neg hj, if_neg hj]

/-- Forward substitution solves `L y = x`. -/
theorem lowerSolve_spec (L : Mat ℝ n n) (hL : ∀ i, L i i ≠ 0) (x : Vec ℝ n) :
    tri L *ᵥ (lowerSolve L x).fn = x.fn := by
  unfold lowerSolve
  simp only [dotIf_real]
  have h := forFin_induct (n := n) (P := fun k (s : Vec ℝ n) => ∀ i : Fin n,
    if i.1 < k then (∑ j, if j < i then L i j * s j else 0) + L i i * s i = x i else s i = x i)
    (f := fun i x =>
      x.set i ((x i - sumFin n (fun j => if j < i then L i j * x j else 0)) / L i i))
    (s := x) (by simp) (by
      intro k s hs i
      simp only [sumFin_eq_sum]
      rcases lt_trichotomy i k with h | h | h
      · have := hs i
        rw [if_pos (show i.1 < k.1 from h)] at this
        rw [if_pos (show i.1 < k.1 + 1 by have : i.1 < k.1 := h; omega), sum_lt_set s h.le,
          Vec.get_set, if_neg h.ne]
        exact this
      · subst h
        have := hs i
        rw [if_neg (lt_irrefl _)] at this
        rw [if_pos (Nat.lt_succ_self _), sum_lt_set s le_rfl, Vec.get_set, if_pos rfl,
          mul_div_cancel₀ _ (hL i), ← this]
        ring
      · have := hs i
        have hk : k.1 < i.1 := h
        rw [if_neg (by omega)] at this
        rw [if_neg (by omega), Vec.get_set, if_neg h.ne']
        exact this)
  funext i
  have := h i
  rw [if_pos i.2] at this
  rw [tri_mulVec]
  exact this

/-- Backward substitution solves `L' y = x`. -/
theorem lowerTSolve_spec (L : Mat ℝ n n) (hL : ∀ i, L i i ≠ 0) (x : Vec ℝ n) :
    (tri L)ᵀ *ᵥ (lowerTSolve L x).fn = x.fn := by
  unfold lowerTSolve
  simp only [dotIf_real]
  have h := forFinRev_induct (n := n) (P := fun k (s : Vec ℝ n) => ∀ i : Fin n,
    if k ≤ i.1 then (∑ j, if i < j then L j i * s j else 0) + L i i * s i = x i else s i = x i)
    (f := fun i x =>
      x.set i ((x i - sumFin n (fun j => if i < j then L j i * x j else 0)) / L i i))
    (s := x) (by intro i; rw [if_neg (by have := i.2; omega)]) (by
      intro k s hs i
      simp only [sumFin_eq_sum]
      rcases lt_trichotomy i k with h | h | h
      · have := hs i
        have hk : i.1 < k.1 := h
        rw [if_neg (by omega)] at this
        rw [if_neg (by omega), Vec.get_set, if_neg h.ne]
        exact this
      · subst h
        have := hs i
        rw [if_neg (by omega)] at this
        rw [if_pos le_rfl, sum_gt_set s le_rfl, Vec.get_set, if_pos rfl,
          mul_div_cancel₀ _ (hL i), ← this]
        ring
      · have := hs i
        have hk : k.1 < i.1 := h
        rw [if_pos (by omega)] at this
        rw [if_pos (by omega), sum_gt_set s h.le, Vec.get_set, if_neg h.ne']
        exact this)
  funext i
  have := h i
  rw [if_pos (Nat.zero_le _)] at this
  rw [triT_mulVec]
  exact this

theorem unitLowerSolve_spec (L : Mat ℝ n n) (x : Vec ℝ n) :
    utri L *ᵥ (unitLowerSolve L x).fn = x.fn := by
  unfold unitLowerSolve
  simp only [dotIf_real]
  have h := forFin_induct (n := n) (P := fun k (s : Vec ℝ n) => ∀ i : Fin n,
    if i.1 < k then (∑ j, if j < i then L i j * s j else 0) + s i = x i else s i = x i)
    (f := fun i x =>
      x.set i (x i - sumFin n (fun j => if j < i then L i j * x j else 0)))
    (s := x) (by simp) (by
      intro k s hs i
      simp only [sumFin_eq_sum]
      rcases lt_trichotomy i k with h | h | h
      · have := hs i
        rw [if_pos (show i.1 < k.1 from h)] at this
        rw [if_pos (show i.1 < k.1 + 1 by have : i.1 < k.1 := h; omega), sum_lt_set s h.le,
          Vec.get_set, if_neg h.ne]
        exact this
      · subst h
        have := hs i
        rw [if_neg (lt_irrefl _)] at this
        rw [if_pos (Nat.lt_succ_self _), sum_lt_set s le_rfl, Vec.get_set, if_pos rfl, ← this]
        ring
      · have := hs i
        have hk : k.1 < i.1 := h
        rw [if_neg (by omega)] at this
        rw [if_neg (by omega), Vec.get_set, if_neg h.ne']
        exact this)
  funext i
  have := h i
  rw [if_pos i.2] at this
  rw [utri_mulVec]
  exact this

theorem unitLowerTSolve_spec (L : Mat ℝ n n) (x : Vec ℝ n) :
    (utri L)ᵀ *ᵥ (unitLowerTSolve L x).fn = x.fn := by
  unfold unitLowerTSolve
  simp only [dotIf_real]
  have h := forFinRev_induct (n := n) (P := fun k (s : Vec ℝ n) => ∀ i : Fin n,
    if k ≤ i.1 then (∑ j, if i < j then L j i * s j else 0) + s i = x i else s i = x i)
    (f := fun i x =>
      x.set i (x i - sumFin n (fun j => if i < j then L j i * x j else 0)))
    (s := x) (by intro i; rw [if_neg (by have := i.2; omega)]) (by
      intro k s hs i
      simp only [sumFin_eq_sum]
      rcases lt_trichotomy i k with h | h | h
      · have := hs i
        have hk : i.1 < k.1 := h
        rw [if_neg (by omega)] at this
        rw [if_neg (by omega), Vec.get_set, if_neg h.ne]
        exact this
      · subst h
        have := hs i
        rw [if_neg (by omega)] at this
        rw [if_pos le_rfl, sum_gt_set s le_rfl, Vec.get_set, if_pos rfl, ← this]
        ring
      · have := hs i
        have hk : k.1 < i.1 := h
        rw [if_pos (by omega)] at this
        rw [if_pos (by omega), sum_gt_set s h.le, Vec.get_set, if_neg h.ne']
        exact this)
  funext i
  have := h i
  rw [if_pos (Nat.zero_le _)] at this
  rw [utriT_mulVec]
  exact this

/-- A vector that isolates the `k`-th pivot of a symmetric factorisation. -/
theorem exists_pivot_vector (M : Matrix (Fin n) (Fin n) ℝ) (N : Fin n → Fin n → ℝ) (d : Fin n → ℝ)
    (k : Fin n) (hN : ∀ l < k, N l l ≠ 0) (hN0 : ∀ i l, l < k → i < l → N i l = 0)
    (hM : ∀ i j, i ≤ k → j ≤ k → (i < k ∨ j < k) →
      M i j = ∑ l, if l < k then N i l * d l * N j l else 0) :
    ∃ w : Fin n → ℝ, w k = 1 ∧ (∀ i, k < i → w i = 0) ∧ (∀ i, i < k → (M *ᵥ w) i = 0) ∧
      (M *ᵥ w) k = M k k - ∑ l, if l < k then N k l * d l * N k l else 0 := by
  let N' : Mat ℝ n n := Mat.ofFn fun i j => if j < k then N i j else if i = j then 1 else 0
  let e : Vec ℝ n := Vec.ofFn fun i => if i = k then 1 else 0
  let w := (lowerTSolve N' e).fn
  have hdiag : ∀ i, N' i i ≠ 0 := by
    intro i
    simp only [N', Mat.get_ofFn]
    by_cases h : i < k
    · rw [if_pos h]; exact hN i h
    · simp [h]
  have hw : ∀ i, (∑ j, if i ≤ j then N' j i * w j else 0) = if i = k then 1 else 0 := by
    intro i
    have := congrFun (lowerTSolve_spec N' hdiag e) i
    rw [triT_mulVec] at this
    rw [sum_ge_split i (fun j => N' j i * w j)]
    exact this.trans (by simp [e])
  have hge : ∀ i, k ≤ i → w i = if i = k then 1 else 0 := by
    intro i hi
    have := hw i
    rw [Finset.sum_eq_single i] at this
    · rw [← this]
      simp [N', not_lt.2 hi]
    · intro j _ hj
      simp only [N', Mat.get_ofFn, if_neg (not_lt.2 hi), if_neg hj, zero_mul, ite_self]
    · simp
  have hlt : ∀ l, l < k → ∑ j, N j l * w j = 0 := by
    intro l hl
    have := hw l
    rw [if_neg hl.ne] at this
    rw [← this]
    refine Finset.sum_congr rfl fun j _ => ?_
    by_cases h : l ≤ j
    · rw [if_pos h]
      simp [N', hl]
    · rw [if_neg h, hN0 j l hl (not_le.1 h), zero_mul]
  have hw0 : ∀ i, k < i → w i = 0 := fun i hi => by rw [hge i hi.le, if_neg hi.ne']
  have hsum : ∀ i, ∑ j, (∑ l, if l < k then N i l * d l * N j l else 0) * w j = 0 := by
    intro i
    simp only [Finset.sum_mul]
    rw [Finset.sum_comm]
    refine Finset.sum_eq_zero fun l _ => ?_
    by_cases h : l < k
    · simp only [if_pos h]
      rw [← mul_zero (N i l * d l), ← hlt l h, Finset.mul_sum]
      exact Finset.sum_congr rfl fun j _ => by ring
    · simp [h]
  refine ⟨w, by rw [hge k le_rfl, if_pos rfl], hw0, fun i hi => ?_, ?_⟩
  · rw [mulVec, dotProduct, ← hsum i]
    refine Finset.sum_congr rfl fun j _ => ?_
    by_cases hj : j ≤ k
    · rw [hM i j hi.le hj (.inl hi)]
    · rw [hw0 j (not_le.1 hj), mul_zero, mul_zero]
  · show ∑ j, M k j * w j = _
    have hs := hsum k
    have hk : w k = 1 := by rw [hge k le_rfl, if_pos rfl]
    have : ∀ j, M k j * w j - (∑ l, if l < k then N k l * d l * N j l else 0) * w j =
        if j = k then M k k - ∑ l, (if l < k then N k l * d l * N k l else 0) else 0 := by
      intro j
      rcases lt_trichotomy j k with h | h | h
      · rw [if_neg h.ne, hM k j le_rfl h.le (.inr h), sub_self]
      · subst h; rw [if_pos rfl, hk]; ring
      · rw [if_neg h.ne', hw0 j h]; ring
    have h2 := Finset.sum_congr rfl fun j (_ : j ∈ Finset.univ) => this j
    rw [Finset.sum_sub_distrib, Finset.sum_ite_eq' Finset.univ k] at h2
    simp only [Finset.mem_univ, if_true] at h2
    linarith [h2]

end Fbstab
