import Verif.Spec.Rounding
import Verif.Spec.SumOrder
import Mathlib.Tactic.Positivity
import Mathlib.Tactic.Linarith

/-!
# The error of a dot product, in any order of summation
-/

namespace Fbstab

/-- A rounding of a sum of two values with errors. -/
theorem round_step {u eta a b c e e' m m' : ℝ} {n n' : Nat} (hu : 0 ≤ u) (hη : 0 ≤ eta)
    (ha : |a - e| ≤ ((1 + u) ^ n - 1) * m + n * (1 + u) ^ n * eta) (he : |e| ≤ m)
    (hb : |b - e'| ≤ ((1 + u) ^ n' - 1) * m' + n' * (1 + u) ^ n' * eta) (he' : |e'| ≤ m')
    (hc : |c - (a + b)| ≤ u * |a + b| + eta) :
    |c - (e + e')| ≤ ((1 + u) ^ (n + n' + 1) - 1) * (m + m') + ((n + n' + 1 : ℕ) : ℝ) * (1 + u) ^ (n + n' + 1) * eta := by
  have m0 : 0 ≤ m := (abs_nonneg _).trans he
  have m0' : 0 ≤ m' := (abs_nonneg _).trans he'
  have p1 : (1 + u) ^ n ≤ (1 + u) ^ (n + n') := pow_le_pow_right₀ (by linarith) (by omega)
  have p2 : (1 + u) ^ n' ≤ (1 + u) ^ (n + n') := pow_le_pow_right₀ (by linarith) (by omega)
  have q1 : 1 ≤ (1 + u) ^ (n + n') := one_le_pow₀ (by linarith)
  set P := (1 + u) ^ (n + n') with hP
  have ha' : |a - e| ≤ (P - 1) * m + n * P * eta := ha.trans (by gcongr)
  have hb' : |b - e'| ≤ (P - 1) * m' + n' * P * eta := hb.trans (by gcongr)
  have h1 : |(a + b) - (e + e')| ≤ (P - 1) * (m + m') + (n + n') * P * eta := by
    calc |(a + b) - (e + e')| = |(a - e) + (b - e')| := by ring_nf
      _ ≤ |a - e| + |b - e'| := abs_add_le _ _
      _ ≤ _ := by linarith
  have h2 : |a + b| ≤ (m + m') + ((P - 1) * (m + m') + (n + n') * P * eta) := by
    calc |a + b| = |((a + b) - (e + e')) + (e + e')| := by ring_nf
      _ ≤ |(a + b) - (e + e')| + |e + e'| := abs_add_le _ _
      _ ≤ _ := by have := abs_add_le e e'; linarith
  have h3 : |c - (e + e')| ≤ |c - (a + b)| + |(a + b) - (e + e')| := by
    calc |c - (e + e')| = |(c - (a + b)) + ((a + b) - (e + e'))| := by ring_nf
      _ ≤ _ := abs_add_le _ _
  have h4 : u * |a + b| ≤ u * ((m + m') + ((P - 1) * (m + m') + (n + n') * P * eta)) :=
    mul_le_mul_of_nonneg_left h2 hu
  have h5 : (1 + u) ^ (n + n' + 1) = (1 + u) * P := by rw [pow_succ]; ring
  rw [h5]
  push_cast
  have h6 : eta ≤ (1 + u) * P * eta := by
    have : 1 ≤ (1 + u) * P := by nlinarith
    nlinarith
  nlinarith

/-- What the error analysis of a dot product needs to know about the arithmetic. -/
structure SumArith (K : Type) [Zero K] [Add K] [Mul K] (f : K → K → K → K) (R : K → Option ℝ) (u eta : ℝ) : Prop where
  u_nonneg : 0 ≤ u
  eta_nonneg : 0 ≤ eta
  zero : R 0 = some 0
  add : ∀ x y c, R (x + y) = some c → ∃ a b, R x = some a ∧ R y = some b ∧ |c - (a + b)| ≤ u * |a + b|
  mul : ∀ x y c, R (x * y) = some c → ∃ a b, R x = some a ∧ R y = some b ∧ |c - a * b| ≤ u * |a * b| + eta
  fma : ∀ x y z c, R (f x y z) = some c → ∃ a b d, R x = some a ∧ R y = some b ∧ R z = some d ∧
    |c - (a * b + d)| ≤ u * |a * b + d| + eta
  add_of_zero : ∀ x y, R y = some 0 → R (x + y) = R x
  add_of_zero_left : ∀ x y, R x = some 0 → R (x + y) = R y

namespace SumArith
variable {K : Type} [Zero K] [Add K] [Mul K] {f : K → K → K → K} {R : K → Option ℝ} {u eta : ℝ} {n : Nat}

/-- A finite sum has finite terms. -/
theorem finite (h : SumArith K f R u eta) {x y : Fin n → K} : ∀ (o : SumOrder n) {c : ℝ},
    R (o.eval f x y) = some c → ∀ i ∈ o.indices, (∃ a, R (x i) = some a) ∧ ∃ b, R (y i) = some b
  | .zero, _, _, i, hi => by simp [SumOrder.indices] at hi
  | .term j, c, hc, i, hi => by
    obtain rfl : i = j := by simpa [SumOrder.indices] using hi
    obtain ⟨a, b, ha, hb, -⟩ := h.mul _ _ _ hc
    exact ⟨⟨a, ha⟩, ⟨b, hb⟩⟩
  | .add s t, c, hc, i, hi => by
    obtain ⟨a, b, ha, hb, -⟩ := h.add _ _ _ hc
    rcases List.mem_append.1 hi with hi | hi
    · exact h.finite s ha i hi
    · exact h.finite t hb i hi
  | .fma j t, c, hc, i, hi => by
    obtain ⟨a, b, d, ha, hb, hd, -⟩ := h.fma _ _ _ _ hc
    rcases List.mem_cons.1 hi with rfl | hi
    · exact ⟨⟨a, ha⟩, ⟨b, hb⟩⟩
    · exact h.finite t hd i hi

theorem size (l : List (Fin n)) (a b : Fin n → ℝ) :
    |(l.map fun i => a i * b i).sum| ≤ (l.map fun i => |a i| * |b i|).sum := by
  induction l with
  | nil => simp
  | cons i l ih =>
    simp only [List.map_cons, List.sum_cons]
    refine (abs_add_le _ _).trans ?_
    rw [abs_mul]
    linarith

theorem size_nonneg (l : List (Fin n)) (a b : Fin n → ℝ) : 0 ≤ (l.map fun i => |a i| * |b i|).sum :=
  (abs_nonneg _).trans (size l a b)

/-- The error of a sum of `k` products. -/
theorem error (h : SumArith K f R u eta) {x y : Fin n → K} {a b : Fin n → ℝ} : ∀ (o : SumOrder n) {c : ℝ},
    R (o.eval f x y) = some c → (∀ i ∈ o.indices, R (x i) = some (a i)) → (∀ i ∈ o.indices, R (y i) = some (b i)) →
    |c - (o.indices.map fun i => a i * b i).sum| ≤
      ((1 + u) ^ (2 * o.indices.length - 1) - 1) * (o.indices.map fun i => |a i| * |b i|).sum +
        ((2 * o.indices.length - 1 : ℕ) : ℝ) * (1 + u) ^ (2 * o.indices.length - 1) * eta
  | .zero, c, hc, _, _ => by
    have hc : R 0 = some c := hc
    rw [h.zero] at hc
    cases hc
    simp [SumOrder.indices]
  | .term i, c, hc, hx, hy => by
    have hc : R (x i * y i) = some c := hc
    obtain ⟨a', b', ha, hb, he⟩ := h.mul _ _ _ hc
    rw [hx i (by simp [SumOrder.indices])] at ha
    rw [hy i (by simp [SumOrder.indices])] at hb
    cases ha; cases hb
    have := h.u_nonneg
    have := h.eta_nonneg
    have : 0 ≤ u * eta := by positivity
    rw [abs_mul] at he
    simp only [SumOrder.indices, List.map_cons, List.map_nil, List.sum_cons, List.sum_nil, List.length_cons,
      List.length_nil, add_zero]
    norm_num
    linarith
  | .add s t, c, hc, hx, hy => by
    have hc : R (s.eval f x y + t.eval f x y) = some c := hc
    obtain ⟨a', b', ha, hb, he⟩ := h.add _ _ _ hc
    have hxs : ∀ i ∈ s.indices, R (x i) = some (a i) := fun i hi => hx i (List.mem_append_left _ hi)
    have hxt : ∀ i ∈ t.indices, R (x i) = some (a i) := fun i hi => hx i (List.mem_append_right _ hi)
    have hys : ∀ i ∈ s.indices, R (y i) = some (b i) := fun i hi => hy i (List.mem_append_left _ hi)
    have hyt : ∀ i ∈ t.indices, R (y i) = some (b i) := fun i hi => hy i (List.mem_append_right _ hi)
    have es := h.error s ha hxs hys
    have et := h.error t hb hxt hyt
    simp only [SumOrder.indices, List.map_append, List.sum_append, List.length_append]
    by_cases h1 : s.indices = []
    · simp only [h1, List.map_nil, List.sum_nil, List.length_nil, Nat.mul_zero, Nat.zero_sub, pow_zero, sub_self,
        zero_mul, Nat.cast_zero, add_zero, sub_zero, zero_add] at es ⊢
      have : a' = 0 := abs_eq_zero.1 (le_antisymm es (abs_nonneg _))
      rw [this] at ha
      rw [h.add_of_zero_left _ _ ha, hb] at hc
      cases hc
      exact et
    · by_cases h2 : t.indices = []
      · simp only [h2, List.map_nil, List.sum_nil, List.length_nil, Nat.mul_zero, Nat.zero_sub, pow_zero, sub_self,
          zero_mul, Nat.cast_zero, add_zero, sub_zero] at et ⊢
        have : b' = 0 := abs_eq_zero.1 (le_antisymm et (abs_nonneg _))
        rw [this] at hb
        rw [h.add_of_zero _ _ hb, ha] at hc
        cases hc
        exact es
      · have l1 := List.length_pos_iff.2 h1
        have l2 := List.length_pos_iff.2 h2
        have := round_step h.u_nonneg h.eta_nonneg es (size _ a b) et (size _ a b)
          (he.trans (le_add_of_nonneg_right h.eta_nonneg))
        rw [show 2 * s.indices.length - 1 + (2 * t.indices.length - 1) + 1 =
          2 * (s.indices.length + t.indices.length) - 1 by omega] at this
        exact this
  | .fma i t, c, hc, hx, hy => by
    have hc : R (f (x i) (y i) (t.eval f x y)) = some c := hc
    obtain ⟨a', b', d, ha, hb, hd, he⟩ := h.fma _ _ _ _ hc
    rw [hx i (by simp [SumOrder.indices])] at ha
    rw [hy i (by simp [SumOrder.indices])] at hb
    cases ha; cases hb
    have et := h.error t hd (fun i hi => hx i (List.mem_cons_of_mem _ hi)) fun i hi => hy i (List.mem_cons_of_mem _ hi)
    have e0 : |a i * b i - a i * b i| ≤ ((1 + u) ^ 0 - 1) * (|a i| * |b i|) + ((0 : ℕ) : ℝ) * (1 + u) ^ 0 * eta := by
      simp
    have r := round_step h.u_nonneg h.eta_nonneg e0 (abs_mul _ _).le et (size _ a b) he
    simp only [SumOrder.indices, List.map_cons, List.sum_cons, List.length_cons]
    refine r.trans ?_
    have q : 0 + (2 * t.indices.length - 1) + 1 ≤ 2 * (t.indices.length + 1) - 1 := by omega
    have p1 : (1 + u) ^ (0 + (2 * t.indices.length - 1) + 1) ≤ (1 + u) ^ (2 * (t.indices.length + 1) - 1) :=
      pow_le_pow_right₀ (by linarith [h.u_nonneg]) q
    have p0 : 1 ≤ (1 + u) ^ (0 + (2 * t.indices.length - 1) + 1) := one_le_pow₀ (by linarith [h.u_nonneg])
    have s0 := size_nonneg t.indices a b
    have s1 : 0 ≤ |a i| * |b i| := by positivity
    have := h.eta_nonneg
    have q' : ((0 + (2 * t.indices.length - 1) + 1 : ℕ) : ℝ) ≤ ((2 * (t.indices.length + 1) - 1 : ℕ) : ℝ) := by
      exact_mod_cast q
    gcongr

/-- The error of a dot product, computed in any order. -/
theorem dot (h : SumArith K f R u eta) (x y : Fin n → K) (o : SumOrder n) (ho : o.Sums fun _ => true) (c : ℝ)
    (hc : R (o.eval f x y) = some c) :
    ∃ a b : Fin n → ℝ, (∀ i, R (x i) = some (a i)) ∧ (∀ i, R (y i) = some (b i)) ∧
      |c - ∑ i, a i * b i| ≤ ((1 + u) ^ (2 * n) - 1) * ∑ i, |a i| * |b i| + 2 * n * (1 + u) ^ (2 * n) * eta := by
  have hp : o.indices.Perm (List.finRange n) := by
    have := ho
    unfold SumOrder.Sums at this
    rwa [List.filter_true] at this
  have hm : ∀ i, i ∈ o.indices := fun i => hp.mem_iff.2 (List.mem_finRange i)
  choose a ha using fun i => (h.finite o hc i (hm i)).1
  choose b hb using fun i => (h.finite o hc i (hm i)).2
  refine ⟨a, b, ha, hb, ?_⟩
  have e := h.error o hc (fun i _ => ha i) fun i _ => hb i
  have hl : o.indices.length = n := by rw [hp.length_eq, List.length_finRange]
  have hs : ∀ g : Fin n → ℝ, (o.indices.map g).sum = ∑ i, g i := fun g => by
    rw [(hp.map g).sum_eq, ← List.ofFn_eq_map, List.sum_ofFn]
  rw [hs, hs, hl] at e
  refine e.trans ?_
  have p1 : (1 + u) ^ (2 * n - 1) ≤ (1 + u) ^ (2 * n) := pow_le_pow_right₀ (by linarith [h.u_nonneg]) (by omega)
  have p0 : 1 ≤ (1 + u) ^ (2 * n - 1) := one_le_pow₀ (by linarith [h.u_nonneg])
  have := h.eta_nonneg
  have s0 : 0 ≤ ∑ i, |a i| * |b i| := Finset.sum_nonneg fun i _ => by positivity
  have q : ((2 * n - 1 : ℕ) : ℝ) ≤ 2 * n := by
    have : 2 * n - 1 ≤ 2 * n := by omega
    exact_mod_cast this
  gcongr

end SumArith

/-! ### From left to right -/

theorem foldl_eq_list {A : Type} {n : Nat} (f : A → Fin n → A) (x : A) :
    Fin.foldl n f x = (List.finRange n).foldl f x := by
  induction n generalizing x with
  | zero => simp
  | succ n ih => rw [Fin.foldl_succ, List.finRange_succ, List.foldl_cons, List.foldl_map, ih]

namespace SumOrder
variable {n : Nat} {K : Type}

/-- From left to right, starting with 0. -/
def left (n : Nat) (p : Fin n → Bool) : SumOrder n :=
  Fin.foldl n (fun s i => .add s (if p i then .term i else .zero)) .zero

theorem left_eval [Zero K] [Add K] [Mul K] (f : K → K → K → K) (p : Fin n → Bool) (x y : Fin n → K) :
    (left n p).eval f x y = Fin.foldl n (fun acc i => acc + if p i then x i * y i else 0) 0 := by
  unfold left
  rw [foldl_eq_list, foldl_eq_list]
  suffices h : ∀ (l : List (Fin n)) (s : SumOrder n) (k : K), s.eval f x y = k →
      (l.foldl (fun s i => SumOrder.add s (if p i then .term i else .zero)) s).eval f x y =
        l.foldl (fun acc i => acc + if p i then x i * y i else 0) k from h _ _ _ rfl
  intro l
  induction l with
  | nil => exact fun _ _ h => h
  | cons i l ih =>
    intro s k hk
    refine ih _ _ ?_
    show s.eval f x y + _ = _
    rw [hk]
    cases h : p i <;> simp [eval, h]

theorem left_sums (p : Fin n → Bool) : (left n p).Sums p := by
  unfold left Sums
  rw [foldl_eq_list]
  suffices h : ∀ (l : List (Fin n)) (s : SumOrder n),
      (l.foldl (fun s i => SumOrder.add s (if p i then .term i else .zero)) s).indices = s.indices ++ l.filter p by
    rw [h]; exact List.Perm.refl _
  intro l
  induction l with
  | nil => intro s; simp
  | cons i l ih =>
    intro s
    rw [List.foldl_cons, ih]
    cases h : p i <;> simp [indices, h]

end SumOrder
end Fbstab
