import Verif.Spec.Rounding
import Verif.Spec.Residual
import Verif.Proofs.Loops
import Mathlib.Algebra.Order.Chebyshev
import Mathlib.Tactic.Positivity
import Mathlib.Tactic.Linarith

/-!
# Forward error analysis
-/

namespace Fbstab
namespace Rounding
variable {K : Type} [Scalar K] {u eta : ℝ} (F : Rounding K u eta)

/-- `x` is finite. -/
def Fin' (x : K) : Prop := ∃ a, F.toReal x = some a

/-- `x` is finite and was computed from exact data in `n` operations whose exact result is `e`, with terms
of size `m`. -/
def Near (n : Nat) (x : K) (e m : ℝ) : Prop :=
  ∃ a, F.toReal x = some a ∧ |a - e| ≤ ((1 + u) ^ n - 1) * m + n * (1 + u) ^ n * eta ∧ |e| ≤ m

variable {F}
variable {n n' : Nat} {x y : K} {e e' m m' : ℝ}

theorem one_le_pow' (F : Rounding K u eta) (n : Nat) : 1 ≤ (1 + u) ^ n :=
  one_le_pow₀ (by linarith [F.u_nonneg])

theorem pow_mono' (F : Rounding K u eta) (h : n ≤ n') : (1 + u) ^ n ≤ (1 + u) ^ n' :=
  pow_le_pow_right₀ (by linarith [F.u_nonneg]) h

theorem Near.size_nonneg (h : F.Near n x e m) : 0 ≤ m := by
  obtain ⟨a, -, -, h⟩ := h
  exact (abs_nonneg _).trans h

theorem near_exact {a : ℝ} (h : F.toReal x = some a) : F.Near 0 x a |a| :=
  ⟨a, h, by simp, le_rfl⟩

theorem Near.mono (h : F.Near n x e m) (hn : n ≤ n') (hm : m ≤ m') : F.Near n' x e m' := by
  have h0 := h.size_nonneg
  obtain ⟨a, h1, h2, h3⟩ := h
  refine ⟨a, h1, h2.trans ?_, h3.trans hm⟩
  have p1 := F.one_le_pow' n
  have p2 := F.pow_mono' hn
  have q : (n : ℝ) ≤ n' := by exact_mod_cast hn
  have := F.eta_nonneg
  gcongr
  · linarith

theorem Near.congr (h : F.Near n x e m) (he : e' = e) (hm : m' = m) : F.Near n x e' m' := by
  subst he hm; exact h

/-- A rounding of a sum of near values. -/
theorem near_round {a b c : ℝ} {N : Nat} (F : Rounding K u eta) (hN : n + n' + 1 ≤ N) (hx : F.toReal x = some c)
    (ha : |a - e| ≤ ((1 + u) ^ n - 1) * m + n * (1 + u) ^ n * eta) (he : |e| ≤ m)
    (hb : |b - e'| ≤ ((1 + u) ^ n' - 1) * m' + n' * (1 + u) ^ n' * eta) (he' : |e'| ≤ m')
    (hc : |c - (a + b)| ≤ u * |a + b|) : F.Near N x (e + e') (m + m') := by
  refine Near.mono (n := n + n' + 1) (m := m + m') ⟨c, hx, ?_, ?_⟩ hN le_rfl
  · have hu := F.u_nonneg
    have hη := F.eta_nonneg
    have m0 : 0 ≤ m := (abs_nonneg _).trans he
    have m0' : 0 ≤ m' := (abs_nonneg _).trans he'
    have p1 := F.pow_mono' (show n ≤ n + n' by omega)
    have p2 := F.pow_mono' (show n' ≤ n + n' by omega)
    have q1 := F.one_le_pow' (n + n')
    set P := (1 + u) ^ (n + n') with hP
    have ha' : |a - e| ≤ (P - 1) * m + n * P * eta :=
      ha.trans (by gcongr)
    have hb' : |b - e'| ≤ (P - 1) * m' + n' * P * eta :=
      hb.trans (by gcongr)
    have h1 : |(a + b) - (e + e')| ≤ (P - 1) * (m + m') + (n + n') * P * eta := by
      calc |(a + b) - (e + e')| = |(a - e) + (b - e')| := by ring_nf
        _ ≤ |a - e| + |b - e'| := abs_add_le _ _
        _ ≤ _ := by linarith
    have h2 : |a + b| ≤ (m + m') + ((P - 1) * (m + m') + (n + n') * P * eta) := by
      calc |a + b| = |((a + b) - (e + e')) + (e + e')| := by ring_nf
        _ ≤ |(a + b) - (e + e')| + |e + e'| := abs_add_le _ _
        _ ≤ _ := by have := abs_add_le e e'; linarith
    have h3 : |c - (e + e')| ≤ |c - (a + b)| + |(a + b) - (e + e')| := by
      calc |c - (e + e')| = |(c - (a + b)) + ((a + b) - (e + e'))| := by ring_nf
        _ ≤ _ := abs_add_le _ _
    have h4 : u * |a + b| ≤ u * ((m + m') + ((P - 1) * (m + m') + (n + n') * P * eta)) :=
      mul_le_mul_of_nonneg_left h2 hu
    have h5 : (1 + u) ^ (n + n' + 1) = (1 + u) * P := by rw [pow_succ]; ring
    rw [h5]
    push_cast
    have h6 : 0 ≤ (1 + u) * P * eta := by positivity
    nlinarith
  · exact (abs_add_le _ _).trans (by linarith)

theorem Near.add {N : Nat} (hx : F.Near n x e m) (hy : F.Near n' y e' m') (hN : n + n' + 1 ≤ N)
    (h : F.Fin' (x + y)) : F.Near N (x + y) (e + e') (m + m') := by
  obtain ⟨c, hc⟩ := h
  obtain ⟨a, b, ha, hb, hr⟩ := F.add x y c hc
  obtain ⟨a', h1, h2, h3⟩ := hx
  obtain ⟨b', k1, k2, k3⟩ := hy
  rw [ha] at h1; rw [hb] at k1
  cases h1; cases k1
  exact near_round F hN hc h2 h3 k2 k3 hr

theorem Near.neg (hx : F.Near n x e m) : F.Near n (-x) (-e) m := by
  obtain ⟨a, h1, h2, h3⟩ := hx
  refine ⟨-a, by rw [F.neg, h1]; rfl, ?_, by rwa [abs_neg]⟩
  rw [show -a - -e = -(a - e) by ring, abs_neg]; exact h2

theorem Near.sub {N : Nat} (hx : F.Near n x e m) (hy : F.Near n' y e' m') (hN : n + n' + 1 ≤ N)
    (h : F.Fin' (x - y)) : F.Near N (x - y) (e - e') (m + m') := by
  obtain ⟨c, hc⟩ := h
  obtain ⟨a, b, ha, hb, hr⟩ := F.sub x y c hc
  obtain ⟨a', h1, h2, h3⟩ := hx
  obtain ⟨b', k1, k2, k3⟩ := hy
  rw [ha] at h1; rw [hb] at k1
  cases h1; cases k1
  rw [sub_eq_add_neg] at hr ⊢
  exact near_round F hN hc h2 h3
    (by rw [show -b - -e' = -(b - e') by ring, abs_neg]; exact k2) (by rwa [abs_neg]) hr

theorem near_mul {a b : ℝ} (ha : F.toReal x = some a) (hb : F.toReal y = some b) (h : F.Fin' (x * y)) :
    F.Near 1 (x * y) (a * b) (|a| * |b|) := by
  obtain ⟨c, hc⟩ := h
  obtain ⟨a', b', h1, h2, h3, -⟩ := F.mul x y c hc
  rw [ha] at h1; rw [hb] at h2
  cases h1; cases h2
  refine ⟨c, hc, h3.trans ?_, (abs_mul a b).le⟩
  rw [abs_mul]
  have := F.u_nonneg
  have := F.eta_nonneg
  have : 0 ≤ u * eta := by positivity
  push_cast
  linarith

theorem neg_one (F : Rounding K u eta) : F.toReal (-1) = some (-1) := by rw [F.neg, F.one]; rfl

theorem neg_neg_one (F : Rounding K u eta) : F.toReal (- -1) = some 1 := by
  rw [F.neg, F.neg_one]; simp

theorem Near.one_mul' {a : K} (h : F.Near n x e m) (ha : F.toReal a = some 1) : F.Near n (a * x) e m := by
  obtain ⟨c, h1, h2⟩ := h
  exact ⟨c, by rw [F.one_mul _ _ ha]; exact h1, h2⟩

theorem Near.one_mul (h : F.Near n x e m) : F.Near n (1 * x) e m := h.one_mul' F.one

theorem Near.neg_one_mul (h : F.Near n x e m) : F.Near n (-1 * x) (-e) m := by
  obtain ⟨a, h1, h2⟩ := h.neg
  refine ⟨a, ?_, h2⟩
  rw [F.neg_one_mul _ _ F.neg_one, ← F.neg]; exact h1

theorem Near.fin (h : F.Near n x e m) : F.Fin' x := ⟨_, h.choose_spec.1⟩

theorem fin_add (h : F.Fin' (x + y)) : F.Fin' x ∧ F.Fin' y := by
  obtain ⟨c, hc⟩ := h
  obtain ⟨a, b, ha, hb, -⟩ := F.add x y c hc
  exact ⟨⟨a, ha⟩, ⟨b, hb⟩⟩

theorem fin_sub (h : F.Fin' (x - y)) : F.Fin' x ∧ F.Fin' y := by
  obtain ⟨c, hc⟩ := h
  obtain ⟨a, b, ha, hb, -⟩ := F.sub x y c hc
  exact ⟨⟨a, ha⟩, ⟨b, hb⟩⟩

theorem fin_mul (h : F.Fin' (x * y)) : F.Fin' x ∧ F.Fin' y := by
  obtain ⟨c, hc⟩ := h
  obtain ⟨a, b, ha, hb, -⟩ := F.mul x y c hc
  exact ⟨⟨a, ha⟩, ⟨b, hb⟩⟩

theorem fin_sqrt (h : F.Fin' (Scalar.sqrt x)) : F.Fin' x := by
  obtain ⟨c, hc⟩ := h
  obtain ⟨a, ha, -⟩ := F.sqrt x c hc
  exact ⟨a, ha⟩

/-! ### Sums -/

theorem fin_dot {k : Nat} {x y : Fin k → K} (h : F.Fin' (dotFin k x y)) :
    (∀ i, F.Fin' (x i)) ∧ ∀ i, F.Fin' (y i) := by
  obtain ⟨c, hc⟩ := h
  obtain ⟨a, b, ha, hb, -⟩ := F.dot k x y c hc
  exact ⟨fun i => ⟨_, ha i⟩, fun i => ⟨_, hb i⟩⟩

theorem near_dotFin {k : Nat} {x y : Fin k → K} {a b : Fin k → ℝ} (hx : ∀ i, F.toReal (x i) = some (a i))
    (hy : ∀ i, F.toReal (y i) = some (b i)) (h : F.Fin' (dotFin k x y)) :
    F.Near (2 * k) (dotFin k x y) (∑ i, a i * b i) (∑ i, |a i| * |b i|) := by
  obtain ⟨c, hc⟩ := h
  obtain ⟨a', b', ha, hb, he⟩ := F.dot k x y c hc
  have e1 : a' = a := funext fun i => Option.some.inj ((ha i).symm.trans (hx i))
  have e2 : b' = b := funext fun i => Option.some.inj ((hb i).symm.trans (hy i))
  subst e1 e2
  refine ⟨c, hc, ?_, ?_⟩
  · push_cast
    exact he
  · refine (Finset.abs_sum_le_sum_abs _ _).trans (Finset.sum_le_sum fun i _ => (abs_mul _ _).le)

/-! ### Vectors -/

/-- All entries are finite. -/
def FinVec (F : Rounding K u eta) {k : Nat} (x : Vec K k) : Prop := ∀ i, F.Fin' (x i)

theorem FinVec.reads {k : Nat} {x : Vec K k} (h : F.FinVec x) : ∃ r, F.Reads x r := by
  choose r hr using h
  exact ⟨r, hr⟩

/-- A product of a matrix with a vector: row `i`. -/
theorem fin_mulVec {r c : Nat} {M : Mat K r c} {x : Vec K c} {i : Fin r} (h : F.Fin' ((M * x) i)) :
    F.FinVec x := by
  rw [Mat.get_mulVec] at h
  exact (fin_dot h).2

theorem near_mulVec {r c : Nat} {M : Mat K r c} {x : Vec K c} {i : Fin r} {a b : Fin c → ℝ}
    (hM : ∀ j, F.toReal (M i j) = some (a j)) (hx : F.Reads x b) (h : F.Fin' ((M * x) i)) :
    F.Near (2 * c) ((M * x) i) (∑ j, a j * b j) (∑ j, |a j| * |b j|) := by
  rw [Mat.get_mulVec] at h ⊢
  exact near_dotFin hM hx h

theorem near_squaredNorm {k : Nat} {x : Vec K k} {r : Fin k → ℝ} (hx : F.Reads x r)
    (h : F.Fin' x.squaredNorm) : F.Near (2 * k) x.squaredNorm (∑ i, r i * r i) (∑ i, r i * r i) := by
  have := near_dotFin hx hx h
  simp only [abs_mul_abs_self] at this
  exact this

end Rounding
end Fbstab
