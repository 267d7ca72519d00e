import Verif.Spec.Sensitivity
import Verif.Proofs.Suboptimal

/-!
# Distances between approximate solutions
-/

namespace Fbstab
open Matrix

namespace QP
variable {nz nl nv : Nat}

theorem euclid_add_le {n : Nat} (a b : Fin n → ℝ) : euclid (a + b) ≤ euclid a + euclid b := by
  refine Real.sqrt_le_iff.2 ⟨add_nonneg (euclid_nonneg _) (euclid_nonneg _), ?_⟩
  have h1 := dot_le_euclid a b
  have e1 : euclid a ^ 2 = a ⬝ᵥ a := Real.sq_sqrt (dot_self_nonneg a)
  have e2 : euclid b ^ 2 = b ⬝ᵥ b := Real.sq_sqrt (dot_self_nonneg b)
  rw [add_dotProduct, dotProduct_add, dotProduct_add, dotProduct_comm b a]
  linarith [sq_nonneg (euclid a), add_sq (euclid a) (euclid b)]

theorem euclid_neg {n : Nat} (a : Fin n → ℝ) : euclid (-a) = euclid a := by
  unfold euclid
  rw [neg_dotProduct_neg]

theorem euclid_sub_le {n : Nat} (a b : Fin n → ℝ) : euclid (a - b) ≤ euclid a + euclid b := by
  rw [sub_eq_add_neg, ← euclid_neg b]
  exact euclid_add_le a (-b)

/-- What a result with residual `e` is known to satisfy. -/
structure Result (q : QP nz nl nv) (e c p : ℝ) (x : PD nz nl nv) : Prop where
  stationary : euclid (q.lagrangeGrad x.z x.l x.v) ≤ e
  eq : euclid (q.h - q.G *ᵥ x.z) ≤ e
  ineq : ∀ i, -c ≤ q.b i - (q.A *ᵥ x.z) i
  dual : ∀ i, 0 ≤ x.v i
  product : ∀ i, x.v i * (q.b i - (q.A *ᵥ x.z) i) ≤ p

theorem KKT.result {q : QP nz nl nv} {z l v} (h : q.KKT z l v) : q.Result 0 0 0 ⟨z, l, v⟩ where
  stationary := by
    show euclid (q.lagrangeGrad z l v) ≤ 0
    rw [h.stationary]
    unfold euclid
    simp
  eq := by
    show euclid (q.h - q.G *ᵥ z) ≤ 0
    rw [h.feasible.eq, sub_self]
    unfold euclid
    simp
  ineq i := by simpa using h.feasible.ineq i
  dual := h.dual
  product i := by
    rcases h.complementary i with h' | h'
    · simp [h']
    · simp [h']

theorem Implements.result {q : QP nz nl nv} {ops : QPOps ℝ nz nl nv} (I : q.Implements ops) {alpha e : ℝ}
    (h0 : 0 < alpha) (h1 : alpha < 1) {x : Point ℝ nz nl nv} (hy : x.y.fn = q.b - q.A *ᵥ x.z.fn)
    (hv : ∀ i, 0 ≤ x.v i) (h : residualNorm ops alpha x ≤ e) :
    q.Result e (e / alpha) (e / (1 - alpha)) ⟨x.z.fn, x.l.fn, x.v.fn⟩ := by
  have hn := I.nearKKT h0 h1 hy h
  have hyi : ∀ i, x.y i = q.b i - (q.A *ᵥ x.z.fn) i := fun i => congrFun hy i
  refine ⟨hn.stationary, ?_, fun i => by linarith [hn.ineq i], hv, fun i => ?_⟩
  · rw [← euclid_neg, neg_sub]; exact hn.eq
  · have := penalizedMin_product h0 h1 (hv i) (I.entry_le h i)
    rw [hyi] at this
    exact this

theorem cross_le {nv : Nat} {v y : Fin nv → ℝ} {c : ℝ} (hv : ∀ i, 0 ≤ v i) (hy : ∀ i, -c ≤ y i) :
    -(v ⬝ᵥ y) ≤ c * ∑ i, v i := by
  rw [dotProduct, ← Finset.sum_neg_distrib, Finset.mul_sum]
  refine Finset.sum_le_sum fun i _ => ?_
  have := mul_le_mul_of_nonneg_left (hy i) (hv i)
  linarith

theorem Result.apart {q q' : QP nz nl nv} (hm : SameMatrices q q') {e e' c c' p p' : ℝ} {x x' : PD nz nl nv}
    (h : q.Result e c p x) (h' : q'.Result e' c' p' x') :
    (x.z - x'.z) ⬝ᵥ q.H *ᵥ (x.z - x'.z) ≤ (e + e' + euclid (q.f - q'.f)) * euclid (x.z - x'.z) +
      ((e + e' + euclid (q.h - q'.h)) * euclid (x.l - x'.l) + euclid (q.b - q'.b) * euclid (x.v - x'.v) +
        nv * (p + p') + c' * ∑ i, x.v i + c * ∑ i, x'.v i) := by
  obtain ⟨z, l, v⟩ := x
  obtain ⟨z', l', v'⟩ := x'
  dsimp only
  set y := q.b - q.A *ᵥ z with hy
  set y' := q'.b - q'.A *ᵥ z' with hy'
  have hy1 : ∀ i, y i = q.b i - (q.A *ᵥ z) i := fun i => rfl
  have hy2 : ∀ i, y' i = q'.b i - (q'.A *ᵥ z') i := fun i => rfl
  -- the identity
  have e1 : q.lagrangeGrad z l v - q'.lagrangeGrad z' l' v' = q.H *ᵥ (z - z') + (q.f - q'.f) +
      q.Gᵀ *ᵥ (l - l') + q.Aᵀ *ᵥ (v - v') := by
    unfold lagrangeGrad
    rw [← hm.H, ← hm.G, ← hm.A, mulVec_sub, mulVec_sub, mulVec_sub]
    abel
  have e2 : (z - z') ⬝ᵥ q.H *ᵥ (z - z') = (q.lagrangeGrad z l v - q'.lagrangeGrad z' l' v' - (q.f - q'.f)) ⬝ᵥ (z - z') -
      (l - l') ⬝ᵥ (q.G *ᵥ (z - z')) - (v - v') ⬝ᵥ (q.A *ᵥ (z - z')) := by
    have : (q.lagrangeGrad z l v - q'.lagrangeGrad z' l' v' - (q.f - q'.f)) =
        q.H *ᵥ (z - z') + q.Gᵀ *ᵥ (l - l') + q.Aᵀ *ᵥ (v - v') := by
      rw [e1]; abel
    rw [this, add_dotProduct, add_dotProduct, transpose_dot, transpose_dot, dotProduct_comm (q.H *ᵥ (z - z'))]
    ring
  have e3 : q.G *ᵥ (z - z') = (q.h - q'.h) - ((q.h - q.G *ᵥ z) - (q'.h - q'.G *ᵥ z')) := by
    rw [mulVec_sub, ← hm.G]; abel
  have e4 : q.A *ᵥ (z - z') = (q.b - q'.b) - (y - y') := by
    rw [hy, hy', mulVec_sub, ← hm.A]; abel
  -- the estimates
  have b1 : (q.lagrangeGrad z l v - q'.lagrangeGrad z' l' v' - (q.f - q'.f)) ⬝ᵥ (z - z') ≤
      (e + e' + euclid (q.f - q'.f)) * euclid (z - z') := by
    refine (dot_le_euclid _ _).trans (mul_le_mul_of_nonneg_right ?_ (euclid_nonneg _))
    refine (euclid_sub_le _ _).trans (add_le_add ((euclid_sub_le _ _).trans ?_) le_rfl)
    exact add_le_add h.stationary h'.stationary
  have b2 : -((l - l') ⬝ᵥ (q.G *ᵥ (z - z'))) ≤ (e + e' + euclid (q.h - q'.h)) * euclid (l - l') := by
    rw [e3, ← dotProduct_neg]
    refine (dot_le_euclid _ _).trans ?_
    rw [mul_comm]
    refine mul_le_mul_of_nonneg_right ?_ (euclid_nonneg _)
    rw [euclid_neg]
    refine (euclid_sub_le _ _).trans ?_
    have := (euclid_sub_le (q.h - q.G *ᵥ z) (q'.h - q'.G *ᵥ z')).trans (add_le_add h.eq h'.eq)
    linarith
  have b3 : -((v - v') ⬝ᵥ (q.b - q'.b)) ≤ euclid (q.b - q'.b) * euclid (v - v') := by
    rw [← neg_dotProduct]
    refine (dot_le_euclid _ _).trans ?_
    rw [euclid_neg, mul_comm]
  have b4 : v ⬝ᵥ y ≤ nv * p := by
    rw [dotProduct]
    refine le_trans (Finset.sum_le_card_nsmul _ _ p fun i _ => ?_) ?_
    · rw [hy1]; exact h.product i
    · simp
  have b5 : v' ⬝ᵥ y' ≤ nv * p' := by
    rw [dotProduct]
    refine le_trans (Finset.sum_le_card_nsmul _ _ p' fun i _ => ?_) ?_
    · rw [hy2]; exact h'.product i
    · simp
  have b6 : -(v ⬝ᵥ y') ≤ c' * ∑ i, v i := cross_le h.dual fun i => by rw [hy2]; exact h'.ineq i
  have b7 : -(v' ⬝ᵥ y) ≤ c * ∑ i, v' i := cross_le h'.dual fun i => by rw [hy1]; exact h.ineq i
  have e5 : -((v - v') ⬝ᵥ (q.A *ᵥ (z - z'))) = -((v - v') ⬝ᵥ (q.b - q'.b)) + (v ⬝ᵥ y + v' ⬝ᵥ y' - v ⬝ᵥ y' - v' ⬝ᵥ y) := by
    rw [e4, dotProduct_sub (v - v'), dotProduct_sub (v - v') y y', sub_dotProduct v v' y, sub_dotProduct v v' y']
    ring
  rw [e2]
  linarith

/-- From `mu t^2 <= a t + g`. -/
theorem le_of_quadratic {mu a g t : ℝ} (hmu : 0 < mu) (ha : 0 ≤ a) (h : mu * t ^ 2 ≤ a * t + g) :
    t ≤ a / mu + √(g / mu) := by
  by_contra hcon
  have hcon := not_le.1 hcon
  have hs := Real.sqrt_nonneg (g / mu)
  have hd : 0 ≤ a / mu := div_nonneg ha hmu.le
  have h1 : √(g / mu) < t - a / mu := by linarith
  have h2 : g / mu < (t - a / mu) ^ 2 := by
    rcases le_total 0 (g / mu) with h0 | h0
    · have := Real.sq_sqrt h0
      rw [← this]
      exact pow_lt_pow_left₀ h1 hs two_ne_zero
    · exact lt_of_le_of_lt h0 (pow_pos (lt_of_le_of_lt hs h1) 2)
  have h3 : (t - a / mu) ^ 2 ≤ t * (t - a / mu) := by
    rw [sq]
    exact mul_le_mul_of_nonneg_right (by linarith) (by linarith)
  have h4 : g < mu * (t * (t - a / mu)) := by
    have := lt_of_lt_of_le h2 h3
    rwa [div_lt_iff₀ hmu, mul_comm] at this
  have h5 : mu * (t * (t - a / mu)) = mu * t ^ 2 - a * t := by
    field_simp
  linarith

end QP
end Fbstab
