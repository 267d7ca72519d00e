import Verif.Spec.Accuracy
import Verif.Proofs.Sensitivity

/-!
# Accuracy
-/

namespace Fbstab
open Matrix

namespace QP
variable {nz nl nv : Nat} {q : QP nz nl nv}

theorem cross_bound {a b c : ℝ} (h : |min a b| ≤ c) : b * a ≤ c * (|a| + |b|) := by
  have h1 : b * a = min a b * max a b := by rw [min_mul_max, mul_comm]
  have h2 : |max a b| ≤ |a| + |b| := by
    rcases max_choice a b with h | h <;> rw [h]
    · linarith [abs_nonneg b]
    · linarith [abs_nonneg a]
  rw [h1]
  refine (le_abs_self _).trans ?_
  rw [abs_mul]
  exact mul_le_mul h h2 (abs_nonneg _) ((abs_nonneg _).trans h)

theorem neg_dot_le {n : Nat} (a b : Fin n → ℝ) : -(a ⬝ᵥ b) ≤ euclid a * euclid b := by
  rw [← neg_dotProduct]
  refine (dot_le_euclid _ _).trans ?_
  rw [euclid_neg]

theorem accurate {S T c : ℝ} {z l v y} (hS : euclid (q.lagrangeGrad z l v) ≤ S)
    (hT : euclid (q.h - q.G *ᵥ z) ≤ T) (hc : ∀ i, |min (y i) (v i)| ≤ c) : q.Accurate S T c z l v y := by
  have hy0 : ∀ i, -c ≤ y i := fun i => (abs_le.1 (hc i)).1.trans (min_le_left _ _)
  have hv0 : ∀ i, -c ≤ v i := fun i => (abs_le.1 (hc i)).1.trans (min_le_right _ _)
  have hvy : v ⬝ᵥ y ≤ c * ∑ i, (|y i| + |v i|) := by
    rw [dotProduct, Finset.mul_sum]
    exact Finset.sum_le_sum fun i _ => cross_bound (hc i)
  have hvy' : ∀ y' : Fin nv → ℝ, (∀ i, 0 ≤ y' i) → -(v ⬝ᵥ y') ≤ c * ∑ i, y' i := fun y' h => by
    rw [dotProduct_comm]
    exact cross_le h hv0
  have hdr : q.b - q.A *ᵥ z = y - (y - (q.b - q.A *ᵥ z)) := (sub_sub_cancel _ _).symm
  refine ⟨fun zs ls vs hk => ?_, fun hcv z' hz' => ?_, fun hcv zs ls vs hk => ?_⟩
  · set y' := q.b - q.A *ᵥ zs with hy'
    have hy'0 : ∀ i, 0 ≤ y' i := fun i => sub_nonneg.2 (hk.feasible.ineq i)
    have hy'v : vs ⬝ᵥ y' = 0 := Finset.sum_eq_zero fun i _ => by
      rcases hk.complementary i with h | h
      · rw [h, zero_mul]
      · rw [hy', Pi.sub_apply, h, sub_self, mul_zero]
    have e1 : q.lagrangeGrad z l v = q.H *ᵥ (z - zs) + q.Gᵀ *ᵥ (l - ls) + q.Aᵀ *ᵥ (v - vs) := by
      have := hk.stationary
      have e : q.lagrangeGrad z l v = q.lagrangeGrad z l v - q.lagrangeGrad zs ls vs := by rw [this, sub_zero]
      rw [e]
      unfold lagrangeGrad
      rw [mulVec_sub, mulVec_sub, mulVec_sub]
      abel
    have e2 : (z - zs) ⬝ᵥ q.H *ᵥ (z - zs) = q.lagrangeGrad z l v ⬝ᵥ (z - zs) - (l - ls) ⬝ᵥ (q.G *ᵥ (z - zs)) -
        (v - vs) ⬝ᵥ (q.A *ᵥ (z - zs)) := by
      rw [e1, add_dotProduct, add_dotProduct, transpose_dot, transpose_dot, dotProduct_comm (q.H *ᵥ (z - zs))]
      ring
    have e3 : q.G *ᵥ (z - zs) = -(q.h - q.G *ᵥ z) := by rw [mulVec_sub, hk.feasible.eq]; abel
    have e4 : q.A *ᵥ (z - zs) = (y - (q.b - q.A *ᵥ z)) - (y - y') := by rw [hy', mulVec_sub]; abel
    have b1 := (dot_le_euclid (q.lagrangeGrad z l v) (z - zs)).trans
      (mul_le_mul_of_nonneg_right hS (euclid_nonneg _))
    have b2 : -((l - ls) ⬝ᵥ (q.G *ᵥ (z - zs))) ≤ T * euclid (l - ls) := by
      rw [e3, dotProduct_neg, neg_neg]
      refine (dot_le_euclid _ _).trans ?_
      rw [mul_comm]
      exact mul_le_mul_of_nonneg_right hT (euclid_nonneg _)
    have b3 : -((v - vs) ⬝ᵥ (y - (q.b - q.A *ᵥ z))) ≤ q.drift z y * euclid (v - vs) := by
      refine (neg_dot_le _ _).trans ?_
      rw [mul_comm]
      exact le_rfl
    have b4 := hvy' y' hy'0
    have b5 : -(vs ⬝ᵥ y) ≤ c * ∑ i, vs i := cross_le hk.dual hy0
    have e5 : -((v - vs) ⬝ᵥ (q.A *ᵥ (z - zs))) =
        -((v - vs) ⬝ᵥ (y - (q.b - q.A *ᵥ z))) + (v ⬝ᵥ y - v ⬝ᵥ y' - vs ⬝ᵥ y + vs ⬝ᵥ y') := by
      rw [e4, dotProduct_sub (v - vs) _ (y - y'), dotProduct_sub (v - vs) y y', sub_dotProduct v vs y,
        sub_dotProduct v vs y']
      ring
    have e6 : c * ∑ i, (|y i| + |v i| + (q.b i - (q.A *ᵥ zs) i) + vs i) =
        c * ∑ i, (|y i| + |v i|) + c * ∑ i, y' i + c * ∑ i, vs i := by
      rw [← mul_add, ← mul_add, ← Finset.sum_add_distrib, ← Finset.sum_add_distrib]
      rfl
    rw [e2, e6]
    linarith
  · have h2 := hcv.lower_bound z l v hz'
    have b1 := neg_dot_le (q.lagrangeGrad z l v) (z' - z)
    have b2 := mul_le_mul_of_nonneg_right hS (euclid_nonneg (z' - z))
    have b3 := dot_le_euclid l (q.h - q.G *ᵥ z)
    have b4 : euclid l * euclid (q.h - q.G *ᵥ z) ≤ T * euclid l := by
      rw [mul_comm]; exact mul_le_mul_of_nonneg_right hT (euclid_nonneg _)
    have b5 := hvy' (q.b - q.A *ᵥ z') fun i => sub_nonneg.2 (hz'.ineq i)
    have b6 : v ⬝ᵥ (q.b - q.A *ᵥ z) ≤ v ⬝ᵥ y + q.drift z y * euclid v := by
      rw [hdr, dotProduct_sub]
      have := neg_dot_le v (y - (q.b - q.A *ᵥ z))
      rw [mul_comm] at this
      have e : euclid (y - (q.b - q.A *ᵥ z)) = q.drift z y := rfl
      rw [e] at this
      linarith
    have e6 : c * ∑ i, (|y i| + |v i| + (q.b i - (q.A *ᵥ z') i)) =
        c * ∑ i, (|y i| + |v i|) + c * ∑ i, (q.b - q.A *ᵥ z') i := by
      rw [← mul_add, ← Finset.sum_add_distrib]
      rfl
    rw [e6]
    linarith
  · have h1 := hcv.objective_ge zs z
    have h2 : (q.H *ᵥ zs + q.f) ⬝ᵥ (z - zs) = -(ls ⬝ᵥ (q.G *ᵥ (z - zs))) - vs ⬝ᵥ (q.A *ᵥ (z - zs)) := by
      have h3 : q.lagrangeGrad zs ls vs ⬝ᵥ (z - zs) = (q.H *ᵥ zs + q.f) ⬝ᵥ (z - zs) +
          ls ⬝ᵥ (q.G *ᵥ (z - zs)) + vs ⬝ᵥ (q.A *ᵥ (z - zs)) := by
        rw [lagrangeGrad, add_dotProduct, add_dotProduct, transpose_dot, transpose_dot]
      rw [hk.stationary, zero_dotProduct] at h3
      linarith
    have h4 : q.G *ᵥ (z - zs) = -(q.h - q.G *ᵥ z) := by rw [mulVec_sub, hk.feasible.eq]; abel
    have h5 : q.A *ᵥ (z - zs) = (y - (q.b - q.A *ᵥ z)) - y + (q.b - q.A *ᵥ zs) := by rw [mulVec_sub]; abel
    have h6 : vs ⬝ᵥ (q.b - q.A *ᵥ zs) = 0 := Finset.sum_eq_zero fun i _ => by
      rcases hk.complementary i with h | h
      · rw [h, zero_mul]
      · rw [Pi.sub_apply, h, sub_self, mul_zero]
    have b1 := neg_dot_le ls (q.h - q.G *ᵥ z)
    have b2 : euclid ls * euclid (q.h - q.G *ᵥ z) ≤ T * euclid ls := by
      rw [mul_comm]; exact mul_le_mul_of_nonneg_right hT (euclid_nonneg _)
    have b3 : vs ⬝ᵥ (y - (q.b - q.A *ᵥ z)) ≤ q.drift z y * euclid vs := by
      refine (dot_le_euclid _ _).trans ?_
      rw [mul_comm]
      exact le_rfl
    have b5 : -(vs ⬝ᵥ y) ≤ c * ∑ i, vs i := cross_le hk.dual hy0
    rw [h2, h4, h5, dotProduct_neg, neg_neg, dotProduct_add vs, dotProduct_sub vs _ y, h6] at h1
    linarith

theorem RoundedKKT.accurate {alpha tol g w : ℝ} (ha : 0 < alpha) {z l v y}
    (h : q.RoundedKKT alpha tol g w z l v y) :
    q.Accurate (q.statBound tol g w z l v) (q.eqBound tol g w z) (compBound alpha tol g w) z l v y :=
  Fbstab.QP.accurate h.stationary h.eq fun i => by
    rw [compBound, le_div_iff₀ ha, mul_comm]
    exact h.complementary i

end QP
end Fbstab
