import Verif.Proofs.RealCore

/-!
# What small residuals guarantee
-/

namespace Fbstab
open Matrix

namespace QP.Implements
variable {nz nl nv : Nat} {q : QP nz nl nv} {ops : QPOps ℝ nz nl nv} (I : q.Implements ops)
include I

theorem entry_le {alpha eps : ℝ} {x : Point ℝ nz nl nv} (h : residualNorm ops alpha x ≤ eps)
    (i : Fin nv) :
    |alpha * min (x.y i) (x.v i) + (1 - alpha) * max 0 (x.y i) * max 0 (x.v i)| ≤ eps := by
  have h3 := (norm3_bounds h).2.2
  have := le_trans (abs_le_euclid _ i) h3
  simpa [penalizedMin] using this

theorem nearKKT {alpha eps : ℝ} (h0 : 0 < alpha) (h1 : alpha < 1) {x : Point ℝ nz nl nv}
    (hy : x.y.fn = q.b - q.A *ᵥ x.z.fn) (h : residualNorm ops alpha x ≤ eps) :
    q.NearKKT eps (eps / alpha) x.z.fn x.l.fn x.v.fn := by
  have hyi : ∀ i, x.y i = q.b i - (q.A *ᵥ x.z.fn) i := fun i => congrFun hy i
  have hb : ∀ i, |min (x.y i) (x.v i)| ≤ eps / alpha := fun i =>
    penalizedMin_bound h0 h1 (I.entry_le h i)
  have hs := norm3_bounds h
  rw [I.gradLagrangian, I.eqDefect] at hs
  refine ⟨hs.1, ?_, fun i => ?_, fun i => ?_, fun i => ?_⟩
  · have e : q.G *ᵥ x.z.fn - q.h = -(q.h - q.G *ᵥ x.z.fn) := by abel
    rw [e, euclid, neg_dotProduct_neg]
    exact hs.2.1
  · have := (abs_le.1 (hb i)).1
    have := min_le_left (x.y i) (x.v i)
    rw [hyi] at *
    linarith
  · have := (abs_le.1 (hb i)).1
    have := min_le_right (x.y i) (x.v i)
    rw [Vec.fn_apply]
    linarith
  · have := hb i
    rwa [hyi] at this

/-- Suboptimality against every feasible point. -/
theorem suboptimal {alpha eps : ℝ} (h0 : 0 < alpha) (h1 : alpha < 1) (hc : q.Convex)
    {x : Point ℝ nz nl nv} (hy : x.y.fn = q.b - q.A *ᵥ x.z.fn) (hv : ∀ i, 0 ≤ x.v i)
    (h : residualNorm ops alpha x ≤ eps) {z' : Fin nz → ℝ} (hz' : q.Feasible z') :
    q.objective x.z.fn ≤ q.objective z' + eps * euclid (z' - x.z.fn) + eps * euclid x.l.fn +
      nv * (eps / (1 - alpha)) := by
  have hs := norm3_bounds h
  rw [I.gradLagrangian, I.eqDefect] at hs
  have h2 := hc.lower_bound x.z.fn x.l.fn x.v.fn hz'
  have h3 := abs_dot_le_euclid (q.lagrangeGrad x.z.fn x.l.fn x.v.fn) (z' - x.z.fn)
  have h4 := dot_le_euclid x.l.fn (q.h - q.G *ᵥ x.z.fn)
  have h5 : x.v.fn ⬝ᵥ (q.b - q.A *ᵥ x.z.fn) ≤ nv * (eps / (1 - alpha)) := by
    rw [← hy, dotProduct]
    refine le_trans (Finset.sum_le_card_nsmul _ _ (eps / (1 - alpha)) fun i _ => ?_) ?_
    · exact penalizedMin_product h0 h1 (hv i) (I.entry_le h i)
    · simp
  have h6 : 0 ≤ x.v.fn ⬝ᵥ (q.b - q.A *ᵥ z') := Finset.sum_nonneg fun i _ =>
    mul_nonneg (hv i) (sub_nonneg.2 (hz'.ineq i))
  have h7 : euclid (q.lagrangeGrad x.z.fn x.l.fn x.v.fn) * euclid (z' - x.z.fn) ≤
      eps * euclid (z' - x.z.fn) := mul_le_mul_of_nonneg_right hs.1 (euclid_nonneg _)
  have h8 : euclid x.l.fn * euclid (q.h - q.G *ᵥ x.z.fn) ≤ eps * euclid x.l.fn := by
    rw [mul_comm]; exact mul_le_mul_of_nonneg_right hs.2.1 (euclid_nonneg _)
  have h9 := (abs_le.1 h3).1
  linarith

end QP.Implements

namespace QP
variable {nz nl nv : Nat} {q : QP nz nl nv}

/-- A point that is nearly feasible cannot be much better than a KKT point. -/
theorem NearKKT.not_better (hc : q.Convex) {eps epsc : ℝ} {z l v zs ls vs}
    (h : q.NearKKT eps epsc z l v) (hk : q.KKT zs ls vs) :
    q.objective zs ≤ q.objective z + eps * euclid ls + epsc * ∑ i, vs i := by
  have h1 := hc.objective_ge zs z
  have h2 : (q.H *ᵥ zs + q.f) ⬝ᵥ (z - zs) = -(ls ⬝ᵥ (q.G *ᵥ (z - zs))) -
      vs ⬝ᵥ (q.A *ᵥ (z - zs)) := by
    have h3 : q.lagrangeGrad zs ls vs ⬝ᵥ (z - zs) = (q.H *ᵥ zs + q.f) ⬝ᵥ (z - zs) +
        ls ⬝ᵥ (q.G *ᵥ (z - zs)) + vs ⬝ᵥ (q.A *ᵥ (z - zs)) := by
      rw [lagrangeGrad, add_dotProduct, add_dotProduct, transpose_dot, transpose_dot]
    rw [hk.stationary, zero_dotProduct] at h3
    linarith
  have h4 : q.G *ᵥ (z - zs) = q.G *ᵥ z - q.h := by rw [mulVec_sub, hk.feasible.eq]
  have h5 : vs ⬝ᵥ (q.A *ᵥ (z - zs)) ≤ epsc * ∑ i, vs i := by
    rw [dotProduct, Finset.mul_sum]
    refine Finset.sum_le_sum fun i _ => ?_
    rw [mulVec_sub, Pi.sub_apply]
    rcases hk.complementary i with h0 | h0
    · rw [h0]; simp
    · rw [h0, mul_comm]
      exact mul_le_mul_of_nonneg_right (h.ineq i) (hk.dual i)
  have h6 := dot_le_euclid ls (q.G *ᵥ z - q.h)
  have h7 : euclid ls * euclid (q.G *ᵥ z - q.h) ≤ eps * euclid ls := by
    rw [mul_comm]; exact mul_le_mul_of_nonneg_right h.eq (euclid_nonneg _)
  rw [h2, h4] at h1
  linarith

/-- The proximal subproblem has at most one solution. -/
theorem ProxKKT.unique (hc : q.Convex) {sigma : ℝ} (hs : 0 < sigma) {zb lb vb z l v z' l' v'}
    (h1 : q.ProxKKT sigma zb lb vb z l v) (h2 : q.ProxKKT sigma zb lb vb z' l' v') :
    z = z' ∧ l = l' ∧ v = v' := by
  have hm := Value.monotone hc h1.value h2.value
  have hn := hc.nonneg (z - z')
  have e : ∀ {n : Nat} (a b c : Fin n → ℝ), (sigma • (a - b) - sigma • (a - c)) ⬝ᵥ (b - c) =
      -(sigma * ((b - c) ⬝ᵥ (b - c))) := by
    intro n a b c
    rw [← smul_sub, smul_dotProduct, smul_eq_mul,
      show (a - b - (a - c)) = -(b - c) by abel, neg_dotProduct]
    ring
  rw [e, e, e] at hm
  refine dist2_eq_zero ?_
  unfold dist2
  by_contra hcon
  have := mul_pos hs (not_le.1 hcon)
  linarith

/-- Exact proximal steps never move away from a KKT point. -/
theorem ProxKKT.fejer (hc : q.Convex) {sigma : ℝ} (hs : 0 < sigma) {zb lb vb z l v zs ls vs}
    (h : q.ProxKKT sigma zb lb vb z l v) (hk : q.KKT zs ls vs) :
    dist2 z l v zs ls vs + dist2 z l v zb lb vb ≤ dist2 zb lb vb zs ls vs := by
  have hm := Value.monotone hc h.value hk.value
  have hn := hc.nonneg (z - zs)
  simp only [sub_zero, smul_dotProduct, smul_eq_mul] at hm
  have t1 := three_point zb z zs
  have t2 := three_point lb l ls
  have t3 := three_point vb v vs
  unfold dist2
  have h2 : 0 ≤ (zb - z) ⬝ᵥ (z - zs) + (lb - l) ⬝ᵥ (l - ls) + (vb - v) ⬝ᵥ (v - vs) := by
    by_contra hcon
    have := mul_neg_of_pos_of_neg hs (not_le.1 hcon)
    linarith
  linarith

/-- Fixed points of the proximal step are the KKT points. -/
theorem proxKKT_self {sigma : ℝ} {z l v} : q.ProxKKT sigma z l v z l v ↔ q.KKT z l v := by
  constructor
  · rintro ⟨h1, h2, h3, h4, h5⟩
    simp only [sub_self, smul_zero, add_zero, mul_zero] at h1 h2 h3 h5
    refine ⟨h1, ⟨(sub_eq_zero.1 h2).symm, fun i => by linarith [h3 i]⟩, h4, fun i => ?_⟩
    rcases h5 i with h | h
    · exact .inl h
    · right; linarith
  · rintro ⟨h1, ⟨h2, h3⟩, h4, h5⟩
    refine ⟨by simp [h1], by simp [h2], fun i => by simp [h3 i], h4, fun i => ?_⟩
    rcases h5 i with h | h
    · exact .inl h
    · right; simp [h]

end QP
end Fbstab
