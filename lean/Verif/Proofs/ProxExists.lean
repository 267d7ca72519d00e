import Verif.Proofs.ProxMath
import Mathlib.Topology.MetricSpace.ProperSpace
import Mathlib.Topology.Algebra.Module.FiniteDimension
import Mathlib.Topology.Instances.Matrix

/-!
# Every proximal subproblem has a solution
-/

namespace Fbstab
open Matrix

namespace QP
variable {nz nl nv : Nat} {q : QP nz nl nv}

/-- The penalty function whose minimiser is the proximal step. -/
noncomputable def penalty (q : QP nz nl nv) (sigma : ℝ) (zb : Fin nz → ℝ) (lb : Fin nl → ℝ)
    (vb : Fin nv → ℝ) (z : Fin nz → ℝ) : ℝ :=
  2 * q.objective z + sigma * ((z - zb) ⬝ᵥ (z - zb)) +
    sigma⁻¹ * ((q.G *ᵥ z - q.h + sigma • lb) ⬝ᵥ (q.G *ᵥ z - q.h + sigma • lb)) +
    sigma⁻¹ * ∑ i, max ((q.A *ᵥ z) i - q.b i + sigma * vb i) 0 ^ 2

theorem penalty_continuous (sigma : ℝ) (zb : Fin nz → ℝ) (lb : Fin nl → ℝ) (vb : Fin nv → ℝ) :
    Continuous (q.penalty sigma zb lb vb) := by
  have h1 : ∀ {m n : Nat} (B : Matrix (Fin m) (Fin n) ℝ), Continuous fun z : Fin n → ℝ => B *ᵥ z :=
    fun B => Continuous.matrix_mulVec continuous_const continuous_id
  have h2 : ∀ i, Continuous fun z : Fin nz → ℝ => (q.A *ᵥ z) i := fun i =>
    (continuous_apply i).comp (h1 q.A)
  unfold penalty objective
  refine ((Continuous.add ?_ ?_).add ?_).add ?_
  · refine continuous_const.mul ((continuous_const.mul ?_).add ?_)
    · exact Continuous.dotProduct continuous_id (h1 _)
    · exact Continuous.dotProduct continuous_const continuous_id
  · refine continuous_const.mul (Continuous.dotProduct ?_ ?_) <;>
      exact continuous_id.sub continuous_const
  · refine continuous_const.mul (Continuous.dotProduct ?_ ?_) <;>
      exact ((h1 _).sub continuous_const).add continuous_const
  · refine continuous_const.mul (continuous_finsetSum _ fun i _ => ?_)
    exact ((((h2 i).sub continuous_const).add continuous_const).max continuous_const).pow 2

theorem norm_le_euclid' {n : Nat} (x : Fin n → ℝ) : ‖x‖ ≤ euclid x :=
  (pi_norm_le_iff_of_nonneg (euclid_nonneg x)).2 fun i => by
    rw [Real.norm_eq_abs]; exact abs_le_euclid x i

/-- The penalty function has a minimiser. -/
theorem Convex.penalty_min (hc : q.Convex) {sigma : ℝ} (hs : 0 < sigma) (zb lb vb) :
    ∃ z, ∀ z', q.penalty sigma zb lb vb z ≤ q.penalty sigma zb lb vb z' := by
  set g := euclid ((2 : ℝ) • q.f - (2 * sigma) • zb) with hg
  have hg0 : 0 ≤ g := euclid_nonneg _
  set P0 := |q.penalty sigma zb lb vb 0| with hP0
  have hlow : ∀ z, sigma * (euclid z * euclid z) - g * euclid z ≤ q.penalty sigma zb lb vb z := by
    intro z
    have e1 := hc.nonneg z
    have e2 := (abs_le.1 (abs_dot_le_euclid ((2 : ℝ) • q.f - (2 * sigma) • zb) z)).1
    have e3 := mul_nonneg hs.le (dot_self_nonneg zb)
    have e4 := mul_nonneg (inv_nonneg.2 hs.le) (dot_self_nonneg (q.G *ᵥ z - q.h + sigma • lb))
    have e5 : 0 ≤ sigma⁻¹ * ∑ i, max ((q.A *ᵥ z) i - q.b i + sigma * vb i) 0 ^ 2 :=
      mul_nonneg (inv_nonneg.2 hs.le) (Finset.sum_nonneg fun i _ => sq_nonneg _)
    have e6 : sigma * ((z - zb) ⬝ᵥ (z - zb)) = sigma * (euclid z * euclid z) -
        (2 * sigma) * (zb ⬝ᵥ z) + sigma * (zb ⬝ᵥ zb) := by
      rw [euclid_sq, sub_dotProduct, dotProduct_sub, dotProduct_sub, dotProduct_comm z zb]; ring
    rw [sub_dotProduct, smul_dotProduct, smul_dotProduct, smul_eq_mul, smul_eq_mul] at e2
    unfold penalty objective
    rw [e6]
    linarith
  set R := (g + P0) / sigma + 1 with hR
  have hR1 : 1 ≤ R := by
    have : 0 ≤ (g + P0) / sigma := by positivity
    linarith
  obtain ⟨z, hz, hmin⟩ := (isCompact_closedBall (0 : Fin nz → ℝ) R).exists_isMinOn
    ⟨0, by simp; linarith⟩ (q.penalty_continuous sigma zb lb vb).continuousOn
  have h0 : q.penalty sigma zb lb vb z ≤ q.penalty sigma zb lb vb 0 := hmin (by simp; linarith)
  refine ⟨z, fun z' => ?_⟩
  by_cases hz' : z' ∈ Metric.closedBall (0 : Fin nz → ℝ) R
  · exact hmin hz'
  · rw [mem_closedBall_zero_iff, not_le] at hz'
    refine h0.trans ((le_abs_self _).trans (le_trans ?_ (hlow z')))
    have h1 : R ≤ euclid z' := hz'.le.trans (norm_le_euclid' z')
    have h2 : g + P0 ≤ sigma * euclid z' := by
      have h3 := mul_le_mul_of_nonneg_left h1 hs.le
      have h4 : sigma * R = g + P0 + sigma := by rw [hR]; field_simp
      linarith
    have h3 : P0 ≤ sigma * euclid z' - g := by linarith
    have h4 : 0 ≤ sigma * euclid z' - g := le_trans (abs_nonneg _) h3
    nlinarith

theorem pos_sq_le (x h : ℝ) : max (x + h) 0 ^ 2 ≤ max x 0 ^ 2 + 2 * max x 0 * h + h ^ 2 := by
  have h1 := le_max_left x 0
  have h2 := le_max_right x 0
  have h3 : max (x + h) 0 ^ 2 ≤ (max x 0 + h) ^ 2 := by
    rcases le_total (x + h) 0 with h4 | h4
    · rw [max_eq_right h4]; nlinarith [sq_nonneg (max x 0 + h)]
    · rw [max_eq_left h4]
      exact pow_le_pow_left₀ h4 (by linarith) 2
  nlinarith

/-- The proximal subproblem has a solution. -/
theorem Convex.exists_prox (hc : q.Convex) {sigma : ℝ} (hs : 0 < sigma) (zb lb vb) :
    ∃ z l v, q.ProxKKT sigma zb lb vb z l v := by
  obtain ⟨z, hz⟩ := hc.penalty_min hs zb lb vb
  set l : Fin nl → ℝ := lb + sigma⁻¹ • (q.G *ᵥ z - q.h) with hl
  set v : Fin nv → ℝ := fun i => sigma⁻¹ * max ((q.A *ᵥ z) i - q.b i + sigma * vb i) 0 with hv
  have hlr : q.G *ᵥ z - q.h + sigma • lb = sigma • l := by
    rw [hl, smul_add, smul_smul, mul_inv_cancel₀ hs.ne', one_smul]; abel
  have hvr : ∀ i, max ((q.A *ᵥ z) i - q.b i + sigma * vb i) 0 = sigma * v i := by
    intro i
    show _ = sigma * (sigma⁻¹ * _)
    rw [← mul_assoc, mul_inv_cancel₀ hs.ne', one_mul]
  set grad := q.lagrangeGrad z l v + sigma • (z - zb) with hgrad
  have hkey : ∀ d : Fin nz → ℝ, ∃ C : ℝ, ∀ t : ℝ, 0 ≤ 2 * t * (grad ⬝ᵥ d) + t ^ 2 * C := by
    intro d
    refine ⟨d ⬝ᵥ q.H *ᵥ d + sigma * (d ⬝ᵥ d) + sigma⁻¹ * ((q.G *ᵥ d) ⬝ᵥ (q.G *ᵥ d)) +
      sigma⁻¹ * ((q.A *ᵥ d) ⬝ᵥ (q.A *ᵥ d)), fun t => ?_⟩
    have h1 := hz (z + t • d)
    have a1 : 2 * q.objective (z + t • d) = 2 * q.objective z + 2 * t * ((q.H *ᵥ z + q.f) ⬝ᵥ d) +
        t ^ 2 * (d ⬝ᵥ q.H *ᵥ d) := by
      have h2 : z ⬝ᵥ q.H *ᵥ d = (q.H *ᵥ z) ⬝ᵥ d := by
        conv_rhs => rw [← hc.symm.eq, transpose_dot]
      unfold objective
      rw [mulVec_add, mulVec_smul, add_dotProduct, dotProduct_add, dotProduct_add, dotProduct_add,
        dotProduct_smul, dotProduct_smul, dotProduct_smul, smul_dotProduct, smul_dotProduct, h2,
        add_dotProduct, dotProduct_comm d (q.H *ᵥ z)]
      simp only [smul_eq_mul]
      ring
    have a2 : (z + t • d - zb) ⬝ᵥ (z + t • d - zb) = (z - zb) ⬝ᵥ (z - zb) + 2 * t * ((z - zb) ⬝ᵥ d) +
        t ^ 2 * (d ⬝ᵥ d) := by
      rw [add_sub_right_comm, add_dotProduct, dotProduct_add, dotProduct_add, dotProduct_smul,
        smul_dotProduct, smul_dotProduct, dotProduct_smul, dotProduct_comm d (z - zb)]
      simp only [smul_eq_mul]
      ring
    have a3 : (q.G *ᵥ (z + t • d) - q.h + sigma • lb) ⬝ᵥ (q.G *ᵥ (z + t • d) - q.h + sigma • lb) =
        (q.G *ᵥ z - q.h + sigma • lb) ⬝ᵥ (q.G *ᵥ z - q.h + sigma • lb) +
          2 * t * (sigma * (l ⬝ᵥ (q.G *ᵥ d))) + t ^ 2 * ((q.G *ᵥ d) ⬝ᵥ (q.G *ᵥ d)) := by
      rw [mulVec_add, mulVec_smul, show q.G *ᵥ z + t • q.G *ᵥ d - q.h + sigma • lb =
        (q.G *ᵥ z - q.h + sigma • lb) + t • q.G *ᵥ d by abel, hlr]
      simp only [add_dotProduct, dotProduct_add, dotProduct_smul, smul_dotProduct, smul_eq_mul,
        dotProduct_comm (q.G *ᵥ d) l]
      ring
    have a4 : ∑ i, max ((q.A *ᵥ (z + t • d)) i - q.b i + sigma * vb i) 0 ^ 2 ≤
        ∑ i, max ((q.A *ᵥ z) i - q.b i + sigma * vb i) 0 ^ 2 +
          2 * t * (sigma * (v ⬝ᵥ (q.A *ᵥ d))) + t ^ 2 * ((q.A *ᵥ d) ⬝ᵥ (q.A *ᵥ d)) := by
      rw [dotProduct, dotProduct, Finset.mul_sum, Finset.mul_sum, Finset.mul_sum,
        ← Finset.sum_add_distrib, ← Finset.sum_add_distrib]
      refine Finset.sum_le_sum fun i _ => ?_
      have h3 := pos_sq_le ((q.A *ᵥ z) i - q.b i + sigma * vb i) (t * (q.A *ᵥ d) i)
      have e : (q.A *ᵥ (z + t • d)) i - q.b i + sigma * vb i =
          (q.A *ᵥ z) i - q.b i + sigma * vb i + t * (q.A *ᵥ d) i := by
        rw [mulVec_add, mulVec_smul, Pi.add_apply, Pi.smul_apply, smul_eq_mul]; ring
      rw [e]
      refine h3.trans (le_of_eq ?_)
      rw [hvr i]
      ring
    have a5 : grad ⬝ᵥ d = (q.H *ᵥ z + q.f) ⬝ᵥ d + l ⬝ᵥ (q.G *ᵥ d) + v ⬝ᵥ (q.A *ᵥ d) +
        sigma * ((z - zb) ⬝ᵥ d) := by
      rw [hgrad, lagrangeGrad, add_dotProduct, add_dotProduct, add_dotProduct, transpose_dot,
        transpose_dot, smul_dotProduct, smul_eq_mul]
    unfold penalty at h1
    rw [a1, a2, a3] at h1
    have a6 := mul_le_mul_of_nonneg_left a4 (inv_nonneg.2 hs.le)
    have a7 : sigma⁻¹ * (2 * t * (sigma * (l ⬝ᵥ (q.G *ᵥ d)))) = 2 * t * (l ⬝ᵥ (q.G *ᵥ d)) := by
      field_simp
    have a8 : sigma⁻¹ * (2 * t * (sigma * (v ⬝ᵥ (q.A *ᵥ d)))) = 2 * t * (v ⬝ᵥ (q.A *ᵥ d)) := by
      field_simp
    rw [mul_add, mul_add, a8] at a6
    rw [mul_add sigma⁻¹, mul_add sigma⁻¹, a7] at h1
    rw [a5]
    linarith
  have hgrad0 : grad = 0 := by
    obtain ⟨C, hC⟩ := hkey (-grad)
    have hn : 0 ≤ grad ⬝ᵥ grad := dot_self_nonneg _
    rw [← dot_self_eq_zero]
    by_contra hne
    have hpos : 0 < grad ⬝ᵥ grad := lt_of_le_of_ne hn (Ne.symm hne)
    have h1 := hC ((grad ⬝ᵥ grad) / (|C| + 1))
    rw [dotProduct_neg] at h1
    set n := grad ⬝ᵥ grad with hn'
    have hC1 : 0 < |C| + 1 := by positivity
    have h2 : (n / (|C| + 1)) ^ 2 * C ≤ n / (|C| + 1) * n := by
      have : n / (|C| + 1) * C ≤ n := by
        rw [div_mul_eq_mul_div, div_le_iff₀ hC1]
        have := le_abs_self C
        nlinarith
      rw [sq, mul_assoc]
      exact mul_le_mul_of_nonneg_left this (by positivity)
    have h3 : 0 < n / (|C| + 1) * n := by positivity
    nlinarith
  refine ⟨z, l, v, hgrad0, ?_, fun i => ?_, fun i => ?_, fun i => ?_⟩
  · have := hlr
    funext i
    have := congrFun hlr i
    simp only [Pi.add_apply, Pi.sub_apply, Pi.smul_apply, smul_eq_mul, Pi.zero_apply] at this ⊢
    linarith
  · have := hvr i
    have := le_max_left ((q.A *ᵥ z) i - q.b i + sigma * vb i) 0
    linarith
  · exact mul_nonneg (inv_nonneg.2 hs.le) (le_max_right _ _)
  · have h1 := hvr i
    rcases le_total ((q.A *ᵥ z) i - q.b i + sigma * vb i) 0 with h | h
    · left
      rw [max_eq_right h] at h1
      exact (mul_eq_zero.1 h1.symm).resolve_left hs.ne'
    · right
      rw [max_eq_left h] at h1
      linarith

end QP
end Fbstab
