import Verif.Proofs.RealCore

/-!
# The feasibility check over the reals
-/

namespace Fbstab
open Matrix

theorem foldl_max_le {n : Nat} (f : Fin n → ℝ) (c m : ℝ) :
    Fin.foldl n (fun acc i => max acc (f i)) c ≤ m ↔ c ≤ m ∧ ∀ i, f i ≤ m := by
  induction n generalizing c with
  | zero => simp
  | succ n ih =>
    rw [Fin.foldl_succ, ih, max_le_iff, Fin.forall_fin_succ, and_assoc]

theorem Vec.lpNormInf_eq {n : Nat} (x : Vec ℝ n) : x.lpNormInf = ‖x.fn‖ := by
  have key : ∀ m, x.lpNormInf ≤ m ↔ ‖x.fn‖ ≤ m := by
    intro m
    simp only [Vec.lpNormInf, cmax_eq_max, cabs_eq_abs]
    rw [foldl_max_le]
    by_cases h0 : 0 ≤ m
    · rw [pi_norm_le_iff_of_nonneg h0]
      simp [h0]
    · constructor
      · rintro ⟨h, -⟩; exact absurd h h0
      · intro h; exact absurd (le_trans (_root_.norm_nonneg _) h) h0
  exact le_antisymm ((key _).2 le_rfl) ((key _).1 le_rfl)

theorem Vec.maxCoeff_le {n : Nat} (x : Vec ℝ n) (m : ℝ) (hm : 0 ≤ m) :
    x.maxCoeff ≤ m ↔ ∀ i, x i ≤ m := by
  cases n with
  | zero => simp [Vec.maxCoeff, hm]
  | succ n =>
    simp only [Vec.maxCoeff, cmax_eq_max]
    rw [foldl_max_le, Fin.forall_fin_succ]

section
variable {nz nl nv : Nat} {q : QP nz nl nv} {ops : QPOps ℝ nz nl nv}

/-- The check over the reals: it raises a flag exactly for the documented certificates. -/
theorem checkFeasibility_real (I : q.Implements ops) (x : Point ℝ nz nl nv) (tol : ℝ)
    (ht : 0 ≤ tol) (ws : FeasWs ℝ nz nl nv) :
    (((checkFeasibility ops x tol ws).1 = .primalInfeasible ∨
      (checkFeasibility ops x tol ws).1 = .both) ↔ q.PrimalCertificate tol x.l.fn x.v.fn) ∧
    (((checkFeasibility ops x tol ws).1 = .dualInfeasible ∨
      (checkFeasibility ops x tol ws).1 = .both) ↔ q.DualCertificate tol x.z.fn) := by
  have e1 : (ops.gemvA x.z 1 0 ws.tv).fn = q.A *ᵥ x.z.fn := by
    rw [I.gemvA]; simp
  have e2 : (ops.gemvG x.z 1 0 ws.tl).fn = q.G *ᵥ x.z.fn := by
    rw [I.gemvG]; simp
  have e3 : (ops.gemvH x.z 1 0 ws.tz).fn = q.H *ᵥ x.z.fn := by
    rw [I.gemvH]; simp
  have e4 : (ops.axpyf 1 (Vec.const 0)).fn = q.f := by
    rw [I.axpyf]; ext i; simp
  have e5 : (ops.gemvGT x.l 1 1 (ops.gemvAT x.v 1 1 (Vec.const 0))).fn =
      q.Aᵀ *ᵥ x.v.fn + q.Gᵀ *ᵥ x.l.fn := by
    rw [I.gemvGT, I.gemvAT]; ext i; simp; ring
  have e6 : (ops.axpyb 1 (Vec.const 0)).fn = q.b := by
    rw [I.axpyb]; ext i; simp
  have e7 : (ops.axpyh 1 (Vec.const 0)).fn = q.h := by
    rw [I.axpyh]; ext i; simp
  have hw : 0 ≤ ‖x.z.fn‖ * tol := mul_nonneg (norm_nonneg _) ht
  have hP : q.PrimalCertificate tol x.l.fn x.v.fn ↔
      (‖q.Aᵀ *ᵥ x.v.fn + q.Gᵀ *ᵥ x.l.fn‖ ≤ tol * max ‖x.v.fn‖ ‖x.l.fn‖ ∧
        q.h ⬝ᵥ x.l.fn + q.b ⬝ᵥ x.v.fn < 0) :=
    ⟨fun h => ⟨h.small, by have := h.neg; linarith⟩, fun h => ⟨h.1, by have := h.2; linarith⟩⟩
  have hA : (ops.gemvA x.z 1 0 ws.tv).maxCoeff ≤ ‖x.z.fn‖ * tol ↔
      ∀ i, (q.A *ᵥ x.z.fn) i ≤ tol * ‖x.z.fn‖ := by
    rw [Vec.maxCoeff_le _ _ hw, mul_comm]
    refine forall_congr' fun i => ?_
    rw [← e1]; rfl
  have hD : q.DualCertificate tol x.z.fn ↔
      ((((ops.gemvA x.z 1 0 ws.tv).maxCoeff ≤ ‖x.z.fn‖ * tol ∧
        ‖q.G *ᵥ x.z.fn‖ ≤ tol * ‖x.z.fn‖) ∧ ‖q.H *ᵥ x.z.fn‖ ≤ tol * ‖x.z.fn‖) ∧
        q.f ⬝ᵥ x.z.fn < 0) ∧ 1e-14 < ‖x.z.fn‖ := by
    rw [hA]
    exact ⟨fun h => ⟨⟨⟨⟨h.ineq, h.eq⟩, h.flat⟩, h.descent⟩, h.nonzero⟩,
      fun h => ⟨h.1.1.1.1, h.1.1.1.2, h.1.1.2, h.1.2, h.2⟩⟩
  rw [hP, hD]
  simp only [checkFeasibility, Vec.lpNormInf_eq, Vec.dot_eq, e2, e3, e4, e5, e6, e7, cmax_eq_max,
    ← Bool.decide_and]
  by_cases hp : ‖q.Aᵀ *ᵥ x.v.fn + q.Gᵀ *ᵥ x.l.fn‖ ≤ tol * max ‖x.v.fn‖ ‖x.l.fn‖ ∧
        q.h ⬝ᵥ x.l.fn + q.b ⬝ᵥ x.v.fn < 0 <;>
  by_cases hd : ((((ops.gemvA x.z 1 0 ws.tv).maxCoeff ≤ ‖x.z.fn‖ * tol ∧
        ‖q.G *ᵥ x.z.fn‖ ≤ tol * ‖x.z.fn‖) ∧ ‖q.H *ᵥ x.z.fn‖ ≤ tol * ‖x.z.fn‖) ∧
        q.f ⬝ᵥ x.z.fn < 0) ∧ 1e-14 < ‖x.z.fn‖ <;>
  simp [hp, hd]

end

/-! ## What certificates prove -/

namespace QP
variable {nz nl nv : Nat} {q : QP nz nl nv}

theorem abs_dot_le_norm {n : Nat} (x y : Fin n → ℝ) : |x ⬝ᵥ y| ≤ ‖x‖ * ∑ i, |y i| := by
  rw [dotProduct, Finset.mul_sum]
  refine le_trans (Finset.abs_sum_le_sum_abs _ _) (Finset.sum_le_sum fun i _ => ?_)
  rw [abs_mul]
  exact mul_le_mul_of_nonneg_right (norm_le_pi_norm x i) (abs_nonneg _)

/-- Every feasible point is far away from the origin if there is a certificate with `v >= 0`. -/
theorem PrimalCertificate.far {tol : ℝ} {l v} (h : q.PrimalCertificate tol l v)
    (hv : ∀ i, 0 ≤ v i) {z} (hz : q.Feasible z) :
    |q.b ⬝ᵥ v + q.h ⬝ᵥ l| ≤ tol * max ‖v‖ ‖l‖ * ∑ i, |z i| := by
  have h1 : (q.Aᵀ *ᵥ v + q.Gᵀ *ᵥ l) ⬝ᵥ z = v ⬝ᵥ (q.A *ᵥ z) + l ⬝ᵥ q.h := by
    rw [add_dotProduct, transpose_dot, transpose_dot, hz.eq]
  have h2 : v ⬝ᵥ (q.A *ᵥ z) ≤ q.b ⬝ᵥ v := by
    rw [dotProduct_comm q.b]
    exact Finset.sum_le_sum fun i _ => mul_le_mul_of_nonneg_left (hz.ineq i) (hv i)
  have h3 := abs_dot_le_norm (q.Aᵀ *ᵥ v + q.Gᵀ *ᵥ l) z
  have h4 : ‖q.Aᵀ *ᵥ v + q.Gᵀ *ᵥ l‖ * ∑ i, |z i| ≤ tol * max ‖v‖ ‖l‖ * ∑ i, |z i| :=
    mul_le_mul_of_nonneg_right h.small (Finset.sum_nonneg fun i _ => abs_nonneg _)
  rw [h1] at h3
  have h5 := (abs_le.1 h3).1
  rw [abs_of_neg h.neg]
  rw [dotProduct_comm l] at h5
  linarith

/-- An exact certificate with `v >= 0` proves that the constraints are inconsistent. -/
theorem PrimalCertificate.infeasible {l v} (h : q.PrimalCertificate 0 l v) (hv : ∀ i, 0 ≤ v i)
    (z) : ¬q.Feasible z := by
  intro hz
  have h1 := h.far hv hz
  rw [zero_mul, zero_mul, abs_of_neg h.neg] at h1
  have := h.neg
  linarith

/-- Every KKT point is far away from the origin if there is a certificate of dual infeasibility. -/
theorem DualCertificate.far (hs : q.H.IsSymm) {tol : ℝ} {d} (h : q.DualCertificate tol d) {z l v}
    (hk : q.KKT z l v) :
    |q.f ⬝ᵥ d| ≤ tol * ‖d‖ * (∑ i, |z i| + ∑ i, |l i| + ∑ i, |v i|) := by
  have h1 : q.lagrangeGrad z l v ⬝ᵥ d = (q.H *ᵥ d) ⬝ᵥ z + q.f ⬝ᵥ d + (q.G *ᵥ d) ⬝ᵥ l +
      (q.A *ᵥ d) ⬝ᵥ v := by
    have : (q.H *ᵥ z) ⬝ᵥ d = (q.H *ᵥ d) ⬝ᵥ z := by
      conv_lhs => rw [← hs.eq]
      rw [transpose_dot, dotProduct_comm]
    rw [lagrangeGrad, add_dotProduct, add_dotProduct, add_dotProduct, transpose_dot, transpose_dot,
      this, dotProduct_comm l, dotProduct_comm v]
  rw [hk.stationary, zero_dotProduct] at h1
  have n1 : ∀ {n : Nat} (y : Fin n → ℝ), 0 ≤ ∑ i, |y i| := fun y =>
    Finset.sum_nonneg fun i _ => abs_nonneg _
  have h2 := le_trans (le_abs_self _) (abs_dot_le_norm (q.H *ᵥ d) z)
  have h3 := le_trans (le_abs_self _) (abs_dot_le_norm (q.G *ᵥ d) l)
  have h4 : (q.A *ᵥ d) ⬝ᵥ v ≤ tol * ‖d‖ * ∑ i, |v i| := by
    rw [dotProduct, Finset.mul_sum]
    refine Finset.sum_le_sum fun i _ => ?_
    rw [abs_of_nonneg (hk.dual i)]
    exact mul_le_mul_of_nonneg_right (h.ineq i) (hk.dual i)
  have h5 := mul_le_mul_of_nonneg_right h.flat (n1 z)
  have h6 := mul_le_mul_of_nonneg_right h.eq (n1 l)
  rw [abs_of_neg h.descent]
  linarith

/-- An exact certificate proves that the objective is unbounded below on a nonempty feasible set. -/
theorem DualCertificate.unbounded {d} (h : q.DualCertificate 0 d) {z} (hz : q.Feasible z)
    (hs : q.H.IsSymm) (M : ℝ) : ∃ z', q.Feasible z' ∧ q.objective z' < M := by
  have hG : q.G *ᵥ d = 0 := by
    have := h.eq
    rw [zero_mul] at this
    exact norm_eq_zero.1 (le_antisymm this (norm_nonneg _))
  have hH : q.H *ᵥ d = 0 := by
    have := h.flat
    rw [zero_mul] at this
    exact norm_eq_zero.1 (le_antisymm this (norm_nonneg _))
  have hA : ∀ i, (q.A *ᵥ d) i ≤ 0 := fun i => by simpa using h.ineq i
  have hf := h.descent
  have obj : ∀ t : ℝ, q.objective (z + t • d) = q.objective z + t * (q.f ⬝ᵥ d) := by
    intro t
    have e1 : d ⬝ᵥ q.H *ᵥ z = 0 := by
      rw [dotProduct_comm]
      conv_lhs => rw [← hs.eq]
      rw [transpose_dot, hH, dotProduct_zero]
    unfold objective
    rw [mulVec_add, mulVec_smul, hH, smul_zero, add_zero, add_dotProduct, smul_dotProduct, e1,
      dotProduct_add, dotProduct_smul]
    simp only [smul_eq_mul]
    ring
  have hneg : 0 < -(q.f ⬝ᵥ d) := by linarith
  have ht : 0 ≤ |q.objective z - M| + 1 := by positivity
  refine ⟨z + ((|q.objective z - M| + 1) / -(q.f ⬝ᵥ d)) • d, ⟨?_, fun i => ?_⟩, ?_⟩
  · rw [mulVec_add, mulVec_smul, hG, smul_zero, add_zero, hz.eq]
  · rw [mulVec_add, mulVec_smul, Pi.add_apply, Pi.smul_apply, smul_eq_mul]
    have h1 : (|q.objective z - M| + 1) / -(q.f ⬝ᵥ d) * (q.A *ᵥ d) i ≤ 0 :=
      mul_nonpos_of_nonneg_of_nonpos (by positivity) (hA i)
    have := hz.ineq i
    linarith
  · rw [obj]
    have e : (|q.objective z - M| + 1) / -(q.f ⬝ᵥ d) * (q.f ⬝ᵥ d) = -(|q.objective z - M| + 1) := by
      have : q.f ⬝ᵥ d ≠ 0 := hf.ne
      field_simp
    rw [e]
    have := le_abs_self (q.objective z - M)
    linarith

end QP
end Fbstab
