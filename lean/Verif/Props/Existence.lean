import Verif.Props.Detection

/-!
# C58: which problems have solutions

The convergence theorems (C47, C48) speak of KKT points.  A convex quadratic program has one exactly if it is feasible
and its objective is bounded below on the feasible set (Frank and Wolfe).
-/

namespace Fbstab
open Matrix
namespace QP
variable {nz nl nv : Nat} {q : QP nz nl nv}

/-- Along a direction of recession the objective is affine. -/
theorem Recession.objective (hs : q.H.IsSymm) {d} (h : q.Recession d) (z : Fin nz → ℝ) (t : ℝ) :
    q.objective (z + t • d) = q.objective z + t * (q.f ⬝ᵥ d) := by
  unfold QP.objective
  have e1 : q.H *ᵥ (z + t • d) = q.H *ᵥ z := by
    rw [mulVec_add, mulVec_smul, h.flat, smul_zero, add_zero]
  have e2 : d ⬝ᵥ q.H *ᵥ z = 0 := by
    rw [← QP.transpose_dot, show q.Hᵀ = q.H from hs, h.flat, zero_dotProduct]
  rw [e1, add_dotProduct, smul_dotProduct, e2, dotProduct_add, dotProduct_smul]
  simp only [smul_eq_mul]
  ring

theorem Recession.feasible {d} (h : q.Recession d) {z : Fin nz → ℝ} (hz : q.Feasible z) {t : ℝ} (ht : 0 ≤ t) :
    q.Feasible (z + t • d) where
  eq := by rw [mulVec_add, mulVec_smul, h.eq, smul_zero, add_zero, hz.eq]
  ineq i := by
    rw [mulVec_add, mulVec_smul]
    have h1 := hz.ineq i
    have h2 := mul_nonneg ht (neg_nonneg.2 (h.ineq i))
    simp only [Pi.add_apply, Pi.smul_apply, smul_eq_mul]
    linarith

end QP

/-- C58: a convex problem has a KKT point exactly if it has a minimiser, and exactly if it is feasible and its
objective is bounded below on the feasible set. -/
theorem C58_minimiser {nz nl nv : Nat} (q : QP nz nl nv) (hc : q.Convex) :
    ((∃ z l v, q.KKT z l v) ↔ ∃ z, q.Minimiser z) ∧
    ((∃ z, q.Minimiser z) ↔ (∃ z, q.Feasible z) ∧ ∃ m, ∀ z, q.Feasible z → m ≤ q.objective z) := by
  have h1 : (∃ z l v, q.KKT z l v) → ∃ z, q.Minimiser z := fun ⟨z, l, v, h⟩ => ⟨z, h.minimiser hc⟩
  have h2 : (∃ z, q.Minimiser z) → (∃ z, q.Feasible z) ∧ ∃ m, ∀ z, q.Feasible z → m ≤ q.objective z :=
    fun ⟨z, h⟩ => ⟨⟨z, h.feasible⟩, q.objective z, h.le⟩
  have h3 : (∃ z, q.Feasible z) ∧ (∃ m, ∀ z, q.Feasible z → m ≤ q.objective z) → ∃ z l v, q.KKT z l v := by
    rintro ⟨⟨z, hz⟩, m, hm⟩
    obtain ⟨ha, -, hd⟩ := C58_alternative q hc
    refine ha.2 ⟨⟨z, hz⟩, hd.2 ?_⟩
    rintro ⟨d, h⟩
    have hs : 0 < -(q.f ⬝ᵥ d) := neg_pos.2 h.descent
    have hle := hm z hz
    have ht : 0 ≤ (q.objective z - m + 1) / -(q.f ⬝ᵥ d) := div_nonneg (by linarith) hs.le
    have h4 := hm _ (h.feasible hz ht)
    rw [h.objective hc.symm] at h4
    have h5 : (q.objective z - m + 1) / -(q.f ⬝ᵥ d) * -(q.f ⬝ᵥ d) = q.objective z - m + 1 :=
      div_mul_cancel₀ _ hs.ne'
    linarith
  exact ⟨⟨h1, fun h => h3 (h2 h)⟩, ⟨h2, fun h => h1 (h3 h)⟩⟩

end Fbstab
