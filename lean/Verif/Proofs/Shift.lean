import Verif.Spec.Shift
import Verif.Proofs.Outer
import Verif.Proofs.NewtonMath
import Verif.Proofs.Certificates
import Verif.Props.Infeasible

/-!
# Proximal steps on a problem without a solution

The differences of the iterates approach the smallest shift divided by sigma.
-/

namespace Fbstab
open Matrix

namespace QP
variable {nz nl nv : Nat} {q : QP nz nl nv}

theorem nonneg_sum_zero {n : Nat} {a b : Fin n → ℝ} (ha : ∀ i, 0 ≤ a i) (hb : ∀ i, 0 ≤ b i)
    (h : a ⬝ᵥ b = 0) (i : Fin n) : a i * b i = 0 :=
  (Finset.sum_eq_zero_iff_of_nonneg fun i _ => mul_nonneg (ha i) (hb i)).1 h i (Finset.mem_univ i)

/-- Along the shift the shifted problem stays solved. -/
theorem LeastShift.ray {sz : Fin nz → ℝ} {sl : Fin nl → ℝ} {sv : Fin nv → ℝ}
    (hs : q.LeastShift sz sl sv) (hH : q.H.IsSymm) {z l v}
    (hk : (q.shifted sz sl sv).KKT z l v) {t : ℝ} (ht : 0 ≤ t) :
    (q.shifted sz sl sv).KKT (z + t • sz) (l + t • sl) (v + t • sv) := by
  have hst := hk.stationary
  have heq : q.G *ᵥ z = q.h + sl := hk.feasible.eq
  have hin : ∀ i, (q.A *ᵥ z) i ≤ q.b i + sv i := hk.feasible.ineq
  have e1 : sv ⬝ᵥ (q.b + sv - q.A *ᵥ z) = 0 := by
    have h1 : (q.Gᵀ *ᵥ sl + q.Aᵀ *ᵥ sv) ⬝ᵥ z = 0 := by rw [hs.cancel, zero_dotProduct]
    rw [add_dotProduct, transpose_dot, transpose_dot, heq, dotProduct_add] at h1
    have h2 := hs.violation
    rw [dotProduct_sub, dotProduct_add, dotProduct_comm sv q.b]
    rw [dotProduct_comm q.h] at h2
    linarith
  have c1 := nonneg_sum_zero hs.sign (b := q.b + sv - q.A *ᵥ z) (fun i => by
    have := hin i
    simp only [Pi.sub_apply, Pi.add_apply]; linarith) e1
  have e2 : v ⬝ᵥ (-(q.A *ᵥ sz)) = 0 := by
    have h1 : (q.shifted sz sl sv).lagrangeGrad z l v ⬝ᵥ sz = 0 := by rw [hst, zero_dotProduct]
    have h2 : (q.H *ᵥ z) ⬝ᵥ sz = 0 := by
      conv_lhs => rw [← hH.eq]
      rw [transpose_dot, hs.flat, dotProduct_zero]
    change (q.H *ᵥ z + (q.f + sz) + q.Gᵀ *ᵥ l + q.Aᵀ *ᵥ v) ⬝ᵥ sz = 0 at h1
    rw [add_dotProduct, add_dotProduct, add_dotProduct, add_dotProduct, transpose_dot, transpose_dot, h2,
      hs.eq, dotProduct_zero, hs.slope] at h1
    rw [dotProduct_neg]
    linarith
  have c2 := nonneg_sum_zero hk.dual (b := -(q.A *ᵥ sz)) (fun i => by
    have := hs.ineq i
    simp only [Pi.neg_apply]; linarith) e2
  have e3 : sv ⬝ᵥ (-(q.A *ᵥ sz)) = 0 := by
    have h1 : (q.Gᵀ *ᵥ sl + q.Aᵀ *ᵥ sv) ⬝ᵥ sz = 0 := by rw [hs.cancel, zero_dotProduct]
    rw [add_dotProduct, transpose_dot, transpose_dot, hs.eq, dotProduct_zero] at h1
    rw [dotProduct_neg]
    linarith
  have c3 := nonneg_sum_zero hs.sign (b := -(q.A *ᵥ sz)) (fun i => by
    have := hs.ineq i
    simp only [Pi.neg_apply]; linarith) e3
  refine ⟨?_, ⟨?_, fun i => ?_⟩, fun i => ?_, fun i => ?_⟩
  · change q.H *ᵥ z + (q.f + sz) + q.Gᵀ *ᵥ l + q.Aᵀ *ᵥ v = 0 at hst
    show q.H *ᵥ (z + t • sz) + (q.f + sz) + q.Gᵀ *ᵥ (l + t • sl) + q.Aᵀ *ᵥ (v + t • sv) = 0
    rw [mulVec_add, mulVec_add, mulVec_add, mulVec_smul, mulVec_smul, mulVec_smul, hs.flat, smul_zero]
    have h1 : t • (q.Gᵀ *ᵥ sl + q.Aᵀ *ᵥ sv) = 0 := by rw [hs.cancel, smul_zero]
    rw [smul_add] at h1
    calc _ = (q.H *ᵥ z + (q.f + sz) + q.Gᵀ *ᵥ l + q.Aᵀ *ᵥ v) +
          (t • q.Gᵀ *ᵥ sl + t • q.Aᵀ *ᵥ sv) := by abel
      _ = 0 := by rw [hst, h1, add_zero]
  · show q.G *ᵥ (z + t • sz) = q.h + sl
    rw [mulVec_add, mulVec_smul, hs.eq, smul_zero, add_zero, heq]
  · show (q.A *ᵥ (z + t • sz)) i ≤ q.b i + sv i
    rw [mulVec_add, mulVec_smul, Pi.add_apply, Pi.smul_apply, smul_eq_mul]
    have := mul_nonpos_of_nonneg_of_nonpos ht (hs.ineq i)
    have := hin i
    linarith
  · have := mul_nonneg ht (hs.sign i)
    have := hk.dual i
    simp only [Pi.add_apply, Pi.smul_apply, smul_eq_mul]; linarith
  · show v i + t * sv i = 0 ∨ (q.A *ᵥ (z + t • sz)) i = q.b i + sv i
    rw [mulVec_add, mulVec_smul, Pi.add_apply, Pi.smul_apply, smul_eq_mul]
    have d1 := c1 i
    have d2 := c2 i
    have d3 := c3 i
    have d4 := hk.complementary i
    change v i = 0 ∨ (q.A *ᵥ z) i = q.b i + sv i at d4
    simp only [Pi.sub_apply, Pi.add_apply, Pi.neg_apply] at d1 d2 d3
    by_cases h0 : v i = 0 ∧ sv i = 0
    · left; rw [h0.1, h0.2]; ring
    · right
      have hA : (q.A *ᵥ sz) i = 0 := by
        by_contra hne
        have hne' : -(q.A *ᵥ sz) i ≠ 0 := neg_ne_zero.2 hne
        exact h0 ⟨(mul_eq_zero.1 d2).resolve_right hne', (mul_eq_zero.1 d3).resolve_right hne'⟩
      rw [hA, mul_zero, add_zero]
      by_cases hv : v i = 0
      · have := (mul_eq_zero.1 d1).resolve_left fun h => h0 ⟨hv, h⟩
        linarith
      · exact d4.resolve_left hv

/-- Points of the ray are proximal steps from earlier ones. -/
theorem KKT.shifted_prox {sz : Fin nz → ℝ} {sl : Fin nl → ℝ} {sv : Fin nv → ℝ} {z l v}
    (hk : (q.shifted sz sl sv).KKT z l v) {sigma : ℝ} (hs : 0 < sigma) :
    q.ProxKKT sigma (z - sigma⁻¹ • sz) (l - sigma⁻¹ • sl) (v - sigma⁻¹ • sv) z l v where
  stationary := by
    have h := hk.stationary
    change q.H *ᵥ z + (q.f + sz) + q.Gᵀ *ᵥ l + q.Aᵀ *ᵥ v = 0 at h
    rw [sub_sub_cancel, smul_smul, mul_inv_cancel₀ hs.ne', one_smul, ← h, lagrangeGrad]
    abel
  eq := by
    have h : q.G *ᵥ z = q.h + sl := hk.feasible.eq
    rw [sub_sub_cancel, smul_smul, mul_inv_cancel₀ hs.ne', one_smul, h]
    abel
  margin i := by
    have h : (q.A *ᵥ z) i ≤ q.b i + sv i := hk.feasible.ineq i
    have e : sigma * (v i - (v - sigma⁻¹ • sv) i) = sv i := by
      simp only [Pi.sub_apply, Pi.smul_apply, smul_eq_mul]; field_simp; ring
    rw [e]; linarith
  dual := hk.dual
  complementary i := by
    have h := hk.complementary i
    change v i = 0 ∨ (q.A *ᵥ z) i = q.b i + sv i at h
    have e : sigma * (v i - (v - sigma⁻¹ • sv) i) = sv i := by
      simp only [Pi.sub_apply, Pi.smul_apply, smul_eq_mul]; field_simp; ring
    rw [e]
    rcases h with h | h
    · exact .inl h
    · right; linarith

theorem vec3_inner (z z' : Fin nz → ℝ) (l l' : Fin nl → ℝ) (v v' : Fin nv → ℝ) :
    inner ℝ (vec3 z l v) (vec3 z' l' v') = z ⬝ᵥ z' + l ⬝ᵥ l' + v ⬝ᵥ v' := by
  simp [vec3, PiLp.inner_apply, dotProduct, add_assoc, mul_comm]

/-- The proximal step is firmly nonexpansive. -/
theorem ProxKKT.firm (hc : q.Convex) {sigma : ℝ} (hs : 0 < sigma) {zb lb vb z l v zb' lb' vb' z' l' v'}
    (h1 : q.ProxKKT sigma zb lb vb z l v) (h2 : q.ProxKKT sigma zb' lb' vb' z' l' v') :
    ‖vec3 z l v - vec3 z' l' v'‖ ^ 2 +
      ‖(vec3 z l v - vec3 zb lb vb) - (vec3 z' l' v' - vec3 zb' lb' vb')‖ ^ 2 ≤
      ‖vec3 zb lb vb - vec3 zb' lb' vb'‖ ^ 2 := by
  have hm := Value.monotone hc h1.value h2.value
  have hn := hc.nonneg (z - z')
  have e : inner ℝ ((vec3 zb lb vb - vec3 z l v) - (vec3 zb' lb' vb' - vec3 z' l' v'))
      (vec3 z l v - vec3 z' l' v') * sigma =
      (sigma • (zb - z) - sigma • (zb' - z')) ⬝ᵥ (z - z') +
      (sigma • (lb - l) - sigma • (lb' - l')) ⬝ᵥ (l - l') +
      (sigma • (vb - v) - sigma • (vb' - v')) ⬝ᵥ (v - v') := by
    rw [vec3_sub, vec3_sub, vec3_sub, vec3_sub, vec3_inner, ← smul_sub, ← smul_sub, ← smul_sub,
      smul_dotProduct, smul_dotProduct, smul_dotProduct, smul_eq_mul, smul_eq_mul, smul_eq_mul]
    ring
  have h3 : 0 ≤ inner ℝ ((vec3 zb lb vb - vec3 z l v) - (vec3 zb' lb' vb' - vec3 z' l' v'))
      (vec3 z l v - vec3 z' l' v') := by
    by_contra hcon
    have := mul_neg_of_neg_of_pos (not_le.1 hcon) hs
    linarith
  have e2 : vec3 zb lb vb - vec3 zb' lb' vb' =
      ((vec3 zb lb vb - vec3 z l v) - (vec3 zb' lb' vb' - vec3 z' l' v')) +
        (vec3 z l v - vec3 z' l' v') := by abel
  have e3 : (vec3 z l v - vec3 zb lb vb) - (vec3 z' l' v' - vec3 zb' lb' vb') =
      -((vec3 zb lb vb - vec3 z l v) - (vec3 zb' lb' vb' - vec3 z' l' v')) := by abel
  rw [e2, norm_add_sq_real, e3, norm_neg]
  linarith

/-- An inexact step compared with an exact one. -/
theorem InexactProx.firm (hc : q.Convex) {sigma alpha eps : ℝ} (hs : 0 < sigma) (ha : 0 < alpha)
    {zb lb vb rz rl m z l v} (h : q.InexactProx sigma zb lb vb rz rl m z l v)
    (hr : ‖vec3 rz rl (0 : Fin nv → ℝ)‖ ≤ eps) (hm : euclid m ≤ 2 * eps / alpha)
    {zb' lb' vb' z' l' v'} (hk : q.ProxKKT sigma zb' lb' vb' z' l' v') :
    ∃ eta mu d Q : ℝ, 0 ≤ eta ∧ 0 ≤ mu ∧ 0 ≤ d ∧ 0 ≤ Q ∧
      eta + mu ≤ q.errFactor alpha sigma * eps ∧
      ‖vec3 z l (fun i => max (v i) 0) - vec3 z' l' v'‖ ≤ d + mu ∧
      d ^ 2 + Q ^ 2 ≤ (‖vec3 zb lb vb - vec3 zb' lb' vb'‖ + eta) ^ 2 ∧
      ‖(vec3 z l (fun i => max (v i) 0) - vec3 zb lb vb) - (vec3 z' l' v' - vec3 zb' lb' vb')‖ ≤
        Q + q.errFactor alpha sigma * eps := by
  obtain ⟨p1, p2⟩ := InexactProx.perturbation (q := q) hs ha hr hm
  have hx := h.exact hs
  set ez := sigma⁻¹ • (rz - q.Aᵀ *ᵥ m) with hez
  set el := sigma⁻¹ • rl with hel
  set ev := sigma⁻¹ • ((1 - sigma) • m) with hev
  have hf := hx.firm hc hs hk
  have hvm : ∀ i, |max (v i) 0 - (v i - m i)| ≤ |m i| := by
    intro i
    have h1 := min_le_right (q.b i - (q.A *ᵥ z) i + sigma * (v i - vb i)) (v i)
    rw [← h.compl i] at h1
    rcases le_total 0 (v i) with hv | hv
    · rw [max_eq_left hv]; simp
    · rw [max_eq_right hv, abs_of_nonpos (h1.trans hv), abs_le]
      constructor <;> linarith
  have hmu : ‖vec3 (0 : Fin nz → ℝ) (0 : Fin nl → ℝ) (fun i => max (v i) 0 - (v i - m i))‖ ≤ euclid m := by
    rw [vec3_v]
    exact euclid_mono hvm
  have ex : vec3 z l (fun i => max (v i) 0) = vec3 z l (v - m) +
      vec3 0 0 (fun i => max (v i) 0 - (v i - m i)) := by
    rw [vec3_add]
    congr 1
    · simp
    · simp
    · ext i; simp
  have eb : vec3 (zb + ez) (lb + el) (vb + ev) = vec3 zb lb vb + vec3 ez el ev := by rw [vec3_add]
  rw [eb] at hf
  refine ⟨‖vec3 ez el ev‖, euclid m, ‖vec3 z l (v - m) - vec3 z' l' v'‖,
    ‖(vec3 z l (v - m) - (vec3 zb lb vb + vec3 ez el ev)) - (vec3 z' l' v' - vec3 zb' lb' vb')‖,
    norm_nonneg _, euclid_nonneg _, norm_nonneg _, norm_nonneg _, p1, ?_, ?_, ?_⟩
  · rw [ex, add_sub_right_comm]
    exact (norm_add_le _ _).trans (add_le_add le_rfl hmu)
  · refine le_trans hf (pow_le_pow_left₀ (norm_nonneg _) ?_ 2)
    rw [add_sub_right_comm]
    exact norm_add_le _ _
  · have e : (vec3 z l (fun i => max (v i) 0) - vec3 zb lb vb) - (vec3 z' l' v' - vec3 zb' lb' vb') =
      ((vec3 z l (v - m) - (vec3 zb lb vb + vec3 ez el ev)) - (vec3 z' l' v' - vec3 zb' lb' vb')) +
        vec3 ez el ev + vec3 0 0 (fun i => max (v i) 0 - (v i - m i)) := by
      rw [ex]; abel
    rw [e]
    refine (norm_add₃_le).trans ?_
    linarith

end QP

namespace QP
variable {nz nl nv : Nat} {q : QP nz nl nv}

theorem norm_le_euclid {n : Nat} (x : Fin n → ℝ) : ‖x‖ ≤ euclid x :=
  (pi_norm_le_iff_of_nonneg (euclid_nonneg x)).2 fun i => by
    rw [Real.norm_eq_abs]; exact abs_le_euclid x i

theorem norm_ge {n : Nat} {x u : Fin n → ℝ} {r : ℝ} (h : euclid (x - u) ≤ r) : ‖u‖ - r ≤ ‖x‖ := by
  have h1 := norm_sub_norm_le u x
  have h2 := (norm_le_euclid (x - u)).trans h
  rw [norm_sub_rev] at h1
  linarith

/-- Steps close to the limiting one are accepted as certificates of primal infeasibility. -/
theorem PrimalMargin.certificate {sz : Fin nz → ℝ} {sl : Fin nl → ℝ} {sv : Fin nv → ℝ}
    (hs : q.LeastShift sz sl sv) {tol sigma r : ℝ} (hsig : 0 < sigma) (ht : 0 ≤ tol)
    (hm : q.PrimalMargin tol sigma r (sigma⁻¹ • sl) (sigma⁻¹ • sv)) {l v}
    (hl : euclid (l - sigma⁻¹ • sl) ≤ r) (hv : euclid (v - sigma⁻¹ • sv) ≤ r) :
    q.PrimalCertificate tol l v := by
  set ul := sigma⁻¹ • sl with hul
  set uv := sigma⁻¹ • sv with huv
  have hcan : q.Aᵀ *ᵥ uv + q.Gᵀ *ᵥ ul = 0 := by
    rw [hul, huv, mulVec_smul, mulVec_smul, ← smul_add, add_comm, hs.cancel, smul_zero]
  have hA := q.sizeA_nonneg
  have hG : 0 ≤ q.sizeG := Real.sqrt_nonneg _
  constructor
  · have e : q.Aᵀ *ᵥ v + q.Gᵀ *ᵥ l = q.Aᵀ *ᵥ (v - uv) + q.Gᵀ *ᵥ (l - ul) := by
      rw [mulVec_sub, mulVec_sub]
      calc _ = q.Aᵀ *ᵥ v + q.Gᵀ *ᵥ l - (q.Aᵀ *ᵥ uv + q.Gᵀ *ᵥ ul) := by rw [hcan, sub_zero]
        _ = _ := by abel
    have h1 : ‖q.Aᵀ *ᵥ (v - uv) + q.Gᵀ *ᵥ (l - ul)‖ ≤ (q.sizeA + q.sizeG) * r := by
      refine (norm_add_le _ _).trans ?_
      rw [add_mul]
      refine add_le_add ?_ ?_
      · exact (norm_le_euclid _).trans ((q.sizeA_mul_transpose _).trans (mul_le_mul_of_nonneg_left hv hA))
      · exact (norm_le_euclid _).trans ((q.sizeG_mul_transpose _).trans (mul_le_mul_of_nonneg_left hl hG))
    rw [e]
    refine h1.trans (hm.small.trans (mul_le_mul_of_nonneg_left ?_ ht))
    rw [← max_sub_sub_right]
    exact max_le_max (norm_ge hv) (norm_ge hl)
  · have e : q.b ⬝ᵥ v + q.h ⬝ᵥ l =
        (q.b ⬝ᵥ (v - uv) + q.h ⬝ᵥ (l - ul)) + (q.b ⬝ᵥ uv + q.h ⬝ᵥ ul) := by
      rw [dotProduct_sub, dotProduct_sub]; ring
    have h1 : q.b ⬝ᵥ (v - uv) + q.h ⬝ᵥ (l - ul) ≤ (euclid q.b + euclid q.h) * r := by
      rw [add_mul]
      refine add_le_add ?_ ?_
      · exact (dot_le_euclid _ _).trans (mul_le_mul_of_nonneg_left hv (euclid_nonneg _))
      · exact (dot_le_euclid _ _).trans (mul_le_mul_of_nonneg_left hl (euclid_nonneg _))
    have h2 : q.b ⬝ᵥ uv + q.h ⬝ᵥ ul = -(sigma * (ul ⬝ᵥ ul + uv ⬝ᵥ uv)) := by
      have h3 := hs.violation
      simp only [hul, huv, dotProduct_smul, smul_dotProduct, smul_eq_mul]
      have e4 : sigma⁻¹ * q.b ⬝ᵥ sv + sigma⁻¹ * q.h ⬝ᵥ sl =
        sigma⁻¹ * (q.h ⬝ᵥ sl + q.b ⬝ᵥ sv) := by ring
      rw [e4, h3]
      field_simp
    have := hm.neg
    linarith

/-- Steps close to the limiting one are accepted as certificates of dual infeasibility. -/
theorem DualMargin.certificate {sz : Fin nz → ℝ} {sl : Fin nl → ℝ} {sv : Fin nv → ℝ}
    (hs : q.LeastShift sz sl sv) {tol sigma r : ℝ} (hsig : 0 < sigma) (ht : 0 ≤ tol)
    (hm : q.DualMargin tol sigma r (sigma⁻¹ • sz)) {z}
    (hz : euclid (z - sigma⁻¹ • sz) ≤ r) :
    q.DualCertificate tol z := by
  set uz := sigma⁻¹ • sz with huz
  have hn := norm_ge hz
  have hn' := mul_le_mul_of_nonneg_left hn ht
  have e : ∀ {m : Nat} (B : Matrix (Fin m) (Fin nz) ℝ), B *ᵥ z = B *ᵥ (z - uz) + sigma⁻¹ • (B *ᵥ sz) := by
    intro m B
    rw [mulVec_sub, huz, mulVec_smul]; abel
  have hA := q.sizeA_nonneg
  have hG : 0 ≤ q.sizeG := Real.sqrt_nonneg _
  have hH : 0 ≤ q.sizeH := Real.sqrt_nonneg _
  refine ⟨fun i => ?_, ?_, ?_, ?_, lt_of_lt_of_le hm.nonzero hn⟩
  · rw [e, Pi.add_apply, Pi.smul_apply, smul_eq_mul]
    have h1 := mul_nonpos_of_nonneg_of_nonpos (inv_nonneg.2 hsig.le) (hs.ineq i)
    have h2 := (le_abs_self _).trans (abs_le_euclid (q.A *ᵥ (z - uz)) i)
    have h3 := (q.sizeA_mul (z - uz)).trans (mul_le_mul_of_nonneg_left hz hA)
    have h4 := hm.ineq
    linarith
  · rw [e, hs.eq, smul_zero, add_zero]
    have h3 := (q.sizeG_mul (z - uz)).trans (mul_le_mul_of_nonneg_left hz hG)
    exact (norm_le_euclid _).trans (h3.trans (hm.eq.trans hn'))
  · rw [e, hs.flat, smul_zero, add_zero]
    have h3 := (q.sizeH_mul (z - uz)).trans (mul_le_mul_of_nonneg_left hz hH)
    exact (norm_le_euclid _).trans (h3.trans (hm.flat.trans hn'))
  · have e1 : q.f ⬝ᵥ z = q.f ⬝ᵥ (z - uz) + q.f ⬝ᵥ uz := by rw [dotProduct_sub]; ring
    have h1 := (dot_le_euclid q.f (z - uz)).trans (mul_le_mul_of_nonneg_left hz (euclid_nonneg _))
    have h2 : q.f ⬝ᵥ uz = -(sigma * (uz ⬝ᵥ uz)) := by
      have h3 := hs.slope
      simp only [huz, dotProduct_smul, smul_dotProduct, smul_eq_mul]
      rw [h3]
      field_simp
    have := hm.descent
    linarith

end QP

namespace Core
variable {nz nl nv : Nat} {E : Env ℝ nz nl nv} {q : QP nz nl nv}

/-- One accepted proximal step, compared with an exact one. -/
theorem Accepted.firm (N : NewtonEnv E q) {s : Outer ℝ nz nl nv} {tol o}
    (h : Accepted E q s tol o) {zb' lb' vb' z' l' v'}
    (hk : q.ProxKKT E.opts.sigma0 zb' lb' vb' z' l' v') :
    ∃ eta mu d Q : ℝ, 0 ≤ eta ∧ 0 ≤ mu ∧ 0 ≤ d ∧ 0 ≤ Q ∧
      eta + mu ≤ q.errFactor E.opts.alpha E.opts.sigma0 * tol ∧
      ‖o.x.vec - vec3 z' l' v'‖ ≤ d + mu ∧
      d ^ 2 + Q ^ 2 ≤ (‖s.xk.vec - vec3 zb' lb' vb'‖ + eta) ^ 2 ∧
      ‖(o.x.vec - s.xk.vec) - (vec3 z' l' v' - vec3 zb' lb' vb')‖ ≤
        Q + q.errFactor E.opts.alpha E.opts.sigma0 * tol := by
  obtain ⟨x, hm, hox, hn⟩ := h.ex
  have ha := N.inRange.alpha_pos
  have ha' := N.inRange.alpha_lt
  obtain ⟨i1, i2, i3⟩ := innerRes_fn (E := E) N.ops x s.xk E.opts.sigma0
  have hn' : ‖vec3 (E.innerRes x s.xk E.opts.sigma0).z.fn (E.innerRes x s.xk E.opts.sigma0).l.fn
      (E.innerRes x s.xk E.opts.sigma0).v.fn‖ ≤ tol := by
    rw [← norm3_vec3]; exact hn
  set m : Fin nv → ℝ := fun i => min (q.b i - (q.A *ᵥ x.z.fn) i +
    E.opts.sigma0 * (x.v.fn i - s.xk.v.fn i)) (x.v.fn i) with hmdef
  have hip : q.InexactProx E.opts.sigma0 s.xk.z.fn s.xk.l.fn s.xk.v.fn
      (E.innerRes x s.xk E.opts.sigma0).z.fn (E.innerRes x s.xk E.opts.sigma0).l.fn m
      x.z.fn x.l.fn x.v.fn := ⟨i1.symm, i2.symm, fun i => rfl⟩
  have hr : ‖vec3 (E.innerRes x s.xk E.opts.sigma0).z.fn (E.innerRes x s.xk E.opts.sigma0).l.fn
      (0 : Fin nv → ℝ)‖ ≤ tol :=
    le_trans (vec3_mono (fun i => le_rfl) (fun i => le_rfl) fun i => by simp) hn'
  have hme : euclid m ≤ 2 * tol / E.opts.alpha := by
    have h1 : E.opts.alpha / 2 * euclid m ≤ tol := by
      have e : E.opts.alpha / 2 * euclid m = euclid ((E.opts.alpha / 2) • m) := by
        rw [euclid_smul, abs_of_pos (by positivity)]
      rw [e]
      refine le_trans (euclid_mono (b := (E.innerRes x s.xk E.opts.sigma0).v.fn) fun i => ?_)
        (le_trans (euclid_le_vec3 _ _ _).2.2 hn')
      have e2 : (E.innerRes x s.xk E.opts.sigma0).v.fn i = _ := i3 i
      have hyi : x.y i = q.b i - (q.A *ᵥ x.z.fn) i := congrFun hm i
      rw [e2, hyi, Pi.smul_apply, smul_eq_mul, abs_mul, abs_of_pos (by positivity : 0 < E.opts.alpha / 2)]
      exact pfb_min ha ha' _ _
    rw [le_div_iff₀ ha]
    linarith
  have hvfn : (projectDuals x).v.fn = fun i => max (x.v.fn i) 0 := by
    ext i
    show (x.v.cwiseMax 0) i = _
    simp [Vec.cwiseMax]
  have key := hip.firm N.convex N.inRange.sigma_pos ha hr hme hk
  rw [hox, Point.vec, hvfn]
  exact key

/-- A point of the ray. -/
noncomputable def rayPoint (sigma : ℝ) (zs sz : Fin nz → ℝ) (ls sl : Fin nl → ℝ) (vs sv : Fin nv → ℝ)
    (k : Nat) : EuclideanSpace ℝ (Fin nz ⊕ Fin nl ⊕ Fin nv) :=
  vec3 (zs + (k * sigma⁻¹) • sz) (ls + (k * sigma⁻¹) • sl) (vs + (k * sigma⁻¹) • sv)

/-- What is known after `k` accepted proximal steps without a certificate. -/
structure Drifting (E : Env ℝ nz nl nv) (q : QP nz nl nv)
    (ray : Nat → EuclideanSpace ℝ (Fin nz ⊕ Fin nl ⊕ Fin nv)) (D r : ℝ) (k0 K k : Nat)
    (s : Outer ℝ nz nl nv) : Prop where
  marg : Marg q s.xk
  tol : s.innerTol ≤ E.opts.innerTolMax * E.opts.delta ^ k + E.opts.innerTolMin
  near : ‖s.xk.vec - ray k‖ ≤ D + q.errFactor E.opts.alpha E.opts.sigma0 * tolPart E.opts k
  used : k ≤ k0 ∨ ((k : ℝ) - k0) * (r / 2) ^ 2 ≤
    2 * q.reach E.opts D K * (D + q.errFactor E.opts.alpha E.opts.sigma0 * tolPart E.opts k -
      ‖s.xk.vec - ray k‖)

theorem Drifting.step (N : NewtonEnv E q) (hmin : E.opts.innerTolMin ≤ E.comboTol)
    (hcf : E.opts.checkFeasibility = true)
    {sz : Fin nz → ℝ} {sl : Fin nl → ℝ} {sv : Fin nv → ℝ} (hsh : q.LeastShift sz sl sv) {zs ls vs}
    (hk : (q.shifted sz sl sv).KKT zs ls vs) {D r : ℝ} {k0 K k : Nat} (hkK : k < K)
    (hmar : q.PrimalMargin E.opts.infeasTol E.opts.sigma0 r (E.opts.sigma0⁻¹ • sl) (E.opts.sigma0⁻¹ • sv) ∨
      q.DualMargin E.opts.infeasTol E.opts.sigma0 r (E.opts.sigma0⁻¹ • sz))
    (hsmall : q.errFactor E.opts.alpha E.opts.sigma0 *
      (E.opts.innerTolMax * E.opts.delta ^ (k0 + 1) + E.opts.innerTolMin) ≤ r / 2)
    {s s' : Outer ℝ nz nl nv} {tol o}
    (h : Drifting E q (rayPoint E.opts.sigma0 zs sz ls sl vs sv) D r k0 K k s)
    (hs : Step E s s' tol o) (hacc : Accepted E q s tol o) :
    Drifting E q (rayPoint E.opts.sigma0 zs sz ls sl vs sv) D r k0 K (k + 1) s' := by
  have hr := N.inRange
  have hsig := hr.sigma_pos
  have ha := hr.alpha_pos
  have hd0 : 0 ≤ E.opts.delta := le_trans (by norm_num) hr.delta.1
  have hd1 : E.opts.delta < 1 := lt_of_le_of_lt hr.delta.2 (by norm_num)
  have hx0 : 0 ≤ E.opts.innerTolMax := le_trans (by norm_num) hr.innerTolMax.1
  have hn0 : 0 ≤ E.opts.innerTolMin := le_trans (by norm_num) hr.innerTolMin.1
  have hkap := q.errFactor_pos ha hsig
  set kap := q.errFactor E.opts.alpha E.opts.sigma0 with hkapdef
  set tau := E.opts.innerTolMax * E.opts.delta ^ (k + 1) + E.opts.innerTolMin with htau
  have htol : tol ≤ tau := by
    rw [hs.toInner.tol_eq hmin]
    refine max_le ((min_le_left _ _).trans ?_) ?_
    · have h1 := mul_le_mul_of_nonneg_right h.tol hd0
      have h2 : E.opts.innerTolMin * E.opts.delta ≤ E.opts.innerTolMin := by nlinarith
      have e : (E.opts.innerTolMax * E.opts.delta ^ k + E.opts.innerTolMin) * E.opts.delta =
        E.opts.innerTolMax * E.opts.delta ^ (k + 1) + E.opts.innerTolMin * E.opts.delta := by ring
      linarith
    · have : 0 ≤ E.opts.innerTolMax * E.opts.delta ^ (k + 1) := by positivity
      linarith
  have hray : q.ProxKKT E.opts.sigma0 (zs + ((k : ℝ) * E.opts.sigma0⁻¹) • sz)
      (ls + ((k : ℝ) * E.opts.sigma0⁻¹) • sl) (vs + ((k : ℝ) * E.opts.sigma0⁻¹) • sv)
      (zs + (((k + 1 : Nat) : ℝ) * E.opts.sigma0⁻¹) • sz)
      (ls + (((k + 1 : Nat) : ℝ) * E.opts.sigma0⁻¹) • sl)
      (vs + (((k + 1 : Nat) : ℝ) * E.opts.sigma0⁻¹) • sv) := by
    have h1 := (hsh.ray N.convex.symm hk (t := ((k + 1 : Nat) : ℝ) * E.opts.sigma0⁻¹)
      (by positivity)).shifted_prox hsig
    have e : ∀ {n : Nat} (a b : Fin n → ℝ), a + (((k + 1 : Nat) : ℝ) * E.opts.sigma0⁻¹) • b -
        E.opts.sigma0⁻¹ • b = a + ((k : ℝ) * E.opts.sigma0⁻¹) • b := by
      intro n a b
      rw [add_sub_assoc, ← sub_smul]
      push_cast
      congr 2
      ring
    rw [e, e, e] at h1
    exact h1
  obtain ⟨eta, mu, d, Q, g1, g2, g3, g4, g5, g6, g7, g8⟩ := hacc.firm N hray
  have hks := mul_le_mul_of_nonneg_left htol hkap.le
  have hpart : kap * tolPart E.opts (k + 1) = kap * tolPart E.opts k + kap * tau := by
    rw [tolPart_succ hd1, mul_add]
  have hR : D + kap * tolPart E.opts (k + 1) ≤ q.reach E.opts D K := by
    unfold QP.reach
    have := mul_le_mul_of_nonneg_left (tolPart_le hd0 hd1 hx0 hn0 (Nat.succ_le_of_lt hkK)) hkap.le
    linarith
  have hDk := h.near
  change ‖o.x.vec - rayPoint E.opts.sigma0 zs sz ls sl vs sv (k + 1)‖ ≤ d + mu at g6
  change d ^ 2 + Q ^ 2 ≤ (‖s.xk.vec - rayPoint E.opts.sigma0 zs sz ls sl vs sv k‖ + eta) ^ 2 at g7
  set Dk := ‖s.xk.vec - rayPoint E.opts.sigma0 zs sz ls sl vs sv k‖ with hDkdef
  have hDk0 : 0 ≤ Dk := norm_nonneg _
  have hdle : d ≤ Dk + eta := by
    refine abs_le_of_sq_le_sq' ?_ (by linarith) |>.2
    nlinarith [sq_nonneg Q]
  have hnocert := hs.no_certificate N.ops hr.infeasTol_nonneg hcf
  rw [hs.eq] at hnocert ⊢
  have hxk : (next E s tol o).xk = o.x := rfl
  rw [hxk] at hnocert
  have hmo : Marg q o.x := Marg.subproblem N.toRealEnv h.marg hs.sub
  have hnear : ‖o.x.vec - rayPoint E.opts.sigma0 zs sz ls sl vs sv (k + 1)‖ ≤
      D + kap * tolPart E.opts (k + 1) := by
    rw [hpart]
    linarith
  refine ⟨hmo, htol, hnear, ?_⟩
  by_cases hk0 : k + 1 ≤ k0
  · exact .inl hk0
  refine .inr ?_
  rw [hxk]
  set D' := ‖o.x.vec - rayPoint E.opts.sigma0 zs sz ls sl vs sv (k + 1)‖ with hD'def
  have hsm : kap * tol ≤ r / 2 := by
    refine le_trans (hks.trans ?_) hsmall
    refine mul_le_mul_of_nonneg_left ?_ hkap.le
    have := pow_le_pow_of_le_one hd0 hd1.le (show k0 + 1 ≤ k + 1 by omega)
    have := mul_le_mul_of_nonneg_left this hx0
    linarith
  -- the step differs from the limiting one
  have hlong : r / 2 ≤ Q := by
    by_contra hlt
    have h1 : ‖(o.x.vec - s.xk.vec) - vec3 (E.opts.sigma0⁻¹ • sz) (E.opts.sigma0⁻¹ • sl)
        (E.opts.sigma0⁻¹ • sv)‖ ≤ r := by
      have e : vec3 (E.opts.sigma0⁻¹ • sz) (E.opts.sigma0⁻¹ • sl) (E.opts.sigma0⁻¹ • sv) =
          vec3 (zs + (((k + 1 : Nat) : ℝ) * E.opts.sigma0⁻¹) • sz)
          (ls + (((k + 1 : Nat) : ℝ) * E.opts.sigma0⁻¹) • sl)
          (vs + (((k + 1 : Nat) : ℝ) * E.opts.sigma0⁻¹) • sv) -
          vec3 (zs + ((k : ℝ) * E.opts.sigma0⁻¹) • sz) (ls + ((k : ℝ) * E.opts.sigma0⁻¹) • sl)
          (vs + ((k : ℝ) * E.opts.sigma0⁻¹) • sv) := by
        rw [vec3_sub, add_sub_add_left_eq_sub, add_sub_add_left_eq_sub, add_sub_add_left_eq_sub,
          ← sub_smul, ← sub_smul, ← sub_smul]
        push_cast
        congr 2 <;> ring
      rw [e]
      linarith
    have e : (o.x.vec - s.xk.vec) - vec3 (E.opts.sigma0⁻¹ • sz) (E.opts.sigma0⁻¹ • sl)
        (E.opts.sigma0⁻¹ • sv) = vec3 (o.x.z.fn - s.xk.z.fn - E.opts.sigma0⁻¹ • sz)
          (o.x.l.fn - s.xk.l.fn - E.opts.sigma0⁻¹ • sl)
          (o.x.v.fn - s.xk.v.fn - E.opts.sigma0⁻¹ • sv) := by
      rw [Point.vec, Point.vec, vec3_sub, vec3_sub]
    rw [e] at h1
    obtain ⟨c1, c2, c3⟩ := euclid_le_vec3 (o.x.z.fn - s.xk.z.fn - E.opts.sigma0⁻¹ • sz)
          (o.x.l.fn - s.xk.l.fn - E.opts.sigma0⁻¹ • sl)
          (o.x.v.fn - s.xk.v.fn - E.opts.sigma0⁻¹ • sv)
    rcases hmar with hmar | hmar
    · exact hnocert.1 (hmar.certificate hsh hsig hr.infeasTol_nonneg (c2.trans h1) (c3.trans h1))
    · exact hnocert.2 (hmar.certificate hsh hsig hr.infeasTol_nonneg (c1.trans h1))
  -- and uses up room
  have hr0 : 0 ≤ r / 2 := le_trans (by positivity) hsmall
  have hQ2 : (r / 2) ^ 2 ≤ 2 * q.reach E.opts D K * (Dk + kap * tau - D') := by
    have h1 : (r / 2) ^ 2 ≤ Q ^ 2 := pow_le_pow_left₀ hr0 hlong 2
    have h2 : Q ^ 2 ≤ (Dk + eta + d) * (Dk + eta - d) := by nlinarith
    have h3 : Dk + eta + d ≤ 2 * q.reach E.opts D K := by linarith
    have h4 : Dk + eta - d ≤ Dk + kap * tau - D' := by linarith
    have h5 : 0 ≤ Dk + eta - d := by linarith
    have h6 : 0 ≤ 2 * q.reach E.opts D K := le_trans (by linarith) h3
    calc _ ≤ Q ^ 2 := h1
      _ ≤ (Dk + eta + d) * (Dk + eta - d) := h2
      _ ≤ 2 * q.reach E.opts D K * (Dk + eta - d) := mul_le_mul_of_nonneg_right h3 h5
      _ ≤ _ := mul_le_mul_of_nonneg_left h4 h6
  rw [hpart]
  have hR0 : 0 ≤ q.reach E.opts D K := le_trans (le_trans (norm_nonneg _) hnear) hR
  rcases h.used with hu | hu
  · have hkk : k = k0 := by omega
    subst hkk
    have h1 : 2 * q.reach E.opts D K * (Dk + kap * tau - D') ≤
        2 * q.reach E.opts D K * (D + (kap * tolPart E.opts k + kap * tau) - D') :=
      mul_le_mul_of_nonneg_left (by linarith) (by linarith)
    push_cast
    have e : (k : ℝ) + 1 - k = 1 := by ring
    rw [e, one_mul]
    linarith
  · push_cast
    have e : ((k : ℝ) + 1 - k0) * (r / 2) ^ 2 = ((k : ℝ) - k0) * (r / 2) ^ 2 + (r / 2) ^ 2 := by ring
    rw [e]
    have e2 : 2 * q.reach E.opts D K * (D + (kap * tolPart E.opts k + kap * tau) - D') =
      2 * q.reach E.opts D K * (D + kap * tolPart E.opts k - Dk) +
        2 * q.reach E.opts D K * (Dk + kap * tau - D') := by ring
    rw [e2]
    exact add_le_add hu hQ2

/-- `K` accepted steps without a certificate leave no room. -/
theorem Drifting.absurd (N : NewtonEnv E q) {ray : Nat → _} {D r : ℝ} {k0 K : Nat}
    (he : q.NoticedWithin E.opts D r k0 K) {s : Outer ℝ nz nl nv}
    (h : Drifting E q ray D r k0 K K s) : False := by
  have hr := N.inRange
  have hd0 : 0 ≤ E.opts.delta := le_trans (by norm_num) hr.delta.1
  have hd1 : E.opts.delta < 1 := lt_of_le_of_lt hr.delta.2 (by norm_num)
  have hx0 : 0 ≤ E.opts.innerTolMax := le_trans (by norm_num) hr.innerTolMax.1
  have hn0 : 0 ≤ E.opts.innerTolMin := le_trans (by norm_num) hr.innerTolMin.1
  have hkap := q.errFactor_pos hr.alpha_pos hr.sigma_pos
  have hR : D + q.errFactor E.opts.alpha E.opts.sigma0 * tolPart E.opts K ≤ q.reach E.opts D K := by
    unfold QP.reach
    have := mul_le_mul_of_nonneg_left (tolPart_le hd0 hd1 hx0 hn0 (Nat.le_refl K)) hkap.le
    linarith
  have hn := norm_nonneg (s.xk.vec - ray K)
  have hR0 : 0 ≤ q.reach E.opts D K := le_trans (hn.trans h.near) hR
  have hroom := he.room
  rcases h.used with hu | hu
  · have h1 : (K : ℝ) - k0 ≤ 0 := by
      have : (K : ℝ) ≤ k0 := by exact_mod_cast hu
      linarith
    have h2 := mul_nonpos_of_nonpos_of_nonneg h1 (sq_nonneg (r / 2))
    have h3 := sq_nonneg (q.reach E.opts D K)
    linarith
  · have h1 : 2 * q.reach E.opts D K * (D + q.errFactor E.opts.alpha E.opts.sigma0 * tolPart E.opts K -
        ‖s.xk.vec - ray K‖) ≤ 2 * q.reach E.opts D K * q.reach E.opts D K :=
      mul_le_mul_of_nonneg_left (by linarith) (by linarith)
    nlinarith

/-- The run on a problem without a solution, if no subproblem is cut short by `max_inner_iters`. -/
theorem Returned.notices (N : NewtonEnv E q) (hmin : E.opts.innerTolMin ≤ E.comboTol)
    (hmm : E.opts.innerTolMin ≤ E.opts.innerTolMax) (hcf : E.opts.checkFeasibility = true)
    {ws x fin} (hx : Marg q x)
    {sz : Fin nz → ℝ} {sl : Fin nl → ℝ} {sv : Fin nv → ℝ} (hsh : q.LeastShift sz sl sv) {zs ls vs}
    (hk : (q.shifted sz sl sv).KKT zs ls vs) {D r : ℝ}
    (hD : ‖x.vec - vec3 zs ls vs‖ ≤ D)
    (hmar : q.PrimalMargin E.opts.infeasTol E.opts.sigma0 r (E.opts.sigma0⁻¹ • sl) (E.opts.sigma0⁻¹ • sv) ∨
      q.DualMargin E.opts.infeasTol E.opts.sigma0 r (E.opts.sigma0⁻¹ • sz))
    {k0 K : Nat} (he : q.NoticedWithin E.opts D r k0 K)
    (hp : (K : Int) ≤ E.opts.maxProxIters)
    (hi : ∀ {k s tol o}, k < K → Steps E k (start E ws x
        (max (min (Resid.norm (E.penRes x)) E.opts.innerTolMax) E.opts.innerTolMin)) s →
      ‖s.xk.vec - rayPoint E.opts.sigma0 zs sz ls sl vs sv k‖ ≤ q.reach E.opts D K → Inner E s tol o →
      ¬E.opts.maxNewtonIters ≤ (o.newton : Int) → o.newton < s.newton + E.opts.maxInnerIters.toNat)
    (h : Returned E ws x fin) :
    (fin.out.proxIters < K ∧ fin.out.eflag ≠ .success ∧ fin.out.eflag ≠ .maxIterations) ∨
    (fin.out.proxIters < K ∧ fin.out.eflag = .success) ∨
    (∃ k s tol o, k < K ∧ Steps E k (start E ws x
        (max (min (Resid.norm (E.penRes x)) E.opts.innerTolMax) E.opts.innerTolMin)) s ∧
      ‖s.xk.vec - rayPoint E.opts.sigma0 zs sz ls sl vs sv k‖ ≤ q.reach E.opts D K ∧
      Inner E s tol o ∧ E.opts.maxNewtonIters ≤ (o.newton : Int) ∧
      fin.out.eflag = .maxIterations ∧ fin.out.newtonIters = o.newton) := by
  have hr := N.inRange
  have hd0 : 0 ≤ E.opts.delta := le_trans (by norm_num) hr.delta.1
  have hd1 : E.opts.delta < 1 := lt_of_le_of_lt hr.delta.2 (by norm_num)
  have hx0 : 0 ≤ E.opts.innerTolMax := le_trans (by norm_num) hr.innerTolMax.1
  have hn0 : 0 ≤ E.opts.innerTolMin := le_trans (by norm_num) hr.innerTolMin.1
  have hkap := q.errFactor_pos hr.alpha_pos hr.sigma_pos
  obtain ⟨tol, k, s, h0, hs, h⟩ := h.run
  rw [saturate_real hmm] at h0
  injection h0 with h0
  subst h0
  have hreach : ∀ {k s'}, k ≤ K → Drifting E q (rayPoint E.opts.sigma0 zs sz ls sl vs sv) D r k0 K k s' →
      ‖s'.xk.vec - rayPoint E.opts.sigma0 zs sz ls sl vs sv k‖ ≤ q.reach E.opts D K := by
    intro k s' hkK hap
    refine hap.near.trans ?_
    unfold QP.reach
    have := mul_le_mul_of_nonneg_left (tolPart_le (K := K) hd0 hd1 hx0 hn0 hkK) hkap.le
    linarith
  have happ : ∀ {k s'}, k ≤ K → Steps E k (start E ws x
      (max (min (Resid.norm (E.penRes x)) E.opts.innerTolMax) E.opts.innerTolMin)) s' →
      Drifting E q (rayPoint E.opts.sigma0 zs sz ls sl vs sv) D r k0 K k s' := by
    intro k
    induction k with
    | zero =>
      intro s' _ hs
      cases hs
      refine ⟨hx, ?_, ?_, .inl (Nat.zero_le _)⟩
      · simp only [start]
        rw [pow_zero, mul_one]
        refine max_le ((min_le_right _ _).trans (by linarith)) (by linarith)
      · have e : rayPoint E.opts.sigma0 zs sz ls sl vs sv 0 = vec3 zs ls vs := by
          simp [rayPoint]
        rw [e]
        refine hD.trans ?_
        simp [tolPart]
    | succ k ih =>
      intro s' hkK hs
      cases hs with
      | tail h1 h2 =>
        have hap := ih (by omega) h1
        refine hap.step N hmin hcf hsh hk (by omega) hmar he.small h2 ?_
        exact h2.toInner.accepted N.toRealEnv hap.marg hmin h2.below
          (hi (by omega) h1 (hreach (by omega) hap) h2.toInner h2.below)
  have hkK : k < K := by
    by_contra hge
    have : ∀ {n s'}, Steps E n (start E ws x
        (max (min (Resid.norm (E.penRes x)) E.opts.innerTolMax) E.opts.innerTolMin)) s' → n < K := by
      intro n
      induction n with
      | zero =>
        intro s' hs
        rcases Nat.eq_zero_or_pos K with h0 | h0
        · have hd := happ (Nat.zero_le K) hs
          subst h0
          exact (Drifting.absurd N he hd).elim
        · exact h0
      | succ n ih =>
        intro s' hs
        have hn : n < K := by
          cases hs with
          | tail h1 h2 => exact ih h1
        rcases Nat.lt_or_ge (n + 1) K with hlt | hge
        · exact hlt
        · have e : n + 1 = K := by omega
          exact (Drifting.absurd N he (e ▸ happ (by omega) hs)).elim
    exact hge (this hs)
  have hpk := hs.prox
  simp only [start, Nat.zero_add] at hpk
  rcases h with ⟨hkm, h⟩ | ⟨hkm, rfl⟩
  · cases h with
    | success hst =>
      refine .inr (.inl ⟨?_, rfl⟩)
      show s.prox < K
      omega
    | newton hi hn' x' hx' =>
      exact .inr (.inr ⟨k, s, _, _, hkK, hs, hreach hkK.le (happ hkK.le hs), hi, hn', rfl, rfl⟩)
    | infeasible hi hn' hc hf =>
      refine .inl ⟨?_, (flagOf_ne_success _).2 hf, ?_⟩
      · show s.prox < K
        omega
      · show flagOf (check E s _) ≠ .maxIterations
        cases check E s _ <;> simp [flagOf]
  · omega

end Core
end Fbstab
