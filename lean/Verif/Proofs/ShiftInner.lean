import Verif.Proofs.Shift
import Verif.Proofs.InnerConv

/-!
# Subproblems of a problem without a solution

They are subproblems of the shifted problem, with the centre moved.
-/

namespace Fbstab
open Matrix

namespace QP
variable {nz nl nv : Nat} {q : QP nz nl nv} {sz : Fin nz → ℝ} {sl : Fin nl → ℝ} {sv : Fin nv → ℝ}

theorem shifted_convex (hc : q.Convex) : (q.shifted sz sl sv).Convex := ⟨hc.symm, hc.nonneg⟩

theorem shifted_grad (z l v) : (q.shifted sz sl sv).lagrangeGrad z l v = q.lagrangeGrad z l v + sz := by
  show q.H *ᵥ z + (q.f + sz) + q.Gᵀ *ᵥ l + q.Aᵀ *ᵥ v = q.H *ᵥ z + q.f + q.Gᵀ *ᵥ l + q.Aᵀ *ᵥ v + sz
  abel

theorem shifted_centre {n : Nat} {sigma : ℝ} (hs : 0 < sigma) (s z zb : Fin n → ℝ) :
    sigma • (z - (zb + sigma⁻¹ • s)) = sigma • (z - zb) - s := by
  ext i
  simp only [Pi.smul_apply, Pi.sub_apply, Pi.add_apply, smul_eq_mul]
  field_simp
  ring

theorem shifted_eqZ {sigma : ℝ} (hs : 0 < sigma) (zb z l v) :
    (q.shifted sz sl sv).lagrangeGrad z l v + sigma • (z - (zb + sigma⁻¹ • sz)) =
      q.lagrangeGrad z l v + sigma • (z - zb) := by
  rw [shifted_grad, shifted_centre hs]; abel

theorem shifted_eqL {sigma : ℝ} (hs : 0 < sigma) (lb l z) :
    (q.shifted sz sl sv).h - (q.shifted sz sl sv).G *ᵥ z + sigma • (l - (lb + sigma⁻¹ • sl)) =
      q.h - q.G *ᵥ z + sigma • (l - lb) := by
  rw [shifted_centre hs]
  show q.h + sl - q.G *ᵥ z + _ = _
  abel

theorem shifted_pair {sigma : ℝ} (hs : 0 < sigma) (vb z v i) :
    (q.shifted sz sl sv).pairA sigma (vb + sigma⁻¹ • sv) z v i = q.pairA sigma vb z v i := by
  show q.b i + sv i - (q.A *ᵥ z) i + sigma * (v i - (vb i + sigma⁻¹ * sv i)) =
    q.b i - (q.A *ᵥ z) i + sigma * (v i - vb i)
  field_simp
  ring

theorem shifted_subRes {alpha sigma : ℝ} (hs : 0 < sigma) (zb lb vb z l v) :
    (q.shifted sz sl sv).subRes alpha sigma (zb + sigma⁻¹ • sz) (lb + sigma⁻¹ • sl) (vb + sigma⁻¹ • sv) z l v =
      q.subRes alpha sigma zb lb vb z l v := by
  unfold subRes
  rw [shifted_eqZ hs, shifted_eqL hs]
  congr 1
  funext i
  rw [shifted_pair hs]

theorem shifted_newtonDir {alpha sigma : ℝ} (hs : 0 < sigma) {zb lb vb z l v dz dl dv}
    (h : q.NewtonDir alpha sigma zb lb vb z l v dz dl dv) :
    (q.shifted sz sl sv).NewtonDir alpha sigma (zb + sigma⁻¹ • sz) (lb + sigma⁻¹ • sl) (vb + sigma⁻¹ • sv)
      z l v dz dl dv := by
  unfold NewtonDir at h ⊢
  rw [shifted_eqZ hs, shifted_eqL hs]
  simp only [shifted_pair hs]
  exact ⟨h.1, h.2, h.3⟩

/-- The residual at the start of a subproblem. -/
theorem subRes_start_shifted {alpha sigma : ℝ} (ha : 0 < alpha) (ha' : alpha < 1)
    {zb lb vb} {zs ls vs} (hk : (q.shifted sz sl sv).KKT zs ls vs) {M rho e : ℝ} (hM0 : 0 ≤ M)
    (hM : ∀ i, q.b i + sv i - (q.A *ᵥ zs) i ≤ M ∧ vs i ≤ M)
    (hd : ‖vec3 zb lb vb - vec3 zs ls vs‖ ≤ rho) (he : ‖vec3 sz sl sv‖ ≤ e) :
    ‖q.subRes alpha sigma zb lb vb zb lb vb‖ ≤ q.startResidual M (rho + e) := by
  have hA := q.sizeA_nonneg
  have hH := q.sizeH_nonneg
  have hG := q.sizeG_nonneg
  have h1 := subRes_start (sigma := sigma) ha ha' hk hM0 hM hd
  have hr0 : 0 ≤ rho := (norm_nonneg _).trans hd
  have he0 : 0 ≤ e := (norm_nonneg _).trans he
  rw [vec3_sub] at hd
  obtain ⟨d1, -, d3⟩ := euclid_le_vec3 (zb - zs) (lb - ls) (vb - vs)
  have d1 := d1.trans hd
  have d3 := d3.trans hd
  have hsv := (euclid_le_vec3 sz sl sv).2.2.trans he
  set B := M + (1 + q.sizeA) * (rho + e) with hB
  have hB0 : 0 ≤ B := by positivity
  have hstep : ∀ i, |pfb (q.pairA sigma vb zb vb i) (vb i) alpha -
      pfb ((q.shifted sz sl sv).pairA sigma vb zb vb i) (vb i) alpha| ≤ (4 + 2 * B) * |sv i| := by
    intro i
    have hpa : q.pairA sigma vb zb vb i = (q.shifted sz sl sv).pairA sigma vb zb vb i + -sv i := by
      show q.b i - (q.A *ᵥ zb) i + _ = q.b i + sv i - (q.A *ᵥ zb) i + _ + _
      ring
    have hvb : |vb i| ≤ B := by
      have e1 : vb i = vs i + (vb - vs) i := by simp
      rw [e1]
      refine (abs_add_le _ _).trans ?_
      have := abs_le_euclid (vb - vs) i
      rw [abs_of_nonneg (hk.dual i)]
      have h2 := (hM i).2
      have h3 : rho ≤ (1 + q.sizeA) * (rho + e) := by nlinarith [mul_nonneg hA (add_nonneg hr0 he0)]
      linarith
    have hpb : |(q.shifted sz sl sv).pairA sigma vb zb vb i + -sv i| ≤ B := by
      have e1 : (q.shifted sz sl sv).pairA sigma vb zb vb i + -sv i =
          (q.b i + sv i - (q.A *ᵥ zs) i) + (-(q.A *ᵥ (zb - zs)) i + -sv i) := by
        rw [mulVec_sub]
        show q.b i + sv i - (q.A *ᵥ zb) i + sigma * (vb i - vb i) + -sv i = _
        simp only [Pi.sub_apply]
        ring
      have hf : (q.A *ᵥ zs) i ≤ q.b i + sv i := hk.feasible.ineq i
      rw [e1]
      refine (abs_add_le _ _).trans ?_
      rw [abs_of_nonneg (by linarith)]
      have h2 := abs_add_le (-(q.A *ᵥ (zb - zs)) i) (-sv i)
      rw [abs_neg, abs_neg] at h2
      have h3 := abs_le_euclid (q.A *ᵥ (zb - zs)) i
      have h4 := (q.sizeA_mul (zb - zs)).trans (mul_le_mul_of_nonneg_left d1 hA)
      have h5 := (abs_le_euclid sv i).trans hsv
      have h6 := (hM i).1
      have h7 : q.sizeA * rho + e ≤ (1 + q.sizeA) * (rho + e) := by nlinarith [mul_nonneg hA he0]
      linarith
    have := pfb_lipschitz (alpha := alpha) ha ha' (a := (q.shifted sz sl sv).pairA sigma vb zb vb i) (b := vb i)
      (p := -sv i) (r := 0) (B := B) (dl := |sv i|) hvb hpb (by rw [abs_neg]) (by rw [abs_zero]; positivity)
    rw [← hpa, add_zero] at this
    exact this
  have hdiff : ‖q.subRes alpha sigma zb lb vb zb lb vb - (q.shifted sz sl sv).subRes alpha sigma zb lb vb zb lb vb‖ ≤
      (4 + 2 * B) * e := by
    have h4 : (1 : ℝ) ≤ 4 + 2 * B := by linarith
    unfold subRes
    rw [vec3_sub]
    refine le_trans (vec3_mono (z' := (4 + 2 * B) • sz) (l' := (4 + 2 * B) • sl) (v' := (4 + 2 * B) • sv)
      (fun i => ?_) (fun i => ?_) fun i => ?_) ?_
    · have e1 : (q.lagrangeGrad zb lb vb + sigma • (zb - zb) -
          ((q.shifted sz sl sv).lagrangeGrad zb lb vb + sigma • (zb - zb))) = -sz := by
        rw [shifted_grad]; abel
      rw [e1, Pi.neg_apply, abs_neg, Pi.smul_apply, smul_eq_mul, abs_mul, abs_of_nonneg (by linarith : 0 ≤ 4 + 2 * B)]
      exact le_mul_of_one_le_left (abs_nonneg _) h4
    · have e1 : (q.h - q.G *ᵥ zb + sigma • (lb - lb) -
          ((q.shifted sz sl sv).h - (q.shifted sz sl sv).G *ᵥ zb + sigma • (lb - lb))) = -sl := by
        show q.h - q.G *ᵥ zb + sigma • (lb - lb) - (q.h + sl - q.G *ᵥ zb + sigma • (lb - lb)) = -sl
        abel
      rw [e1, Pi.neg_apply, abs_neg, Pi.smul_apply, smul_eq_mul, abs_mul, abs_of_nonneg (by linarith : 0 ≤ 4 + 2 * B)]
      exact le_mul_of_one_le_left (abs_nonneg _) h4
    · rw [Pi.smul_apply, smul_eq_mul, abs_mul, abs_of_nonneg (by linarith : 0 ≤ 4 + 2 * B)]
      exact hstep i
    · rw [← vec3_smul, norm_smul, Real.norm_eq_abs, abs_of_nonneg (by linarith)]
      exact mul_le_mul_of_nonneg_left he (by linarith)
  have h2 : ‖q.subRes alpha sigma zb lb vb zb lb vb‖ ≤ q.startResidual M rho + (4 + 2 * B) * e := by
    have h3 := norm_add_le (q.subRes alpha sigma zb lb vb zb lb vb -
      (q.shifted sz sl sv).subRes alpha sigma zb lb vb zb lb vb)
      ((q.shifted sz sl sv).subRes alpha sigma zb lb vb zb lb vb)
    rw [sub_add_cancel] at h3
    have h4 : ‖(q.shifted sz sl sv).subRes alpha sigma zb lb vb zb lb vb‖ ≤ q.startResidual M rho := h1
    linarith
  refine h2.trans ?_
  unfold startResidual
  rw [← hB]
  have k1 : 0 ≤ (q.sizeH + 2 * q.sizeG + q.sizeA) * e := by positivity
  have k2 : 0 ≤ (1 + q.sizeA) * e * ((1 + q.sizeA) * rho) := by positivity
  have k3 : 0 ≤ (4 + 2 * B) * q.sizeA * e := by positivity
  have k4 : B = M + (1 + q.sizeA) * rho + (1 + q.sizeA) * e := by rw [hB]; ring
  nlinarith

end QP

namespace Core
variable {nz nl nv : Nat} {E : Env ℝ nz nl nv} {q : QP nz nl nv}

/-- Subproblems of a problem without a solution. -/
theorem SubCtx.ofShift (N : NewtonEnv E q) {xbar : Point ℝ nz nl nv}
    {sz : Fin nz → ℝ} {sl : Fin nl → ℝ} {sv : Fin nv → ℝ} {zs ls vs} {M rho : ℝ}
    (hk : (q.shifted sz sl sv).KKT zs ls vs) (hM0 : 0 ≤ M)
    (hM : ∀ i, q.b i + sv i - (q.A *ᵥ zs) i ≤ M ∧ vs i ≤ M) {r : ℝ}
    (hnear : ‖xbar.vec + E.opts.sigma0⁻¹ • vec3 sz sl sv - vec3 zs ls vs‖ ≤ r)
    (hrho : r + (1 + E.opts.sigma0⁻¹) * ‖vec3 sz sl sv‖ ≤ rho)
    (hband : 36 * 1e-13 * nv * (1 + q.pairBound E.opts M rho) * q.pairSpeed E.opts ≤
      (1 - E.opts.eta) * E.opts.innerTolMin)
    (hl : E.opts.beta ^ (E.opts.maxLinesearchIters.toNat - 1) ≤ q.safeStep E.opts M rho) :
    SubCtx E q xbar M rho := by
  have hr := N.inRange
  have he1 : E.opts.eta < 1 := lt_of_le_of_lt hr.eta.2 (by norm_num)
  have hsig := hr.sigma_pos
  have hr0 : 0 ≤ r := (norm_nonneg _).trans hnear
  have hs0 : 0 ≤ (1 + E.opts.sigma0⁻¹) * ‖vec3 sz sl sv‖ := by positivity
  have hst : ‖xbar.vec - vec3 zs ls vs‖ ≤ rho - ‖vec3 sz sl sv‖ := by
    have e : xbar.vec - vec3 zs ls vs =
      (xbar.vec + E.opts.sigma0⁻¹ • vec3 sz sl sv - vec3 zs ls vs) - E.opts.sigma0⁻¹ • vec3 sz sl sv := by abel
    rw [e]
    refine (norm_sub_le _ _).trans ?_
    rw [norm_smul, Real.norm_eq_abs, abs_of_pos (inv_pos.2 hsig)]
    linarith
  have hn2 : ‖vec3 (xbar.z.fn + E.opts.sigma0⁻¹ • sz) (xbar.l.fn + E.opts.sigma0⁻¹ • sl)
      (xbar.v.fn + E.opts.sigma0⁻¹ • sv) - vec3 zs ls vs‖ ≤ rho := by
    rw [← vec3_add, ← vec3_smul]
    exact hnear.trans (by linarith)
  rw [Point.vec] at hst
  refine
    { toNewtonEnv := N, M0 := hM0, rho0 := by linarith, start := ?_, decrease := ?_, linesearch := hl }
  · have := QP.subRes_start_shifted (sigma := E.opts.sigma0) hr.alpha_pos hr.alpha_lt hk hM0 hM hst le_rfl
    rwa [sub_add_cancel] at this
  · intro z l v dz dl dv hdir hF heps t ht ht1 hts
    have h := (QP.shifted_newtonDir hsig (sz := sz) (sl := sl) (sv := sv) hdir).decrease
      (QP.shifted_convex N.convex) hr.alpha_pos hr.alpha_lt hsig hk hM0 hM hn2 (by
        rw [QP.shifted_subRes hsig]; exact hF) (by
        rw [QP.shifted_subRes hsig]; exact heps) he1 hband ht ht1 hts
    rw [QP.shifted_subRes hsig, QP.shifted_subRes hsig] at h
    exact h

end Core
end Fbstab
