import Verif.Spec.Decoupled
import Verif.Proofs.FirstStep
import Verif.Proofs.ExactStep
import Verif.Props.Infeasible
import Verif.Proofs.WitnessRun
import Mathlib.LinearAlgebra.Matrix.DotProduct

/-!
# C64: detection in the first proximal iteration
-/

namespace Fbstab
open Matrix

/-- One Newton step for `phi(b + sigma u, u) = 0` with `b < 0` from `u >= 0`. -/
theorem void_step {alpha sigma b u t mu : ℝ} (h0 : 0 < alpha) (h1 : alpha < 1) (hs : 0 < sigma)
    (hb : b < 0) (hb' : 1e-13 * sigma ≤ -b) (hu : 0 ≤ u) (ht : 0 < t) (ht' : t ≤ 1)
    (hmu : mu = sigma * (pfbGradient alpha (b + sigma * u) u).1 + (pfbGradient alpha (b + sigma * u) u).2) :
    0 < u + t * (-pfb (b + sigma * u) u alpha / mu) := by
  obtain ⟨g1, g2⟩ := pfbGradient_nonneg h0 h1 (b + sigma * u) u
  have hmu0 : 0 < mu := by
    rw [hmu]
    rcases pfbGradient_pos h0 h1 (b + sigma * u) u with h | h
    · have := mul_pos hs h; linarith
    · have := mul_nonneg hs.le g1; linarith
  rcases hu.eq_or_lt with rfl | hu0
  · have : pfb (b + sigma * 0) 0 alpha < 0 := by
      rw [mul_zero, add_zero, pfb_real]
      have : √(b * b + 0 * 0) = -b := by
        rw [mul_zero, add_zero, Real.sqrt_mul_self_eq_abs, abs_of_neg hb]
      rw [this, max_self, mul_zero, add_zero, add_zero]
      nlinarith
    have : 0 < t * (-pfb (b + sigma * 0) 0 alpha / mu) := mul_pos ht (div_pos (by linarith) hmu0)
    linarith
  by_cases hphi : pfb (b + sigma * u) u alpha ≤ 0
  · have : 0 ≤ t * (-pfb (b + sigma * u) u alpha / mu) :=
      mul_nonneg ht.le (div_nonneg (by linarith) hmu0.le)
    linarith
  have hphi := not_le.1 hphi
  set a := b + sigma * u with ha
  have ha0 : 0 < a := by
    by_contra h
    have h := not_lt.1 h
    rw [pfb_real, max_eq_left h, mul_zero, zero_mul, add_zero] at hphi
    have : u ≤ √(a * a + u * u) := Real.le_sqrt_of_sq_le (by nlinarith [mul_self_nonneg a])
    nlinarith
  have hu1 : 1e-13 ≤ u := by
    have : -b < sigma * u := by linarith
    nlinarith
  have hr : 1e-13 ≤ √(a * a + u * u) :=
    hu1.trans (Real.le_sqrt_of_sq_le (by nlinarith [mul_self_nonneg a]))
  have hp : 0 < √(a * a + u * u) := lt_of_lt_of_le (by norm_num) hr
  have hsq : √(a * a + u * u) * √(a * a + u * u) = a * a + u * u :=
    Real.mul_self_sqrt (by nlinarith [mul_self_nonneg a, mul_self_nonneg u])
  have har : a / √(a * a + u * u) < 1 := by
    rw [div_lt_one hp]
    refine Real.lt_sqrt_of_sq_lt ?_
    have := mul_pos hu0 hu0
    nlinarith
  have key : pfb a u alpha < u * mu := by
    rw [hmu, pfb_real]
    unfold pfbGradient
    simp only [scalar_sqrt, if_neg (not_lt.2 hr), if_pos (And.intro ha0 hu0)]
    rw [max_eq_right ha0.le, max_eq_right hu0.le]
    generalize √(a * a + u * u) = r at hp hsq har
    have e : r = a / r * a + u / r * u := by
      rw [div_mul_eq_mul_div, div_mul_eq_mul_div, ← add_div, eq_div_iff hp.ne', hsq]
    have e2 : u * (sigma * (alpha * (1 - a / r) + (1 - alpha) * u) + (alpha * (1 - u / r) + (1 - alpha) * a)) -
        (alpha * (a + u - r) + (1 - alpha) * a * u) =
        alpha * ((sigma * u - a) * (1 - a / r)) + (1 - alpha) * sigma * (u * u) := by
      have : a + u - r = a + u - (a / r * a + u / r * u) := by rw [← e]
      rw [this]
      ring
    have p1 : 0 < alpha * ((sigma * u - a) * (1 - a / r)) :=
      mul_pos h0 (mul_pos (by rw [ha]; linarith) (by linarith))
    have p2 : 0 < (1 - alpha) * sigma * (u * u) := mul_pos (mul_pos (by linarith) hs) (mul_pos hu0 hu0)
    linarith
  have h3 : pfb a u alpha / mu < u := (div_lt_iff₀ hmu0).2 key
  have h4 : t * (pfb a u alpha / mu) ≤ pfb a u alpha / mu := mul_le_of_le_one_left (div_pos hphi hmu0).le ht'
  rw [neg_div]
  linarith

section
variable {nz nl nv : Nat}

/-- The iterates of the first subproblem. -/
structure ColdIterate (q : QP nz nl nv) (o : Params ℝ) (n : Nat) (x : Point ℝ nz nl nv) : Prop where
  z : ∃ w : ℝ, x.z.fn = -(w • q.f) ∧ 0 ≤ w ∧ w ≤ 1 / o.sigma0 ∧ (n = 0 → w = 0) ∧
    (0 < n → o.beta ^ o.maxLinesearchIters.toNat / o.sigma0 ≤ w)
  l : ∃ w : ℝ, x.l.fn = -(w • q.h) ∧ 0 ≤ w ∧ w ≤ 1 / o.sigma0 ∧ (n = 0 → w = 0) ∧ (0 < n → 0 < w)
  v : ∀ i, 0 ≤ x.v i ∧ (0 ≤ q.b i → x.v i = 0) ∧ (n = 0 → x.v i = 0) ∧ (0 < n → q.b i < 0 → 0 < x.v i)
  y : x.y.fn = q.b

theorem shrink {s w t : ℝ} (hw0 : 0 ≤ w) (hw : w ≤ s) (ht0 : 0 < t) (ht1 : t ≤ 1) :
    0 ≤ w + t * (s - w) ∧ w + t * (s - w) ≤ s ∧ t * s ≤ w + t * (s - w) ∧ w ≤ w + t * (s - w) := by
  have h1 : 0 ≤ t * (s - w) := mul_nonneg ht0.le (by linarith)
  have h2 : t * (s - w) ≤ s - w := mul_le_of_le_one_left (by linarith) ht1
  have h3 : t * w ≤ w := mul_le_of_le_one_left hw0 ht1
  refine ⟨by linarith, by linarith, by rw [mul_sub]; linarith, by linarith⟩

/-- The rows that a nonnegative vector supported on the void rows touches are zero. -/
theorem QP.Decoupled.mulVec_zero {q : QP nz nl nv} (hq : q.Decoupled) {v : Fin nv → ℝ}
    (h : ∀ i, 0 ≤ q.b i → v i = 0) : q.Aᵀ *ᵥ v = 0 := by
  ext j
  rw [mulVec, dotProduct, Pi.zero_apply]
  refine Finset.sum_eq_zero fun i _ => ?_
  by_cases hb : 0 ≤ q.b i
  · rw [h i hb, mul_zero]
  · rw [transpose_apply, hq.void i (not_le.1 hb) j, MulZeroClass.zero_mul]

theorem ColdIterate.step {q : QP nz nl nv} {E : Core.Env ℝ nz nl nv} (N : Core.NewtonEnv E q)
    (hq : q.Decoupled) (hb : ∀ i, q.b i < 0 → 1e-13 * E.opts.sigma0 ≤ -q.b i)
    {xbar : Point ℝ nz nl nv} (h0 : ColdIterate q E.opts 0 xbar) (n x x') (hx : ColdIterate q E.opts n x)
    (h : Core.NewtonMove E q xbar x x') : ColdIterate q E.opts (n + 1) x' := by
  obtain ⟨wz, hz, hz0, hz1, -, hzn⟩ := hx.z
  obtain ⟨wl, hl, hl0, hl1, -, hln⟩ := hx.l
  obtain ⟨j, dz, dl, dv, hj, hd, e1, e2, e3, e4⟩ := h.move
  have hyi : ∀ i, x.y i = q.b i := fun i => congrFun hx.y i
  have hbz : xbar.z.fn = 0 := by
    obtain ⟨w, hw, -, -, h, -⟩ := h0.z
    rw [hw, h rfl, zero_smul, neg_zero]
  have hbl : xbar.l.fn = 0 := by
    obtain ⟨w, hw, -, -, h, -⟩ := h0.l
    rw [hw, h rfl, zero_smul, neg_zero]
  have hbv : ∀ i, xbar.v i = 0 := fun i => (h0.v i).2.2.1 rfl
  have hal := N.inRange.alpha_pos
  have hal' := N.inRange.alpha_lt
  have hsig := N.inRange.sigma_pos
  have hA : q.A *ᵥ x.z.fn = 0 := by rw [hz, mulVec_neg, mulVec_smul, hq.ineq, smul_zero, neg_zero]
  have hG : q.G *ᵥ x.z.fn = 0 := by rw [hz, mulVec_neg, mulVec_smul, hq.eq, smul_zero, neg_zero]
  have hH : q.H *ᵥ x.z.fn = 0 := by rw [hz, mulVec_neg, mulVec_smul, hq.flat, smul_zero, neg_zero]
  have hGT : q.Gᵀ *ᵥ x.l.fn = 0 := by rw [hl, mulVec_neg, mulVec_smul, hq.range, smul_zero, neg_zero]
  have hAT : q.Aᵀ *ᵥ x.v.fn = 0 := hq.mulVec_zero fun i hi => (hx.v i).2.1 hi
  have hmarg : Core.Marg q x := by
    unfold Core.Marg
    rw [hx.y, hA, sub_zero]
  let P : Fin nv → ℝ := fun i => pfb (q.b i + E.opts.sigma0 * x.v i) (x.v i) E.opts.alpha
  let M : Fin nv → ℝ := fun i => E.opts.sigma0 * (pfbGradient E.opts.alpha (q.b i + E.opts.sigma0 * x.v i) (x.v i)).1 +
    (pfbGradient E.opts.alpha (q.b i + E.opts.sigma0 * x.v i) (x.v i)).2
  have hM : ∀ i, 0 < M i := by
    intro i
    obtain ⟨g1, g2⟩ := pfbGradient_nonneg hal hal' (q.b i + E.opts.sigma0 * x.v i) (x.v i)
    rcases pfbGradient_pos hal hal' (q.b i + E.opts.sigma0 * x.v i) (x.v i) with h | h
    · have := mul_pos hsig h; show 0 < _ + _; linarith
    · have := mul_nonneg hsig.le g1; show 0 < _ + _; linarith
  have hP0 : ∀ i, 0 ≤ q.b i → P i = 0 := by
    intro i hi
    show pfb _ _ _ = _
    rw [(hx.v i).2.1 hi, mul_zero, add_zero]
    exact (pfb_zero hal hal').2 ⟨hi, le_refl _, .inl rfl⟩
  have hsys := hd.system
  have hmine : q.NewtonSystem E.opts.sigma0
    (fun i => (slopes E.opts.alpha E.opts.sigma0 x xbar i).1)
    (fun i => (slopes E.opts.alpha E.opts.sigma0 x xbar i).2)
    (-(q.lagrangeGrad x.z.fn x.l.fn x.v.fn + E.opts.sigma0 • (x.z.fn - xbar.z.fn)))
    (-(q.h - q.G *ᵥ x.z.fn + E.opts.sigma0 • (x.l.fn - xbar.l.fn)))
    (fun i => -pfb (x.y i + E.opts.sigma0 * (x.v i - xbar.v i)) (x.v i) E.opts.alpha)
    (-((1 / E.opts.sigma0 - wz) • q.f)) (-((1 / E.opts.sigma0 - wl) • q.h)) (fun i => -P i / M i) := by
    have hcancel : E.opts.sigma0 * (1 / E.opts.sigma0) = 1 := mul_one_div_cancel hsig.ne'
    refine ⟨?_, ?_, fun i => ?_⟩
    · have e0 : q.Aᵀ *ᵥ (fun i => -P i / M i) = 0 := hq.mulVec_zero fun i hi => by
        rw [hP0 i hi, neg_zero, zero_div]
      rw [e0, hbz, sub_zero]
      unfold QP.lagrangeGrad
      rw [hH, hGT, hAT, hz]
      simp only [mulVec_neg, mulVec_smul, hq.flat, hq.range, smul_zero, neg_zero, add_zero, zero_add]
      ext i
      simp only [Pi.neg_apply, Pi.smul_apply, Pi.add_apply, smul_eq_mul]
      linear_combination (-(q.f i)) * hcancel
    · rw [hbl, sub_zero, hG, sub_zero, hl]
      simp only [mulVec_neg, mulVec_smul, hq.eq, smul_zero, neg_zero]
      ext i
      simp only [Pi.neg_apply, Pi.smul_apply, Pi.add_apply, Pi.zero_apply, smul_eq_mul]
      linear_combination (-(q.h i)) * hcancel
    · simp only [hyi, hbv, sub_zero, mulVec_neg, mulVec_smul, hq.ineq, smul_zero, neg_zero, Pi.zero_apply]
      have hs : slopes E.opts.alpha E.opts.sigma0 x xbar i =
        pfbGradient E.opts.alpha (q.b i + E.opts.sigma0 * x.v i) (x.v i) := by
        unfold slopes; rw [hyi, hbv, sub_zero]
      rw [hs]
      have := hM i
      have e : -P i / M i * (E.opts.sigma0 * (pfbGradient E.opts.alpha (q.b i + E.opts.sigma0 * x.v i) (x.v i)).1 +
        (pfbGradient E.opts.alpha (q.b i + E.opts.sigma0 * x.v i) (x.v i)).2) = -P i := div_mul_cancel₀ _ this.ne'
      have e' : -pfb (q.b i + E.opts.sigma0 * x.v i) (x.v i) E.opts.alpha = -P i := rfl
      rw [e']
      linear_combination e
  obtain ⟨rfl, rfl, rfl⟩ := QP.NewtonSystem.unique N.convex hsig
    (fun i => (Core.slopes_pos N x xbar i).1) (fun i => (Core.slopes_pos N x xbar i).2) hsys hmine
  have hbe : 0 < E.opts.beta := lt_of_lt_of_le (by norm_num) N.inRange.beta.1
  have hbe1 : E.opts.beta ≤ 1 := N.inRange.beta.2.trans (by norm_num)
  have ht : E.opts.beta ^ E.opts.maxLinesearchIters.toNat ≤ E.opts.beta ^ j :=
    pow_le_pow_of_le_one hbe.le hbe1 hj
  have ht1 : E.opts.beta ^ j ≤ 1 := pow_le_one₀ hbe.le hbe1
  have ht0 : 0 < E.opts.beta ^ j := pow_pos hbe j
  obtain ⟨z1, z2, z3, z4⟩ := shrink hz0 hz1 ht0 ht1
  obtain ⟨l1, l2, l3, l4⟩ := shrink hl0 hl1 ht0 ht1
  refine ⟨⟨_, ?_, z1, z2, fun h => by omega, fun _ => ?_⟩, ⟨_, ?_, l1, l2, fun h => by omega, fun _ => ?_⟩,
    fun i => ?_, ?_⟩
  · rw [e1, hz]
    ext i
    simp only [Pi.neg_apply, Pi.smul_apply, Pi.add_apply, smul_eq_mul]
    ring
  · refine le_trans ?_ z3
    rw [div_eq_mul_one_div]
    exact mul_le_mul_of_nonneg_right ht (by positivity)
  · rw [e2, hl]
    ext i
    simp only [Pi.neg_apply, Pi.smul_apply, Pi.add_apply, smul_eq_mul]
    ring
  · exact lt_of_lt_of_le (by positivity) l3
  · have ev : x'.v i = x.v i + E.opts.beta ^ j * (-P i / M i) := congrFun e3 i
    obtain ⟨v1, v2, -, v4⟩ := hx.v i
    by_cases hi : 0 ≤ q.b i
    · have : x'.v i = 0 := by rw [ev, v2 hi, hP0 i hi]; simp
      exact ⟨this.ge, fun _ => this, fun h => by omega, fun _ h => absurd hi (not_le.2 h)⟩
    · have hi := not_le.1 hi
      have : 0 < x'.v i := by
        rw [ev]
        exact void_step hal hal' hsig hi (hb i hi) v1 ht0 ht1 rfl
      exact ⟨this.le, fun h => absurd h (not_le.2 hi), fun h => by omega, fun _ _ => this⟩
  · have hm' := e4 hmarg
    unfold Core.Marg at hm'
    rw [hm', e1, hz]
    simp only [mulVec_add, mulVec_neg, mulVec_smul, hq.ineq, smul_zero, neg_zero, add_zero, sub_zero]

theorem QP.coldResidual_pos {q : QP nz nl nv} {alpha : ℝ} (h : 0 < q.coldResidual alpha) :
    q.f ≠ 0 ∨ q.h ≠ 0 ∨ ∃ i, q.b i < 0 := by
  by_contra hn
  push Not at hn
  obtain ⟨h1, h2, h3⟩ := hn
  refine absurd h (not_lt.2 (le_of_eq ?_))
  unfold QP.coldResidual
  rw [h1, h2, dotProduct_zero, dotProduct_zero, add_zero, zero_add]
  rw [Finset.sum_eq_zero fun i _ => by rw [min_eq_right (h3 i)]; ring]
  exact Real.sqrt_zero

/-- The call on a decoupled problem from the cold start. -/
theorem cold_run {q : QP nz nl nv} {E : Core.Env ℝ nz nl nv} (N : Core.NewtonEnv E q) (hq : q.Decoupled)
    (hb : ∀ i, q.b i < 0 → 1e-13 * E.opts.sigma0 ≤ -q.b i)
    (hf : q.f = 0 ∨ 1e-14 < E.opts.beta ^ E.opts.maxLinesearchIters.toNat / E.opts.sigma0 * ‖q.f‖)
    (ht : E.opts.innerTolMin ≤ E.opts.innerTolMax) (hs : E.comboTol < q.coldResidual E.opts.alpha)
    (hmax : E.opts.innerTolMax < q.coldResidual E.opts.alpha)
    (hst : E.opts.stallTol < Core.normPt (Core.onesPt E))
    (hn : E.opts.maxInnerIters < E.opts.maxNewtonIters) (hc : E.opts.checkFeasibility = true)
    (ws : FeasWs ℝ nz nl nv) (z : Vec ℝ nz) (l : Vec ℝ nl) (v : Vec ℝ nv) (hz : z.fn = 0) (hl : l.fn = 0)
    (hv : v.fn = 0) :
    ∃ fin, (Core.solve E ws z l v).2 = .ok fin ∧ fin.out.proxIters = 0 ∧
      (fin.out.eflag.claimsPrimal ↔ q.h ≠ 0 ∨ ∃ i, q.b i < 0) ∧ (fin.out.eflag.claimsDual ↔ q.f ≠ 0) := by
  have hm : Core.Marg q (Core.startPt E z l v) := Core.Marg.start N.ops z l v
  set x := Core.startPt E z l v with hx
  have hal := N.inRange.alpha_pos
  have hxz : x.z.fn = 0 := hz
  have hxl : x.l.fn = 0 := hl
  have hxv : x.v.fn = 0 := hv
  have hxy : x.y.fn = q.b := by rw [hm, hxz, mulVec_zero, sub_zero]
  have hxvi : ∀ i, x.v i = 0 := fun i => congrFun hxv i
  have hxyi : ∀ i, x.y i = q.b i := fun i => congrFun hxy i
  have hsig := N.inRange.sigma_pos
  have hx0 : ColdIterate q E.opts 0 x := ⟨⟨0, by rw [hxz]; simp, le_rfl, by positivity, fun _ => rfl,
    fun h => absurd h (lt_irrefl _)⟩, ⟨0, by rw [hxl]; simp, le_rfl, by positivity, fun _ => rfl,
    fun h => absurd h (lt_irrefl _)⟩, fun i => ⟨(hxvi i).ge, fun _ => hxvi i, fun _ => hxvi i,
    fun h => absurd h (lt_irrefl _)⟩, hxy⟩
  have hgrad : q.lagrangeGrad x.z.fn x.l.fn x.v.fn = q.f := by
    unfold QP.lagrangeGrad
    rw [hxz, hxl, hxv]
    simp only [mulVec_zero, add_zero, zero_add]
  have hsq : ∀ w : Fin nv → ℝ, w ⬝ᵥ w = ∑ i, w i ^ 2 := fun w => by
    rw [dotProduct]; exact Finset.sum_congr rfl fun i _ => (sq _).symm
  have hpen : Core.Resid.norm (E.penRes x) = q.coldResidual E.opts.alpha := by
    show norm3 (gradLagrangian E.ops x.z x.l x.v) (eqDefect E.ops x.z) (penalizedMin E.opts.alpha x.y x.v) = _
    rw [norm3_eq, N.ops.gradLagrangian, hgrad, N.ops.eqDefect, hxz, mulVec_zero, sub_zero]
    unfold QP.coldResidual
    rw [hsq]
    congr 2
    refine Finset.sum_congr rfl fun i _ => ?_
    show (penalizedMin E.opts.alpha x.y x.v) i ^ 2 = _
    rw [penalizedMin, Vec.get_ofFn, hxvi, hxyi]
    simp
  have hinner : q.coldResidual E.opts.alpha ≤ Core.Resid.norm (E.innerRes x x E.opts.sigma0) := by
    obtain ⟨i1, i2, i3⟩ := Core.innerRes_fn N.ops x x E.opts.sigma0
    show _ ≤ norm3 (E.innerRes x x E.opts.sigma0).z (E.innerRes x x E.opts.sigma0).l
          (E.innerRes x x E.opts.sigma0).v
    rw [norm3_eq, i1, i2, hgrad, hxz, mulVec_zero, sub_self, smul_zero, add_zero, sub_self, smul_zero, sub_zero,
      add_zero]
    unfold QP.coldResidual
    refine Real.sqrt_le_sqrt ?_
    rw [hsq]
    refine add_le_add_right (Finset.sum_le_sum fun i _ => ?_) _
    have e : (E.innerRes x x E.opts.sigma0).v.fn i = E.opts.alpha * (2 * min (q.b i) 0) := by
      show (E.innerRes x x E.opts.sigma0).v i = _
      rw [i3, hxvi, hxyi, sub_self, mul_zero, add_zero, pfb_real, max_self, mul_zero, add_zero, mul_zero, add_zero,
        add_zero, Real.sqrt_mul_self_eq_abs]
      rcases le_total (q.b i) 0 with h | h
      · rw [min_eq_left h, abs_of_nonpos h]; ring
      · rw [min_eq_right h, abs_of_nonneg h]; ring
    rw [e]
    have := mul_self_nonneg (E.opts.alpha * min (q.b i) 0)
    nlinarith
  obtain ⟨tol0, tol, o, xn, h0, hin, hox, n, hn'⟩ := Core.first_subproblem N ws x (ColdIterate q E.opts)
    (ColdIterate.step N hq hb hx0) hx0 ht (by rw [hpen]; exact hs) hst (by rw [hpen]; exact ht.trans hmax.le)
    (lt_of_lt_of_le hmax hinner)
  have hnew : ¬(E.opts.maxNewtonIters ≤ (o.newton : Int)) := by
    have := hin.newton.2.1
    have h1 := N.inRange.maxInnerIters
    simp only [Core.start] at this
    omega
  have hchk := checkFeasibility_real N.ops (E.axpy (-1) x o.x) E.opts.infeasTol
    N.inRange.infeasTol_nonneg ws
  obtain ⟨wz, hwz, hwz0, -, -, hwz2⟩ := hn'.z
  obtain ⟨wl, hwl, hwl0, -, -, hwl2⟩ := hn'.l
  have hwz2 := hwz2 (Nat.succ_pos _)
  have hwl2 := hwl2 (Nat.succ_pos _)
  have hbe : 0 < E.opts.beta := lt_of_lt_of_le (by norm_num) N.inRange.beta.1
  have hwzp : 0 < wz := lt_of_lt_of_le (by positivity) hwz2
  have hdz : (E.axpy (-1) x o.x).z.fn = -(wz • q.f) := by
    rw [hox, ← hwz]
    ext i
    have h2 : x.z i = 0 := congrFun hxz i
    simp [Core.Env.axpy, Core.projectDuals, h2]
  have hdl : (E.axpy (-1) x o.x).l.fn = -(wl • q.h) := by
    rw [hox, ← hwl]
    ext i
    have h2 : x.l i = 0 := congrFun hxl i
    simp [Core.Env.axpy, Core.projectDuals, h2]
  have hdv : (E.axpy (-1) x o.x).v.fn = xn.v.fn := by
    rw [hox]
    ext i
    have h2 : max (xn.v i) 0 = xn.v i := max_eq_left (hn'.v i).1
    simp [Core.Env.axpy, Core.projectDuals, Vec.cwiseMax, hxvi, h2]
  have htol := N.inRange.infeasTol_nonneg
  have hP : q.PrimalCertificate E.opts.infeasTol (E.axpy (-1) x o.x).l.fn (E.axpy (-1) x o.x).v.fn ↔
      q.h ≠ 0 ∨ ∃ i, q.b i < 0 := by
    have s1 : q.Aᵀ *ᵥ xn.v.fn + q.Gᵀ *ᵥ -(wl • q.h) = 0 := by
      rw [hq.mulVec_zero (v := xn.v.fn) fun i hi => (hn'.v i).2.1 hi, mulVec_neg, mulVec_smul, hq.range]
      simp
    have s2 : ∀ i, q.b i * xn.v i ≤ 0 := by
      intro i
      by_cases hi : 0 ≤ q.b i
      · rw [(hn'.v i).2.1 hi, mul_zero]
      · exact mul_nonpos_of_nonpos_of_nonneg (not_le.1 hi).le (hn'.v i).1
    have s3 : q.h ⬝ᵥ -(wl • q.h) = -(wl * (q.h ⬝ᵥ q.h)) := by
      rw [dotProduct_neg, dotProduct_smul, smul_eq_mul]
    have s4 : 0 ≤ q.h ⬝ᵥ q.h := Finset.sum_nonneg fun i _ => mul_self_nonneg (_ : ℝ)
    have s5 : q.b ⬝ᵥ xn.v.fn ≤ 0 := Finset.sum_nonpos fun i _ => s2 i
    rw [hdl, hdv]
    constructor
    · intro h
      by_contra hno
      push Not at hno
      have := h.neg
      rw [s3, hno.1, dotProduct_zero, mul_zero, neg_zero, add_zero] at this
      refine absurd this (not_lt.2 (le_of_eq ?_))
      exact (Finset.sum_eq_zero fun i _ => by
        show q.b i * xn.v i = 0
        rw [(hn'.v i).2.1 (hno.2 i), mul_zero]).symm
    · intro h
      refine ⟨?_, ?_⟩
      · rw [s1, norm_zero]
        exact mul_nonneg htol (le_max_of_le_left (norm_nonneg _))
      · rw [s3]
        rcases h with h | ⟨i, hi⟩
        · have : 0 < q.h ⬝ᵥ q.h := lt_of_le_of_ne s4 fun h' => h (dotProduct_self_eq_zero.1 h'.symm)
          have := mul_pos hwl2 this
          linarith
        · have h1 : q.b ⬝ᵥ xn.v.fn < 0 := by
            refine Finset.sum_neg' (fun i _ => s2 i) ⟨i, Finset.mem_univ _, ?_⟩
            exact mul_neg_of_neg_of_pos hi ((hn'.v i).2.2.2 (Nat.succ_pos _) hi)
          have := mul_nonneg hwl2.le s4
          linarith
  have hD : q.DualCertificate E.opts.infeasTol (E.axpy (-1) x o.x).z.fn ↔ q.f ≠ 0 := by
    rw [hdz]
    constructor
    · intro h h'
      have := h.nonzero
      rw [h'] at this
      simp at this
      norm_num at this
    · intro h
      have hnn : 0 ≤ E.opts.infeasTol * ‖-(wz • q.f)‖ := mul_nonneg htol (norm_nonneg _)
      refine ⟨fun i => ?_, ?_, ?_, ?_, ?_⟩
      · rw [mulVec_neg, mulVec_smul, hq.ineq, smul_zero, neg_zero]; exact hnn
      · rw [mulVec_neg, mulVec_smul, hq.eq, smul_zero, neg_zero, norm_zero]; exact hnn
      · rw [mulVec_neg, mulVec_smul, hq.flat, smul_zero, neg_zero, norm_zero]; exact hnn
      · rw [dotProduct_neg, dotProduct_smul, smul_eq_mul]
        have : 0 < q.f ⬝ᵥ q.f := lt_of_le_of_ne (Finset.sum_nonneg fun i _ => mul_self_nonneg (_ : ℝ))
          fun h' => h (dotProduct_self_eq_zero.1 h'.symm)
        have := mul_pos hwzp this
        linarith
      · rw [norm_neg, norm_smul, Real.norm_of_nonneg hwzp.le]
        exact lt_of_lt_of_le (hf.resolve_left h) (mul_le_mul_of_nonneg_right hwz2 (norm_nonneg _))
  rw [hP, hD] at hchk
  have hany : q.f ≠ 0 ∨ q.h ≠ 0 ∨ ∃ i, q.b i < 0 :=
    QP.coldResidual_pos (lt_of_le_of_lt (le_trans (le_trans (by norm_num) N.inRange.innerTolMin.1) ht) hmax)
  have hne : Core.check E (Core.start E ws x tol0) o ≠ .feasible := by
    intro h
    have h' : (checkFeasibility E.ops (E.axpy (-1) x o.x) E.opts.infeasTol ws).1 = .feasible := h
    rw [h'] at hchk
    simp only [reduceCtorEq, or_self, false_iff] at hchk
    rcases hany with h | h
    · exact hchk.2 h
    · exact hchk.1 h
  refine ⟨_, Core.solve_first N.inRange.maxProxIters h0 hin hnew hc hne, rfl, ?_, ?_⟩
  · exact (Core.flagOf_primal _).trans hchk.1
  · exact (Core.flagOf_dual _).trans hchk.2

end

/-- C64, FBstabDense: with exact arithmetic, a convex decoupled problem with a residual above the tolerances at
the cold start is decided in the first proximal iteration, and the verdict is exact: primal infeasibility
is reported if and only if `h` is not zero or a void row has a negative bound, dual infeasibility if and only if
`f` is not zero. -/
theorem C64_dense (s : FBstabDense ℝ) (hs : s.Reachable) (p : DenseProblem ℝ) (x : CallerVar ℝ)
    (hfit : DenseFits s.nz s.nl s.nv p x) (hy : x.YWritable s.nv) (hc : (s.qp p).Convex) (hq : (s.qp p).Decoupled)
    (hz : (x.z.toVec s.nz).fn = 0) (hl : (x.l.toVec s.nl).fn = 0) (hv : (x.v.toVec s.nv).fn = 0)
    (hb : ∀ i, (s.qp p).b i < 0 → 1e-13 * s.options.sigma0 ≤ -(s.qp p).b i)
    (hf : (s.qp p).f = 0 ∨
      1e-14 < s.options.beta ^ s.options.maxLinesearchIters.toNat / s.options.sigma0 * ‖(s.qp p).f‖)
    (ht : s.options.innerTolMin ≤ s.options.innerTolMax)
    (h1 : stoppingTol (s.problem p) s.options < (s.qp p).coldResidual s.options.alpha)
    (h2 : s.options.innerTolMax < (s.qp p).coldResidual s.options.alpha)
    (hst : s.options.stallTol < onesNorm ℝ s.nz s.nl s.nv)
    (hn : s.options.maxInnerIters < s.options.maxNewtonIters) (hch : s.options.checkFeasibility = true) :
    ∃ out, (s.solve p x).result = .ok out ∧ out.proxIters = 0 ∧
      (out.eflag.claimsPrimal ↔ (s.qp p).h ≠ 0 ∨ ∃ i, (s.qp p).b i < 0) ∧
      (out.eflag.claimsDual ↔ (s.qp p).f ≠ 0) := by
  have N := s.newtonEnv (C01_reachable_dense s hs) p hc
  obtain ⟨fin, h3, h4⟩ := cold_run N hq hb hf ht h1 h2 hst hn hch s.mem.feas.ws _ _ _ hz hl hv
  exact ⟨_, ((FBstabDense.solve_computes hfit).ok fin h3 hy).1, h4⟩

/-- C64, FBstabMpc. -/
theorem C64_mpc (s : FBstabMpc ℝ) (hs : s.Reachable) (p : MpcProblem ℝ) (x : CallerVar ℝ)
    (hfit : MpcFits s.N s.nx s.nu s.nc p x) (hcol : p.Columns) (hc : (s.ocp p).Convex) (hq : (s.qp p).Decoupled)
    (hz : (x.z.toVec ((s.N + 1) * (s.nx + s.nu))).fn = 0) (hl : (x.l.toVec ((s.N + 1) * s.nx)).fn = 0)
    (hv : (x.v.toVec ((s.N + 1) * s.nc)).fn = 0)
    (hb : ∀ i, (s.qp p).b i < 0 → 1e-13 * s.options.sigma0 ≤ -(s.qp p).b i)
    (hf : (s.qp p).f = 0 ∨
      1e-14 < s.options.beta ^ s.options.maxLinesearchIters.toNat / s.options.sigma0 * ‖(s.qp p).f‖)
    (ht : s.options.innerTolMin ≤ s.options.innerTolMax)
    (h1 : stoppingTol (s.problem p) s.options < (s.qp p).coldResidual s.options.alpha)
    (h2 : s.options.innerTolMax < (s.qp p).coldResidual s.options.alpha)
    (hst : s.options.stallTol < onesNorm ℝ ((s.N + 1) * (s.nx + s.nu)) ((s.N + 1) * s.nx) ((s.N + 1) * s.nc))
    (hn : s.options.maxInnerIters < s.options.maxNewtonIters) (hch : s.options.checkFeasibility = true) :
    ∃ out, (s.solve p x).result = .ok out ∧ out.proxIters = 0 ∧
      (out.eflag.claimsPrimal ↔ (s.qp p).h ≠ 0 ∨ ∃ i, (s.qp p).b i < 0) ∧
      (out.eflag.claimsDual ↔ (s.qp p).f ≠ 0) := by
  have N := s.newtonEnv (C01_reachable_mpc s hs) p hc
  obtain ⟨fin, h3, h4⟩ := cold_run N hq hb hf ht h1 h2 hst hn hch s.mem.feas.ws _ _ _ hz hl hv
  exact ⟨_, ((FBstabMpc.solve_computes real_zero_beq hfit hcol).ok fin h3 fun _ => hfit.y).1, h4⟩

/-- C64: the verdict is right.  (A problem with a void row with a negative bound, or with `h` orthogonal to the
range of `G` but not zero, has no feasible point; one with `f` not zero goes down for ever from every
feasible point.) -/
theorem C64_right {nz nl nv : Nat} (q : QP nz nl nv) (hq : q.Decoupled) :
    ((q.h ≠ 0 ∨ ∃ i, q.b i < 0) → ¬∃ z, q.Feasible z) ∧ (q.f ≠ 0 → q.Recession (-q.f)) := by
  have hself : ∀ {n : Nat} {w : Fin n → ℝ}, w ≠ 0 → 0 < w ⬝ᵥ w := fun {n w} h =>
    lt_of_le_of_ne (Finset.sum_nonneg fun i _ => mul_self_nonneg (w i)) fun h' => h (dotProduct_self_eq_zero.1 h'.symm)
  refine ⟨?_, fun h => ⟨?_, ?_, ?_, ?_⟩⟩
  · rintro (h | ⟨i, hi⟩) ⟨z, hz⟩
    · have h1 := hself h
      have h2 : q.h ⬝ᵥ q.h = (q.Gᵀ *ᵥ q.h) ⬝ᵥ z := by
        rw [QP.transpose_dot, hz.eq, dotProduct_comm]
      rw [h2, hq.range, zero_dotProduct] at h1
      exact lt_irrefl _ h1
    · have := hz.ineq i
      rw [mulVec, dotProduct, Finset.sum_eq_zero fun j _ => by rw [hq.void i hi j, MulZeroClass.zero_mul]] at this
      linarith
  · rw [mulVec_neg, hq.flat, neg_zero]
  · rw [mulVec_neg, hq.eq, neg_zero]
  · intro i
    rw [mulVec_neg, hq.ineq, neg_zero]
    exact le_rfl
  · rw [dotProduct_neg]
    have := hself h
    linarith

end Fbstab
