import Verif.Spec.Boxes
import Verif.Props.FalseAlarms

/-!
# Runs on problems with a slope of tiny curvature
-/

namespace Fbstab
open Matrix

variable {nz nl nv : Nat} {q : QP nz nl nv} {eps : ℝ}

namespace QP.FlatSlope

/-- The point `-f / eps` solves such a problem. -/
theorem kkt (S : q.FlatSlope eps) : q.KKT (-(1 / eps) • q.f) 0 0 where
  stationary := by
    unfold QP.lagrangeGrad
    rw [mulVec_zero, mulVec_zero, add_zero, add_zero, mulVec_smul, S.curvature, smul_smul]
    have : -(1 / eps) * eps = -1 := by have := S.pos.ne'; field_simp
    rw [this, neg_one_smul, neg_add_cancel]
  feasible := ⟨by rw [mulVec_smul, S.eq, smul_zero, S.h], fun i => by
    rw [mulVec_smul, S.ineq, smul_zero]; exact S.b i⟩
  dual := fun i => le_refl _
  complementary := fun i => .inl rfl

/-- The iterates of the first subproblem. -/
structure Iterate (q : QP nz nl nv) (m : ℝ) (n : Nat) (x : Point ℝ nz nl nv) : Prop where
  z0 : n = 0 → x.z.fn = 0
  z : ∃ w : ℝ, x.z.fn = (-w) • q.f ∧ 0 ≤ w ∧ w ≤ m ∧ (0 < n → 1 ≤ w)
  l : x.l.fn = 0
  v : x.v.fn = 0
  y : x.y.fn = q.b

theorem Iterate.step (S : q.FlatSlope eps) (he : eps ≤ 1e-8) {E : Core.Env ℝ nz nl nv} (N : Core.NewtonEnv E q)
    (ho : E.opts = Params.defaults) {xbar : Point ℝ nz nl nv} (hb : Iterate q (1 / (eps + 1e-8)) 0 xbar)
    (n x x') (hx : Iterate q (1 / (eps + 1e-8)) n x)
    (h : Core.NewtonMove E q xbar x x') : Iterate q (1 / (eps + 1e-8)) (n + 1) x' := by
  obtain ⟨w, hw, hw0, hw1, -⟩ := hx.z
  obtain ⟨j, dz, dl, dv, hj, hd, e1, e2, e3, e4⟩ := h.move
  have hyi : ∀ i, x.y i = q.b i := fun i => congrFun hx.y i
  have hvi : ∀ i, x.v i = 0 := fun i => congrFun hx.v i
  have hbi : ∀ i, xbar.v i = 0 := fun i => congrFun hb.v i
  have hal := N.inRange.alpha_pos
  have hal' := N.inRange.alpha_lt
  have hsig := N.inRange.sigma_pos
  have hs8 : E.opts.sigma0 = 1e-8 := by rw [ho]; rfl
  have hA : ∀ c : ℝ, q.A *ᵥ (c • q.f) = 0 := fun c => by rw [mulVec_smul, S.ineq, smul_zero]
  have hG : ∀ c : ℝ, q.G *ᵥ (c • q.f) = 0 := fun c => by rw [mulVec_smul, S.eq, smul_zero]
  have hmarg : Core.Marg q x := by
    unfold Core.Marg
    rw [hx.y, hw, hA, sub_zero]
  have hpos := S.pos
  have hne : (eps + 1e-8) ≠ 0 := by positivity
  have hsys := hd.system
  have hmine : q.NewtonSystem E.opts.sigma0
    (fun i => (slopes E.opts.alpha E.opts.sigma0 x xbar i).1)
    (fun i => (slopes E.opts.alpha E.opts.sigma0 x xbar i).2)
    (-(q.lagrangeGrad x.z.fn x.l.fn x.v.fn + E.opts.sigma0 • (x.z.fn - xbar.z.fn)))
    (-(q.h - q.G *ᵥ x.z.fn + E.opts.sigma0 • (x.l.fn - xbar.l.fn)))
    (fun i => -pfb (x.y i + E.opts.sigma0 * (x.v i - xbar.v i)) (x.v i) E.opts.alpha)
    ((-(1 / (eps + 1e-8) - w)) • q.f) 0 0 := by
    refine ⟨?_, ?_, fun i => ?_⟩
    · rw [hw, hx.v, hx.l, hb.z0 rfl]
      unfold QP.lagrangeGrad
      simp only [mulVec_zero, add_zero, sub_zero, mulVec_smul, S.curvature, hs8]
      ext i
      simp only [Pi.add_apply, Pi.smul_apply, Pi.neg_apply, smul_eq_mul]
      field_simp
      ring
    · rw [hw, hx.l, hb.l]
      simp only [hG, S.h, mulVec_zero, smul_zero, sub_zero, add_zero, neg_zero]
    · simp only [hyi, hvi, hbi, hA]
      have : pfb (q.b i + E.opts.sigma0 * (0 - 0)) 0 E.opts.alpha = 0 :=
        (pfb_zero hal hal').2 ⟨by simpa using S.b i, le_refl _, .inl rfl⟩
      rw [this]
      simp
  obtain ⟨rfl, rfl, rfl⟩ := QP.NewtonSystem.unique N.convex hsig
    (fun i => (pfbGradient_nonneg hal hal' _ _).1) (fun i => by
      obtain ⟨g1, g2⟩ := pfbGradient_nonneg hal hal' (x.y i + E.opts.sigma0 * (x.v i - xbar.v i)) (x.v i)
      show 0 < (pfbGradient _ _ _).2 + E.opts.sigma0 * (pfbGradient _ _ _).1
      rcases pfbGradient_pos hal hal' (x.y i + E.opts.sigma0 * (x.v i - xbar.v i)) (x.v i) with h | h
      · have := mul_pos hsig h; linarith
      · have := mul_nonneg hsig.le g1; linarith) hsys hmine
  have hbe : E.opts.beta = 0.75 := by rw [ho]; rfl
  have hj' : j ≤ 20 := by rw [ho] at hj; exact hj
  have ht : (0.75 : ℝ) ^ 20 ≤ E.opts.beta ^ j := by
    rw [hbe]; exact pow_le_pow_of_le_one (by norm_num) (by norm_num) hj'
  have ht1 : E.opts.beta ^ j ≤ 1 := pow_le_one₀ (by rw [hbe]; norm_num) (by rw [hbe]; norm_num)
  have ht0 : (0.001 : ℝ) ≤ E.opts.beta ^ j := le_trans (by norm_num) ht
  have hz : (2e7 : ℝ) ≤ 1 / (eps + 1e-8) := by
    rw [le_div_iff₀ (by positivity)]
    linarith
  have key : ∀ zm t : ℝ, 2e7 ≤ zm → w ≤ zm → 0.001 ≤ t → t ≤ 1 → 0 ≤ w + t * (zm - w) ∧
      w + t * (zm - w) ≤ zm ∧ 1 ≤ w + t * (zm - w) := by
    intro zm t h1 h2 h3 h4
    refine ⟨by nlinarith, by nlinarith, by nlinarith⟩
  obtain ⟨k1, k2, k3⟩ := key _ _ hz hw1 ht0 ht1
  have hz' : x'.z.fn = (-(w + E.opts.beta ^ j * (1 / (eps + 1e-8) - w))) • q.f := by
    rw [e1, hw]
    ext i
    simp only [Pi.add_apply, Pi.smul_apply, smul_eq_mul]
    ring
  refine ⟨fun h => by omega, ⟨_, hz', k1, k2, fun _ => k3⟩, ?_, ?_, ?_⟩
  · rw [e2, hx.l, smul_zero, add_zero]
  · rw [e3, hx.v, smul_zero, add_zero]
  · rw [e4 hmarg, hz', hA, sub_zero]

/-- The run with the default options from `z = 0`, `l = 0`, `v = 0`. -/
theorem run (S : q.FlatSlope eps) (he : eps ≤ 1e-8) (hf1 : ∃ i, 1 ≤ |q.f i|) (hbf : q.h ⬝ᵥ q.h + q.b ⬝ᵥ q.b ≤ 1e20)
    {E : Core.Env ℝ nz nl nv} (N : Core.NewtonEnv E q) (ho : E.opts = Params.defaults)
    (ws : FeasWs ℝ nz nl nv) (z : Vec ℝ nz) (l : Vec ℝ nl) (v : Vec ℝ nv) (hz : z.fn = 0) (hl : l.fn = 0)
    (hv : v.fn = 0) :
    ∃ fin, (Core.solve E ws z l v).2 = .ok fin ∧ fin.out.eflag = .dualInfeasible ∧
      fin.out.proxIters = 0 := by
  obtain ⟨i0, hi0⟩ := hf1
  have hA : ∀ c : ℝ, q.A *ᵥ (c • q.f) = 0 := fun c => by rw [mulVec_smul, S.ineq, smul_zero]
  have hG : ∀ c : ℝ, q.G *ᵥ (c • q.f) = 0 := fun c => by rw [mulVec_smul, S.eq, smul_zero]
  have hm : Core.Marg q (Core.startPt E z l v) := Core.Marg.start N.ops z l v
  set x := Core.startPt E z l v with hx
  have hxz : x.z.fn = 0 := hz
  have hxl : x.l.fn = 0 := hl
  have hxv : x.v.fn = 0 := hv
  have hxy : x.y.fn = q.b := by
    rw [hm, hxz, mulVec_zero, sub_zero]
  have hxvi : ∀ i, x.v i = 0 := fun i => congrFun hxv i
  have hpos := S.pos
  have hx0 : Iterate q (1 / (eps + 1e-8)) 0 x := ⟨fun _ => hxz, ⟨0, by rw [hxz]; simp, le_refl _, by positivity,
    fun h => absurd h (lt_irrefl _)⟩, hxl, hxv, hxy⟩
  have hf2 : 1 ≤ euclid q.f := hi0.trans (abs_le_euclid _ _)
  -- the residual of the guess
  have hgrad : q.lagrangeGrad x.z.fn x.l.fn x.v.fn = q.f := by
    unfold QP.lagrangeGrad
    rw [hxz, hxv, hxl, mulVec_zero, mulVec_zero, mulVec_zero, add_zero, add_zero, zero_add]
  have hle : ∀ (r : Resid ℝ nz nl nv) (_ : Core.Resid.norm r = norm3 r.z r.l r.v),
      (r.z.fn = q.f) → euclid q.f ≤ Core.Resid.norm r := by
    intro r hr hz
    have h3 := (norm3_bounds (le_of_eq hr.symm)).1
    rwa [hz] at h3
  have hpen : euclid q.f ≤ Core.Resid.norm (E.penRes x) :=
    hle _ rfl (by rw [← hgrad]; exact N.ops.gradLagrangian _ _ _)
  have hinner : euclid q.f ≤ Core.Resid.norm (E.innerRes x x E.opts.sigma0) := by
    refine hle _ rfl ?_
    rw [(Core.innerRes_fn N.ops x x E.opts.sigma0).1, hgrad, sub_self, smul_zero, add_zero]
  have hcombo : E.comboTol < euclid q.f := by
    have h2 : √(q.f ⬝ᵥ q.f + q.h ⬝ᵥ q.h + q.b ⬝ᵥ q.b) ≤ euclid q.f + 1e10 := by
      refine Real.sqrt_le_iff.2 ⟨by positivity, ?_⟩
      have h3 : q.f ⬝ᵥ q.f = euclid q.f ^ 2 := by
        unfold euclid
        rw [Real.sq_sqrt (by simp only [dotProduct]; exact Finset.sum_nonneg fun i _ => mul_self_nonneg _)]
      have h4 : 0 ≤ euclid q.f := zero_le_one.trans hf2
      rw [h3]
      nlinarith
    unfold Core.Env.comboTol stoppingTol
    rw [N.ops.forcingNorm, ho]
    simp only [Params.defaults]
    generalize √(q.f ⬝ᵥ q.f + q.h ⬝ᵥ q.h + q.b ⬝ᵥ q.b) = t at *
    norm_num at h2 ⊢
    linarith
  have hones : E.opts.stallTol < Core.normPt (Core.onesPt E) := by
    show _ < norm3 (Vec.const 1) (Vec.const 1) (Vec.const 1)
    have h0 : (1 : ℝ) ≤ nz := by exact_mod_cast Nat.succ_le_of_lt (Nat.lt_of_le_of_lt (Nat.zero_le _) i0.isLt)
    have h1 : (0 : ℝ) ≤ nv := by positivity
    have h2 : (0 : ℝ) ≤ nl := by positivity
    rw [norm3_eq, ho]
    refine Real.lt_sqrt_of_sq_lt ?_
    simp [dotProduct, Params.defaults]
    norm_num
    linarith
  obtain ⟨tol0, tol, o, xn, h0, hin, hox, n, hn⟩ := Core.first_subproblem N ws x (Iterate q (1 / (eps + 1e-8)))
    (Iterate.step S he N ho hx0) hx0 (by rw [ho]; norm_num [Params.defaults])
    (lt_of_lt_of_le hcombo hpen) hones
    (by refine le_trans ?_ (hf2.trans hpen); rw [ho]; norm_num [Params.defaults])
    (by refine lt_of_lt_of_le ?_ (hf2.trans hinner); rw [ho]; norm_num [Params.defaults])
  have hnew : ¬(E.opts.maxNewtonIters ≤ (o.newton : Int)) := by
    have := hin.newton.2.1
    rw [ho] at this ⊢
    simp only [Core.start, Params.defaults] at this ⊢
    omega
  have hchk := checkFeasibility_real N.ops (E.axpy (-1) x o.x) E.opts.infeasTol
    N.inRange.infeasTol_nonneg ws
  obtain ⟨w, hw, hw1, -, hw2⟩ := hn.z
  have hw3 := hw2 (Nat.succ_pos _)
  have hdv : (E.axpy (-1) x o.x).v.fn = 0 := by
    rw [hox]
    ext i
    have h1 : xn.v i = 0 := congrFun hn.v i
    show (_ : ℝ) = _
    simp [Core.Env.axpy, Core.projectDuals, Vec.cwiseMax, h1, hxvi]
  have hdl : (E.axpy (-1) x o.x).l.fn = 0 := by
    rw [hox]
    ext i
    have h1 : xn.l i = 0 := congrFun hn.l i
    have h2 : x.l i = 0 := congrFun hxl i
    simp [Core.Env.axpy, Core.projectDuals, h1, h2]
  have hdz : (E.axpy (-1) x o.x).z.fn = (-w) • q.f := by
    rw [hox]
    ext i
    have h1 : xn.z i = ((-w) • q.f) i := congrFun hw i
    have h2 : x.z i = 0 := congrFun hxz i
    simp [Core.Env.axpy, Core.projectDuals, h1, h2]
  have hP : ¬q.PrimalCertificate E.opts.infeasTol (E.axpy (-1) x o.x).l.fn
      (E.axpy (-1) x o.x).v.fn := by
    intro h
    have := h.neg
    rw [hdv, hdl, dotProduct_zero, dotProduct_zero, add_zero] at this
    exact lt_irrefl _ this
  have hit : E.opts.infeasTol = 1e-8 := by rw [ho]; rfl
  have hD : q.DualCertificate E.opts.infeasTol (E.axpy (-1) x o.x).z.fn := by
    have hff : 1 ≤ q.f ⬝ᵥ q.f := by
      have h1 : q.f i0 * q.f i0 ≤ q.f ⬝ᵥ q.f :=
        Finset.single_le_sum (f := fun i => q.f i * q.f i) (fun i _ => mul_self_nonneg _) (Finset.mem_univ i0)
      have h2 : 1 ≤ |q.f i0| * |q.f i0| := by nlinarith
      rw [abs_mul_abs_self] at h2
      exact h2.trans h1
    have hnn : ∀ u : Fin nz → ℝ, 0 ≤ 1e-8 * ‖u‖ := fun u => mul_nonneg (by norm_num) (norm_nonneg _)
    constructor
    · intro i
      rw [hdz, hA, hit]
      exact hnn _
    · rw [hdz, hG, norm_zero, hit]
      exact hnn _
    · rw [hdz, mulVec_smul, S.curvature, smul_comm, norm_smul, hit, Real.norm_eq_abs, abs_of_pos hpos]
      exact mul_le_mul_of_nonneg_right he (norm_nonneg _)
    · rw [hdz, dotProduct_smul, smul_eq_mul]
      nlinarith
    · rw [hdz]
      have h1 := norm_le_pi_norm ((-w) • q.f) i0
      have h2 : ‖((-w) • q.f) i0‖ = w * |q.f i0| := by
        simp [abs_of_nonneg hw1]
      rw [h2] at h1
      have h3 : 1 ≤ w * |q.f i0| := by nlinarith
      refine lt_of_lt_of_le ?_ (h3.trans h1)
      norm_num
  have hflag : Core.check E (Core.start E ws x tol0) o = .dualInfeasible := by
    rcases hchk.2.2 hD with h | h
    · exact h
    · exact absurd (hchk.1.1 (.inr h)) hP
  refine ⟨_, Core.solve_first N.inRange.maxProxIters h0 hin hnew (by rw [ho]; rfl)
    (by rw [hflag]; exact fun h => nomatch h), ?_, rfl⟩
  show Core.flagOf (Core.check E (Core.start E ws x tol0) o) = _
  rw [hflag]
  rfl

end QP.FlatSlope
end Fbstab
