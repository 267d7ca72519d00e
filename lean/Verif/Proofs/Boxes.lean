import Verif.Spec.Boxes
import Verif.Props.FalseAlarms

/-!
# Runs on problems with symmetric bounds, from multipliers equal to one
-/

namespace Fbstab
open Matrix

variable {nz nl nv : Nat} {q : QP nz nl nv}

namespace QP.SymmetricBox

theorem AT (h : q.SymmetricBox) (c : ℝ) : q.Aᵀ *ᵥ (fun _ => c) = 0 := by
  have : (fun _ : Fin nv => c) = c • (fun _ => (1 : ℝ)) := by ext i; simp
  rw [this, mulVec_smul, h.rows, smul_zero]

/-- The origin solves such a problem. -/
theorem kkt (h : q.SymmetricBox) : q.KKT 0 0 0 where
  stationary := by
    unfold QP.lagrangeGrad
    simp only [mulVec_zero, add_zero, zero_add]
    exact h.f
  feasible := ⟨by rw [mulVec_zero, h.h], fun i => by
    rw [mulVec_zero, h.b]; exact zero_le_one⟩
  dual := fun i => le_refl _
  complementary := fun i => .inl rfl

/-- The iterates of the first subproblem. -/
structure Iterate (q : QP nz nl nv) (n : Nat) (x : Point ℝ nz nl nv) : Prop where
  z : x.z.fn = 0
  l : x.l.fn = 0
  v : ∃ w : ℝ, x.v.fn = (fun _ => w) ∧ w ≤ 1 ∧ (0 < n → w < 1)
  y : x.y.fn = fun _ => 1

theorem Iterate.step (B : q.SymmetricBox) {E : Core.Env ℝ nz nl nv} (N : Core.NewtonEnv E q)
    (hs : E.opts.sigma0 < 1 / 2) {xbar : Point ℝ nz nl nv} (hb : Iterate q 0 xbar)
    (hbv : xbar.v.fn = fun _ => 1) (n x x') (hx : Iterate q n x)
    (h : Core.NewtonMove E q xbar x x') : Iterate q (n + 1) x' := by
  obtain ⟨w, hv, hw, -⟩ := hx.v
  obtain ⟨j, dz, dl, dv, -, hd, e1, e2, e3, e4⟩ := h.move
  have hyi : ∀ i, x.y i = 1 := fun i => congrFun hx.y i
  have hvi : ∀ i, x.v i = w := fun i => congrFun hv i
  have hbi : ∀ i, xbar.v i = 1 := fun i => congrFun hbv i
  have hal := N.inRange.alpha_pos
  have hal' := N.inRange.alpha_lt
  have hsig := N.inRange.sigma_pos
  have hmarg : Core.Marg q x := by
    unfold Core.Marg
    rw [hx.y, hx.z, mulVec_zero, sub_zero, B.b]
  set a := 1 + E.opts.sigma0 * (w - 1) with ha
  set mu := E.opts.sigma0 * (pfbGradient E.opts.alpha a w).1 + (pfbGradient E.opts.alpha a w).2 with hmu
  have hmu0 : 0 < mu := by
    obtain ⟨g1, g2⟩ := pfbGradient_nonneg hal hal' a w
    rcases pfbGradient_pos hal hal' a w with h | h
    · have := mul_pos hsig h; linarith
    · have := mul_nonneg hsig.le g1; linarith
  have hsys := hd.system
  have hmine : q.NewtonSystem E.opts.sigma0
    (fun i => (slopes E.opts.alpha E.opts.sigma0 x xbar i).1)
    (fun i => (slopes E.opts.alpha E.opts.sigma0 x xbar i).2)
    (-(q.lagrangeGrad x.z.fn x.l.fn x.v.fn + E.opts.sigma0 • (x.z.fn - xbar.z.fn)))
    (-(q.h - q.G *ᵥ x.z.fn + E.opts.sigma0 • (x.l.fn - xbar.l.fn)))
    (fun i => -pfb (x.y i + E.opts.sigma0 * (x.v i - xbar.v i)) (x.v i) E.opts.alpha)
    0 0 (fun _ => -pfb a w E.opts.alpha / mu) := by
    refine ⟨?_, ?_, fun i => ?_⟩
    · rw [hx.z, hx.l, hv, hb.z]
      unfold QP.lagrangeGrad
      simp only [B.AT, B.f, mulVec_zero, add_zero, sub_zero, smul_zero, neg_zero]
    · rw [hx.z, hx.l, hb.l]
      simp only [B.h, mulVec_zero, add_zero, sub_zero, smul_zero, neg_zero]
    · simp only [slopes, hyi, hvi, hbi]
      rw [← ha]
      simp only [mulVec_zero, Pi.zero_apply, neg_zero, zero_add]
      field_simp
      rw [hmu]; ring
  obtain ⟨rfl, rfl, rfl⟩ := QP.NewtonSystem.unique N.convex hsig
    (fun i => (pfbGradient_nonneg hal hal' _ _).1) (fun i => by
      simp only [slopes, hyi, hvi, hbi]
      rw [← ha]; linarith) hsys hmine
  have hb0 : 0 < E.opts.beta := lt_of_lt_of_le (by norm_num) N.inRange.beta.1
  have hb1 : E.opts.beta ≤ 1 := N.inRange.beta.2.trans (by norm_num)
  refine ⟨by rw [e1, hx.z]; simp, by rw [e2, hx.l]; simp,
    ⟨w + E.opts.beta ^ j * (-pfb a w E.opts.alpha / mu), ?_, ?_⟩, ?_⟩
  · rw [e3, hv]; ext i; simp
  · have := box_step hal hal' hsig hs hw (pow_pos hb0 j) (pow_le_one₀ hb0.le hb1) hmu
    exact ⟨this.le, fun _ => this⟩
  · rw [e4 hmarg, e1, hx.z, smul_zero, add_zero, mulVec_zero, sub_zero, B.b]

/-- The run with the default options from `z = 0`, `l = 0`, `v = (1, ..., 1)`. -/
theorem run (B : q.SymmetricBox) (hnv : 0 < nv) {E : Core.Env ℝ nz nl nv} (N : Core.NewtonEnv E q)
    (ho : E.opts = Params.defaults)
    (ws : FeasWs ℝ nz nl nv) (z : Vec ℝ nz) (l : Vec ℝ nl) (v : Vec ℝ nv) (hz : z.fn = 0) (hl : l.fn = 0)
    (hv : v.fn = fun _ => 1) :
    ∃ fin, (Core.solve E ws z l v).2 = .ok fin ∧ fin.out.eflag = .primalInfeasible := by
  have hm : Core.Marg q (Core.startPt E z l v) := Core.Marg.start N.ops z l v
  set x := Core.startPt E z l v with hx
  have hxz : x.z.fn = 0 := hz
  have hxl : x.l.fn = 0 := hl
  have hxv : x.v.fn = fun _ => 1 := hv
  have hxy : x.y.fn = fun _ => 1 := by
    rw [hm, hxz, mulVec_zero, sub_zero, B.b]
  have hxvi : ∀ i, x.v i = 1 := fun i => congrFun hxv i
  have hxyi : ∀ i, x.y i = 1 := fun i => congrFun hxy i
  have hx0 : Iterate q 0 x := ⟨hxz, hxl, ⟨1, hxv, le_refl _, fun h => absurd h (lt_irrefl _)⟩, hxy⟩
  have h1v : (1 : ℝ) ≤ √(nv : ℝ) := by
    rw [Real.one_le_sqrt]; exact_mod_cast hnv
  -- the residual of the guess
  have hgrad : q.lagrangeGrad x.z.fn x.l.fn x.v.fn = 0 := by
    unfold QP.lagrangeGrad
    rw [hxz, hxl, hxv, B.AT, B.f, mulVec_zero, mulVec_zero, add_zero, add_zero, add_zero]
  have hpen : √(nv : ℝ) ≤ Core.Resid.norm (E.penRes x) := by
    have hn : Core.Resid.norm (E.penRes x) = norm3 (E.penRes x).z (E.penRes x).l (E.penRes x).v := rfl
    have h3 := (norm3_bounds (le_of_eq hn.symm)).2.2
    refine le_trans (le_of_eq ?_) h3
    have : (penalizedMin E.opts.alpha x.y x.v).fn = fun _ => 1 := by
      ext i
      show (penalizedMin E.opts.alpha x.y x.v) i = 1
      rw [penalizedMin, Vec.get_ofFn, hxvi, hxyi]
      simp
    show _ = euclid (penalizedMin E.opts.alpha x.y x.v).fn
    rw [this]
    simp [euclid, dotProduct]
  have hpen1 : 1 ≤ Core.Resid.norm (E.penRes x) := h1v.trans hpen
  have hinner : 1e-2 < Core.Resid.norm (E.innerRes x x E.opts.sigma0) := by
    obtain ⟨i1, i2, i3⟩ := Core.innerRes_fn N.ops x x E.opts.sigma0
    have hn : Core.Resid.norm (E.innerRes x x E.opts.sigma0) =
        norm3 (E.innerRes x x E.opts.sigma0).z (E.innerRes x x E.opts.sigma0).l
          (E.innerRes x x E.opts.sigma0).v := rfl
    have h3 := (norm3_bounds (le_of_eq hn.symm)).2.2
    have h4 := abs_le_euclid (E.innerRes x x E.opts.sigma0).v.fn ⟨0, hnv⟩
    have h5 : (E.innerRes x x E.opts.sigma0).v.fn ⟨0, hnv⟩ = pfb 1 1 0.95 := by
      have := i3 ⟨0, hnv⟩
      rw [hxvi, hxyi] at this
      simp only [sub_self, mul_zero, add_zero] at this
      rw [show E.opts.alpha = 0.95 by rw [ho]; rfl] at this
      exact this
    have h6 : 0.1 < pfb (1 : ℝ) 1 0.95 := by
      rw [pfb_real]
      have := sqrt_two_lt
      norm_num at this ⊢
      linarith
    rw [h5] at h4
    have := le_abs_self (pfb (1 : ℝ) 1 0.95)
    norm_num at *
    linarith
  have hcombo : E.comboTol < Core.Resid.norm (E.penRes x) := by
    have h2 : q.f ⬝ᵥ q.f + q.h ⬝ᵥ q.h + q.b ⬝ᵥ q.b = nv := by
      rw [B.f, B.h, B.b]; simp [dotProduct]
    refine lt_of_lt_of_le ?_ hpen
    unfold Core.Env.comboTol stoppingTol
    rw [N.ops.forcingNorm, h2, ho]
    simp only [Params.defaults]
    generalize √(nv : ℝ) = t at *
    norm_num
    linarith
  have hones : E.opts.stallTol < Core.normPt (Core.onesPt E) := by
    show _ < norm3 (Vec.const 1) (Vec.const 1) (Vec.const 1)
    have h0 : ((1 : ℝ) : ℝ) ≤ nv := by exact_mod_cast hnv
    have h1 : (0 : ℝ) ≤ nz := by positivity
    have h2 : (0 : ℝ) ≤ nl := by positivity
    rw [norm3_eq, ho]
    refine Real.lt_sqrt_of_sq_lt ?_
    simp [dotProduct, Params.defaults]
    norm_num
    linarith
  have hs : E.opts.sigma0 < 1 / 2 := by rw [ho]; norm_num [Params.defaults]
  obtain ⟨tol0, tol, o, xn, h0, hin, hox, n, hn⟩ := Core.first_subproblem N ws x (Iterate q)
    (Iterate.step B N hs hx0 hxv) hx0 (by rw [ho]; norm_num [Params.defaults])
    hcombo hones
    (by rw [ho]; refine le_trans ?_ hpen1; norm_num [Params.defaults])
    (by rw [show E.opts.innerTolMax = 1e-2 by rw [ho]; rfl]; exact hinner)
  have hnew : ¬(E.opts.maxNewtonIters ≤ (o.newton : Int)) := by
    have := hin.newton.2.1
    rw [ho] at this ⊢
    simp only [Core.start, Params.defaults] at this ⊢
    omega
  have hchk := checkFeasibility_real N.ops (E.axpy (-1) x o.x) E.opts.infeasTol
    N.inRange.infeasTol_nonneg ws
  obtain ⟨w, hw, hw1, hw2⟩ := hn.v
  have hdv : (E.axpy (-1) x o.x).v.fn = fun _ => max w 0 - 1 := by
    rw [hox]
    ext i
    have h1 : xn.v i = w := congrFun hw i
    show (_ : ℝ) = _
    simp [Core.Env.axpy, Core.projectDuals, Vec.cwiseMax, h1, hxvi]
    ring
  have hdz : (E.axpy (-1) x o.x).z.fn = 0 := by
    rw [hox]
    ext i
    have h1 : xn.z i = 0 := congrFun hn.z i
    have h2 : x.z i = 0 := congrFun hxz i
    simp [Core.Env.axpy, Core.projectDuals, h1, h2]
  have hdl : (E.axpy (-1) x o.x).l.fn = 0 := by
    rw [hox]
    ext i
    have h1 : xn.l i = 0 := congrFun hn.l i
    have h2 : x.l i = 0 := congrFun hxl i
    simp [Core.Env.axpy, Core.projectDuals, h1, h2]
  have hneg : max w 0 - 1 < 0 := by
    have : max w 0 < 1 := max_lt (hw2 (Nat.succ_pos _)) one_pos
    linarith
  have hP : q.PrimalCertificate E.opts.infeasTol (E.axpy (-1) x o.x).l.fn
      (E.axpy (-1) x o.x).v.fn := by
    refine ⟨?_, ?_⟩
    · rw [hdv, hdl, B.AT, mulVec_zero, add_zero, norm_zero]
      exact mul_nonneg N.inRange.infeasTol_nonneg (le_max_of_le_left (norm_nonneg _))
    · rw [hdv, hdl, B.b, B.h]
      have : (fun _ : Fin nv => (1 : ℝ)) ⬝ᵥ (fun _ => max w 0 - 1) = nv * (max w 0 - 1) := by
        simp [dotProduct, mul_sub]
      rw [this, dotProduct_zero]
      have : (0 : ℝ) < nv := by exact_mod_cast hnv
      nlinarith
  have hD : ¬q.DualCertificate E.opts.infeasTol (E.axpy (-1) x o.x).z.fn := by
    intro h
    have := h.nonzero
    rw [hdz, norm_zero] at this
    norm_num at this
  have hflag : Core.check E (Core.start E ws x tol0) o = .primalInfeasible := by
    rcases hchk.1.2 hP with h | h
    · exact h
    · exact absurd (hchk.2.1 (.inr h)) hD
  refine ⟨_, Core.solve_first N.inRange.maxProxIters h0 hin hnew (by rw [ho]; rfl)
    (by rw [hflag]; exact fun h => nomatch h), ?_⟩
  show Core.flagOf (Core.check E (Core.start E ws x tol0) o) = _
  rw [hflag]
  rfl

end QP.SymmetricBox
end Fbstab
