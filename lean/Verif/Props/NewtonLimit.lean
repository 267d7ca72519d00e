import Verif.Proofs.Outer
import Verif.Props.Log
import Verif.Props.StaleResidual

/-!
# C50: what is returned at the Newton limit
-/

namespace Fbstab
open Matrix

namespace Core
section
variable {K : Type} [Scalar K] {nz nl nv : Nat} {E : Env K nz nl nv}

/-- Unless it ran out of iterations, the loop returns the residual norm of the point it returns. -/
theorem innerLoop_Eo_last (E : Env K nz nl nv) (tol sigma Ek : K) (xbar : Point K nz nl nv)
    (fuel : Nat) : ∀ (i : Nat) (t Eo : K) (x : Point K nz nl nv) (newton : Nat) (buf : Vec K 5)
    (rk : Resid K nz nl nv) (o : InnerOut K nz nl nv),
    (innerLoop E tol sigma Ek xbar fuel i t Eo x newton buf rk).2 = .ok o →
    o.newton < newton + fuel → o.Eo = Resid.norm (E.penRes o.x) := by
  induction fuel with
  | zero =>
    intro i t Eo x newton buf rk o h
    simp only [innerLoop] at h
    cases h
    intro hlt
    exact absurd hlt (by simp)
  | succ fuel ih =>
    intro i t Eo x newton buf rk o h
    simp only [innerLoop] at h
    split at h
    · cases h; exact fun _ => rfl
    · split at h
      · cases h; exact fun _ => rfl
      · split at h
        · cases h
        · cases h
        · intro hlt
          exact ih _ _ _ _ _ _ _ _ h (by omega)

/-- The choice made at the Newton limit. -/
theorem Returned.newtonLimit {ws : FeasWs K nz nl nv} {x : Point K nz nl nv} {fin : Final K nz nl nv}
    (h : Returned E ws x fin) (hl : 1 ≤ E.opts.maxProxIters) (hin : 1 ≤ E.opts.maxInnerIters)
    (hf : fin.out.eflag = .maxIterations) (hn : E.opts.maxNewtonIters ≤ (fin.out.newtonIters : Int)) :
    ∃ tol k s, saturate (Resid.norm (E.penRes x)) E.opts.innerTolMin E.opts.innerTolMax = .ok tol ∧
      Steps E k (start E ws x tol) s ∧ fin.out.proxIters = k ∧ s.newton ≤ fin.out.newtonIters ∧
      ∃ e p : Point K nz nl nv,
        (fin.out.newtonIters < s.newton + E.opts.maxInnerIters.toNat → e = p) ∧
        fin.x = if Resid.norm (E.penRes e) < Resid.norm (E.penRes s.xk) then projectDuals p
          else s.xk := by
  obtain ⟨tol, k, s, ht, hs, h⟩ := h.run
  have hp := hs.prox
  simp only [start, Nat.zero_add] at hp
  rcases h with ⟨hk, h⟩ | ⟨hk, rfl⟩
  · cases h with
    | success _ => cases hf
    | newton hi hn x hx =>
      refine ⟨tol, k, s, ht, hs, hp, hi.newton.1, ?_⟩
      obtain ⟨o', h', rfl⟩ := subproblem_ok hi.sub
      have l1 := innerLoop_Eo_last _ _ _ _ _ _ _ _ _ _ _ _ _ _ h'
      obtain ⟨e1, e2⟩ := innerLoop_Eo _ _ _ _ _ _ _ _ _ _ _ _ _ _ h'
      by_cases hlt : o'.newton < s.newton + E.opts.maxInnerIters.toNat
      · refine ⟨o'.x, o'.x, fun _ => rfl, ?_⟩
        rw [← l1 hlt]
        exact hx
      · rcases e1 with e1 | ⟨-, e1⟩
        · rcases e2 with ⟨-, e2⟩ | ⟨x', e2⟩
          · omega
          · refine ⟨x', o'.x, fun hlt' => absurd hlt' hlt, ?_⟩
            rw [← e2, ← e1]
            exact hx
        · omega
    | infeasible hi hn hc hf' =>
      exfalso
      simp only [mkFinal] at hf
      cases hc' : check E s _ <;> rw [hc'] at hf hf' <;> simp [flagOf] at hf hf'
  · exact absurd hn (hs.newton_below (by omega))

end

variable {nz nl nv : Nat} {E : Env ℝ nz nl nv} {q : QP nz nl nv}

/-- Making the multipliers nonnegative does not increase the residual by much. -/
theorem penRes_project (I : q.Implements E.ops) (ha : 0 < E.opts.alpha) (x : Point ℝ nz nl nv) :
    Resid.norm (E.penRes (projectDuals x)) ≤
      (1 + q.sizeA / E.opts.alpha) * Resid.norm (E.penRes x) := by
  have e : ∀ x : Point ℝ nz nl nv, Resid.norm (E.penRes x) = ‖vec3 (q.lagrangeGrad x.z.fn x.l.fn x.v.fn)
      (q.h - q.G *ᵥ x.z.fn) (penalizedMin E.opts.alpha x.y x.v).fn‖ := by
    intro x
    have e : Resid.norm (E.penRes x) = residualNorm E.ops E.opts.alpha x := rfl
    rw [e, residualNorm, norm3_vec3, I.gradLagrangian, I.eqDefect]
  rw [e, e]
  set n : Fin nv → ℝ := fun i => max (-x.v.fn i) 0 with hn
  have hvfn : (projectDuals x).v.fn = fun i => max (x.v.fn i) 0 := by
    ext i
    show (x.v.cwiseMax 0) i = _
    simp [Vec.cwiseMax]
  have hv : (projectDuals x).v.fn = x.v.fn + n := by
    rw [hvfn]
    ext i
    simp only [hn, Pi.add_apply]
    rcases le_total (x.v.fn i) 0 with h | h
    · rw [max_eq_right h, max_eq_left (by linarith)]; ring
    · rw [max_eq_left h, max_eq_right (by linarith)]; ring
  have eg : q.lagrangeGrad (projectDuals x).z.fn (projectDuals x).l.fn (projectDuals x).v.fn =
      q.lagrangeGrad x.z.fn x.l.fn x.v.fn + q.Aᵀ *ᵥ n := by
    rw [hv]
    unfold QP.lagrangeGrad
    rw [mulVec_add]
    show q.H *ᵥ x.z.fn + q.f + q.Gᵀ *ᵥ x.l.fn + _ = _
    abel
  have pm : ∀ (y v : Vec ℝ nv) i, (penalizedMin E.opts.alpha y v).fn i =
      E.opts.alpha * min (y i) (v i) + (1 - E.opts.alpha) * max 0 (y i) * max 0 (v i) := by
    intro y v i
    show (penalizedMin E.opts.alpha y v) i = _
    rw [penalizedMin, Vec.get_ofFn]
    simp only [cmin_eq_min, cmax_eq_max]
  have hvi : ∀ i, (projectDuals x).v i = max (x.v i) 0 := fun i => congrFun hvfn i
  -- third part
  have h3 : ∀ i, |(penalizedMin E.opts.alpha (projectDuals x).y (projectDuals x).v).fn i| ≤
      |(penalizedMin E.opts.alpha x.y x.v).fn i| := by
    intro i
    rw [pm, pm, hvi, show (projectDuals x).y i = x.y i from rfl]
    rcases le_or_gt 0 (x.v i) with h | h
    · rw [max_eq_left h]
    · rw [max_eq_right h.le, max_self, mul_zero, max_eq_left h.le, mul_zero, add_zero, add_zero,
        abs_mul, abs_mul]
      refine mul_le_mul_of_nonneg_left ?_ (abs_nonneg _)
      have h1 : min (x.y i) (x.v i) ≤ min (x.y i) 0 := min_le_min_left _ h.le
      have h2 : min (x.y i) (0 : ℝ) ≤ 0 := min_le_right _ _
      rw [abs_of_nonpos h2, abs_of_nonpos (h1.trans h2)]
      linarith
  have hne : E.opts.alpha * euclid n ≤ euclid (penalizedMin E.opts.alpha x.y x.v).fn := by
    rw [← abs_of_pos ha, ← euclid_smul, abs_of_pos ha]
    refine euclid_mono fun i => ?_
    rw [pm]
    show |E.opts.alpha * max (-x.v i) 0| ≤ _
    rcases le_or_gt 0 (x.v i) with h | h
    · rw [max_eq_right (by linarith), mul_zero, abs_zero]; exact abs_nonneg _
    · rw [max_eq_left (by linarith), max_eq_left h.le, mul_zero, add_zero, abs_mul, abs_mul]
      refine mul_le_mul_of_nonneg_left ?_ (abs_nonneg _)
      have h1 : min (x.y i) (x.v i) ≤ x.v i := min_le_right _ _
      rw [abs_neg, abs_of_neg h, abs_of_nonpos (h1.trans h.le)]
      linarith
  set r := vec3 (q.lagrangeGrad x.z.fn x.l.fn x.v.fn) (q.h - q.G *ᵥ x.z.fn)
    (penalizedMin E.opts.alpha x.y x.v).fn with hr
  have hr3 : euclid (penalizedMin E.opts.alpha x.y x.v).fn ≤ ‖r‖ := (euclid_le_vec3 _ _ _).2.2
  have step1 : ‖vec3 (q.lagrangeGrad x.z.fn x.l.fn x.v.fn) (q.h - q.G *ᵥ x.z.fn)
      (penalizedMin E.opts.alpha (projectDuals x).y (projectDuals x).v).fn‖ ≤ ‖r‖ :=
    vec3_mono (fun _ => le_rfl) (fun _ => le_rfl) h3
  have split : vec3 (q.lagrangeGrad (projectDuals x).z.fn (projectDuals x).l.fn (projectDuals x).v.fn)
      (q.h - q.G *ᵥ (projectDuals x).z.fn)
      (penalizedMin E.opts.alpha (projectDuals x).y (projectDuals x).v).fn =
      vec3 (q.lagrangeGrad x.z.fn x.l.fn x.v.fn) (q.h - q.G *ᵥ x.z.fn)
      (penalizedMin E.opts.alpha (projectDuals x).y (projectDuals x).v).fn +
      vec3 (q.Aᵀ *ᵥ n) (0 : Fin nl → ℝ) (0 : Fin nv → ℝ) := by
    rw [eg, vec3_add, add_zero, add_zero]
    rfl
  rw [split]
  refine (norm_add_le _ _).trans ?_
  rw [vec3_z]
  have hA := q.sizeA_mul_transpose n
  have hA0 := q.sizeA_nonneg
  have hn2 : euclid n ≤ ‖r‖ / E.opts.alpha := by
    rw [le_div_iff₀ ha]; linarith
  have := mul_le_mul_of_nonneg_left hn2 hA0
  have e2 : (1 + q.sizeA / E.opts.alpha) * ‖r‖ = ‖r‖ + q.sizeA * (‖r‖ / E.opts.alpha) := by ring
  rw [e2]
  linarith

end Core

section
variable {K : Type} [Scalar K]

/-- C50: when the Newton limit stops `FBstabDense::Solve` in its subproblem number `prox_iters`, it returns
the proximal iterate it had reached before, or, if that has a smaller residual, the last Newton iterate,
with its negative multipliers replaced by zero.  (If `max_inner_iters` is reached in the same step, the
residual compared is that of another point `e`.) -/
theorem C50_dense (s : FBstabDense K) (hl : 1 ≤ s.options.maxProxIters)
    (hin : 1 ≤ s.options.maxInnerIters) (qp : DenseProblem K) (x : CallerVar K)
    (out : SolverOut K) (h : (s.solve qp x).result = .ok out) (he : out.eflag = .maxIterations)
    (hn : s.options.maxNewtonIters ≤ (out.newtonIters : Int)) :
    let xk := s.proxIterate qp x out.proxIters
    let res := residualNorm (s.problem qp) s.options.alpha
    ∃ e p : Point K s.nz s.nl s.nv,
      ((out.newtonIters : Int) - s.newtonsAt qp x out.proxIters < s.options.maxInnerIters → e = p) ∧
      (s.solve qp x).x.point s.nz s.nl s.nv =
        if res e < res xk then { p with v := p.v.cwiseMax 0 } else xk := by
  intro xk res
  obtain ⟨hf, hy, fin, -, hr, rfl, e⟩ := FBstabDense.returned h
  obtain ⟨tol, k, st, ht, hs, hp, hnn, e', p, h1, h2⟩ := hr.newtonLimit hl hin he hn
  obtain ⟨a1, a2⟩ := FBstabDense.states hf hy ht k st hs
  refine ⟨e', p, fun hlt => h1 ?_, ?_⟩
  · rw [hp, ← a2] at hlt
    have : (s.env qp).opts.maxInnerIters = s.options.maxInnerIters := rfl
    omega
  · rw [e, CallerVar.point_ofPoint, h2, a1, ← hp]
    rfl

/-- C50 for `FBstabMpc`. -/
theorem C50_mpc (h0 : ((0 : K) == 0) = true) (s : FBstabMpc K) (hl : 1 ≤ s.options.maxProxIters)
    (hin : 1 ≤ s.options.maxInnerIters) (qp : MpcProblem K) (x : CallerVar K)
    (out : SolverOut K) (h : (s.solve qp x).result = .ok out) (he : out.eflag = .maxIterations)
    (hn : s.options.maxNewtonIters ≤ (out.newtonIters : Int)) :
    let xk := s.proxIterate qp x out.proxIters
    let res := residualNorm (s.problem qp) s.options.alpha
    ∃ e p : Point K _ _ _,
      ((out.newtonIters : Int) - s.newtonsAt qp x out.proxIters < s.options.maxInnerIters → e = p) ∧
      (s.solve qp x).x.point _ _ _ =
        if res e < res xk then { p with v := p.v.cwiseMax 0 } else xk := by
  intro xk res
  obtain ⟨hf, hcol, fin, -, hr, rfl, e⟩ := FBstabMpc.returned h0 h
  obtain ⟨tol, k, st, ht, hs, hp, hnn, e', p, h1, h2⟩ := hr.newtonLimit hl hin he hn
  obtain ⟨a1, a2⟩ := FBstabMpc.states h0 hf hcol ht k st hs
  refine ⟨e', p, fun hlt => h1 ?_, ?_⟩
  · rw [hp, ← a2] at hlt
    have : (s.env h0 qp).opts.maxInnerIters = s.options.maxInnerIters := rfl
    omega
  · rw [e, CallerVar.point_ofPoint, h2, a1, ← hp]
    rfl

end

/-- C50, quality: at the Newton limit (unless `max_inner_iters` is reached in the same step) the reported
residual is at most `1 + ‖A‖ / alpha` times the residual of the last proximal iterate. -/
theorem C50_bound_dense (s : FBstabDense ℝ) (hs : s.Reachable) (qp : DenseProblem ℝ) (x : CallerVar ℝ)
    (out : SolverOut ℝ) (h : (s.solve qp x).result = .ok out) (he : out.eflag = .maxIterations)
    (hn : s.options.maxNewtonIters ≤ (out.newtonIters : Int))
    (hi : (out.newtonIters : Int) - s.newtonsAt qp x out.proxIters < s.options.maxInnerIters) :
    out.residual ≤ (1 + (s.qp qp).sizeA / s.options.alpha) *
      residualNorm (s.problem qp) s.options.alpha (s.proxIterate qp x out.proxIters) := by
  have hr := C01_reachable_dense s hs
  have hl := hr.maxProxIters
  have hin := hr.maxInnerIters
  obtain ⟨e, p, h1, h2⟩ := C50_dense s hl hin qp x out h he hn
  rw [C07_dense s hl qp x out h (.inr ⟨he, hn⟩), h2, h1 hi]
  have hA : 0 ≤ (s.qp qp).sizeA / s.options.alpha := div_nonneg (QP.sizeA_nonneg _) hr.alpha_pos.le
  split
  · rename_i hlt
    refine (Core.penRes_project (E := s.env qp) (s.realEnv qp).ops hr.alpha_pos p).trans ?_
    exact mul_le_mul_of_nonneg_left hlt.le (by linarith)
  · have h0 : 0 ≤ residualNorm (s.problem qp) s.options.alpha (s.proxIterate qp x out.proxIters) := by
      rw [residualNorm, norm3_vec3]; exact norm_nonneg _
    nlinarith

/-- C50, quality, for `FBstabMpc`. -/
theorem C50_bound_mpc (s : FBstabMpc ℝ) (hs : s.Reachable) (qp : MpcProblem ℝ) (x : CallerVar ℝ)
    (out : SolverOut ℝ) (h : (s.solve qp x).result = .ok out) (he : out.eflag = .maxIterations)
    (hn : s.options.maxNewtonIters ≤ (out.newtonIters : Int))
    (hi : (out.newtonIters : Int) - s.newtonsAt qp x out.proxIters < s.options.maxInnerIters) :
    out.residual ≤ (1 + (s.qp qp).sizeA / s.options.alpha) *
      residualNorm (s.problem qp) s.options.alpha (s.proxIterate qp x out.proxIters) := by
  have hr := C01_reachable_mpc s hs
  have hl := hr.maxProxIters
  have hin := hr.maxInnerIters
  obtain ⟨e, p, h1, h2⟩ := C50_mpc real_zero_beq s hl hin qp x out h he hn
  rw [C07_mpc real_zero_beq s hl qp x out h (.inr ⟨he, hn⟩), h2, h1 hi]
  have hA : 0 ≤ (s.qp qp).sizeA / s.options.alpha := div_nonneg (QP.sizeA_nonneg _) hr.alpha_pos.le
  split
  · rename_i hlt
    refine (Core.penRes_project (E := s.env real_zero_beq qp) (s.realEnv qp).ops hr.alpha_pos p).trans ?_
    exact mul_le_mul_of_nonneg_left hlt.le (by linarith)
  · have h0 : 0 ≤ residualNorm (s.problem qp) s.options.alpha (s.proxIterate qp x out.proxIters) := by
      rw [residualNorm, norm3_vec3]; exact norm_nonneg _
    nlinarith

/-- The default options with `max_newton_iters = 1`. -/
noncomputable def oneNewton : Params ℝ := { Params.defaults with maxNewtonIters := 1 }

theorem oneNewton_inRange : oneNewton.InRange := by
  constructor <;> simp only [oneNewton, Params.defaults, Between] <;> norm_num

theorem Core.innerLoop_moves {nz nl nv : Nat} {E : Core.Env ℝ nz nl nv} {tol sigma Ek : ℝ}
    {xbar : Point ℝ nz nl nv} {fuel i : Nat} {t Eo : ℝ} {x : Point ℝ nz nl nv} {newton : Nat}
    {buf : Vec ℝ 5} {rk : Resid ℝ nz nl nv} {o : Core.InnerOut ℝ nz nl nv}
    (h3 : E.opts.innerTolMin < Core.Resid.norm (E.innerRes x xbar sigma))
    (h4 : ¬Core.Resid.norm (E.penRes x) < Ek) (hn : ¬E.opts.maxNewtonIters ≤ (newton : Int))
    (h : (Core.innerLoop E tol sigma Ek xbar (fuel + 1) i t Eo x newton buf rk).2 = .ok o) :
    newton + 1 ≤ o.newton := by
  simp only [Core.innerLoop] at h
  split at h
  · rename_i hc
    rcases hc with hc | hc
    · exact absurd hc.2 h4
    · exact absurd hc h3.not_ge
  · split at h
    · cases h
    · cases h
    · exact (Core.innerLoop_facts _ _ _ _ _ _ _ _ _ _ _ _ _ _ h).ge

/-- With `max_newton_iters = 1` a run that has anything to do ends at the Newton limit. -/
theorem Core.Returned.oneNewton {nz nl nv : Nat} {E : Core.Env ℝ nz nl nv} {ws x fin}
    (h : Core.Returned E ws x fin) (hn : E.opts.maxNewtonIters = 1) (hp : 1 ≤ E.opts.maxProxIters)
    (hi : 1 ≤ E.opts.maxInnerIters)
    (h1 : E.comboTol < Core.Resid.norm (E.penRes x)) (h2 : E.opts.stallTol < Core.normPt (Core.onesPt E))
    (h3 : E.opts.innerTolMin < Core.Resid.norm (E.innerRes x x E.opts.sigma0)) :
    fin.out.eflag = .maxIterations ∧ fin.out.newtonIters = 1 ∧ fin.out.proxIters = 0 := by
  have key : ∀ {tol0 tol : ℝ} {o}, Core.Inner E (Core.start E ws x tol0) tol o → o.newton = 1 := by
    intro tol0 tol o h
    obtain ⟨m, hm⟩ : ∃ m, E.opts.maxInnerIters.toNat = m + 1 := ⟨E.opts.maxInnerIters.toNat - 1, by omega⟩
    have l := h.newton
    simp only [Core.start] at l
    obtain ⟨o', h', rfl⟩ := Core.subproblem_ok h.sub
    rw [hm] at h'
    have := Core.innerLoop_moves h3 (lt_irrefl _) (by rw [hn]; exact (by decide : ¬(1 : Int) ≤ ((0 : Nat) : Int))) h'
    have l2 := l.2.2
    rw [hn] at l2
    simp only at l2 this ⊢
    omega
  obtain ⟨tol, k, s, ht, hs, h⟩ := h.run
  have hk : k = 0 := by
    rcases Nat.eq_zero_or_pos k with hk | hk
    · exact hk
    · exfalso
      have hb := hs.newton_below hk
      have : ∀ {k s'}, Core.Steps E (k + 1) (Core.start E ws x tol) s' → 1 ≤ s'.newton := by
        intro k
        induction k with
        | zero =>
          intro s' hs
          cases hs with
          | tail a b =>
            cases a
            rw [b.eq]
            exact (key b.toInner).ge
        | succ k ih =>
          intro s' hs
          cases hs with
          | tail a b =>
            have := ih a
            have l := b.toInner.newton.1
            rw [b.eq]
            exact this.trans l
      obtain ⟨j, rfl⟩ : ∃ j, k = j + 1 := ⟨k - 1, by omega⟩
      have := this hs
      omega
  subst hk
  cases hs
  rcases h with ⟨-, h⟩ | ⟨hk, -⟩
  · cases h with
    | success hst =>
      rcases hst with hst | hst
      · exact absurd hst h1.not_ge
      · exact absurd hst h2.not_ge
    | newton hi hn' y hy => exact ⟨rfl, key hi, rfl⟩
    | infeasible hi hn' hc hf =>
      rw [key hi, hn] at hn'
      norm_num at hn'
  · omega

theorem unit_newton {E : Core.Env ℝ 1 0 1} (N : Core.NewtonEnv E unitQP) (ho : E.opts = oneNewton)
    {ws : FeasWs ℝ 1 0 1} {x : Point ℝ 1 0 1} {fin : Core.Final ℝ 1 0 1}
    (hz : x.z.fn = fun _ => 1) (hv : x.v.fn = 0) (hm : Core.Marg unitQP x)
    (h : Core.Returned E ws x fin) :
    fin.out.eflag = .maxIterations ∧ fin.out.newtonIters = 1 ∧ fin.out.proxIters = 0 := by
  have hpen : Core.Resid.norm (E.penRes x) = 1 := by
    have := unitQP.residual N.ops (alpha := E.opts.alpha) hz hv hm
    rw [abs_one] at this
    exact this
  refine h.oneNewton (by rw [ho]; rfl) (by rw [ho]; norm_num [oneNewton, Params.defaults])
    (by rw [ho]; norm_num [oneNewton, Params.defaults]) ?_ ?_ ?_
  · rw [hpen]
    have h2 : unitQP.f ⬝ᵥ unitQP.f + unitQP.h ⬝ᵥ unitQP.h + unitQP.b ⬝ᵥ unitQP.b = 1 := by
      simp [unitQP, dotProduct]
    unfold Core.Env.comboTol stoppingTol
    rw [N.ops.forcingNorm, h2, ho]
    simp only [oneNewton, Params.defaults]
    norm_num
  · show _ < norm3 (Vec.const 1) (Vec.const 1) (Vec.const 1)
    rw [norm3_eq, ho]
    refine Real.lt_sqrt_of_sq_lt ?_
    simp [dotProduct, oneNewton, Params.defaults]
    norm_num
  · refine lt_of_lt_of_le (b := 1) (by rw [ho]; norm_num [oneNewton, Params.defaults]) ?_
    have hn : Core.Resid.norm (E.innerRes x x E.opts.sigma0) =
        norm3 (E.innerRes x x E.opts.sigma0).z (E.innerRes x x E.opts.sigma0).l
          (E.innerRes x x E.opts.sigma0).v := rfl
    have h3 := (norm3_bounds (le_of_eq hn.symm)).1
    have h4 := abs_le_euclid (E.innerRes x x E.opts.sigma0).z.fn 0
    have h5 : (E.innerRes x x E.opts.sigma0).z.fn = fun _ => 1 := by
      rw [(Core.innerRes_fn N.ops x x E.opts.sigma0).1, unitQP.grad, sub_self, smul_zero, add_zero, hz]
    rw [h5] at h4 h3
    norm_num at h4
    linarith

/-- The hypotheses of C50 and of its bound are met: `min z^2/2` from `z = 1` with
`max_newton_iters = 1`. -/
example (junk : DenseJunk ℝ) :
    let s := FBstabDense.made junk 1 0 1 oneNewton
    let x : CallerVar ℝ := guessOf (nz := 1) (nl := 0) (nv := 1) (fun _ => 1) 0 0
    s.Reachable ∧ ∃ out, (s.solve unitQP.toDense x).result = .ok out ∧
      out.eflag = .maxIterations ∧ s.options.maxNewtonIters ≤ (out.newtonIters : Int) ∧
      (out.newtonIters : Int) - s.newtonsAt unitQP.toDense x out.proxIters < s.options.maxInnerIters ∧
      out.residual ≤ 1 := by
  intro s x
  have hq : s.qp unitQP.toDense = unitQP := FBstabDense.made_qp junk _ _
  have N : Core.NewtonEnv (s.env unitQP.toDense) unitQP := by
    have := s.newtonEnv oneNewton_inRange unitQP.toDense (hq ▸ unitQP.convex)
    rwa [hq] at this
  obtain ⟨g1, g2, g3⟩ := guessOf_point (nz := 1) (nl := 0) (nv := 1) (fun _ => 1) 0 0
  have hr : s.Reachable := FBstabDense.made_reachable junk _ (by norm_num) (by norm_num)
    (by norm_num [intLimit]) oneNewton_inRange
  have ht : TolerancesOrdered s.options s.options.absTol := by
    show TolerancesOrdered oneNewton oneNewton.absTol
    constructor <;> norm_num [oneNewton, Params.defaults]
  obtain ⟨out, ho⟩ := C13_absTol_dense s hr unitQP.toDense x (unitQP.toDense_fits _ _ _)
    (guessOf_writable _ _ _ _) (hq ▸ unitQP.convex) ht
  have hm : Core.Marg unitQP (x.guess (s.problem unitQP.toDense)) := Core.Marg.start N.ops _ _ _
  have hres : residualNorm (s.problem unitQP.toDense) s.options.alpha
      (x.guess (s.problem unitQP.toDense)) = 1 := by
    have := unitQP.residual (E := s.env unitQP.toDense) N.ops (alpha := s.options.alpha)
      (x := x.guess (s.problem unitQP.toDense)) (w := 1) g1 g3 hm
    rwa [abs_one] at this
  have hflag : out.eflag = .maxIterations ∧ out.newtonIters = 1 ∧ out.proxIters = 0 := by
    obtain ⟨-, -, fin, -, h2, rfl, e⟩ := FBstabDense.returned ho
    exact unit_newton N rfl g1 g3 hm h2
  obtain ⟨f1, f2, f3⟩ := hflag
  have hn : s.options.maxNewtonIters ≤ (out.newtonIters : Int) := by rw [f2]; exact le_refl _
  have hi : (out.newtonIters : Int) - s.newtonsAt unitQP.toDense x out.proxIters < s.options.maxInnerIters := by
    have : (1 : Int) < s.options.maxInnerIters := by
      show (1 : Int) < oneNewton.maxInnerIters
      norm_num [oneNewton, Params.defaults]
    omega
  refine ⟨hr, out, ho, f1, hn, hi, ?_⟩
  have := C50_bound_dense s hr unitQP.toDense x out ho f1 hn hi
  have hA : (s.qp unitQP.toDense).sizeA = 0 := by
    rw [hq]; simp [QP.sizeA, unitQP]
  rw [hA, f3] at this
  refine this.trans (le_of_eq ?_)
  rw [zero_div, add_zero, one_mul]
  exact hres

end Fbstab
