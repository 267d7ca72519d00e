import Verif.Proofs.ExactStep
import Verif.Props.Kkt
import Verif.Props.NoThrow

/-!
# C45: problems without inequality constraints are solved

`FBstabDense` and `FBstabMpc` demand at least one inequality, so a problem with equations only is passed
with rows `0'z <= b`, `b >= 0`.  On such problems every subproblem takes one Newton step, the solver
never moves away from a solution, and it returns SUCCESS within a number of steps known in advance.
-/

namespace Fbstab
open Matrix

namespace QP
variable {nz nl nv : Nat}

/-- The inequalities are `0 <= b` with `b >= 0`. -/
structure Trivial (q : QP nz nl nv) : Prop where
  A : q.A = 0
  b : ∀ i, 0 ≤ q.b i

end QP

namespace Core
variable {nz nl nv : Nat} {E : Env ℝ nz nl nv} {q : QP nz nl nv}

/-- Points with `v = 0` and the right `y`. -/
structure Plain (q : QP nz nl nv) (x : Point ℝ nz nl nv) : Prop where
  marg : Marg q x
  v : x.v.fn = 0

theorem Plain.y {x : Point ℝ nz nl nv} (h : Plain q x) (ht : q.Trivial) (i : Fin nv) :
    x.y i = q.b i := by
  have : x.y.fn i = q.b i := by rw [h.marg, ht.A, zero_mulVec, sub_zero]
  exact this

theorem Plain.vi {x : Point ℝ nz nl nv} (h : Plain q x) (i : Fin nv) : x.v i = 0 := congrFun h.v i

/-- The squared residual at such a point. -/
theorem Plain.residual {x : Point ℝ nz nl nv} (h : Plain q x) (ht : q.Trivial)
    (I : q.Implements E.ops) : Resid.norm (E.penRes x) ^ 2 =
      q.lagrangeGrad x.z.fn x.l.fn 0 ⬝ᵥ q.lagrangeGrad x.z.fn x.l.fn 0 +
      (q.h - q.G *ᵥ x.z.fn) ⬝ᵥ (q.h - q.G *ᵥ x.z.fn) := by
  have e : Resid.norm (E.penRes x) = residualNorm E.ops E.opts.alpha x := rfl
  have e2 : (penalizedMin E.opts.alpha x.y x.v).fn = 0 := by
    ext i
    show (penalizedMin E.opts.alpha x.y x.v) i = 0
    rw [penalizedMin, Vec.get_ofFn, h.vi, h.y ht]
    simp [ht.b i]
  rw [e, I.residualNorm_sq, e2, h.v, zero_dotProduct, add_zero]

theorem Plain.inner {x xbar : Point ℝ nz nl nv} (h : Plain q x) (hb : Plain q xbar)
    (ht : q.Trivial) (N : NewtonEnv E q) : Resid.norm (E.innerRes x xbar E.opts.sigma0) ^ 2 =
      (q.lagrangeGrad x.z.fn x.l.fn 0 + E.opts.sigma0 • (x.z.fn - xbar.z.fn)) ⬝ᵥ
        (q.lagrangeGrad x.z.fn x.l.fn 0 + E.opts.sigma0 • (x.z.fn - xbar.z.fn)) +
      (q.h - q.G *ᵥ x.z.fn + E.opts.sigma0 • (x.l.fn - xbar.l.fn)) ⬝ᵥ
        (q.h - q.G *ᵥ x.z.fn + E.opts.sigma0 • (x.l.fn - xbar.l.fn)) := by
  obtain ⟨i1, i2, i3⟩ := innerRes_fn (E := E) N.ops x xbar E.opts.sigma0
  have e : Resid.norm (E.innerRes x xbar E.opts.sigma0) =
    norm3 (E.innerRes x xbar E.opts.sigma0).z (E.innerRes x xbar E.opts.sigma0).l
      (E.innerRes x xbar E.opts.sigma0).v := rfl
  have e2 : (E.innerRes x xbar E.opts.sigma0).v.fn = 0 := by
    ext i
    show (E.innerRes x xbar E.opts.sigma0).v i = 0
    rw [i3, h.vi, hb.vi, h.y ht, sub_self, mul_zero, add_zero]
    exact (pfb_zero N.inRange.alpha_pos N.inRange.alpha_lt).2 ⟨ht.b i, le_rfl, .inl rfl⟩
  rw [e, norm3_sq, e2, i1, i2, h.v, zero_dotProduct, add_zero]

/-- One proximal step: the subproblem is solved by one Newton step. -/
theorem Inner.equality (N : NewtonEnv E q) (ht : q.Trivial) {s : Outer ℝ nz nl nv} {tol o}
    (hs : Plain q s.xk) (hmin : E.opts.innerTolMin ≤ E.comboTol)
    (hn : ¬E.opts.maxNewtonIters ≤ (s.newton : Int)) (h : Inner E s tol o) :
    Plain q o.x ∧ o.newton = s.newton + 1 ∧
      q.ProxKKT E.opts.sigma0 s.xk.z.fn s.xk.l.fn s.xk.v.fn o.x.z.fn o.x.l.fn o.x.v.fn := by
  obtain ⟨o', h', rfl⟩ := subproblem_ok h.sub
  obtain ⟨n, hf⟩ : ∃ n, E.opts.maxInnerIters.toNat = n + 1 :=
    ⟨E.opts.maxInnerIters.toNat - 1, by have := N.inRange.maxInnerIters; omega⟩
  rw [hf] at h'
  -- the Newton direction
  obtain ⟨g, hg, hgs⟩ := N.factor s.xk s.xk
  set r := Resid.negate (E.innerRes s.xk s.xk E.opts.sigma0) with hr
  obtain ⟨i1, i2, i3⟩ := innerRes_fn (E := E) N.ops s.xk s.xk E.opts.sigma0
  have hz : ∀ {n : Nat} (w : Vec ℝ n), (Vec.ofFn fun i => w i * (-1)).fn = -w.fn := by
    intro n w; ext i; simp
  have hdir : Direction E q s.xk s.xk (g r).z.fn (g r).l.fn (g r).v.fn := by
    constructor
    have := hgs r
    have e1 : r.z.fn = -(q.lagrangeGrad s.xk.z.fn s.xk.l.fn s.xk.v.fn +
        E.opts.sigma0 • (s.xk.z.fn - s.xk.z.fn)) := by rw [← i1]; exact hz _
    have e2 : r.l.fn = -(q.h - q.G *ᵥ s.xk.z.fn + E.opts.sigma0 • (s.xk.l.fn - s.xk.l.fn)) := by
      rw [← i2]; exact hz _
    have e3 : r.v.fn = fun i => -pfb (s.xk.y i + E.opts.sigma0 * (s.xk.v i - s.xk.v i)) (s.xk.v i)
        E.opts.alpha := by funext i; rw [← i3]; exact congrFun (hz _) i
    rw [e1, e2, e3] at this
    exact this
  have hsys := hdir.system
  have hdv : (g r).v.fn = 0 := by
    funext i
    have hc := hsys.compl i
    have hp : pfb (s.xk.y i + E.opts.sigma0 * (s.xk.v i - s.xk.v i)) (s.xk.v i) E.opts.alpha = 0 := by
      rw [hs.vi, hs.y ht, sub_self, mul_zero, add_zero]
      exact (pfb_zero N.inRange.alpha_pos N.inRange.alpha_lt).2 ⟨ht.b i, le_rfl, .inl rfl⟩
    rw [hp, neg_zero, ht.A, zero_mulVec, Pi.zero_apply, neg_zero, zero_add] at hc
    have h2 := (slopes_pos N s.xk s.xk i).2
    have : (slopes E.opts.alpha E.opts.sigma0 s.xk s.xk i).2 * (g r).v.fn i +
        E.opts.sigma0 * (slopes E.opts.alpha E.opts.sigma0 s.xk s.xk i).1 * (g r).v.fn i = 0 := by
      linarith
    rw [← add_mul] at this
    rcases mul_eq_zero.1 this with h | h
    · linarith
    · exact h
  -- where it leads
  have key : ∀ x' : Point ℝ nz nl nv, Marg q x' → x'.z.fn = s.xk.z.fn + (g r).z.fn →
      x'.l.fn = s.xk.l.fn + (g r).l.fn → x'.v.fn = s.xk.v.fn + (g r).v.fn →
      Plain q x' ∧ q.lagrangeGrad x'.z.fn x'.l.fn x'.v.fn +
        E.opts.sigma0 • (x'.z.fn - s.xk.z.fn) = 0 ∧
      q.h - q.G *ᵥ x'.z.fn + E.opts.sigma0 • (x'.l.fn - s.xk.l.fn) = 0 := by
    intro x' hm e1 e2 e3
    refine ⟨⟨hm, by rw [e3, hs.v, hdv, add_zero]⟩, ?_, ?_⟩
    · have := hsys.grad
      rw [sub_self, smul_zero, add_zero] at this
      rw [e1, e2, e3, add_sub_cancel_left]
      have e : q.lagrangeGrad (s.xk.z.fn + (g r).z.fn) (s.xk.l.fn + (g r).l.fn)
          (s.xk.v.fn + (g r).v.fn) + E.opts.sigma0 • (g r).z.fn =
          q.lagrangeGrad s.xk.z.fn s.xk.l.fn s.xk.v.fn + (q.H *ᵥ (g r).z.fn + q.Gᵀ *ᵥ (g r).l.fn +
            q.Aᵀ *ᵥ (g r).v.fn + E.opts.sigma0 • (g r).z.fn) := by
        unfold QP.lagrangeGrad
        rw [mulVec_add, mulVec_add, mulVec_add]
        abel
      rw [e, this, add_neg_cancel]
    · have := hsys.eq
      rw [sub_self, smul_zero, add_zero] at this
      rw [e1, e2, add_sub_cancel_left, mulVec_add]
      have e : q.h - (q.G *ᵥ s.xk.z.fn + q.G *ᵥ (g r).z.fn) + E.opts.sigma0 • (g r).l.fn =
        (q.h - q.G *ᵥ s.xk.z.fn) + (-(q.G *ᵥ (g r).z.fn) + E.opts.sigma0 • (g r).l.fn) := by abel
      rw [e, this, add_neg_cancel]
  have hzero : ∀ x' : Point ℝ nz nl nv, Marg q x' → x'.z.fn = s.xk.z.fn + (g r).z.fn →
      x'.l.fn = s.xk.l.fn + (g r).l.fn → x'.v.fn = s.xk.v.fn + (g r).v.fn →
      Resid.norm (E.innerRes x' s.xk E.opts.sigma0) = 0 := by
    intro x' hm e1 e2 e3
    obtain ⟨k1, k2, k3⟩ := key x' hm e1 e2 e3
    have := k1.inner hs ht N
    rw [← k1.v, k2, k3, zero_dotProduct, zero_dotProduct, add_zero] at this
    exact pow_eq_zero_iff (by norm_num) |>.1 this
  rcases innerLoop_exact N hs.marg hdir hzero h' with ⟨-, -, hx⟩ | ⟨hm, hnew, e1, e2, e3⟩
  · exfalso
    have hns : E.comboTol < Resid.norm (E.penRes s.xk) := not_le.1 fun hc => h.nostop (.inl hc)
    rcases hx with ⟨-, hx⟩ | hx | hx
    · exact lt_irrefl _ hx
    · have h1 := hs.inner hs ht N
      rw [sub_self, smul_zero, add_zero, sub_self, smul_zero, add_zero, ← hs.residual ht N.ops] at h1
      have h2 : Resid.norm (E.innerRes s.xk s.xk E.opts.sigma0) = Resid.norm (E.penRes s.xk) := by
        have a : 0 ≤ Resid.norm (E.innerRes s.xk s.xk E.opts.sigma0) := Real.sqrt_nonneg _
        have b : 0 ≤ Resid.norm (E.penRes s.xk) := Real.sqrt_nonneg _
        exact (sq_eq_sq₀ a b).1 h1
      rw [h2] at hx
      linarith
    · exact hn hx
  · obtain ⟨k1, k2, k3⟩ := key o'.x hm e1 e2 e3
    have hpr : projectDuals o'.x = o'.x := by
      have : o'.x.v.cwiseMax 0 = o'.x.v := by
        rw [← Vec.fn_inj]
        ext i
        show (o'.x.v.cwiseMax 0) i = o'.x.v i
        simp [Vec.cwiseMax, k1.vi i]
      unfold projectDuals
      rw [this]
    show Plain q (projectDuals o'.x) ∧ o'.newton = s.newton + 1 ∧ q.ProxKKT _ _ _ _
      (projectDuals o'.x).z.fn (projectDuals o'.x).l.fn (projectDuals o'.x).v.fn
    rw [hpr]
    refine ⟨k1, hnew, ⟨k2, k3, fun i => ?_, fun i => ?_, fun i => .inl (k1.vi i)⟩⟩
    · rw [ht.A, zero_mulVec, Pi.zero_apply, sub_zero, k1.v, hs.v, Pi.zero_apply, sub_zero, mul_zero,
        add_zero]
      exact ht.b i
    · exact (k1.vi i).symm.le

/-- What is known after `k` proximal steps: the squared distance `D` to the solution has been used up
by the steps taken so far. -/
structure Progress (E : Env ℝ nz nl nv) (q : QP nz nl nv) (zs : Fin nz → ℝ) (ls : Fin nl → ℝ)
    (vs : Fin nv → ℝ) (D : ℝ) (k : Nat) (s : Outer ℝ nz nl nv) : Prop where
  plain : Plain q s.xk
  newton : s.newton = k
  below : ¬E.opts.maxNewtonIters ≤ (s.newton : Int)
  dist : (k = 0 ∧ QP.dist2 s.xk.z.fn s.xk.l.fn s.xk.v.fn zs ls vs ≤ D) ∨
    ∃ (j : Nat) (d : ℝ), k = j + 1 ∧ 0 ≤ d ∧
      E.opts.sigma0 ^ 2 * d = Resid.norm (E.penRes s.xk) ^ 2 ∧
      QP.dist2 s.xk.z.fn s.xk.l.fn s.xk.v.fn zs ls vs + j * (E.comboTol / E.opts.sigma0) ^ 2 + d ≤ D

theorem Progress.near {zs ls vs D k} {s : Outer ℝ nz nl nv} (h : Progress E q zs ls vs D k s) :
    QP.dist2 s.xk.z.fn s.xk.l.fn s.xk.v.fn zs ls vs ≤ D := by
  rcases h.dist with ⟨-, h⟩ | ⟨j, d, -, h0, h1, h2⟩
  · exact h
  · have : 0 ≤ (j : ℝ) * (E.comboTol / E.opts.sigma0) ^ 2 := by positivity
    linarith

/-- While the solver does not stop, every step uses up the same amount. -/
theorem Progress.used (N : NewtonEnv E q) (h0 : 0 ≤ E.comboTol) {zs ls vs D k}
    {s : Outer ℝ nz nl nv} (h : Progress E q zs ls vs D k s) (hs : ¬Stop E s) :
    QP.dist2 s.xk.z.fn s.xk.l.fn s.xk.v.fn zs ls vs + k * (E.comboTol / E.opts.sigma0) ^ 2 ≤ D ∧
    (0 < k → k * (E.comboTol / E.opts.sigma0) ^ 2 < D) := by
  rcases h.dist with ⟨rfl, h3⟩ | ⟨j, d, rfl, hd, h1, h2⟩
  · simpa using h3
  · have hsig := N.inRange.sigma_pos
    have hns : E.comboTol < Resid.norm (E.penRes s.xk) := not_le.1 fun hc => hs (.inl hc)
    have h3 : (E.comboTol / E.opts.sigma0) ^ 2 < d := by
      rw [div_pow, div_lt_iff₀ (by positivity), mul_comm, h1]
      exact pow_lt_pow_left₀ hns h0 (by norm_num)
    have h4 : 0 ≤ QP.dist2 s.xk.z.fn s.xk.l.fn s.xk.v.fn zs ls vs :=
      add_nonneg (add_nonneg (dot_self_nonneg _) (dot_self_nonneg _)) (dot_self_nonneg _)
    push_cast
    constructor
    · linarith
    · intro _; linarith

theorem Progress.step (N : NewtonEnv E q) (ht : q.Trivial) (h0 : 0 ≤ E.comboTol)
    (hmin : E.opts.innerTolMin ≤ E.comboTol) {zs ls vs} (hk : q.KKT zs ls vs) {D k}
    {s s' : Outer ℝ nz nl nv} {tol o} (h : Progress E q zs ls vs D k s) (hs : Step E s s' tol o) :
    Progress E q zs ls vs D (k + 1) s' := by
  obtain ⟨e1, e2, e3⟩ := Inner.equality N ht h.plain hmin h.below hs.toInner
  have hsig := N.inRange.sigma_pos
  have hf := e3.fejer N.convex hsig hk
  have hu := (h.used N h0 hs.nostop).1
  rw [hs.eq]
  refine ⟨e1, ?_, hs.below, .inr ⟨k, QP.dist2 o.x.z.fn o.x.l.fn o.x.v.fn s.xk.z.fn s.xk.l.fn
    s.xk.v.fn, rfl, ?_, ?_, ?_⟩⟩
  · show o.newton = k + 1
    rw [e2, h.newton]
  · exact add_nonneg (add_nonneg (dot_self_nonneg _) (dot_self_nonneg _)) (dot_self_nonneg _)
  · show _ = Resid.norm (E.penRes o.x) ^ 2
    rw [e1.residual ht N.ops]
    have a := e3.stationary
    have b := e3.eq
    rw [e1.v] at a
    rw [eq_neg_of_add_eq_zero_left a, eq_neg_of_add_eq_zero_left b]
    unfold QP.dist2
    rw [e1.v, h.plain.v, sub_self, zero_dotProduct, neg_dotProduct, dotProduct_neg, smul_dotProduct,
      dotProduct_smul, neg_dotProduct, dotProduct_neg, smul_dotProduct, dotProduct_smul]
    simp only [smul_eq_mul]
    ring
  · show QP.dist2 o.x.z.fn o.x.l.fn o.x.v.fn zs ls vs + _ + _ ≤ D
    linarith

theorem Steps.progress (N : NewtonEnv E q) (ht : q.Trivial) (h0 : 0 ≤ E.comboTol)
    (hmin : E.opts.innerTolMin ≤ E.comboTol) {zs ls vs} (hk : q.KKT zs ls vs) {D k}
    {s s' : Outer ℝ nz nl nv} (h : Steps E k s s') (hs : Progress E q zs ls vs D 0 s) :
    Progress E q zs ls vs D k s' := by
  induction h with
  | refl => exact hs
  | tail _ h2 ih => exact (ih hs).step N ht h0 hmin hk h2

/-- The whole run. -/
theorem Returned.equality (N : NewtonEnv E q) (ht : q.Trivial)
    (hmin : E.opts.innerTolMin ≤ E.comboTol) {ws x fin} (hx : Plain q x) {zs ls vs}
    (hk : q.KKT zs ls vs) {K : Nat} (hK : 0 < K)
    (hD : QP.dist2 x.z.fn x.l.fn x.v.fn zs ls vs ≤ K * (E.comboTol / E.opts.sigma0) ^ 2)
    (hp : (K : Int) < E.opts.maxProxIters) (hn : (K : Int) < E.opts.maxNewtonIters)
    (hcf : E.opts.checkFeasibility = false) (h : Returned E ws x fin) :
    fin.out.eflag = .success ∧ fin.out.newtonIters = fin.out.proxIters ∧ fin.out.proxIters ≤ K ∧
      QP.dist2 fin.x.z.fn fin.x.l.fn fin.x.v.fn zs ls vs ≤
        QP.dist2 x.z.fn x.l.fn x.v.fn zs ls vs := by
  have h0 : 0 ≤ E.comboTol := le_trans (le_trans (by norm_num) N.inRange.innerTolMin.1) hmin
  obtain ⟨tol, k, s, -, hs, h⟩ := h.run
  have hprog : ∀ {k s'}, Steps E k (start E ws x tol) s' →
      Progress E q zs ls vs (QP.dist2 x.z.fn x.l.fn x.v.fn zs ls vs) k s' := by
    intro k s' hs
    refine hs.progress N ht h0 hmin hk ⟨hx, rfl, ?_, .inl ⟨rfl, le_rfl⟩⟩
    have := N.inRange.maxNewtonIters
    simp only [start]
    omega
  have hlt : ∀ {k s'}, Steps E k (start E ws x tol) s' → ¬Stop E s' → k < K := by
    intro k s' hs hst
    by_cases hk0 : k = 0
    · omega
    · have h1 := ((hprog hs).used N h0 hst).2 (by omega)
      have h2 := lt_of_lt_of_le h1 hD
      have h3 : 0 ≤ (E.comboTol / E.opts.sigma0) ^ 2 := by positivity
      by_contra hge
      have h4 : (K : ℝ) ≤ k := by exact_mod_cast not_lt.1 hge
      have := mul_le_mul_of_nonneg_right h4 h3
      linarith
  have hpk := hs.prox
  simp only [start, Nat.zero_add] at hpk
  have hpg := hprog hs
  have hkK : k ≤ K := by
    cases hs with
    | refl => omega
    | tail h1 h2 => exact hlt h1 h2.nostop
  rcases h with ⟨hkm, h⟩ | ⟨hkm, rfl⟩
  · cases h with
    | success hst =>
      refine ⟨rfl, ?_, ?_, hpg.near⟩
      · show s.newton = s.prox
        rw [hpk, hpg.newton]
      · show s.prox ≤ K
        omega
    | newton hi hn' x hx =>
      exfalso
      obtain ⟨-, e2, -⟩ := Inner.equality N ht hpg.plain hmin hpg.below hi
      have := hlt hs hi.nostop
      rw [e2, hpg.newton] at hn'
      omega
    | infeasible hi hn' hc hf => rw [hcf] at hc; cases hc
  · omega

end Core

/-- C45: a convex problem without (real) inequality constraints that has a solution `(zs, ls, vs)` is
solved: from any guess with `v = 0` the solver returns SUCCESS after at most `K` proximal iterations with
exactly one Newton iteration each, and it ends at most as far from the solution as it began, if
`sigma^2 * |(z, l, v) - (zs, ls, vs)|^2 <= K * tol^2` and the limits exceed `K`.  (`check_feasibility` off:
see C22, C23 for what it can do.) -/
theorem C45_dense (s : FBstabDense ℝ) (hs : s.Reachable) (p : DenseProblem ℝ) (x : CallerVar ℝ)
    (hf : DenseFits s.nz s.nl s.nv p x) (hy : x.YWritable s.nv) (hc : (s.qp p).Convex)
    (ht : TolerancesOrdered s.options (stoppingTol (s.problem p) s.options))
    (hcf : s.options.checkFeasibility = false)
    (hA : (s.qp p).A = 0) (hb : ∀ i, 0 ≤ (s.qp p).b i) (hv : (x.v.toVec s.nv).fn = 0)
    (zs ls vs) (hk : (s.qp p).KKT zs ls vs) (K : Nat) (hK : 0 < K)
    (hD : s.options.sigma0 ^ 2 * QP.dist2 (x.z.toVec s.nz).fn (x.l.toVec s.nl).fn
      (x.v.toVec s.nv).fn zs ls vs ≤ K * stoppingTol (s.problem p) s.options ^ 2)
    (hp : (K : Int) < s.options.maxProxIters) (hn : (K : Int) < s.options.maxNewtonIters) :
    let xr := s.returnedPoint p x
    ∃ out, (s.solve p x).result = .ok out ∧ out.eflag = .success ∧ out.proxIters ≤ K ∧
      out.newtonIters = out.proxIters ∧
      QP.dist2 xr.z.fn xr.l.fn xr.v.fn zs ls vs ≤
        QP.dist2 (x.z.toVec s.nz).fn (x.l.toVec s.nl).fn (x.v.toVec s.nv).fn zs ls vs := by
  intro xr
  obtain ⟨out, ho⟩ := C13_dense s hs p x hf hy hc ht
  obtain ⟨-, -, fin, -, h2, rfl, e⟩ := FBstabDense.returned ho
  have N := s.newtonEnv (C01_reachable_dense s hs) p hc
  have hsig : 0 < s.options.sigma0 := N.inRange.sigma_pos
  have hx : Core.Plain (s.qp p) (Core.startPt (s.env p) (x.z.toVec s.nz) (x.l.toVec s.nl)
    (x.v.toVec s.nv)) := ⟨Core.Marg.start N.ops _ _ _, hv⟩
  obtain ⟨r1, r2, r3, r4⟩ := h2.equality N ⟨hA, hb⟩ ht.2 hx hk hK (by
    rw [div_pow, ← mul_div_assoc, le_div_iff₀ (by positivity), mul_comm]
    exact hD) hp hn hcf
  refine ⟨_, ho, r1, r3, r2, ?_⟩
  rw [show xr = fin.x by
    show s.returnedPoint p x = _
    rw [FBstabDense.returnedPoint, e, CallerVar.point_ofPoint]]
  exact r4

/-- C45 for `FBstabMpc`: an optimal control problem without (real) constraints other than its
dynamics. -/
theorem C45_mpc (s : FBstabMpc ℝ) (hs : s.Reachable) (p : MpcProblem ℝ) (x : CallerVar ℝ)
    (hf : MpcFits s.N s.nx s.nu s.nc p x) (hcol : p.Columns) (hc : (s.ocp p).Convex)
    (ht : TolerancesOrdered s.options (stoppingTol (s.problem p) s.options))
    (hcf : s.options.checkFeasibility = false)
    (hA : (s.qp p).A = 0) (hb : ∀ i, 0 ≤ (s.qp p).b i) (hv : (x.v.toVec ((s.N + 1) * s.nc)).fn = 0)
    (zs ls vs) (hk : (s.qp p).KKT zs ls vs) (K : Nat) (hK : 0 < K)
    (hD : s.options.sigma0 ^ 2 * QP.dist2 (x.z.toVec ((s.N + 1) * (s.nx + s.nu))).fn
      (x.l.toVec ((s.N + 1) * s.nx)).fn (x.v.toVec ((s.N + 1) * s.nc)).fn zs ls vs ≤
      K * stoppingTol (s.problem p) s.options ^ 2)
    (hp : (K : Int) < s.options.maxProxIters) (hn : (K : Int) < s.options.maxNewtonIters) :
    let xr := s.returnedPoint p x
    ∃ out, (s.solve p x).result = .ok out ∧ out.eflag = .success ∧ out.proxIters ≤ K ∧
      out.newtonIters = out.proxIters ∧
      QP.dist2 xr.z.fn xr.l.fn xr.v.fn zs ls vs ≤
        QP.dist2 (x.z.toVec ((s.N + 1) * (s.nx + s.nu))).fn (x.l.toVec ((s.N + 1) * s.nx)).fn
          (x.v.toVec ((s.N + 1) * s.nc)).fn zs ls vs := by
  intro xr
  obtain ⟨out, ho⟩ := C13_mpc s hs p x hf hcol hc ht
  obtain ⟨-, -, fin, -, h2, rfl, e⟩ := FBstabMpc.returned real_zero_beq ho
  have N := s.newtonEnv (C01_reachable_mpc s hs) p hc
  have hsig : 0 < s.options.sigma0 := N.inRange.sigma_pos
  have hx : Core.Plain (s.qp p) (Core.startPt (s.env real_zero_beq p) (x.z.toVec _) (x.l.toVec _)
    (x.v.toVec _)) := ⟨Core.Marg.start N.ops _ _ _, hv⟩
  obtain ⟨r1, r2, r3, r4⟩ := h2.equality N ⟨hA, hb⟩ ht.2 hx hk hK (by
    rw [div_pow, ← mul_div_assoc, le_div_iff₀ (by positivity), mul_comm]
    exact hD) hp hn hcf
  refine ⟨_, ho, r1, r3, r2, ?_⟩
  rw [show xr = fin.x by
    show s.returnedPoint p x = _
    rw [FBstabMpc.returnedPoint, e, CallerVar.point_ofPoint]]
  exact r4

/-! ## An instance -/

/-- minimise `z^2 / 2` subject to `z = 1` and `0 <= 1`. -/
noncomputable def pinnedQP : QP 1 1 1 where
  H := fun _ _ => 1
  f := fun _ => 0
  G := fun _ _ => 1
  h := fun _ => 1
  A := 0
  b := fun _ => 1

/-- The default options without the infeasibility check. -/
noncomputable def unchecked : Params ℝ := { Params.defaults with checkFeasibility := false }

theorem unchecked_inRange : unchecked.InRange := by
  constructor <;> simp only [unchecked, Params.defaults, Between] <;> norm_num

theorem ones_mul (z : Fin 1 → ℝ) : (fun _ _ => 1 : Matrix (Fin 1) (Fin 1) ℝ) *ᵥ z = z := by
  ext i
  simp [Matrix.mulVec, dotProduct, Subsingleton.elim i 0]

theorem pinnedQP_convex : pinnedQP.Convex where
  symm := by ext i j; rfl
  nonneg := fun z => by
    rw [show pinnedQP.H *ᵥ z = z from ones_mul z]; exact dot_self_nonneg z

theorem pinnedQP_kkt : pinnedQP.KKT (fun _ => 1) (fun _ => -1) 0 where
  stationary := by
    unfold QP.lagrangeGrad
    rw [show pinnedQP.H *ᵥ (fun _ => (1 : ℝ)) = _ from ones_mul _,
      show pinnedQP.Gᵀ *ᵥ (fun _ => (-1 : ℝ)) = _ from ones_mul _, mulVec_zero]
    ext i
    show (1 : ℝ) + 0 + -1 + 0 = 0
    norm_num
  feasible := ⟨ones_mul _, fun i => by
    rw [show pinnedQP.A = 0 from rfl, zero_mulVec]
    show (0 : ℝ) ≤ 1
    norm_num⟩
  dual := fun i => le_rfl
  complementary := fun i => .inl rfl

/-- The hypotheses of C45 are met with the default options (without the infeasibility check) and
`K = 1`: the solver finds `z = 1` from `z = 0` in at most one proximal and one Newton iteration. -/
theorem C45_example (junk : DenseJunk ℝ) :
    let s := FBstabDense.made junk 1 1 1 unchecked
    let x : CallerVar ℝ := guessOf (nz := 1) (nl := 1) (nv := 1) 0 0 0
    ∃ out, (s.solve pinnedQP.toDense x).result = .ok out ∧ out.eflag = .success ∧
      out.proxIters ≤ 1 ∧ out.newtonIters = out.proxIters := by
  intro s x
  have hq : s.qp pinnedQP.toDense = pinnedQP := FBstabDense.made_qp junk _ _
  have hr : s.Reachable := FBstabDense.made_reachable junk _ (by norm_num) (by norm_num)
    (by norm_num [intLimit]) unchecked_inRange
  have hst := absTol_le_stoppingTol (s.realEnv pinnedQP.toDense).ops (C01_reachable_dense s hr)
  have hst' : (1e-6 : ℝ) ≤ stoppingTol (s.problem pinnedQP.toDense) s.options := hst
  obtain ⟨g1, g2, g3⟩ := guessOf_point (nz := 1) (nl := 1) (nv := 1) 0 0 0
  have g1' : (x.z.toVec s.nz).fn = 0 := g1
  have g2' : (x.l.toVec s.nl).fn = 0 := g2
  have g3' : (x.v.toVec s.nv).fn = 0 := g3
  have hk : (s.qp pinnedQP.toDense).KKT (fun _ => 1) (fun _ => -1) 0 := by
    rw [hq]; exact pinnedQP_kkt
  obtain ⟨out, h1, h2, h3, h4, -⟩ := C45_dense s hr pinnedQP.toDense x (pinnedQP.toDense_fits _ _ _)
    (guessOf_writable _ _ _ _) (hq ▸ pinnedQP_convex)
    ⟨by show (1e-12 : ℝ) ≤ 1e-2; norm_num,
      le_trans (by show (1e-12 : ℝ) ≤ 1e-6; norm_num) hst'⟩ rfl (by rw [hq]; rfl)
    (fun i => by rw [hq]; exact zero_le_one) g3' _ _ _ hk 1 one_pos (by
      rw [g1', g2', g3']
      have e : QP.dist2 (0 : Fin s.nz → ℝ) (0 : Fin s.nl → ℝ) (0 : Fin s.nv → ℝ) (fun _ => 1)
        (fun _ => -1) 0 = 2 := by
        show QP.dist2 (nz := 1) (nl := 1) (nv := 1) 0 0 0 (fun _ => 1) (fun _ => -1) 0 = 2
        simp [QP.dist2, dotProduct]; norm_num
      rw [e]
      show (1e-8 : ℝ) ^ 2 * 2 ≤ _
      have : (1e-6 : ℝ) ^ 2 ≤ stoppingTol (s.problem pinnedQP.toDense) s.options ^ 2 :=
        pow_le_pow_left₀ (by norm_num) hst' 2
      push_cast
      norm_num at this ⊢
      linarith) (by show ((1 : ℕ) : ℤ) < 30; norm_num)
    (by show ((1 : ℕ) : ℤ) < 200; norm_num)
  exact ⟨out, h1, h2, h3, h4⟩

end Fbstab
