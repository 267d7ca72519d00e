import Verif.Spec.Dual
import Verif.Props.Stall
import Verif.Props.NoThrow
import Verif.Proofs.WitnessRun
import Mathlib.LinearAlgebra.Matrix.Notation

/-!
# C56: the returned multipliers solve the dual; C57: problems without solutions

Over the reals.  The specification is in Verif/Spec/Dual.lean.
-/

namespace Fbstab
open Matrix

namespace QP
variable {nz nl nv : Nat} {q : QP nz nl nv}

/-- The duality gap of a point. -/
theorem gap_eq (q : QP nz nl nv) (z : Fin nz → ℝ) (l : Fin nl → ℝ) (v : Fin nv → ℝ) :
    q.objective z + q.dualObjective z l v =
      q.lagrangeGrad z l v ⬝ᵥ z + l ⬝ᵥ (q.h - q.G *ᵥ z) + v ⬝ᵥ (q.b - q.A *ᵥ z) := by
  rw [objective, dualObjective, lagrangeGrad, add_dotProduct, add_dotProduct, add_dotProduct,
    transpose_dot, transpose_dot, dotProduct_sub, dotProduct_sub, dotProduct_comm (q.H *ᵥ z),
    dotProduct_comm q.h, dotProduct_comm q.b]
  ring

/-- Weak duality. -/
theorem Convex.weak (hc : q.Convex) {z z' : Fin nz → ℝ} {l v} (hz : q.Feasible z)
    (hd : q.DualFeasible z' l v) : 0 ≤ q.objective z + q.dualObjective z' l v := by
  have h1 := hc.lower_bound z' l v hz
  have h2 := gap_eq q z' l v
  have h3 : q.lagrangeGrad z' l v = 0 := hd.stationary
  rw [h3, zero_dotProduct] at h1 h2
  have h4 : 0 ≤ v ⬝ᵥ (q.b - q.A *ᵥ z) := Finset.sum_nonneg fun i _ =>
    mul_nonneg (hd.sign i) (sub_nonneg.2 (hz.ineq i))
  linarith

theorem KKT.gap {z l v} (hk : q.KKT z l v) : q.objective z + q.dualObjective z l v = 0 := by
  have h2 : v ⬝ᵥ (q.b - q.A *ᵥ z) = 0 := Finset.sum_eq_zero fun i _ => by
    rcases hk.complementary i with h | h
    · rw [h, zero_mul]
    · rw [Pi.sub_apply, h, sub_self, mul_zero]
  rw [gap_eq, hk.stationary, zero_dotProduct, hk.feasible.eq, sub_self, dotProduct_zero, h2]
  norm_num

theorem KKT.dualMinimiser (hc : q.Convex) {z l v} (hk : q.KKT z l v) : q.DualMinimiser z l v := by
  refine ⟨⟨hk.stationary, hk.dual⟩, fun z' l' v' h' => ?_⟩
  have h1 := hc.weak hk.feasible h'
  have h2 := hk.gap
  linarith

/-- Feasible points of the two problems without a gap are KKT points. -/
theorem kkt_of_gap {z l v} (hz : q.Feasible z) (hd : q.DualFeasible z l v)
    (hg : q.objective z + q.dualObjective z l v = 0) : q.KKT z l v := by
  have h3 : q.lagrangeGrad z l v = 0 := hd.stationary
  rw [gap_eq, h3, zero_dotProduct, hz.eq, sub_self, dotProduct_zero, zero_add, zero_add] at hg
  have h4 := (Finset.sum_eq_zero_iff_of_nonneg fun i _ =>
    mul_nonneg (hd.sign i) (sub_nonneg.2 (hz.ineq i))).1 hg
  refine ⟨h3, hz, hd.sign, fun i => ?_⟩
  rcases mul_eq_zero.1 (h4 i (Finset.mem_univ _)) with h | h
  · exact .inl h
  · exact .inr (sub_eq_zero.1 h).symm

/-- Near KKT points keep away from a contradiction. -/
theorem Contradiction.le {lc vc} (hc : q.Contradiction lc vc) {eps epsc : ℝ} {z l v}
    (hk : q.NearKKT eps epsc z l v) :
    -(q.h ⬝ᵥ lc + q.b ⬝ᵥ vc) ≤ eps * euclid lc + epsc * ∑ i, vc i := by
  have h1 : (q.Gᵀ *ᵥ lc + q.Aᵀ *ᵥ vc) ⬝ᵥ z = 0 := by rw [hc.cancel, zero_dotProduct]
  rw [add_dotProduct, transpose_dot, transpose_dot] at h1
  have h2 := dot_le_euclid lc (q.G *ᵥ z - q.h)
  have h3 : euclid lc * euclid (q.G *ᵥ z - q.h) ≤ euclid lc * eps :=
    mul_le_mul_of_nonneg_left hk.eq (euclid_nonneg _)
  have h4 : vc ⬝ᵥ (q.A *ᵥ z - q.b) ≤ epsc * ∑ i, vc i := by
    rw [Finset.mul_sum]
    refine Finset.sum_le_sum fun i _ => ?_
    rw [mul_comm]
    exact mul_le_mul_of_nonneg_right (hk.ineq i) (hc.sign i)
  rw [dotProduct_sub] at h2 h4
  rw [dotProduct_comm q.h, dotProduct_comm q.b]
  linarith

/-- Near KKT points keep away from a recession direction. -/
theorem Recession.le (hs : q.H.IsSymm) {d} (hr : q.Recession d) {eps epsc : ℝ} {z l v}
    (hk : q.NearKKT eps epsc z l v) :
    -(q.f ⬝ᵥ d) ≤ eps * euclid d + epsc * ∑ i, -(q.A *ᵥ d) i := by
  have h1 : q.lagrangeGrad z l v ⬝ᵥ d = q.f ⬝ᵥ d + v ⬝ᵥ (q.A *ᵥ d) := by
    have h : (q.H *ᵥ z) ⬝ᵥ d = 0 := by
      conv_lhs => rw [← hs.eq]
      rw [transpose_dot, hr.flat, dotProduct_zero]
    rw [lagrangeGrad, add_dotProduct, add_dotProduct, add_dotProduct, transpose_dot, transpose_dot, h,
      hr.eq, dotProduct_zero]
    ring
  have h2 := (abs_le.1 (abs_dot_le_euclid (q.lagrangeGrad z l v) d)).1
  have h3 : euclid (q.lagrangeGrad z l v) * euclid d ≤ eps * euclid d :=
    mul_le_mul_of_nonneg_right hk.stationary (euclid_nonneg _)
  have h4 : v ⬝ᵥ (q.A *ᵥ d) ≤ epsc * ∑ i, -(q.A *ᵥ d) i := by
    rw [Finset.mul_sum]
    refine Finset.sum_le_sum fun i _ => ?_
    have := mul_le_mul_of_nonneg_right (hk.dual i) (neg_nonneg.2 (hr.ineq i))
    linarith
  linarith

/-- A contradiction excludes feasible points. -/
theorem Contradiction.infeasible {l v} (h : q.Contradiction l v) (z) : ¬q.Feasible z := by
  intro hz
  have h1 : (q.Gᵀ *ᵥ l + q.Aᵀ *ᵥ v) ⬝ᵥ z = 0 := by rw [h.cancel, zero_dotProduct]
  rw [add_dotProduct, transpose_dot, transpose_dot, hz.eq] at h1
  have h2 : v ⬝ᵥ (q.A *ᵥ z) ≤ v ⬝ᵥ q.b :=
    Finset.sum_le_sum fun i _ => mul_le_mul_of_nonneg_left (hz.ineq i) (h.sign i)
  have h3 := h.neg
  rw [dotProduct_comm q.h, dotProduct_comm q.b] at h3
  linarith

end QP

/-! ## C56 -/

/-- C56, weak duality: minus the dual objective at a dual feasible point is a lower bound for the
objective at every feasible point. -/
theorem C56_weak {nz nl nv : Nat} (q : QP nz nl nv) (hc : q.Convex) (z z' l v) (hz : q.Feasible z)
    (hd : q.DualFeasible z' l v) : -q.dualObjective z' l v ≤ q.objective z := by
  have := hc.weak hz hd
  linarith

/-- C56: the points with zero residual are the pairs of feasible points of both problems without a
duality gap. -/
theorem C56_iff {nz nl nv : Nat} (q : QP nz nl nv) (z l v) :
    q.KKT z l v ↔ q.Feasible z ∧ q.DualFeasible z l v ∧ q.objective z = -q.dualObjective z l v :=
  ⟨fun h => ⟨h.feasible, ⟨h.stationary, h.dual⟩, by have := h.gap; linarith⟩,
    fun ⟨h1, h2, h3⟩ => QP.kkt_of_gap h1 h2 (by linarith)⟩

/-- C56: a call that reports residual zero returns a solution of the dual problem, with no duality
gap. -/
theorem C56_dense (s : FBstabDense ℝ) (hs : s.Reachable) (p : DenseProblem ℝ) (x : CallerVar ℝ)
    (out : SolverOut ℝ) (hc : (s.qp p).Convex) (h : (s.solve p x).result = .ok out)
    (hf : out.eflag = .success) (hr : out.residual = 0) :
    let xr := s.returnedPoint p x
    (s.qp p).DualMinimiser xr.z.fn xr.l.fn xr.v.fn ∧ (s.qp p).Minimiser xr.z.fn ∧
      (s.qp p).objective xr.z.fn = -(s.qp p).dualObjective xr.z.fn xr.l.fn xr.v.fn := by
  have hk := (C16_solve_dense s hs p x out h hf).1 hr
  exact ⟨hk.dualMinimiser hc, hk.minimiser hc, by have := hk.gap; linarith⟩

theorem C56_mpc (s : FBstabMpc ℝ) (hs : s.Reachable) (p : MpcProblem ℝ) (x : CallerVar ℝ)
    (out : SolverOut ℝ) (hc : (s.ocp p).Convex) (h : (s.solve p x).result = .ok out)
    (hf : out.eflag = .success) (hr : out.residual = 0) :
    let xr := s.returnedPoint p x
    (s.qp p).DualMinimiser xr.z.fn xr.l.fn xr.v.fn ∧ (s.qp p).Minimiser xr.z.fn ∧
      (s.qp p).objective xr.z.fn = -(s.qp p).dualObjective xr.z.fn xr.l.fn xr.v.fn := by
  have hk := (C16_solve_mpc s hs p x out h hf).1 hr
  have hc' := (C29_convex _).2 hc
  exact ⟨hk.dualMinimiser hc', hk.minimiser hc', by have := hk.gap; linarith⟩

namespace QP.Implements
variable {nz nl nv : Nat} {q : QP nz nl nv} {ops : QPOps ℝ nz nl nv} (I : q.Implements ops)
include I

/-- The duality gap of a point with small residual. -/
theorem gap_le {alpha eps : ℝ} (h0 : 0 < alpha) (h1 : alpha < 1)
    {x : Point ℝ nz nl nv} (hy : x.y.fn = q.b - q.A *ᵥ x.z.fn) (hv : ∀ i, 0 ≤ x.v i)
    (h : residualNorm ops alpha x ≤ eps) :
    q.objective x.z.fn + q.dualObjective x.z.fn x.l.fn x.v.fn ≤ eps * euclid x.z.fn +
      eps * euclid x.l.fn + nv * (eps / (1 - alpha)) := by
  have hs := norm3_bounds h
  rw [I.gradLagrangian, I.eqDefect] at hs
  rw [QP.gap_eq]
  have h3 := dot_le_euclid (q.lagrangeGrad x.z.fn x.l.fn x.v.fn) x.z.fn
  have h4 := dot_le_euclid x.l.fn (q.h - q.G *ᵥ x.z.fn)
  have h5 : x.v.fn ⬝ᵥ (q.b - q.A *ᵥ x.z.fn) ≤ nv * (eps / (1 - alpha)) := by
    rw [← hy, dotProduct]
    refine le_trans (Finset.sum_le_card_nsmul _ _ (eps / (1 - alpha)) fun i _ => ?_) ?_
    · exact penalizedMin_product h0 h1 (hv i) (I.entry_le h i)
    · simp
  have h7 := mul_le_mul_of_nonneg_right hs.1 (euclid_nonneg x.z.fn)
  have h8 := mul_le_mul_of_nonneg_left hs.2.1 (euclid_nonneg x.l.fn)
  linarith

/-- The gap from below. -/
theorem gap_ge {alpha eps : ℝ} (h0 : 0 < alpha) (h1 : alpha < 1)
    {x : Point ℝ nz nl nv} (hy : x.y.fn = q.b - q.A *ᵥ x.z.fn) (hv : ∀ i, 0 ≤ x.v i)
    (h : residualNorm ops alpha x ≤ eps) :
    -(eps * euclid x.z.fn + eps * euclid x.l.fn + eps / alpha * ∑ i, x.v i) ≤
      q.objective x.z.fn + q.dualObjective x.z.fn x.l.fn x.v.fn := by
  have hn := I.nearKKT h0 h1 hy h
  have hs := norm3_bounds h
  rw [I.gradLagrangian, I.eqDefect] at hs
  rw [QP.gap_eq]
  have h3 := (abs_le.1 (abs_dot_le_euclid (q.lagrangeGrad x.z.fn x.l.fn x.v.fn) x.z.fn)).1
  have h4 := (abs_le.1 (abs_dot_le_euclid x.l.fn (q.h - q.G *ᵥ x.z.fn))).1
  have h5 : -(eps / alpha * ∑ i, x.v i) ≤ x.v.fn ⬝ᵥ (q.b - q.A *ᵥ x.z.fn) := by
    rw [Finset.mul_sum, ← Finset.sum_neg_distrib]
    refine Finset.sum_le_sum fun i _ => ?_
    have h6 : -(eps / alpha) ≤ (q.b - q.A *ᵥ x.z.fn) i := by
      have := hn.ineq i
      rw [Pi.sub_apply]; linarith
    have h7 := mul_le_mul_of_nonneg_left h6 (hv i)
    rw [Vec.fn_apply]
    linarith
  have h7 := mul_le_mul_of_nonneg_right hs.1 (euclid_nonneg x.z.fn)
  have h8 := mul_le_mul_of_nonneg_left hs.2.1 (euclid_nonneg x.l.fn)
  linarith

end QP.Implements

/-- C56, with a residual `eps`: on SUCCESS from a guess with nonnegative multipliers, the returned
primal and dual objectives differ by at most a multiple of `eps`. -/
theorem C56_gap_dense (s : FBstabDense ℝ) (hs : s.Reachable) (p : DenseProblem ℝ) (x : CallerVar ℝ)
    (out : SolverOut ℝ) (h : (s.solve p x).result = .ok out) (hf : out.eflag = .success)
    (hv : ∀ i, 0 ≤ (x.v.toVec s.nv) i) :
    let xr := s.returnedPoint p x
    let gap := (s.qp p).objective xr.z.fn + (s.qp p).dualObjective xr.z.fn xr.l.fn xr.v.fn
    let scale := euclid xr.z.fn + euclid xr.l.fn
    gap ≤ out.residual * (scale + s.nv / (1 - s.options.alpha)) ∧
      -(out.residual * (scale + (∑ i, xr.v i) / s.options.alpha)) ≤ gap := by
  intro xr gap scale
  obtain ⟨h0, h1⟩ := (C01_reachable_dense s hs).alpha_unit
  have hr := le_of_eq (C07_dense s (C01_reachable_dense s hs).maxProxIters p x out h (.inl hf)).symm
  have hy := C11_dense s p x out h
  have hv' := C20_nonneg_dense s p x out h (.inl hf) hv
  have a := (s.realEnv p).ops.gap_le h0 h1 hy hv' hr
  have b := (s.realEnv p).ops.gap_ge h0 h1 hy hv' hr
  refine ⟨le_trans a (le_of_eq ?_), le_trans (le_of_eq ?_) b⟩ <;> simp only [scale, xr] <;> ring

theorem C56_gap_mpc (s : FBstabMpc ℝ) (hs : s.Reachable) (p : MpcProblem ℝ) (x : CallerVar ℝ)
    (out : SolverOut ℝ) (h : (s.solve p x).result = .ok out) (hf : out.eflag = .success)
    (hv : ∀ i, 0 ≤ (x.v.toVec ((s.N + 1) * s.nc)) i) :
    let xr := s.returnedPoint p x
    let gap := (s.qp p).objective xr.z.fn + (s.qp p).dualObjective xr.z.fn xr.l.fn xr.v.fn
    let scale := euclid xr.z.fn + euclid xr.l.fn
    gap ≤ out.residual * (scale + ((s.N + 1) * s.nc : Nat) / (1 - s.options.alpha)) ∧
      -(out.residual * (scale + (∑ i, xr.v i) / s.options.alpha)) ≤ gap := by
  intro xr gap scale
  obtain ⟨h0, h1⟩ := (C01_reachable_mpc s hs).alpha_unit
  have hr := le_of_eq (C07_mpc real_zero_beq s (C01_reachable_mpc s hs).maxProxIters p x out h
    (.inl hf)).symm
  have hy := C11_mpc s p x out h
  have hv' := C20_nonneg_mpc s p x out h (.inl hf) hv
  have a := (s.realEnv p).ops.gap_le h0 h1 hy hv' hr
  have b := (s.realEnv p).ops.gap_ge h0 h1 hy hv' hr
  refine ⟨le_trans a (le_of_eq ?_), le_trans (le_of_eq ?_) b⟩ <;> simp only [scale, xr] <;> ring

/-- C56: the dual objective as the README prints it (with `b` and `h` exchanged, possible when there are
as many equations as inequalities) is not the one: there is a convex problem with a KKT point that does
not minimise it over the dual feasible points. -/
theorem C56_readme : ∃ q : QP 1 1 1, q.Convex ∧ ∃ z l v, q.KKT z l v ∧
    ∃ z' l' v', q.DualFeasible z' l' v' ∧
      (1 / 2) * (z' ⬝ᵥ q.H *ᵥ z') + q.b ⬝ᵥ l' + q.h ⬝ᵥ v' <
        (1 / 2) * (z ⬝ᵥ q.H *ᵥ z) + q.b ⬝ᵥ l + q.h ⬝ᵥ v := by
  -- minimise z^2/2 subject to z = 1, z <= 2
  refine ⟨⟨1, 0, 1, 1, 1, fun _ => 2⟩, ⟨Matrix.isSymm_one, fun z => ?_⟩, fun _ => 1, fun _ => -1, 0,
    ⟨?_, ⟨?_, fun i => ?_⟩, fun i => le_refl _, fun i => .inl rfl⟩, 2, fun _ => -2, 0, ⟨?_, fun i => le_refl _⟩,
    ?_⟩
  · rw [one_mulVec]; exact dot_self_nonneg z
  · ext i; simp [QP.lagrangeGrad]
  · ext i; simp
  · simp
  · ext i; simp
  · simp [dotProduct]; norm_num

/-! ## C57, dense interface -/

/-- C57: on an infeasible problem (some combination of the constraints is contradictory) a call that
returns SUCCESS, or stops at the Newton limit, reports a residual of at least
`|h'l + b'v| / (|l| + sum v / alpha)`, for every contradiction `(l, v)`. -/
theorem C57_infeasible_dense (s : FBstabDense ℝ) (hs : s.Reachable) (p : DenseProblem ℝ)
    (x : CallerVar ℝ) (out : SolverOut ℝ) (h : (s.solve p x).result = .ok out)
    (hf : out.eflag = .success ∨
      (out.eflag = .maxIterations ∧ s.options.maxNewtonIters ≤ (out.newtonIters : Int)))
    (l v) (hc : (s.qp p).Contradiction l v) :
    -((s.qp p).h ⬝ᵥ l + (s.qp p).b ⬝ᵥ v) ≤ out.residual * (euclid l + (∑ i, v i) / s.options.alpha) := by
  refine le_trans (hc.le (C17_dense s hs p x out h hf)) (le_of_eq ?_)
  ring

/-- C57: the same for an unbounded problem (`d` is a direction of recession with descent). -/
theorem C57_unbounded_dense (s : FBstabDense ℝ) (hs : s.Reachable) (p : DenseProblem ℝ)
    (x : CallerVar ℝ) (out : SolverOut ℝ) (h : (s.solve p x).result = .ok out)
    (hf : out.eflag = .success ∨
      (out.eflag = .maxIterations ∧ s.options.maxNewtonIters ≤ (out.newtonIters : Int)))
    (hH : (s.qp p).H.IsSymm) (d) (hd : (s.qp p).Recession d) :
    -((s.qp p).f ⬝ᵥ d) ≤
      out.residual * (euclid d + (∑ i, -((s.qp p).A *ᵥ d) i) / s.options.alpha) := by
  refine le_trans (hd.le hH (C17_dense s hs p x out h hf)) (le_of_eq ?_)
  ring

/-- C57: Solve does not report SUCCESS on an infeasible problem, if the stopping tolerance is below the
bound of `C57_infeasible`, `stall_tol` is below the norm of the all-ones vector, and the near KKT
conditions that a stalled iteration satisfies (C44) are below the bound too.  (Exception: the total
of Newton iterations reached `max_inner_iters`.) -/
theorem C57_not_solved_dense (s : FBstabDense ℝ) (hs : s.Reachable) (p : DenseProblem ℝ)
    (x : CallerVar ℝ) (out : SolverOut ℝ) (h : (s.solve p x).result = .ok out)
    (l v) (hc : (s.qp p).Contradiction l v)
    (h1 : stoppingTol (s.problem p) s.options * (euclid l + (∑ i, v i) / s.options.alpha) <
      -((s.qp p).h ⬝ᵥ l + (s.qp p).b ⬝ᵥ v))
    (h2 : s.options.stallTol < onesNorm ℝ s.nz s.nl s.nv)
    (h3 : let t := max s.options.innerTolMin (s.options.innerTolMax * s.options.delta ^ out.proxIters)
      let c := 2 * t / s.options.alpha
      (t + s.options.sigma0 * s.options.stallTol) * euclid l +
        (c + s.options.sigma0 * (s.options.stallTol + c)) * ∑ i, v i <
        -((s.qp p).h ⬝ᵥ l + (s.qp p).b ⬝ᵥ v))
    (hn : (out.newtonIters : Int) < s.options.maxInnerIters) : out.eflag ≠ .success := by
  intro hf
  have o := C01_reachable_dense s hs
  have a0 := o.alpha_unit.1
  have hsc : 0 ≤ euclid l + (∑ i, v i) / s.options.alpha :=
    add_nonneg (euclid_nonneg _) (div_nonneg (Finset.sum_nonneg fun i _ => hc.sign i) a0.le)
  have hr : stoppingTol (s.problem p) s.options < out.residual := by
    by_contra hle
    have := mul_le_mul_of_nonneg_right (not_lt.1 hle) hsc
    have := C57_infeasible_dense s hs p x out h (.inl hf) l v hc
    linarith
  rcases (C06_dense s o.maxProxIters p x out h hf).2 with c | c | c
  · linarith
  · exact absurd c.2 (not_le.2 h2)
  · obtain ⟨v', -, hk⟩ := C44_stalled_dense s hs p x out h hf hr c.1 hn
    have := hc.le hk
    simp only at h3
    linarith

/-- C57: Solve does not report SUCCESS on an unbounded problem. -/
theorem C57_not_solved_unbounded_dense (s : FBstabDense ℝ) (hs : s.Reachable) (p : DenseProblem ℝ)
    (x : CallerVar ℝ) (out : SolverOut ℝ) (h : (s.solve p x).result = .ok out)
    (hH : (s.qp p).H.IsSymm) (d) (hd : (s.qp p).Recession d)
    (h1 : stoppingTol (s.problem p) s.options *
      (euclid d + (∑ i, -((s.qp p).A *ᵥ d) i) / s.options.alpha) < -((s.qp p).f ⬝ᵥ d))
    (h2 : s.options.stallTol < onesNorm ℝ s.nz s.nl s.nv)
    (h3 : let t := max s.options.innerTolMin (s.options.innerTolMax * s.options.delta ^ out.proxIters)
      let c := 2 * t / s.options.alpha
      (t + s.options.sigma0 * s.options.stallTol) * euclid d +
        (c + s.options.sigma0 * (s.options.stallTol + c)) * ∑ i, -((s.qp p).A *ᵥ d) i <
        -((s.qp p).f ⬝ᵥ d))
    (hn : (out.newtonIters : Int) < s.options.maxInnerIters) : out.eflag ≠ .success := by
  intro hf
  have o := C01_reachable_dense s hs
  have a0 := o.alpha_unit.1
  have hsc : 0 ≤ euclid d + (∑ i, -((s.qp p).A *ᵥ d) i) / s.options.alpha :=
    add_nonneg (euclid_nonneg _)
      (div_nonneg (Finset.sum_nonneg fun i _ => neg_nonneg.2 (hd.ineq i)) a0.le)
  have hr : stoppingTol (s.problem p) s.options < out.residual := by
    by_contra hle
    have := mul_le_mul_of_nonneg_right (not_lt.1 hle) hsc
    have := C57_unbounded_dense s hs p x out h (.inl hf) hH d hd
    linarith
  rcases (C06_dense s o.maxProxIters p x out h hf).2 with c | c | c
  · linarith
  · exact absurd c.2 (not_le.2 h2)
  · obtain ⟨v', -, hk⟩ := C44_stalled_dense s hs p x out h hf hr c.1 hn
    have := hd.le hH hk
    simp only at h3
    linarith

/-! ## C57, MPC interface -/

/-- C57: on an infeasible problem (some combination of the constraints is contradictory) a call that
returns SUCCESS, or stops at the Newton limit, reports a residual of at least
`|h'l + b'v| / (|l| + sum v / alpha)`, for every contradiction `(l, v)`. -/
theorem C57_infeasible_mpc (s : FBstabMpc ℝ) (hs : s.Reachable) (p : MpcProblem ℝ)
    (x : CallerVar ℝ) (out : SolverOut ℝ) (h : (s.solve p x).result = .ok out)
    (hf : out.eflag = .success ∨
      (out.eflag = .maxIterations ∧ s.options.maxNewtonIters ≤ (out.newtonIters : Int)))
    (l v) (hc : (s.qp p).Contradiction l v) :
    -((s.qp p).h ⬝ᵥ l + (s.qp p).b ⬝ᵥ v) ≤ out.residual * (euclid l + (∑ i, v i) / s.options.alpha) := by
  refine le_trans (hc.le (C17_mpc s hs p x out h hf)) (le_of_eq ?_)
  ring

/-- C57: the same for an unbounded problem (`d` is a direction of recession with descent). -/
theorem C57_unbounded_mpc (s : FBstabMpc ℝ) (hs : s.Reachable) (p : MpcProblem ℝ)
    (x : CallerVar ℝ) (out : SolverOut ℝ) (h : (s.solve p x).result = .ok out)
    (hf : out.eflag = .success ∨
      (out.eflag = .maxIterations ∧ s.options.maxNewtonIters ≤ (out.newtonIters : Int)))
    (hH : (s.qp p).H.IsSymm) (d) (hd : (s.qp p).Recession d) :
    -((s.qp p).f ⬝ᵥ d) ≤
      out.residual * (euclid d + (∑ i, -((s.qp p).A *ᵥ d) i) / s.options.alpha) := by
  refine le_trans (hd.le hH (C17_mpc s hs p x out h hf)) (le_of_eq ?_)
  ring

/-- C57: Solve does not report SUCCESS on an infeasible problem, if the stopping tolerance is below the
bound of `C57_infeasible`, `stall_tol` is below the norm of the all-ones vector, and the near KKT
conditions that a stalled iteration satisfies (C44) are below the bound too.  (Exception: the total
of Newton iterations reached `max_inner_iters`.) -/
theorem C57_not_solved_mpc (s : FBstabMpc ℝ) (hs : s.Reachable) (p : MpcProblem ℝ)
    (x : CallerVar ℝ) (out : SolverOut ℝ) (h : (s.solve p x).result = .ok out)
    (l v) (hc : (s.qp p).Contradiction l v)
    (h1 : stoppingTol (s.problem p) s.options * (euclid l + (∑ i, v i) / s.options.alpha) <
      -((s.qp p).h ⬝ᵥ l + (s.qp p).b ⬝ᵥ v))
    (h2 : s.options.stallTol < onesNorm ℝ ((s.N + 1) * (s.nx + s.nu)) ((s.N + 1) * s.nx) ((s.N + 1) * s.nc))
    (h3 : let t := max s.options.innerTolMin (s.options.innerTolMax * s.options.delta ^ out.proxIters)
      let c := 2 * t / s.options.alpha
      (t + s.options.sigma0 * s.options.stallTol) * euclid l +
        (c + s.options.sigma0 * (s.options.stallTol + c)) * ∑ i, v i <
        -((s.qp p).h ⬝ᵥ l + (s.qp p).b ⬝ᵥ v))
    (hn : (out.newtonIters : Int) < s.options.maxInnerIters) : out.eflag ≠ .success := by
  intro hf
  have o := C01_reachable_mpc s hs
  have a0 := o.alpha_unit.1
  have hsc : 0 ≤ euclid l + (∑ i, v i) / s.options.alpha :=
    add_nonneg (euclid_nonneg _) (div_nonneg (Finset.sum_nonneg fun i _ => hc.sign i) a0.le)
  have hr : stoppingTol (s.problem p) s.options < out.residual := by
    by_contra hle
    have := mul_le_mul_of_nonneg_right (not_lt.1 hle) hsc
    have := C57_infeasible_mpc s hs p x out h (.inl hf) l v hc
    linarith
  rcases (C06_mpc real_zero_beq s o.maxProxIters p x out h hf).2 with c | c | c
  · linarith
  · exact absurd c.2 (not_le.2 h2)
  · obtain ⟨v', -, hk⟩ := C44_stalled_mpc s hs p x out h hf hr c.1 hn
    have := hc.le hk
    simp only at h3
    linarith

/-- C57: Solve does not report SUCCESS on an unbounded problem. -/
theorem C57_not_solved_unbounded_mpc (s : FBstabMpc ℝ) (hs : s.Reachable) (p : MpcProblem ℝ)
    (x : CallerVar ℝ) (out : SolverOut ℝ) (h : (s.solve p x).result = .ok out)
    (hH : (s.qp p).H.IsSymm) (d) (hd : (s.qp p).Recession d)
    (h1 : stoppingTol (s.problem p) s.options *
      (euclid d + (∑ i, -((s.qp p).A *ᵥ d) i) / s.options.alpha) < -((s.qp p).f ⬝ᵥ d))
    (h2 : s.options.stallTol < onesNorm ℝ ((s.N + 1) * (s.nx + s.nu)) ((s.N + 1) * s.nx) ((s.N + 1) * s.nc))
    (h3 : let t := max s.options.innerTolMin (s.options.innerTolMax * s.options.delta ^ out.proxIters)
      let c := 2 * t / s.options.alpha
      (t + s.options.sigma0 * s.options.stallTol) * euclid d +
        (c + s.options.sigma0 * (s.options.stallTol + c)) * ∑ i, -((s.qp p).A *ᵥ d) i <
        -((s.qp p).f ⬝ᵥ d))
    (hn : (out.newtonIters : Int) < s.options.maxInnerIters) : out.eflag ≠ .success := by
  intro hf
  have o := C01_reachable_mpc s hs
  have a0 := o.alpha_unit.1
  have hsc : 0 ≤ euclid d + (∑ i, -((s.qp p).A *ᵥ d) i) / s.options.alpha :=
    add_nonneg (euclid_nonneg _)
      (div_nonneg (Finset.sum_nonneg fun i _ => neg_nonneg.2 (hd.ineq i)) a0.le)
  have hr : stoppingTol (s.problem p) s.options < out.residual := by
    by_contra hle
    have := mul_le_mul_of_nonneg_right (not_lt.1 hle) hsc
    have := C57_unbounded_mpc s hs p x out h (.inl hf) hH d hd
    linarith
  rcases (C06_mpc real_zero_beq s o.maxProxIters p x out h hf).2 with c | c | c
  · linarith
  · exact absurd c.2 (not_le.2 h2)
  · obtain ⟨v', -, hk⟩ := C44_stalled_mpc s hs p x out h hf hr c.1 hn
    have := hd.le hH hk
    simp only at h3
    linarith

/-! ### Cases -/

/-- Minimise `z^2 / 2` subject to `z <= -1` and `-z <= 0`. -/
noncomputable def emptyQP : QP 1 0 2 := ⟨1, 0, 0, 0, fun i _ => if i = 0 then 1 else -1, fun i => if i = 0 then -1 else 0⟩

theorem emptyQP_contradiction : emptyQP.Contradiction 0 fun _ => 1 := by
  refine ⟨?_, fun i => zero_le_one, ?_⟩
  · ext i
    simp [emptyQP, mulVec, dotProduct, Matrix.transpose_apply]
    show (1 : ℝ) + -1 = 0
    norm_num
  · simp [emptyQP, dotProduct]

theorem emptyQP_convex : emptyQP.Convex :=
  ⟨Matrix.isSymm_one, fun z => by
    show 0 ≤ z ⬝ᵥ (1 : Matrix (Fin 1) (Fin 1) ℝ) *ᵥ z
    rw [one_mulVec]; exact dot_self_nonneg z⟩

/-- Minimise `-z` subject to `-z <= 0`. -/
noncomputable def slideQP : QP 1 0 1 := ⟨0, fun _ => -1, 0, 0, fun _ _ => -1, 0⟩

theorem slideQP_recession : slideQP.Recession fun _ => 1 := by
  refine ⟨?_, Subsingleton.elim _ _, fun i => ?_, ?_⟩
  · simp [slideQP]
  · simp [slideQP, mulVec, dotProduct]
  · simp [slideQP, dotProduct]

/-- The default options with `max_inner_iters` raised above `max_newton_iters`. -/
noncomputable def patientOptions : Params ℝ := { Params.defaults with maxInnerIters := 1000 }

theorem patientOptions_inRange : patientOptions.InRange := by
  constructor <;> simp only [patientOptions, Params.defaults, Between] <;> norm_num

/-- C57: from every guess, Solve returns on this infeasible problem, and does not report SUCCESS. -/
theorem C57_example (junk : DenseJunk ℝ) (z : Fin 1 → ℝ) (l : Fin 0 → ℝ) (v : Fin 2 → ℝ) :
    let s := FBstabDense.made junk 1 0 2 patientOptions
    ∃ out, (s.solve emptyQP.toDense (guessOf z l v)).result = .ok out ∧ out.eflag ≠ .success := by
  intro s
  have hq : s.qp emptyQP.toDense = emptyQP := FBstabDense.made_qp junk _ _
  have hr : s.Reachable := FBstabDense.made_reachable junk _ (by norm_num) (by norm_num)
    (by norm_num [intLimit]) patientOptions_inRange
  have hcv : (s.qp emptyQP.toDense).Convex := by
    rw [hq]; exact emptyQP_convex
  obtain ⟨out, h⟩ := C13_absTol_dense s hr emptyQP.toDense (guessOf z l v) (emptyQP.toDense_fits _ _ _)
    (guessOf_writable _ _ _ _) hcv ⟨by show (1e-12 : ℝ) ≤ 1e-2; norm_num, by show (1e-12 : ℝ) ≤ 1e-6; norm_num⟩
  refine ⟨out, h, ?_⟩
  have hN := (C04_dense C01_validation_total_real s hr _ _ out h).2.1
  have hN' : (out.newtonIters : Int) ≤ 200 := hN
  have hfn : (s.problem emptyQP.toDense).forcingNorm = 1 := by
    rw [(s.realEnv emptyQP.toDense).ops.forcingNorm, hq]
    show √((0 : Fin 1 → ℝ) ⬝ᵥ 0 + (0 : Fin 0 → ℝ) ⬝ᵥ 0 + emptyQP.b ⬝ᵥ emptyQP.b) = 1
    rw [show emptyQP.b ⬝ᵥ emptyQP.b = 1 by simp [emptyQP, dotProduct, Fin.sum_univ_succ], zero_dotProduct,
      zero_dotProduct]
    norm_num
  have hst : stoppingTol (s.problem emptyQP.toDense) s.options = 1e-6 + 1e-12 * (1 + 1) := by
    rw [stoppingTol, hfn]
    show (1e-6 : ℝ) + (1e-12) * (1 + 1) = _
    norm_num
  have hc : (s.qp emptyQP.toDense).Contradiction (0 : Fin 0 → ℝ) fun _ => 1 := by
    rw [hq]; exact emptyQP_contradiction
  have hval : -((s.qp emptyQP.toDense).h ⬝ᵥ (0 : Fin s.nl → ℝ) + (s.qp emptyQP.toDense).b ⬝ᵥ fun _ => 1) = 1 := by
    rw [hq]
    show -(emptyQP.h ⬝ᵥ (0 : Fin 0 → ℝ) + emptyQP.b ⬝ᵥ fun _ => 1) = 1
    simp [emptyQP, dotProduct]
  have he : euclid (0 : Fin s.nl → ℝ) = 0 := euclid_eq_zero.2 rfl
  have hsum : (∑ _i : Fin 2, (1 : ℝ)) = 2 := by norm_num
  have hsum' : (∑ _i : Fin s.nv, (1 : ℝ)) = 2 := hsum
  refine C57_not_solved_dense s hr _ _ out h (0 : Fin s.nl → ℝ) (fun _ => 1) hc ?_ ?_ ?_ ?_
  · rw [hval, hst, hsum', he]
    show (1e-6 + 1e-12 * (1 + 1)) * (0 + 2 / 0.95) < (1 : ℝ)
    norm_num
  · have := one_le_onesNorm (nz := s.nz) (nl := s.nl) (nv := s.nv) (by show 0 < 1; norm_num)
    refine lt_of_lt_of_le ?_ this
    show (1e-10 : ℝ) < 1
    norm_num
  · have ht : max s.options.innerTolMin (s.options.innerTolMax * s.options.delta ^ out.proxIters) ≤ 1e-2 := by
      refine max_le (by show (1e-12 : ℝ) ≤ 1e-2; norm_num) ?_
      show (1e-2 : ℝ) * 0.2 ^ out.proxIters ≤ 1e-2
      have := pow_le_one₀ (n := out.proxIters) (by norm_num : (0 : ℝ) ≤ 0.2) (by norm_num)
      linarith
    rw [hval, hsum', he]
    show let t := max s.options.innerTolMin (s.options.innerTolMax * s.options.delta ^ out.proxIters)
      let c := 2 * t / 0.95
      (t + 1e-8 * 1e-10) * 0 + (c + 1e-8 * (1e-10 + c)) * 2 < 1
    intro t c
    have hc' : c ≤ 2 * 1e-2 / 0.95 := by
      show 2 * t / 0.95 ≤ _
      have : t ≤ 1e-2 := ht
      gcongr
    norm_num at hc' ⊢
    linarith
  · show (out.newtonIters : Int) < 1000
    omega

end Fbstab
