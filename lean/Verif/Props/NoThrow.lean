import Verif.Proofs.NoThrow
import Verif.Proofs.Witness
import Verif.Props.Control

/-!
# C13: when `Solve` throws on a convex problem

Over the reals.  With the inputs sized as documented and a convex objective, `Solve` returns if
`inner_tol_min <= inner_tol_max` and `inner_tol_min` is at most the stopping tolerance.  Neither
condition is enforced by `ValidateOptions`, and without them `Solve` throws.
-/

namespace Fbstab
open Matrix

/-- The condition under which the two calls of `saturate` in `Solve` have ordered bounds. -/
def TolerancesOrdered (o : Params ℝ) (stop : ℝ) : Prop :=
  o.innerTolMin ≤ o.innerTolMax ∧ o.innerTolMin ≤ stop

/-- C13: `FBstabDense::Solve` returns on every convex problem. -/
theorem C13_dense (s : FBstabDense ℝ) (hs : s.Reachable) (p : DenseProblem ℝ) (x : CallerVar ℝ)
    (hf : DenseFits s.nz s.nl s.nv p x) (hy : x.YWritable s.nv) (hc : (s.qp p).Convex)
    (ht : TolerancesOrdered s.options (stoppingTol (s.problem p) s.options)) :
    ∃ out, (s.solve p x).result = .ok out := by
  have ho := C01_reachable_dense s hs
  obtain ⟨fin, h⟩ := Core.solve_total (E := s.env p)
    (fun a b => ⟨_, (dense_newton _ hc ho.alpha_pos ho.alpha_lt ho.sigma_tiny a b).1⟩)
    ht.2 ht.1 s.mem.feas.ws (x.z.toVec s.nz) (x.l.toVec s.nl) (x.v.toVec s.nv)
  exact ⟨_, ((FBstabDense.solve_computes hf).ok fin h hy).1⟩

/-- C13: `FBstabMpc::Solve` returns on every problem with convex stage costs. -/
theorem C13_mpc (s : FBstabMpc ℝ) (hs : s.Reachable) (p : MpcProblem ℝ) (x : CallerVar ℝ)
    (hf : MpcFits s.N s.nx s.nu s.nc p x) (hcol : p.Columns) (hc : (s.ocp p).Convex)
    (ht : TolerancesOrdered s.options (stoppingTol (s.problem p) s.options)) :
    ∃ out, (s.solve p x).result = .ok out := by
  have ho := C01_reachable_mpc s hs
  obtain ⟨fin, h⟩ := Core.solve_total (E := s.env real_zero_beq p)
    (fun a b => ⟨_, (riccati_newton _ hc ho.alpha_pos ho.alpha_lt ho.sigma_pos a b).1⟩)
    ht.2 ht.1 s.mem.feas.ws (x.z.toVec _) (x.l.toVec _) (x.v.toVec _)
  exact ⟨_, ((FBstabMpc.solve_computes real_zero_beq hf hcol).ok fin h fun _ => hf.y).1⟩

theorem absTol_le_stoppingTol {nz nl nv : Nat} {q : QP nz nl nv} {ops : QPOps ℝ nz nl nv}
    (I : q.Implements ops) {o : Params ℝ} (ho : o.InRange) : o.absTol ≤ stoppingTol ops o := by
  unfold stoppingTol
  have : 0 ≤ ops.forcingNorm := by rw [I.forcingNorm]; exact Real.sqrt_nonneg _
  have := mul_nonneg ho.relTol (add_nonneg zero_le_one this)
  linarith

/-- C13: it is enough that `inner_tol_min` is at most `inner_tol_max` and `abs_tol`. -/
theorem C13_absTol_dense (s : FBstabDense ℝ) (hs : s.Reachable) (p : DenseProblem ℝ)
    (x : CallerVar ℝ) (hf : DenseFits s.nz s.nl s.nv p x) (hy : x.YWritable s.nv)
    (hc : (s.qp p).Convex) (ht : TolerancesOrdered s.options s.options.absTol) :
    ∃ out, (s.solve p x).result = .ok out :=
  C13_dense s hs p x hf hy hc ⟨ht.1, ht.2.trans (absTol_le_stoppingTol (s.realEnv p).ops
    (C01_reachable_dense s hs))⟩

/-- C13: it is enough that `inner_tol_min` is at most `inner_tol_max` and `abs_tol`. -/
theorem C13_absTol_mpc (s : FBstabMpc ℝ) (hs : s.Reachable) (p : MpcProblem ℝ) (x : CallerVar ℝ)
    (hf : MpcFits s.N s.nx s.nu s.nc p x) (hcol : p.Columns) (hc : (s.ocp p).Convex)
    (ht : TolerancesOrdered s.options s.options.absTol) :
    ∃ out, (s.solve p x).result = .ok out :=
  C13_mpc s hs p x hf hcol hc ⟨ht.1, ht.2.trans (absTol_le_stoppingTol (s.realEnv p).ops
    (C01_reachable_mpc s hs))⟩

/-- C13: the presets (`DefaultParameters`, in force after construction, and `ReliableParameters`)
and a default-constructed `AlgorithmParameters` meet the condition. -/
theorem C13_presets : ∀ o ∈ [(Params.defaults : Params ℝ), Params.reliable, Params.fresh],
    TolerancesOrdered o o.absTol := by
  intro o ho
  simp only [List.mem_cons, List.not_mem_nil, or_false] at ho
  rcases ho with rfl | rfl | rfl <;> simp only [TolerancesOrdered, Params.defaults, Params.reliable,
    Params.fresh] <;> norm_num

/-! ## Without the conditions -/

/-- The message thrown by `saturate`. -/
def boundsError : Err :=
  .runtimeError "In tools::saturate: upper bound must be larger than the lower bound"

theorem saturate_throws {x a b : ℝ} (h : b < a) : saturate x a b = .error boundsError := by
  unfold saturate
  rw [if_pos h]
  rfl

/-- C13: with `inner_tol_max < inner_tol_min` every call of `Solve` with accepted inputs throws, even
if the guess is a solution. -/
theorem C13_throws_order_dense (s : FBstabDense ℝ) (p : DenseProblem ℝ) (x : CallerVar ℝ)
    (hf : DenseFits s.nz s.nl s.nv p x) (h : s.options.innerTolMax < s.options.innerTolMin) :
    (s.solve p x).result = .error boundsError := by
  refine ((FBstabDense.solve_computes hf).error _ ?_).1
  unfold FBstabDense.core Core.solve
  dsimp only
  rw [show saturate _ _ _ = _ from saturate_throws h]

theorem C13_throws_order_mpc (s : FBstabMpc ℝ) (p : MpcProblem ℝ) (x : CallerVar ℝ)
    (hf : MpcFits s.N s.nx s.nu s.nc p x) (hcol : p.Columns)
    (h : s.options.innerTolMax < s.options.innerTolMin) :
    (s.solve p x).result = .error boundsError := by
  refine ((FBstabMpc.solve_computes real_zero_beq hf hcol).error _ ?_).1
  unfold FBstabMpc.core Core.solve
  dsimp only
  rw [show saturate _ _ _ = _ from saturate_throws h]

theorem Core.solve_throws {nz nl nv : Nat} {E : Core.Env ℝ nz nl nv} (hp : 1 ≤ E.opts.maxProxIters)
    (ws : FeasWs ℝ nz nl nv) (z : Vec ℝ nz) (l : Vec ℝ nl) (v : Vec ℝ nv)
    (ht : E.opts.innerTolMin ≤ E.opts.innerTolMax)
    (h1 : E.comboTol < residualNorm E.ops E.opts.alpha (startPt E z l v))
    (h2 : residualNorm E.ops E.opts.alpha (startPt E z l v) < E.opts.innerTolMin)
    (h3 : E.opts.stallTol < onesNorm ℝ nz nl nv) :
    (Core.solve E ws z l v).2 = .error boundsError := by
  simp only [Core.solve]
  obtain ⟨tol, htol⟩ := Core.saturate_ok (x := Resid.norm (E.penRes (startPt E z l v))) ht
  rw [htol]
  dsimp only
  obtain ⟨n, hn⟩ : ∃ n, E.opts.maxProxIters.toNat = n + 1 := ⟨E.opts.maxProxIters.toNat - 1, by omega⟩
  rw [hn]
  have hst : ¬(Resid.norm (E.penRes (startPt E z l v)) ≤ E.comboTol ∨
      normPt (onesPt E) ≤ E.opts.stallTol) := by
    push Not
    exact ⟨h1, h3⟩
  simp only [Core.proxLoop, if_neg hst]
  have h2' : Resid.norm (E.penRes (startPt E z l v)) < E.opts.innerTolMin := h2
  rw [saturate_throws h2']

/-- C13: `Solve` also throws when the residual of the guess lies between the stopping tolerance and
`inner_tol_min`, whatever the problem. -/
theorem C13_throws_between_dense (s : FBstabDense ℝ) (hs : s.Reachable) (p : DenseProblem ℝ)
    (x : CallerVar ℝ) (hf : DenseFits s.nz s.nl s.nv p x)
    (h1 : stoppingTol (s.problem p) s.options <
      residualNorm (s.problem p) s.options.alpha (x.guess (s.problem p)))
    (h2 : residualNorm (s.problem p) s.options.alpha (x.guess (s.problem p)) <
      s.options.innerTolMin)
    (h3 : s.options.stallTol < onesNorm ℝ s.nz s.nl s.nv) :
    (s.solve p x).result = .error boundsError := by
  by_cases ht : s.options.innerTolMax < s.options.innerTolMin
  · exact C13_throws_order_dense s p x hf ht
  · exact ((FBstabDense.solve_computes hf).error _ (Core.solve_throws (E := s.env p)
      (C01_reachable_dense s hs).maxProxIters _ _ _ _ (not_lt.1 ht) h1 h2 h3)).1

theorem C13_throws_between_mpc (s : FBstabMpc ℝ) (hs : s.Reachable) (p : MpcProblem ℝ)
    (x : CallerVar ℝ) (hf : MpcFits s.N s.nx s.nu s.nc p x) (hcol : p.Columns)
    (h1 : stoppingTol (s.problem p) s.options <
      residualNorm (s.problem p) s.options.alpha (x.guess (s.problem p)))
    (h2 : residualNorm (s.problem p) s.options.alpha (x.guess (s.problem p)) <
      s.options.innerTolMin)
    (h3 : s.options.stallTol < onesNorm ℝ ((s.N + 1) * (s.nx + s.nu)) ((s.N + 1) * s.nx)
      ((s.N + 1) * s.nc)) :
    (s.solve p x).result = .error boundsError := by
  by_cases ht : s.options.innerTolMax < s.options.innerTolMin
  · exact C13_throws_order_mpc s p x hf hcol ht
  · exact ((FBstabMpc.solve_computes real_zero_beq hf hcol).error _
      (Core.solve_throws (E := s.env real_zero_beq p)
      (C01_reachable_mpc s hs).maxProxIters _ _ _ _ (not_lt.1 ht) h1 h2 h3)).1

end Fbstab
