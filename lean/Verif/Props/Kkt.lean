import Verif.Proofs.Suboptimal
import Verif.Props.Options
import Verif.Props.Control
import Verif.Props.Mpc

/-!
# What returned points are, over the reals: C11, C16, C17, C18, C19, C20, C43

`QP.KKT`, `QP.NearKKT`, `QP.Minimiser`, `QP.ProxKKT` are defined in Spec/QP.lean, the problem `s.qp p`
of a call in Spec/RealApi.lean.
-/

namespace Fbstab
open Matrix

/-- `0 < alpha < 1` for valid options. -/
theorem Params.InRange.alpha_unit {o : Params ℝ} (h : o.InRange) : 0 < o.alpha ∧ o.alpha < 1 :=
  ⟨lt_of_lt_of_le (by norm_num) h.alpha.1, lt_of_le_of_lt h.alpha.2 (by norm_num)⟩

/-! ## C11 -/

/-- C11: whenever `FBstabDense::Solve` returns, `y = b - A z` for the returned `z`, also when the
flag reports infeasibility. -/
theorem C11_dense (s : FBstabDense ℝ) (p : DenseProblem ℝ) (x : CallerVar ℝ) (out : SolverOut ℝ)
    (h : (s.solve p x).result = .ok out) :
    let xr := s.returnedPoint p x
    xr.y.fn = (s.qp p).b - (s.qp p).A *ᵥ xr.z.fn := by
  obtain ⟨-, -, fin, -, hr, -, e⟩ := FBstabDense.returned h
  rw [show s.returnedPoint p x = fin.x by
    rw [FBstabDense.returnedPoint, e, CallerVar.point_ofPoint]]
  exact hr.margin (s.realEnv p) (CallerVar.guess_margin (s.realEnv p).ops x)

/-- C11 for `FBstabMpc`. -/
theorem C11_mpc (s : FBstabMpc ℝ) (p : MpcProblem ℝ) (x : CallerVar ℝ) (out : SolverOut ℝ)
    (h : (s.solve p x).result = .ok out) :
    let xr := s.returnedPoint p x
    xr.y.fn = (s.qp p).b - (s.qp p).A *ᵥ xr.z.fn := by
  obtain ⟨-, -, fin, -, hr, -, e⟩ := FBstabMpc.returned real_zero_beq h
  rw [show s.returnedPoint p x = fin.x by
    rw [FBstabMpc.returnedPoint, e, CallerVar.point_ofPoint]]
  exact hr.margin (s.realEnv p) (CallerVar.guess_margin (s.realEnv p).ops x)

/-! ## C16 -/

/-- C16: the residual norm the solver uses is zero exactly at the KKT points of the problem. -/
theorem C16_dense (s : FBstabDense ℝ) (hs : s.Reachable) (p : DenseProblem ℝ)
    (x : Point ℝ s.nz s.nl s.nv) (hy : x.y.fn = (s.qp p).b - (s.qp p).A *ᵥ x.z.fn) :
    residualNorm (s.problem p) s.options.alpha x = 0 ↔ (s.qp p).KKT x.z.fn x.l.fn x.v.fn := by
  obtain ⟨h0, h1⟩ := (C01_reachable_dense s hs).alpha_unit
  exact (s.realEnv p).ops.residualNorm_eq_zero h0 h1 hy

/-- C16 for `FBstabMpc`. -/
theorem C16_mpc (s : FBstabMpc ℝ) (hs : s.Reachable) (p : MpcProblem ℝ)
    (x : Point ℝ ((s.N + 1) * (s.nx + s.nu)) ((s.N + 1) * s.nx) ((s.N + 1) * s.nc))
    (hy : x.y.fn = (s.qp p).b - (s.qp p).A *ᵥ x.z.fn) :
    residualNorm (s.problem p) s.options.alpha x = 0 ↔ (s.qp p).KKT x.z.fn x.l.fn x.v.fn := by
  obtain ⟨h0, h1⟩ := (C01_reachable_mpc s hs).alpha_unit
  exact (s.realEnv p).ops.residualNorm_eq_zero h0 h1 hy

/-- C16 for the output of a call: on SUCCESS the reported residual is `0` iff the returned `(z, l, v)`
satisfies the KKT conditions. -/
theorem C16_solve_dense (s : FBstabDense ℝ) (hs : s.Reachable) (p : DenseProblem ℝ)
    (x : CallerVar ℝ) (out : SolverOut ℝ) (h : (s.solve p x).result = .ok out)
    (hf : out.eflag = .success) :
    let xr := s.returnedPoint p x
    out.residual = 0 ↔ (s.qp p).KKT xr.z.fn xr.l.fn xr.v.fn := by
  intro xr
  rw [C07_dense s (C01_reachable_dense s hs).maxProxIters p x out h (.inl hf)]
  exact C16_dense s hs p _ (C11_dense s p x out h)

theorem C16_solve_mpc (s : FBstabMpc ℝ) (hs : s.Reachable) (p : MpcProblem ℝ)
    (x : CallerVar ℝ) (out : SolverOut ℝ) (h : (s.solve p x).result = .ok out)
    (hf : out.eflag = .success) :
    let xr := s.returnedPoint p x
    out.residual = 0 ↔ (s.qp p).KKT xr.z.fn xr.l.fn xr.v.fn := by
  intro xr
  rw [C07_mpc real_zero_beq s (C01_reachable_mpc s hs).maxProxIters p x out h (.inl hf)]
  exact C16_mpc s hs p _ (C11_mpc s p x out h)

/-! ## C17 -/

/-- C17: what the reported residual guarantees about the returned point: with `eps` the reported
residual, `|Hz + f + G'l + A'v| <= eps`, `|Gz - h| <= eps`, and entry by entry `Az - b <= eps/alpha`,
`v >= -eps/alpha`, `|min(b - Az, v)| <= eps/alpha`.  For SUCCESS, and MAXITERATIONS by the Newton
limit (see C07 for the other exits). -/
theorem C17_dense (s : FBstabDense ℝ) (hs : s.Reachable) (p : DenseProblem ℝ) (x : CallerVar ℝ)
    (out : SolverOut ℝ) (h : (s.solve p x).result = .ok out)
    (hf : out.eflag = .success ∨
      (out.eflag = .maxIterations ∧ s.options.maxNewtonIters ≤ (out.newtonIters : Int))) :
    let xr := s.returnedPoint p x
    (s.qp p).NearKKT out.residual (out.residual / s.options.alpha) xr.z.fn xr.l.fn xr.v.fn := by
  intro xr
  obtain ⟨h0, h1⟩ := (C01_reachable_dense s hs).alpha_unit
  exact (s.realEnv p).ops.nearKKT h0 h1 (C11_dense s p x out h)
    (le_of_eq (C07_dense s (C01_reachable_dense s hs).maxProxIters p x out h hf).symm)

/-- C17 for `FBstabMpc`. -/
theorem C17_mpc (s : FBstabMpc ℝ) (hs : s.Reachable) (p : MpcProblem ℝ) (x : CallerVar ℝ)
    (out : SolverOut ℝ) (h : (s.solve p x).result = .ok out)
    (hf : out.eflag = .success ∨
      (out.eflag = .maxIterations ∧ s.options.maxNewtonIters ≤ (out.newtonIters : Int))) :
    let xr := s.returnedPoint p x
    (s.qp p).NearKKT out.residual (out.residual / s.options.alpha) xr.z.fn xr.l.fn xr.v.fn := by
  intro xr
  obtain ⟨h0, h1⟩ := (C01_reachable_mpc s hs).alpha_unit
  exact (s.realEnv p).ops.nearKKT h0 h1 (C11_mpc s p x out h)
    (le_of_eq (C07_mpc real_zero_beq s (C01_reachable_mpc s hs).maxProxIters p x out h hf).symm)

/-! ## C20 -/

namespace Core
variable {nz nl nv : Nat} {E : Env ℝ nz nl nv}

theorem projectDuals_nonneg (x : Point ℝ nz nl nv) (i : Fin nv) : 0 ≤ (projectDuals x).v i := by
  simp [projectDuals, Vec.cwiseMax]

theorem Inner.nonneg {s : Outer ℝ nz nl nv} {tol o} (h : Inner E s tol o) (i : Fin nv) :
    0 ≤ o.x.v i := by
  obtain ⟨o', -, rfl⟩ := subproblem_ok h.sub
  exact projectDuals_nonneg _ i

theorem Steps.nonneg {k : Nat} {s s' : Outer ℝ nz nl nv} (h : Steps E k s s') :
    s'.xk = s.xk ∨ ∀ i, 0 ≤ s'.xk.v i := by
  cases h with
  | refl => exact .inl rfl
  | tail _ h2 =>
    right
    rw [h2.eq]
    exact h2.toInner.nonneg

theorem Returned.nonneg {ws x fin} (h : Returned E ws x fin)
    (hf : fin.out.eflag = .success ∨ fin.out.eflag = .maxIterations) :
    fin.x = x ∨ ∀ i, 0 ≤ fin.x.v i := by
  obtain ⟨tol, k, s, -, hs, h⟩ := h.run
  have hk : s.xk = x ∨ ∀ i, 0 ≤ s.xk.v i := hs.nonneg
  rcases h with ⟨-, h⟩ | ⟨-, rfl⟩
  · cases h with
    | success _ => exact hk
    | newton hi hn y hy =>
      show y = x ∨ ∀ i, 0 ≤ y.v i
      rw [hy]
      split
      · exact .inr hi.nonneg
      · exact hk
    | infeasible hi hn hc hf' =>
      exfalso
      simp only [mkFinal] at hf
      cases hc' : check E s _ <;> rw [hc'] at hf hf' <;> simp [flagOf] at hf hf'
  · exact hk

end Core

/-- C20: on SUCCESS or MAXITERATIONS either the guess `(z, l, v)` is returned unchanged, or every
returned inequality multiplier is nonnegative. -/
theorem C20_dense (s : FBstabDense ℝ) (p : DenseProblem ℝ) (x : CallerVar ℝ) (out : SolverOut ℝ)
    (h : (s.solve p x).result = .ok out)
    (hf : out.eflag = .success ∨ out.eflag = .maxIterations) :
    ((s.solve p x).x.z = x.z ∧ (s.solve p x).x.l = x.l ∧ (s.solve p x).x.v = x.v) ∨
    ∀ i, 0 ≤ (s.returnedPoint p x).v i := by
  obtain ⟨hfit, -, fin, -, hr, rfl, e⟩ := FBstabDense.returned h
  rw [show s.returnedPoint p x = fin.x by
    rw [FBstabDense.returnedPoint, e, CallerVar.point_ofPoint]]
  rcases hr.nonneg hf with h | h
  · left
    rw [e, h]
    exact ⟨DVec.ofVec_toVec _ hfit.z, DVec.ofVec_toVec _ hfit.l, DVec.ofVec_toVec _ hfit.v⟩
  · exact .inr h

/-- C20 for `FBstabMpc`. -/
theorem C20_mpc (s : FBstabMpc ℝ) (p : MpcProblem ℝ) (x : CallerVar ℝ) (out : SolverOut ℝ)
    (h : (s.solve p x).result = .ok out)
    (hf : out.eflag = .success ∨ out.eflag = .maxIterations) :
    ((s.solve p x).x.z = x.z ∧ (s.solve p x).x.l = x.l ∧ (s.solve p x).x.v = x.v) ∨
    ∀ i, 0 ≤ (s.returnedPoint p x).v i := by
  obtain ⟨hfit, -, fin, -, hr, rfl, e⟩ := FBstabMpc.returned real_zero_beq h
  rw [show s.returnedPoint p x = fin.x by
    rw [FBstabMpc.returnedPoint, e, CallerVar.point_ofPoint]]
  rcases hr.nonneg hf with h | h
  · left
    rw [e, h]
    exact ⟨DVec.ofVec_toVec _ hfit.z, DVec.ofVec_toVec _ hfit.l, DVec.ofVec_toVec _ hfit.v⟩
  · exact .inr h

/-- C20: with a guess whose multipliers are nonnegative, so are the returned ones. -/
theorem C20_nonneg_dense (s : FBstabDense ℝ) (p : DenseProblem ℝ) (x : CallerVar ℝ)
    (out : SolverOut ℝ) (h : (s.solve p x).result = .ok out)
    (hf : out.eflag = .success ∨ out.eflag = .maxIterations)
    (hv : ∀ i, 0 ≤ (x.v.toVec s.nv) i) :
    ∀ i, 0 ≤ (s.returnedPoint p x).v i := by
  rcases C20_dense s p x out h hf with ⟨-, -, h⟩ | h
  · intro i
    have := hv i
    rwa [← h] at this
  · exact h

theorem C20_nonneg_mpc (s : FBstabMpc ℝ) (p : MpcProblem ℝ) (x : CallerVar ℝ)
    (out : SolverOut ℝ) (h : (s.solve p x).result = .ok out)
    (hf : out.eflag = .success ∨ out.eflag = .maxIterations)
    (hv : ∀ i, 0 ≤ (x.v.toVec ((s.N + 1) * s.nc)) i) :
    ∀ i, 0 ≤ (s.returnedPoint p x).v i := by
  rcases C20_mpc s p x out h hf with ⟨-, -, h⟩ | h
  · intro i
    have := hv i
    rwa [← h] at this
  · exact h

/-! ## C18 -/

/-- C18: for a convex problem, a point returned with SUCCESS and residual `0` is a global
minimiser. -/
theorem C18_dense (s : FBstabDense ℝ) (hs : s.Reachable) (p : DenseProblem ℝ) (x : CallerVar ℝ)
    (out : SolverOut ℝ) (hc : (s.qp p).Convex) (h : (s.solve p x).result = .ok out)
    (hf : out.eflag = .success) (h0 : out.residual = 0) :
    (s.qp p).Minimiser (s.returnedPoint p x).z.fn :=
  ((C16_solve_dense s hs p x out h hf).1 h0).minimiser hc

/-- C18, C29: for a convex optimal control problem, a point returned by `FBstabMpc` with SUCCESS and
residual `0` is an optimal trajectory. -/
theorem C18_mpc (s : FBstabMpc ℝ) (hs : s.Reachable) (p : MpcProblem ℝ) (x : CallerVar ℝ)
    (out : SolverOut ℝ) (hc : (s.ocp p).Convex) (h : (s.solve p x).result = .ok out)
    (hf : out.eflag = .success) (h0 : out.residual = 0) :
    let z := (s.returnedPoint p x).z.fn
    (s.ocp p).Optimal (Ocp.states z) (Ocp.controls z) :=
  (C29_optimal _ _).1 (((C16_solve_mpc s hs p x out h hf).1 h0).minimiser
    ((C29_convex _).2 hc))

/-- C18, with a residual `eps`: on SUCCESS, if the guess had nonnegative multipliers, the objective
at the returned `z` exceeds that of any feasible `z'` by at most
`eps * |z' - z| + eps * |l| + nv * eps / (1 - alpha)`. -/
theorem C18_suboptimal_dense (s : FBstabDense ℝ) (hs : s.Reachable) (p : DenseProblem ℝ)
    (x : CallerVar ℝ) (out : SolverOut ℝ) (hc : (s.qp p).Convex)
    (h : (s.solve p x).result = .ok out) (hf : out.eflag = .success)
    (hv : ∀ i, 0 ≤ (x.v.toVec s.nv) i) (z' : Fin s.nz → ℝ) (hz' : (s.qp p).Feasible z') :
    let xr := s.returnedPoint p x
    (s.qp p).objective xr.z.fn ≤ (s.qp p).objective z' + out.residual * euclid (z' - xr.z.fn) +
      out.residual * euclid xr.l.fn + s.nv * (out.residual / (1 - s.options.alpha)) := by
  intro xr
  obtain ⟨h0, h1⟩ := (C01_reachable_dense s hs).alpha_unit
  exact (s.realEnv p).ops.suboptimal h0 h1 hc (C11_dense s p x out h)
    (C20_nonneg_dense s p x out h (.inl hf) hv)
    (le_of_eq (C07_dense s (C01_reachable_dense s hs).maxProxIters p x out h (.inl hf)).symm) hz'

/-- C18 with a residual `eps` for `FBstabMpc`, against every admissible trajectory. -/
theorem C18_suboptimal_mpc (s : FBstabMpc ℝ) (hs : s.Reachable) (p : MpcProblem ℝ)
    (x : CallerVar ℝ) (out : SolverOut ℝ) (hc : (s.ocp p).Convex)
    (h : (s.solve p x).result = .ok out) (hf : out.eflag = .success)
    (hv : ∀ i, 0 ≤ (x.v.toVec ((s.N + 1) * s.nc)) i)
    (x' : Fin (s.N + 1) → Fin s.nx → ℝ) (u' : Fin (s.N + 1) → Fin s.nu → ℝ)
    (hz' : (s.ocp p).Admissible x' u') :
    let xr := s.returnedPoint p x
    (s.ocp p).cost (Ocp.states xr.z.fn) (Ocp.controls xr.z.fn) ≤ (s.ocp p).cost x' u' +
      out.residual * euclid (Ocp.stack x' u' - xr.z.fn) +
      out.residual * euclid xr.l.fn +
      ((s.N + 1) * s.nc : Nat) * (out.residual / (1 - s.options.alpha)) := by
  intro xr
  obtain ⟨h0, h1⟩ := (C01_reachable_mpc s hs).alpha_unit
  have := (s.realEnv p).ops.suboptimal h0 h1 ((C29_convex _).2 hc) (C11_mpc s p x out h)
    (C20_nonneg_mpc s p x out h (.inl hf) hv)
    (le_of_eq (C07_mpc real_zero_beq s (C01_reachable_mpc s hs).maxProxIters p x out h
      (.inl hf)).symm) ((C29_feasible _ x' u').2 hz')
  rw [show s.qp p = (s.ocp p).toQP from rfl, C29_objective] at this
  rw [← C29_objective, stack_split]
  exact this

/-- C18, the other side: the objective at the returned `z` is not below the optimal value by more
than `eps * |l*| + eps/alpha * sum v*`, for any KKT point `(z*, l*, v*)`. -/
theorem C18_not_better_dense (s : FBstabDense ℝ) (hs : s.Reachable) (p : DenseProblem ℝ)
    (x : CallerVar ℝ) (out : SolverOut ℝ) (hc : (s.qp p).Convex)
    (h : (s.solve p x).result = .ok out) (hf : out.eflag = .success) (zs ls vs)
    (hk : (s.qp p).KKT zs ls vs) :
    (s.qp p).objective zs ≤
      (s.qp p).objective (s.returnedPoint p x).z.fn +
      out.residual * euclid ls + out.residual / s.options.alpha * ∑ i, vs i :=
  (C17_dense s hs p x out h (.inl hf)).not_better hc hk

theorem C18_not_better_mpc (s : FBstabMpc ℝ) (hs : s.Reachable) (p : MpcProblem ℝ)
    (x : CallerVar ℝ) (out : SolverOut ℝ) (hc : (s.ocp p).Convex)
    (h : (s.solve p x).result = .ok out) (hf : out.eflag = .success) (zs ls vs)
    (hk : (s.qp p).KKT zs ls vs) :
    (s.qp p).objective zs ≤
      (s.qp p).objective (s.returnedPoint p x).z.fn +
      out.residual * euclid ls + out.residual / s.options.alpha * ∑ i, vs i :=
  (C17_mpc s hs p x out h (.inl hf)).not_better ((C29_convex _).2 hc) hk

/-! ## C19 and C43 -/

section
variable {nz nl nv : Nat} {q : QP nz nl nv} {ops : QPOps ℝ nz nl nv}

/-- The inner residual is the pure function used in proofs about runs. -/
theorem FullResidual.innerResidual_eq {r r' : FullResidual ℝ nz nl nv}
    {x xbar : FullVariable ℝ nz nl nv} {sigma : ℝ} (hd : r.data = some ops)
    (h : r.innerResidual x xbar sigma = .ok r') (o : Params ℝ) (F) :
    r'.norm = Core.Resid.norm (Core.Env.innerRes ⟨{ o with alpha := r.alpha }, ops, F⟩ x.pt xbar.pt
      sigma) := by
  simp only [innerResidual, nullDataCheck, hd] at h
  cases h
  rfl

/-- C19: the norm of the inner residual `R(x, xbar, sigma)` computed by `FullResidual` is zero
exactly when `x` satisfies the KKT system of the regularised problem at `xbar`. -/
theorem C19_zero (I : q.Implements ops) (r r' : FullResidual ℝ nz nl nv)
    (x xbar : FullVariable ℝ nz nl nv) (sigma : ℝ) (hd : r.data = some ops) (h0 : 0 < r.alpha)
    (h1 : r.alpha < 1) (hy : x.pt.y.fn = q.b - q.A *ᵥ x.pt.z.fn)
    (h : r.innerResidual x xbar sigma = .ok r') :
    r'.norm = 0 ↔ q.ProxKKT sigma xbar.pt.z.fn xbar.pt.l.fn xbar.pt.v.fn x.pt.z.fn x.pt.l.fn
      x.pt.v.fn := by
  rw [FullResidual.innerResidual_eq hd h Params.defaults fun _ _ _ => .ok none]
  exact I.innerRes_eq_zero rfl h0 h1 hy

/-- C19: for convex problems and `sigma > 0` the inner residual has at most one zero. -/
theorem C19_unique (I : q.Implements ops) (hc : q.Convex) (r r1 r2 : FullResidual ℝ nz nl nv)
    (x1 x2 xbar : FullVariable ℝ nz nl nv) (sigma : ℝ) (hs : 0 < sigma) (hd : r.data = some ops)
    (h0 : 0 < r.alpha) (h1 : r.alpha < 1) (hy1 : x1.pt.y.fn = q.b - q.A *ᵥ x1.pt.z.fn)
    (hy2 : x2.pt.y.fn = q.b - q.A *ᵥ x2.pt.z.fn)
    (e1 : r.innerResidual x1 xbar sigma = .ok r1) (e2 : r.innerResidual x2 xbar sigma = .ok r2)
    (z1 : r1.norm = 0) (z2 : r2.norm = 0) : x1.pt = x2.pt := by
  obtain ⟨a, b, c⟩ := ((C19_zero I r r1 x1 xbar sigma hd h0 h1 hy1 e1).1 z1).unique hc hs
    ((C19_zero I r r2 x2 xbar sigma hd h0 h1 hy2 e2).1 z2)
  have d : x1.pt.y.fn = x2.pt.y.fn := by rw [hy1, hy2, a]
  rw [Vec.fn_inj] at a b c d
  rcases x1 with ⟨⟨_, _, _, _⟩⟩
  rcases x2 with ⟨⟨_, _, _, _⟩⟩
  simp only at a b c d
  simp only [a, b, c, d]

/-- C19: `R(x, x, sigma) = 0` iff `x` is a KKT point of the problem itself. -/
theorem C19_fixed (I : q.Implements ops) (r r' : FullResidual ℝ nz nl nv)
    (x : FullVariable ℝ nz nl nv) (sigma : ℝ) (hd : r.data = some ops) (h0 : 0 < r.alpha)
    (h1 : r.alpha < 1) (hy : x.pt.y.fn = q.b - q.A *ᵥ x.pt.z.fn)
    (h : r.innerResidual x x sigma = .ok r') :
    r'.norm = 0 ↔ q.KKT x.pt.z.fn x.pt.l.fn x.pt.v.fn := by
  rw [C19_zero I r r' x x sigma hd h0 h1 hy h, QP.proxKKT_self]

/-- C43: if the inner residual at `x` with centre `xbar` is zero then `x` is not farther from any KKT
point than `xbar`: `|x - x*|^2 + |x - xbar|^2 <= |xbar - x*|^2`. -/
theorem C43_fejer (I : q.Implements ops) (hc : q.Convex) (r r' : FullResidual ℝ nz nl nv)
    (x xbar : FullVariable ℝ nz nl nv) (sigma : ℝ) (hs : 0 < sigma) (hd : r.data = some ops)
    (h0 : 0 < r.alpha) (h1 : r.alpha < 1) (hy : x.pt.y.fn = q.b - q.A *ᵥ x.pt.z.fn)
    (h : r.innerResidual x xbar sigma = .ok r') (hz : r'.norm = 0) (zs ls vs)
    (hk : q.KKT zs ls vs) :
    QP.dist2 x.pt.z.fn x.pt.l.fn x.pt.v.fn zs ls vs +
      QP.dist2 x.pt.z.fn x.pt.l.fn x.pt.v.fn xbar.pt.z.fn xbar.pt.l.fn xbar.pt.v.fn ≤
    QP.dist2 xbar.pt.z.fn xbar.pt.l.fn xbar.pt.v.fn zs ls vs :=
  ((C19_zero I r r' x xbar sigma hd h0 h1 hy h).1 hz).fejer hc hs hk

end
end Fbstab
