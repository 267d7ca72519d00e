import Verif.Proofs.Origin
import Verif.Proofs.Runs
import Verif.Props.Limits
import Verif.Props.Method
import Verif.Spec.Rounding

/-!
# C71: the origin of the coordinates does not matter
-/

namespace Fbstab
open Matrix

/-- C71, for the method. -/
theorem C71_method {nz nl nv : Nat} (g : Origin nz nl) {q : QP nz nl nv} {o : Params ℝ} {x : PD nz nl nv}
    {sub : ℝ} {r : Method.Result nz nl nv} (ht : o.relTol = 0 ∨ (g.qp q).forcing = q.forcing)
    (hcf : o.checkFeasibility = false) (h : Method.Run q o x sub r) :
    Method.Run (g.qp q) o (g.point x) sub (g.result r) := by
  refine Method.run_origin g ?_ hcf h
  unfold Method.tolerance
  rcases ht with ht | ht
  · rw [ht, zero_mul, zero_mul]
  · have e : ∀ q : QP nz nl nv, √(q.f ⬝ᵥ q.f + q.h ⬝ᵥ q.h + q.b ⬝ᵥ q.b) = q.forcing := fun _ => rfl
    rw [e, e, ht]

theorem FBstabDense.origin (s : FBstabDense ℝ) (ho : s.options.InRange) (g : Origin s.nz s.nl)
    (p p' : DenseProblem ℝ) (x x' : CallerVar ℝ) (hf : DenseFits s.nz s.nl s.nv p x)
    (hf' : DenseFits s.nz s.nl s.nv p' x') (hy : x.YWritable s.nv) (hy' : x'.YWritable s.nv)
    (hc : (s.qp p).Convex) (hp : s.qp p' = g.qp (s.qp p))
    (ht : s.options.relTol = 0 ∨ (s.qp p').forcing = (s.qp p).forcing)
    (hcf : s.options.checkFeasibility = false)
    (hz : (x'.z.toVec s.nz).fn = (x.z.toVec s.nz).fn + g.z)
    (hl : (x'.l.toVec s.nl).fn = (x.l.toVec s.nl).fn + g.l)
    (hv : (x'.v.toVec s.nv).fn = (x.v.toVec s.nv).fn) :
    (s.solve p' x').log = (s.solve p x).log ∧ (s.solve p' x').result = (s.solve p x).result ∧
    ∀ out, (s.solve p x).result = .ok out →
      (s.returnedPoint p' x').z.fn = (s.returnedPoint p x).z.fn + g.z ∧
      (s.returnedPoint p' x').l.fn = (s.returnedPoint p x).l.fn + g.l ∧
      (s.returnedPoint p' x').v.fn = (s.returnedPoint p x).v.fn ∧
      (s.returnedPoint p' x').y.fn = (s.returnedPoint p x).y.fn := by
  have hc' : (s.qp p').Convex := hp ▸ g.convex _ hc
  obtain ⟨r, h1, h2, h3⟩ := Method.solve_full (s.newtonEnv ho p hc) s.mem.feas.ws (x.z.toVec s.nz)
    (x.l.toVec s.nl) (x.v.toVec s.nv) s.mem.ri.r
  obtain ⟨r', k1, k2, k3⟩ := Method.solve_full (s.newtonEnv ho p' hc') s.mem.feas.ws (x'.z.toVec s.nz)
    (x'.l.toVec s.nl) (x'.v.toVec s.nv) s.mem.ri.r
  have hcm := FBstabDense.solve_computes (s := s) hf
  have hcm' := FBstabDense.solve_computes (s := s) hf'
  have e : r' = g.result r := by
    refine C54_unique hc' (s.newtonEnv ho p' hc').inRange k1 ?_
    rw [hz, hl, hv, hp]
    exact C71_method g (hp ▸ ht) hcf h1
  subst e
  revert h3 k3
  obtain ⟨log, v⟩ := r
  cases v with
  | none =>
    intro h3 k3
    obtain ⟨e1, -, e3⟩ := hcm.error _ h3
    obtain ⟨f1, -, f3⟩ := hcm'.error _ k3
    refine ⟨(f3.trans k2).trans (e3.trans h2).symm, f1.trans e1.symm, fun out h => ?_⟩
    rw [e1] at h; cases h
  | some w =>
    obtain ⟨out, w⟩ := w
    rintro ⟨fin, h3, rfl, rfl, hm⟩ ⟨fin', k3, e4, e5, hm'⟩
    obtain ⟨e1, e2, e3⟩ := hcm.ok fin h3 hy
    obtain ⟨f1, f2, f3⟩ := hcm'.ok fin' k3 hy'
    refine ⟨(f3.trans k2).trans (e3.trans h2).symm, by rw [f1, e1, e4], fun _ _ => ?_⟩
    simp only [FBstabDense.returnedPoint, e2, f2, CallerVar.point_ofPoint]
    refine ⟨(congrArg PD.z e5 :), (congrArg PD.l e5 :), (congrArg PD.v e5 :), ?_⟩
    have hm : fin.2.y.fn = (s.qp p).b - (s.qp p).A *ᵥ fin.2.z.fn := hm
    have hm' : fin'.2.y.fn = (s.qp p').b - (s.qp p').A *ᵥ fin'.2.z.fn := hm'
    have hz' : fin'.2.z.fn = fin.2.z.fn + g.z := congrArg PD.z e5
    rw [hm', hm, hz', hp, Origin.margin]

/-- C71: let `p'` be the problem `p` in coordinates in which the unknowns are larger by `g.z` and the multipliers of the
equations by `g.l`, and let the guess `x'` be `x` in these coordinates.  If the tolerance does not depend on the
coordinates and infeasibility is not checked, then `FBstabDense::Solve` prints the same and returns the same report (or
throws the same exception) for both, and the points it returns are the same, up to the change of coordinates. -/
theorem C71_dense (s : FBstabDense ℝ) (hs : s.Reachable) (g : Origin s.nz s.nl)
    (p p' : DenseProblem ℝ) (x x' : CallerVar ℝ) (hf : DenseFits s.nz s.nl s.nv p x)
    (hf' : DenseFits s.nz s.nl s.nv p' x') (hy : x.YWritable s.nv) (hy' : x'.YWritable s.nv)
    (hc : (s.qp p).Convex) (hp : s.qp p' = g.qp (s.qp p))
    (ht : s.options.relTol = 0 ∨ (s.qp p').forcing = (s.qp p).forcing)
    (hcf : s.options.checkFeasibility = false)
    (hz : (x'.z.toVec s.nz).fn = (x.z.toVec s.nz).fn + g.z)
    (hl : (x'.l.toVec s.nl).fn = (x.l.toVec s.nl).fn + g.l)
    (hv : (x'.v.toVec s.nv).fn = (x.v.toVec s.nv).fn) :
    (s.solve p' x').log = (s.solve p x).log ∧ (s.solve p' x').result = (s.solve p x).result ∧
    ∀ out, (s.solve p x).result = .ok out →
      (s.returnedPoint p' x').z.fn = (s.returnedPoint p x).z.fn + g.z ∧
      (s.returnedPoint p' x').l.fn = (s.returnedPoint p x).l.fn + g.l ∧
      (s.returnedPoint p' x').v.fn = (s.returnedPoint p x).v.fn ∧
      (s.returnedPoint p' x').y.fn = (s.returnedPoint p x).y.fn :=
  s.origin (C01_reachable_dense s hs) g p p' x x' hf hf' hy hy' hc hp ht hcf hz hl hv

/-- C71 with infeasibility checks (which compare `f'dz`, `b'dv + h'dl` with zero, so depend on the origin): the same holds
if both calls return and neither reports infeasibility. -/
theorem C71_checked_dense (s : FBstabDense ℝ) (hs : s.Reachable) (g : Origin s.nz s.nl)
    (p p' : DenseProblem ℝ) (x x' : CallerVar ℝ)
    (hc : (s.qp p).Convex) (hp : s.qp p' = g.qp (s.qp p))
    (ht : s.options.relTol = 0 ∨ (s.qp p').forcing = (s.qp p).forcing)
    (hz : (x'.z.toVec s.nz).fn = (x.z.toVec s.nz).fn + g.z)
    (hl : (x'.l.toVec s.nl).fn = (x.l.toVec s.nl).fn + g.l)
    (hv : (x'.v.toVec s.nv).fn = (x.v.toVec s.nv).fn) (out out' : SolverOut ℝ)
    (h : (s.solve p x).result = .ok out) (h' : (s.solve p' x').result = .ok out')
    (hi : out.eflag = .success ∨ out.eflag = .maxIterations)
    (hi' : out'.eflag = .success ∨ out'.eflag = .maxIterations) :
    (s.solve p' x').log = (s.solve p x).log ∧ out' = out ∧
    (s.returnedPoint p' x').z.fn = (s.returnedPoint p x).z.fn + g.z ∧
    (s.returnedPoint p' x').l.fn = (s.returnedPoint p x).l.fn + g.l ∧
    (s.returnedPoint p' x').v.fn = (s.returnedPoint p x).v.fn ∧
    (s.returnedPoint p' x').y.fn = (s.returnedPoint p x).y.fn := by
  obtain ⟨hf, hy, -⟩ := FBstabDense.returned h
  obtain ⟨hf', hy', -⟩ := FBstabDense.returned h'
  obtain ⟨a1, a2, a3⟩ := C53_dense s p x out h hi s.options.infeasTol
  obtain ⟨b1, b2, b3⟩ := C53_dense s p' x' out' h' hi' s.options.infeasTol
  have ho := C01_reachable_dense s hs
  have ho' : ({ s.options with checkFeasibility := false, infeasTol := s.options.infeasTol } : Params ℝ).InRange :=
    ⟨ho.sigmaMax, ho.sigmaMin, ho.sigma0, ho.sigma0_pos, ho.alpha, ho.beta, ho.eta, ho.delta, ho.gamma, ho.absTol,
      ho.relTol, ho.stallTol, ho.infeasTol, ho.innerTolMax, ho.innerTolMin, ho.maxNewtonIters, ho.maxProxIters,
      ho.maxInnerIters, ho.maxLinesearchIters⟩
  obtain ⟨c1, c2, c3⟩ := FBstabDense.origin
    (s.withOptions { s.options with checkFeasibility := false, infeasTol := s.options.infeasTol }) ho' g p p' x x' hf
    hf' hy hy' hc hp ht rfl hz hl hv
  obtain ⟨d1, d2, d3, d4⟩ := c3 out a1
  simp only [FBstabDense.returnedPoint] at d1 d2 d3 d4 ⊢
  rw [a2, b2] at d1 d2 d3 d4
  refine ⟨b3.symm.trans (c1.trans a3), ?_, d1, d2, d3, d4⟩
  have := b1.symm.trans (c2.trans a1)
  injection this

theorem FBstabMpc.origin (s : FBstabMpc ℝ) (ho : s.options.InRange) (g : StageOrigin s.N s.nx s.nu)
    (p p' : MpcProblem ℝ) (x x' : CallerVar ℝ) (hf : MpcFits s.N s.nx s.nu s.nc p x)
    (hf' : MpcFits s.N s.nx s.nu s.nc p' x') (hcol : p.Columns) (hcol' : p'.Columns)
    (hc : (s.ocp p).Convex) (hp : s.ocp p' = g.ocp (s.ocp p))
    (ht : s.options.relTol = 0 ∨ (s.qp p').forcing = (s.qp p).forcing)
    (hcf : s.options.checkFeasibility = false)
    (hz : (x'.z.toVec _).fn = (x.z.toVec _).fn + g.stacked.z)
    (hl : (x'.l.toVec _).fn = (x.l.toVec _).fn + g.stacked.l)
    (hv : (x'.v.toVec ((s.N + 1) * s.nc)).fn = (x.v.toVec _).fn) :
    (s.solve p' x').log = (s.solve p x).log ∧ (s.solve p' x').result = (s.solve p x).result ∧
    ∀ out, (s.solve p x).result = .ok out →
      (∀ i, Ocp.states (s.returnedPoint p' x').z.fn i = Ocp.states (s.returnedPoint p x).z.fn i + g.x i) ∧
      (∀ i, Ocp.controls (s.returnedPoint p' x').z.fn i = Ocp.controls (s.returnedPoint p x).z.fn i + g.u i) ∧
      (s.returnedPoint p' x').l.fn = (s.returnedPoint p x).l.fn + g.stacked.l ∧
      (s.returnedPoint p' x').v.fn = (s.returnedPoint p x).v.fn ∧
      (s.returnedPoint p' x').y.fn = (s.returnedPoint p x).y.fn := by
  have hq : s.qp p' = g.stacked.qp (s.qp p) := by
    rw [FBstabMpc.qp, FBstabMpc.qp, hp, g.toQP]
  have hc' : (s.ocp p').Convex := hp ▸ g.convex hc
  obtain ⟨r, h1, h2, h3⟩ := Method.solve_full (s.newtonEnv ho p hc) s.mem.feas.ws (x.z.toVec _)
    (x.l.toVec _) (x.v.toVec _) s.mem.ri.r
  obtain ⟨r', k1, k2, k3⟩ := Method.solve_full (s.newtonEnv ho p' hc') s.mem.feas.ws (x'.z.toVec _)
    (x'.l.toVec _) (x'.v.toVec _) s.mem.ri.r
  have hcm := FBstabMpc.solve_computes real_zero_beq (s := s) hf hcol
  have hcm' := FBstabMpc.solve_computes real_zero_beq (s := s) hf' hcol'
  have e : r' = g.stacked.result r := by
    refine C54_unique (s.newtonEnv ho p' hc').convex (s.newtonEnv ho p' hc').inRange k1 ?_
    rw [hz, hl, hv, hq]
    exact C71_method g.stacked (hq ▸ ht) hcf h1
  subst e
  revert h3 k3
  obtain ⟨log, v⟩ := r
  cases v with
  | none =>
    intro h3 k3
    obtain ⟨e1, -, e3⟩ := hcm.error _ h3
    obtain ⟨f1, -, f3⟩ := hcm'.error _ k3
    refine ⟨(f3.trans k2).trans (e3.trans h2).symm, f1.trans e1.symm, fun out h => ?_⟩
    rw [e1] at h; cases h
  | some w =>
    obtain ⟨out, w⟩ := w
    rintro ⟨fin, h3, rfl, rfl, hm⟩ ⟨fin', k3, e4, e5, hm'⟩
    obtain ⟨e1, e2, e3⟩ := hcm.ok fin h3 (fun _ => hf.y)
    obtain ⟨f1, f2, f3⟩ := hcm'.ok fin' k3 (fun _ => hf'.y)
    refine ⟨(f3.trans k2).trans (e3.trans h2).symm, by rw [f1, e1, e4], fun _ _ => ?_⟩
    have hm : fin.2.y.fn = (s.qp p).b - (s.qp p).A *ᵥ fin.2.z.fn := hm
    have hm' : fin'.2.y.fn = (s.qp p').b - (s.qp p').A *ᵥ fin'.2.z.fn := hm'
    have hz' : fin'.2.z.fn = fin.2.z.fn + g.stacked.z := congrArg PD.z e5
    simp only [FBstabMpc.returnedPoint, e2, f2, CallerVar.point_ofPoint]
    refine ⟨fun i => ?_, fun i => ?_, (congrArg PD.l e5 :), (congrArg PD.v e5 :), ?_⟩
    · rw [hz', ← g.states_z]; rfl
    · rw [hz', ← g.controls_z]; rfl
    · rw [hm', hm, hz', hq, Origin.margin]

/-- C71 for `FBstabMpc`: let `p'` be the optimal control problem `p` in coordinates in which the states are larger by
`g.x`, the controls by `g.u` and the multipliers of the dynamics by `g.l`, stage by stage. -/
theorem C71_mpc (s : FBstabMpc ℝ) (hs : s.Reachable) (g : StageOrigin s.N s.nx s.nu)
    (p p' : MpcProblem ℝ) (x x' : CallerVar ℝ) (hf : MpcFits s.N s.nx s.nu s.nc p x)
    (hf' : MpcFits s.N s.nx s.nu s.nc p' x') (hcol : p.Columns) (hcol' : p'.Columns)
    (hc : (s.ocp p).Convex) (hp : s.ocp p' = g.ocp (s.ocp p))
    (ht : s.options.relTol = 0 ∨ (s.qp p').forcing = (s.qp p).forcing)
    (hcf : s.options.checkFeasibility = false)
    (hz : (x'.z.toVec _).fn = (x.z.toVec _).fn + g.stacked.z)
    (hl : (x'.l.toVec _).fn = (x.l.toVec _).fn + g.stacked.l)
    (hv : (x'.v.toVec ((s.N + 1) * s.nc)).fn = (x.v.toVec _).fn) :
    (s.solve p' x').log = (s.solve p x).log ∧ (s.solve p' x').result = (s.solve p x).result ∧
    ∀ out, (s.solve p x).result = .ok out →
      (∀ i, Ocp.states (s.returnedPoint p' x').z.fn i = Ocp.states (s.returnedPoint p x).z.fn i + g.x i) ∧
      (∀ i, Ocp.controls (s.returnedPoint p' x').z.fn i = Ocp.controls (s.returnedPoint p x).z.fn i + g.u i) ∧
      (s.returnedPoint p' x').l.fn = (s.returnedPoint p x).l.fn + g.stacked.l ∧
      (s.returnedPoint p' x').v.fn = (s.returnedPoint p x).v.fn ∧
      (s.returnedPoint p' x').y.fn = (s.returnedPoint p x).y.fn :=
  s.origin (C01_reachable_mpc s hs) g p p' x x' hf hf' hcol hcol' hc hp ht hcf hz hl hv

/-- C71 for `FBstabMpc`, with infeasibility checks. -/
theorem C71_checked_mpc (s : FBstabMpc ℝ) (hs : s.Reachable) (g : StageOrigin s.N s.nx s.nu)
    (p p' : MpcProblem ℝ) (x x' : CallerVar ℝ)
    (hc : (s.ocp p).Convex) (hp : s.ocp p' = g.ocp (s.ocp p))
    (ht : s.options.relTol = 0 ∨ (s.qp p').forcing = (s.qp p).forcing)
    (hz : (x'.z.toVec _).fn = (x.z.toVec _).fn + g.stacked.z)
    (hl : (x'.l.toVec _).fn = (x.l.toVec _).fn + g.stacked.l)
    (hv : (x'.v.toVec ((s.N + 1) * s.nc)).fn = (x.v.toVec _).fn) (out out' : SolverOut ℝ)
    (h : (s.solve p x).result = .ok out) (h' : (s.solve p' x').result = .ok out')
    (hi : out.eflag = .success ∨ out.eflag = .maxIterations)
    (hi' : out'.eflag = .success ∨ out'.eflag = .maxIterations) :
    (s.solve p' x').log = (s.solve p x).log ∧ out' = out ∧
    (∀ i, Ocp.states (s.returnedPoint p' x').z.fn i = Ocp.states (s.returnedPoint p x).z.fn i + g.x i) ∧
    (∀ i, Ocp.controls (s.returnedPoint p' x').z.fn i = Ocp.controls (s.returnedPoint p x).z.fn i + g.u i) ∧
    (s.returnedPoint p' x').l.fn = (s.returnedPoint p x).l.fn + g.stacked.l ∧
    (s.returnedPoint p' x').v.fn = (s.returnedPoint p x).v.fn ∧
    (s.returnedPoint p' x').y.fn = (s.returnedPoint p x).y.fn := by
  obtain ⟨hf, hcol, -⟩ := FBstabMpc.returned real_zero_beq h
  obtain ⟨hf', hcol', -⟩ := FBstabMpc.returned real_zero_beq h'
  obtain ⟨a1, a2, a3⟩ := C53_mpc real_zero_beq s p x out h hi s.options.infeasTol
  obtain ⟨b1, b2, b3⟩ := C53_mpc real_zero_beq s p' x' out' h' hi' s.options.infeasTol
  have ho := C01_reachable_mpc s hs
  have ho' : ({ s.options with checkFeasibility := false, infeasTol := s.options.infeasTol } : Params ℝ).InRange :=
    ⟨ho.sigmaMax, ho.sigmaMin, ho.sigma0, ho.sigma0_pos, ho.alpha, ho.beta, ho.eta, ho.delta, ho.gamma, ho.absTol,
      ho.relTol, ho.stallTol, ho.infeasTol, ho.innerTolMax, ho.innerTolMin, ho.maxNewtonIters, ho.maxProxIters,
      ho.maxInnerIters, ho.maxLinesearchIters⟩
  obtain ⟨c1, c2, c3⟩ := FBstabMpc.origin
    (s.withOptions { s.options with checkFeasibility := false, infeasTol := s.options.infeasTol }) ho' g p p' x x' hf
    hf' hcol hcol' hc hp ht rfl hz hl hv
  obtain ⟨d1, d2, d3, d4, d5⟩ := c3 out a1
  simp only [FBstabMpc.returnedPoint] at d1 d2 d3 d4 d5 ⊢
  rw [a2, b2] at d3 d4 d5
  simp only [a2, b2] at d1 d2
  refine ⟨b3.symm.trans (c1.trans a3), ?_, d1, d2, d3, d4, d5⟩
  have := b1.symm.trans (c2.trans a1)
  injection this

/-! ### Concrete cases -/

/-- C71_dense: a problem and a guess from which one proximal iteration is necessary, moved by 7. -/
example (junk : DenseJunk ℝ) (d : Display) :
    let s := runSolver junk false d
    let g : Origin 1 0 := ⟨fun _ => 7, 0⟩
    let x' : CallerVar ℝ := guessOf (nz := 1) (nl := 0) (nv := 1) (fun _ => 7 - 1e-4) 0 0
    ∃ out, (s.solve (g.qp halfQP).toDense x').result = .ok out ∧ out.eflag = .success ∧ out.proxIters = 1 ∧
      (s.returnedPoint (g.qp halfQP).toDense x').z.fn (0 : Fin 1) =
        (s.returnedPoint halfQP.toDense runGuess).z.fn (0 : Fin 1) + 7 := by
  intro s g x'
  obtain ⟨out, h1, h2, h3, -⟩ := run_dense junk false d
  obtain ⟨g1, g2, g3⟩ := guessOf_point (nz := 1) (nl := 0) (nv := 1) (fun _ => -1e-4) 0 0
  obtain ⟨g1', g2', g3'⟩ := guessOf_point (nz := 1) (nl := 0) (nv := 1) (fun _ => 7 - 1e-4) 0 0
  have hq : s.qp halfQP.toDense = halfQP := runSolver_qp junk false d
  have hq' : s.qp (g.qp halfQP).toDense = g.qp halfQP := FBstabDense.made_qp junk _ _
  obtain ⟨-, k2, k3⟩ := C71_dense s (runSolver_reachable junk false d) g halfQP.toDense (g.qp halfQP).toDense
    runGuess x' (halfQP.toDense_fits _ _ _) ((g.qp halfQP).toDense_fits _ _ _) (guessOf_writable _ _ _ _)
    (guessOf_writable _ _ _ _) (hq ▸ halfQP_convex) (hq'.trans (congrArg g.qp hq).symm) (.inl rfl) rfl
    (by
      refine g1'.trans ((?_ : _ = (fun _ => -1e-4 : Fin 1 → ℝ) + g.z).trans (congrArg (· + g.z) g1.symm))
      funext i
      show (7 - 1e-4 : ℝ) = -1e-4 + 7
      norm_num)
    (by
      refine g2'.trans ((?_ : _ = (0 : Fin 0 → ℝ) + g.l).trans (congrArg (· + g.l) g2.symm))
      exact Subsingleton.elim _ _)
    (g3'.trans g3.symm)
  exact ⟨out, k2.trans h1, h2, h3, congrFun (k3 out h1).1 (0 : Fin 1)⟩

/-- The hypotheses are met for every convex optimal control problem, every new origin and every guess. -/
example (junk : MpcJunk ℝ) {N nx nu nc : Nat} (o : Params ℝ) (hN : 0 < N)
    (hx : 0 < nx) (hu : 0 < nu) (hc : 0 < nc) (h1 : (nx + nu) * (N + 1) < intLimit)
    (h2 : nc * (N + 1) < intLimit) (ho : o.InRange) (hr : o.relTol = 0) (hcf : o.checkFeasibility = false)
    (g : StageOrigin N nx nu) (p : Ocp N nx nu nc) (hp : p.Convex) (z l)
    (v : Fin ((N + 1) * nc) → ℝ) :
    let s := FBstabMpc.made junk N nx nu nc o
    (s.solve (g.ocp p).toMpc (fullGuessOf (z + g.stacked.z) (l + g.stacked.l) v)).result =
      (s.solve p.toMpc (fullGuessOf z l v)).result := by
  intro s
  obtain ⟨g1, g2, g3⟩ := fullGuessOf_point z l v
  obtain ⟨g1', g2', g3'⟩ := fullGuessOf_point (z + g.stacked.z) (l + g.stacked.l) v
  have hq : s.ocp p.toMpc = p := FBstabMpc.made_ocp junk _ _
  have hq' : s.ocp (g.ocp p).toMpc = g.ocp p := FBstabMpc.made_ocp junk _ _
  exact (C71_mpc s (FBstabMpc.made_reachable junk o hN hx hu hc h1 h2 ho) g p.toMpc (g.ocp p).toMpc
    _ _ (p.toMpc_fits _ _ _) ((g.ocp p).toMpc_fits _ _ _) p.toMpc_columns (g.ocp p).toMpc_columns (by rw [hq]; exact hp)
    (by rw [hq, hq']; rfl) (.inl hr) hcf (g1'.trans (congrArg (· + g.stacked.z) g1.symm))
    (g2'.trans (congrArg (· + g.stacked.l) g2.symm)) (g3'.trans g3.symm)).2.1

theorem Origin.kkt {nz nl nv : Nat} (g : Origin nz nl) {q : QP nz nl nv} {z l v} (h : q.KKT z l v) :
    (g.qp q).KKT (z + g.z) (l + g.l) v := by
  have hm := fun i => congrFun (g.margin q z) i
  have hd := g.defect q z
  simp only [Pi.sub_apply] at hm
  refine ⟨(g.gradient q z l v).trans h.stationary, ⟨?_, fun i => ?_⟩, h.dual, fun i => ?_⟩
  · rw [h.feasible.eq, sub_self] at hd
    exact (sub_eq_zero.1 hd).symm
  · have := h.feasible.ineq i
    linarith [hm i]
  · rcases h.complementary i with h | h
    · exact .inl h
    · exact .inr (by linarith [hm i])

theorem FBstabDense.at_solution (s : FBstabDense ℝ) (hs : s.Reachable) (p : DenseProblem ℝ) (x : CallerVar ℝ)
    (hf : DenseFits s.nz s.nl s.nv p x) (hy : x.YWritable s.nv)
    (hm : ¬s.options.innerTolMax < s.options.innerTolMin)
    (h : (s.qp p).KKT (x.z.toVec s.nz).fn (x.l.toVec s.nl).fn (x.v.toVec s.nv).fn) :
    ∃ out, (s.solve p x).result = .ok out ∧ out.eflag = .success := by
  have ho := C01_reachable_dense s hs
  have hr := (C16_dense s hs p (x.guess (s.problem p)) (CallerVar.guess_margin (s.realEnv p).ops x)).2 h
  have ht := absTol_le_stoppingTol (s.realEnv p).ops ho
  have ha := ho.absTol
  refine ⟨_, (C12_dense s p x ho.maxProxIters hm hf hy ?_).1, rfl⟩
  rw [hr]
  refine le_trans ?_ ht
  norm_num at ha
  linarith

/-- C71_checked_dense: with feasibility checks, every convex problem and every new origin, at a solution. -/
example (junk : DenseJunk ℝ) {nz nl nv : Nat} (o : Params ℝ) (h0 : 0 < nz) (h1 : 0 < nv) (h2 : nz + nl < intLimit)
    (ho : o.InRange) (hr : o.relTol = 0) (hm : ¬o.innerTolMax < o.innerTolMin)
    (g : Origin nz nl) (q : QP nz nl nv) (hc : q.Convex) (z l v) (hk : q.KKT z l v) :
    let s := FBstabDense.made junk nz nl nv o
    (s.solve (g.qp q).toDense (guessOf (z + g.z) (l + g.l) v)).log = (s.solve q.toDense (guessOf z l v)).log := by
  intro s
  obtain ⟨g1, g2, g3⟩ := guessOf_point z l v
  obtain ⟨g1', g2', g3'⟩ := guessOf_point (z + g.z) (l + g.l) v
  have hq : s.qp q.toDense = q := FBstabDense.made_qp junk _ _
  have hq' : s.qp (g.qp q).toDense = g.qp q := FBstabDense.made_qp junk _ _
  have hs : s.Reachable := FBstabDense.made_reachable junk o h0 h1 h2 ho
  obtain ⟨out, a1, a2⟩ := s.at_solution hs q.toDense (guessOf z l v) (q.toDense_fits _ _ _)
    (guessOf_writable _ _ _ _) hm (by
      show (s.qp q.toDense).KKT _ _ _
      have : (s.qp q.toDense).KKT z l v := by rw [hq]; exact hk
      rw [← g1, ← g2, ← g3] at this
      exact this)
  obtain ⟨out', b1, b2⟩ := s.at_solution hs (g.qp q).toDense (guessOf (z + g.z) (l + g.l) v)
    ((g.qp q).toDense_fits _ _ _) (guessOf_writable _ _ _ _) hm (by
      have : (s.qp (g.qp q).toDense).KKT (z + g.z) (l + g.l) v := by rw [hq']; exact g.kkt hk
      rw [← g1', ← g2', ← g3'] at this
      exact this)
  exact (C71_checked_dense s hs g q.toDense (g.qp q).toDense _ _ (by rw [hq]; exact hc)
    (hq'.trans (congrArg g.qp hq).symm) (.inl hr) (g1'.trans (congrArg (· + g.z) g1.symm))
    (g2'.trans (congrArg (· + g.l) g2.symm)) (g3'.trans g3.symm) out out' a1 b1 (.inl a2) (.inl b2)).1

end Fbstab
