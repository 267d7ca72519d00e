import Verif.Proofs.Limits
import Verif.Props.Control
import Verif.Props.Kkt
import Verif.Props.Isolation

/-!
# C51 - C53: warm starts, limits that are not reached, feasibility checks that find nothing
-/

namespace Fbstab

section
variable {K : Type} [Scalar K]

/-! ## C52 -/

/-- C52: iteration limits matter only if they are reached.  A call that did not return MAXITERATIONS, and
took fewer Newton iterations in total than one subproblem may take, returns the same under any limits that
exceed the reported iteration counts. -/
theorem C52_dense (s : FBstabDense K) (qp : DenseProblem K) (x : CallerVar K) (out : SolverOut K)
    (h : (s.solve qp x).result = .ok out) (hf : out.eflag ≠ .maxIterations)
    (hi : (out.newtonIters : Int) < s.options.maxInnerIters) (P N I : Int)
    (hP : (out.proxIters : Int) < P) (hN : (out.newtonIters : Int) < N) (hI : (out.newtonIters : Int) < I) :
    let s' := s.withOptions
      { s.options with maxProxIters := P, maxNewtonIters := N, maxInnerIters := I }
    (s'.solve qp x).result = .ok out ∧ (s'.solve qp x).x = (s.solve qp x).x := by
  intro s'
  obtain ⟨hfit, hy, fin, hc, -, rfl, e⟩ := FBstabDense.returned h
  have h2 := FBstabDense.solve_computes (s := s') (qp := qp) (x := x) hfit
  have e' : s'.core qp x = s.core qp x :=
    Core.solve_limits (E := s.env qp) P N I (ws := s.mem.feas.ws) hc hf hP hi hI hN
  rw [e'] at h2
  obtain ⟨r1, r2, -⟩ := h2.ok fin hc hy
  exact ⟨r1, r2.trans e.symm⟩

/-- C52 for `FBstabMpc`. -/
theorem C52_mpc (h0 : ((0 : K) == 0) = true) (s : FBstabMpc K) (p : MpcProblem K) (x : CallerVar K)
    (out : SolverOut K) (h : (s.solve p x).result = .ok out) (hf : out.eflag ≠ .maxIterations)
    (hi : (out.newtonIters : Int) < s.options.maxInnerIters) (P N I : Int)
    (hP : (out.proxIters : Int) < P) (hN : (out.newtonIters : Int) < N) (hI : (out.newtonIters : Int) < I) :
    let s' := s.withOptions
      { s.options with maxProxIters := P, maxNewtonIters := N, maxInnerIters := I }
    (s'.solve p x).result = .ok out ∧ (s'.solve p x).x = (s.solve p x).x := by
  intro s'
  obtain ⟨hfit, hcol, fin, hc, -, rfl, e⟩ := FBstabMpc.returned h0 h
  have h2 := FBstabMpc.solve_computes h0 (s := s') (p := p) (x := x) hfit hcol
  have e' : s'.core h0 p x = s.core h0 p x :=
    Core.solve_limits (E := s.env h0 p) P N I (ws := s.mem.feas.ws) hc hf hP hi hI hN
  rw [e'] at h2
  obtain ⟨r1, r2, -⟩ := h2.ok fin hc (fun _ => hfit.y)
  exact ⟨r1, r2.trans e.symm⟩

/-! ## C53 -/

/-- C53: checking feasibility, at any tolerance, changes nothing unless infeasibility is reported.  A call
that returned SUCCESS or MAXITERATIONS returns, and prints, the same with the check switched off. -/
theorem C53_dense (s : FBstabDense K) (qp : DenseProblem K) (x : CallerVar K) (out : SolverOut K)
    (h : (s.solve qp x).result = .ok out) (hf : out.eflag = .success ∨ out.eflag = .maxIterations) (c : K) :
    let s' := s.withOptions { s.options with checkFeasibility := false, infeasTol := c }
    (s'.solve qp x).result = .ok out ∧ (s'.solve qp x).x = (s.solve qp x).x ∧
      (s'.solve qp x).log = (s.solve qp x).log := by
  intro s'
  obtain ⟨hfit, hy, fin, hc, -, rfl, e⟩ := FBstabDense.returned h
  have h1 := FBstabDense.solve_computes (s := s) (qp := qp) (x := x) hfit
  have h2 := FBstabDense.solve_computes (s := s') (qp := qp) (x := x) hfit
  have hh : ∀ fin', (s.core qp x).2 = .ok fin' → fin'.out.eflag = .success ∨ fin'.out.eflag = .maxIterations := by
    intro fin' h'
    rw [hc] at h'
    cases h'
    exact hf
  have e' : s'.core qp x = s.core qp x :=
    Core.solve_unchecked (E := s.env qp) (ws := s.mem.feas.ws) hh
  rw [e'] at h2
  obtain ⟨r1, r2, r3⟩ := h2.ok fin hc hy
  obtain ⟨-, -, r4⟩ := h1.ok fin hc hy
  refine ⟨r1, r2.trans e.symm, ?_⟩
  rw [r3, r4, ← Core.render_unchecked s.options c]
  rfl

/-- C53 for `FBstabMpc`. -/
theorem C53_mpc (h0 : ((0 : K) == 0) = true) (s : FBstabMpc K) (p : MpcProblem K) (x : CallerVar K)
    (out : SolverOut K) (h : (s.solve p x).result = .ok out)
    (hf : out.eflag = .success ∨ out.eflag = .maxIterations) (c : K) :
    let s' := s.withOptions { s.options with checkFeasibility := false, infeasTol := c }
    (s'.solve p x).result = .ok out ∧ (s'.solve p x).x = (s.solve p x).x ∧
      (s'.solve p x).log = (s.solve p x).log := by
  intro s'
  obtain ⟨hfit, hcol, fin, hc, -, rfl, e⟩ := FBstabMpc.returned h0 h
  have h1 := FBstabMpc.solve_computes h0 (s := s) (p := p) (x := x) hfit hcol
  have h2 := FBstabMpc.solve_computes h0 (s := s') (p := p) (x := x) hfit hcol
  have hh : ∀ fin', (s.core h0 p x).2 = .ok fin' → fin'.out.eflag = .success ∨ fin'.out.eflag = .maxIterations := by
    intro fin' h'
    rw [hc] at h'
    cases h'
    exact hf
  have e' : s'.core h0 p x = s.core h0 p x :=
    Core.solve_unchecked (E := s.env h0 p) (ws := s.mem.feas.ws) hh
  rw [e'] at h2
  obtain ⟨r1, r2, r3⟩ := h2.ok fin hc (fun _ => hfit.y)
  obtain ⟨-, -, r4⟩ := h1.ok fin hc (fun _ => hfit.y)
  refine ⟨r1, r2.trans e.symm, ?_⟩
  rw [r3, r4, ← Core.render_unchecked s.options c]
  rfl

end

/-! ## C51 -/

theorem CallerVar.guess_ofPoint {nz nl nv : Nat} {q : QP nz nl nv} {ops : QPOps ℝ nz nl nv}
    (I : q.Implements ops) (b : Bool) {x : Point ℝ nz nl nv} (hm : Core.Marg q x) :
    (CallerVar.ofPoint b x).guess ops = x := by
  have hg := CallerVar.guess_margin I (CallerVar.ofPoint b x)
  have ez : ((CallerVar.ofPoint b x).guess ops).z = x.z := DVec.toVec_ofVec x.z
  have el : ((CallerVar.ofPoint b x).guess ops).l = x.l := DVec.toVec_ofVec x.l
  have ev : ((CallerVar.ofPoint b x).guess ops).v = x.v := DVec.toVec_ofVec x.v
  have ey : ((CallerVar.ofPoint b x).guess ops).y = x.y := by
    refine Vec.fn_inj.1 ?_
    rw [hm, hg, ez]
  generalize (CallerVar.ofPoint b x).guess ops = g at ez el ev ey
  cases g
  cases x
  dsimp only at ez el ev ey
  subst ez el ev ey
  rfl

theorem Core.solve_warm {nz nl nv : Nat} {E : Core.Env ℝ nz nl nv} {ws : FeasWs ℝ nz nl nv} {z : Vec ℝ nz}
    {l : Vec ℝ nl} {v : Vec ℝ nv} {x : Point ℝ nz nl nv} (hx : startPt E z l v = x)
    (hm : ¬E.opts.innerTolMax < E.opts.innerTolMin) (hl : 1 ≤ E.opts.maxProxIters)
    (h : residualNorm E.ops E.opts.alpha x ≤ stoppingTol E.ops E.opts) :
    (solve E ws z l v).2 = .ok ⟨⟨.success, residualNorm E.ops E.opts.alpha x, 0, 0,
      residualNorm E.ops E.opts.alpha x⟩, x⟩ := by
  subst hx
  exact solve_good hm hl h

/-- C51, over the reals: warm starting.  If `Solve` returned SUCCESS with a residual within the tolerance,
calling it again on the same object and the same data with the variables it returned gives SUCCESS at once,
with the same residual and no iterations, and leaves the variables as they are. -/
theorem C51_dense (s : FBstabDense ℝ) (hl : 1 ≤ s.options.maxProxIters) (p : DenseProblem ℝ)
    (x : CallerVar ℝ) (out : SolverOut ℝ) (h : (s.solve p x).result = .ok out) (hs : out.eflag = .success)
    (htol : out.residual ≤ stoppingTol (s.problem p) s.options) :
    let r := s.solve p x
    (r.solver.solve p r.x).result = .ok ⟨.success, out.residual, 0, 0, out.residual⟩ ∧
    (r.solver.solve p r.x).x = r.x := by
  intro r
  have h06 := (C06_dense s hl p x out h hs).1
  obtain ⟨hfit, hy, fin, hc, hr, rfl, e⟩ := FBstabDense.returned h
  rw [e, CallerVar.point_ofPoint] at h06
  have hM := hr.margin (s.realEnv p) (CallerVar.guess_margin (s.realEnv p).ops x)
  have er : r.x = .ofPoint x.isMap fin.x := e
  have hm : ¬s.options.innerTolMax < s.options.innerTolMin := by
    obtain ⟨tol, -, -, ht, -⟩ := hr.run
    intro hlt
    rw [show saturate _ (s.env p).opts.innerTolMin (s.env p).opts.innerTolMax = _ from
      if_pos hlt] at ht
    cases ht
  have eg : (CallerVar.ofPoint x.isMap fin.x).guess (s.problem p) = fin.x :=
    CallerVar.guess_ofPoint (s.realEnv p).ops _ hM
  have hfit' : DenseFits s.nz s.nl s.nv p (.ofPoint x.isMap fin.x) :=
    { hfit with z := DVec.size_ofVec _, l := DVec.size_ofVec _, v := DVec.size_ofVec _ }
  have hy' : (CallerVar.ofPoint x.isMap fin.x).YWritable s.nv := fun _ => DVec.size_ofVec _
  have h2 := FBstabDense.solve_computes hfit'
  obtain ⟨c1, c2, -⟩ := h2.ok _ (Core.solve_warm eg hm hl (h06 ▸ htol)) hy'
  rw [← er] at c1 c2
  obtain ⟨d1, d2⟩ := (C10_next_dense (by simp) s p p x r.x).ok _ c1
  have em : r.x.isMap = x.isMap := by rw [er]; rfl
  rw [em] at c2
  exact ⟨d1.trans (by rw [h06]), d2.trans (c2.trans er.symm)⟩

/-- C51 for `FBstabMpc`. -/
theorem C51_mpc (s : FBstabMpc ℝ) (hl : 1 ≤ s.options.maxProxIters) (p : MpcProblem ℝ)
    (x : CallerVar ℝ) (out : SolverOut ℝ) (h : (s.solve p x).result = .ok out) (hs : out.eflag = .success)
    (htol : out.residual ≤ stoppingTol (s.problem p) s.options) :
    let r := s.solve p x
    (r.solver.solve p r.x).result = .ok ⟨.success, out.residual, 0, 0, out.residual⟩ ∧
    (r.solver.solve p r.x).x = r.x := by
  intro r
  have h06 := (C06_mpc real_zero_beq s hl p x out h hs).1
  obtain ⟨hfit, hcol, fin, hc, hr, rfl, e⟩ := FBstabMpc.returned real_zero_beq h
  rw [e, CallerVar.point_ofPoint] at h06
  have hM := hr.margin (s.realEnv p) (CallerVar.guess_margin (s.realEnv p).ops x)
  have er : r.x = .ofPoint x.isMap fin.x := e
  have hm : ¬s.options.innerTolMax < s.options.innerTolMin := by
    obtain ⟨tol, -, -, ht, -⟩ := hr.run
    intro hlt
    rw [show saturate _ (s.env real_zero_beq p).opts.innerTolMin
      (s.env real_zero_beq p).opts.innerTolMax = _ from if_pos hlt] at ht
    cases ht
  have eg : (CallerVar.ofPoint x.isMap fin.x).guess (s.problem p) = fin.x :=
    CallerVar.guess_ofPoint (s.realEnv p).ops _ hM
  have hfit' : MpcFits s.N s.nx s.nu s.nc p (.ofPoint x.isMap fin.x) :=
    { hfit with z := DVec.size_ofVec _, l := DVec.size_ofVec _, v := DVec.size_ofVec _,
                y := DVec.size_ofVec _ }
  have h2 := FBstabMpc.solve_computes real_zero_beq hfit' hcol
  obtain ⟨c1, c2, -⟩ := h2.ok _ (Core.solve_warm eg hm hl (h06 ▸ htol)) (fun _ => DVec.size_ofVec _)
  rw [← er] at c1 c2
  obtain ⟨d1, d2⟩ := (C10_next_mpc real_zero_beq s p p x r.x).ok _ c1
  have em : r.x.isMap = x.isMap := by rw [er]; rfl
  rw [em] at c2
  exact ⟨d1.trans (by rw [h06]), d2.trans (c2.trans er.symm)⟩

end Fbstab
