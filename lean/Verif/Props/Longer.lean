import Verif.Proofs.Longer
import Verif.Props.Tolerance

/-!
# C74: larger iteration limits only continue the run
-/

namespace Fbstab

section
variable {K : Type} [Scalar K]

/-- What `Solve` did with the limits of `o` (result `r`, variables `x`, output `log`) and what it did with larger
ones (`r'`, `x'`, `log'`): the same, or the former returned MAXITERATIONS. -/
theorem Computes.limited {nz nl nv : Nat} {E : Core.Env K nz nl nv} {P N : Int} {ws : FeasWs K nz nl nv}
    {ri : Resid K nz nl nv} {z : Vec K nz} {l : Vec K nl} {v : Vec K nv} {x xa xa' : CallerVar K}
    {log log' : List (Msg K)} {r r' : Except Err (SolverOut K)}
    (hc : Computes E.ops E.opts ri (Core.solve E ws z l v) x xa log r)
    (hc' : Computes E.ops (E.opts.limited P N) ri (Core.solve (E.limited P N) ws z l v) x xa' log' r')
    (hy : x.YWritable nv) (hP : E.opts.maxProxIters ≤ P) (hN : E.opts.maxNewtonIters ≤ N) :
    let tol := stoppingTol E.ops E.opts
    (r' = r ∧ xa' = xa ∧ (∀ e, r = .error e → log' = log) ∧
      ∀ out, r = .ok out → ∃ lines rz rl rv, log = lines ++ summaryAt E.opts out rz rl rv tol ∧
        log' = lines ++ summaryAt (E.opts.limited P N) out rz rl rv tol) ∨
    (∃ out, r = .ok out ∧ out.eflag = .maxIterations ∧
      (∀ out', r' = .ok out' → out.proxIters ≤ out'.proxIters ∧ out.newtonIters ≤ out'.newtonIters ∧
        out.initialResidual = out'.initialResidual) ∧
      ∃ lines rz rl rv, log = lines ++ summaryAt E.opts out rz rl rv tol ∧ lines <+: log') := by
  intro tol
  have hsum := Core.solve_summary E ws z l v
  have hinit : ∀ fin, (Core.solve E ws z l v).2 = .ok fin → fin.out.initialResidual =
      Core.Resid.norm (E.penRes (Core.startPt E z l v)) := fun fin h => (Core.solve_returned h).initialResidual
  have hinit' : ∀ fin, (Core.solve (E.limited P N) ws z l v).2 = .ok fin → fin.out.initialResidual =
      Core.Resid.norm (E.penRes (Core.startPt E z l v)) := fun fin h => (Core.solve_returned h).initialResidual
  rcases Core.solve_longer E P N (ws := ws) (z := z) (l := l) (v := v) hP hN with
    h | ⟨fin, pre, rk, h1, h2, h3, h4, h5, h6⟩
  · left
    rw [h] at hc'
    generalize Core.solve E ws z l v = p at hc hc' hsum
    obtain ⟨es, q⟩ := p
    cases q with
    | error e =>
      obtain ⟨c1, c2, c3⟩ := hc.error e rfl
      obtain ⟨d1, d2, d3⟩ := hc'.error e rfl
      refine ⟨d1.trans c1.symm, d2.trans c2.symm, fun _ _ => ?_, fun out h => by rw [c1] at h; cases h⟩
      rw [d3, c3]
      exact Core.render_tolerant (o := E.opts) (o' := E.opts.limited P N) rfl _ _ hsum _
    | ok fin =>
      obtain ⟨c1, c2, c3⟩ := hc.ok fin rfl hy
      obtain ⟨d1, d2, d3⟩ := hc'.ok fin rfl hy
      refine ⟨d1.trans c1.symm, d2.trans c2.symm, fun e h => (by rw [c1] at h; cases h), fun out h => ?_⟩
      rw [c1] at h
      cases h
      obtain ⟨pre, rk, e1, e2, -⟩ := hsum
      dsimp only at e1 c3 d3
      rw [e1, Core.render_summaryAt] at c3 d3
      rw [Core.render_tolerant (o := E.opts) (o' := E.opts.limited P N) rfl tol _ e2] at d3
      exact ⟨_, _, _, _, c3, d3⟩
  · right
    obtain ⟨c1, -, c3⟩ := hc.ok _ h1 hy
    rw [h5, Core.render_summaryAt] at c3
    refine ⟨_, c1, h2, fun out' h => ?_, _, _, _, _, c3, ?_⟩
    · cases hp : (Core.solve (E.limited P N) ws z l v).2 with
      | error e => rw [(hc'.error e hp).1] at h; cases h
      | ok fin' =>
        rw [(hc'.ok fin' hp hy).1] at h
        cases h
        exact ⟨(h6 fin' hp).1, (h6 fin' hp).2, (hinit fin h1).trans (hinit' fin' hp).symm⟩
    · have hlog : log' = Core.render (E.opts.limited P N) (stoppingTol E.ops (E.opts.limited P N)) ri
          (Core.solve (E.limited P N) ws z l v).1 := by
        cases hp : (Core.solve (E.limited P N) ws z l v).2 with
        | error e => exact (hc'.error e hp).2.2
        | ok fin => exact (hc'.ok fin hp hy).2.2
      obtain ⟨w, hw⟩ := h4
      rw [hlog, ← hw, Core.render_append,
        Core.render_tolerant (o := E.opts) (o' := E.opts.limited P N) rfl (stoppingTol E.ops E.opts) _ h3]
      exact ⟨_, rfl⟩

/-- C74: larger `max_prox_iters` and `max_newton_iters` only continue the run.  Let `s'` have the options of `s` but for
these limits, which are larger.  Then `s'` does exactly what `s` does (the limits that are printed in the summary
apart), or `s` returns MAXITERATIONS, after not more iterations than `s'`, and what `s` prints before the summary is an
initial part of what `s'` prints. -/
theorem C74_dense (s : FBstabDense K) (p : DenseProblem K) (x : CallerVar K) (P N : Int)
    (hf : DenseFits s.nz s.nl s.nv p x) (hy : x.YWritable s.nv) (hP : s.options.maxProxIters ≤ P)
    (hN : s.options.maxNewtonIters ≤ N) :
    let s' := s.withOptions (s.options.limited P N)
    let tol := stoppingTol (s.problem p) s.options
    ((s'.solve p x).result = (s.solve p x).result ∧ (s'.solve p x).x = (s.solve p x).x ∧
      (∀ e, (s.solve p x).result = .error e → (s'.solve p x).log = (s.solve p x).log) ∧
      ∀ out, (s.solve p x).result = .ok out → ∃ lines rz rl rv,
        (s.solve p x).log = lines ++ summaryAt s.options out rz rl rv tol ∧
        (s'.solve p x).log = lines ++ summaryAt s'.options out rz rl rv tol) ∨
    (∃ out, (s.solve p x).result = .ok out ∧ out.eflag = .maxIterations ∧
      (∀ out', (s'.solve p x).result = .ok out' → out.proxIters ≤ out'.proxIters ∧
        out.newtonIters ≤ out'.newtonIters ∧ out.initialResidual = out'.initialResidual) ∧
      ∃ lines rz rl rv, (s.solve p x).log = lines ++ summaryAt s.options out rz rl rv tol ∧
        lines <+: (s'.solve p x).log) := by
  intro s' tol
  have h1 := FBstabDense.solve_computes (s := s) (qp := p) (x := x) hf
  have h2 := FBstabDense.solve_computes (s := s') (qp := p) (x := x) hf
  exact Computes.limited (E := s.env p) (ri := s.mem.ri.r) h1 h2 hy hP hN

/-- C74 for `FBstabMpc`. -/
theorem C74_mpc (h0 : ((0 : K) == 0) = true) (s : FBstabMpc K) (p : MpcProblem K) (x : CallerVar K) (P N : Int)
    (hf : MpcFits s.N s.nx s.nu s.nc p x) (hcol : p.Columns) (hP : s.options.maxProxIters ≤ P)
    (hN : s.options.maxNewtonIters ≤ N) :
    let s' := s.withOptions (s.options.limited P N)
    let tol := stoppingTol (s.problem p) s.options
    ((s'.solve p x).result = (s.solve p x).result ∧ (s'.solve p x).x = (s.solve p x).x ∧
      (∀ e, (s.solve p x).result = .error e → (s'.solve p x).log = (s.solve p x).log) ∧
      ∀ out, (s.solve p x).result = .ok out → ∃ lines rz rl rv,
        (s.solve p x).log = lines ++ summaryAt s.options out rz rl rv tol ∧
        (s'.solve p x).log = lines ++ summaryAt s'.options out rz rl rv tol) ∨
    (∃ out, (s.solve p x).result = .ok out ∧ out.eflag = .maxIterations ∧
      (∀ out', (s'.solve p x).result = .ok out' → out.proxIters ≤ out'.proxIters ∧
        out.newtonIters ≤ out'.newtonIters ∧ out.initialResidual = out'.initialResidual) ∧
      ∃ lines rz rl rv, (s.solve p x).log = lines ++ summaryAt s.options out rz rl rv tol ∧
        lines <+: (s'.solve p x).log) := by
  intro s' tol
  have h1 := FBstabMpc.solve_computes h0 (s := s) (p := p) (x := x) hf hcol
  have h2 := FBstabMpc.solve_computes h0 (s := s') (p := p) (x := x) hf hcol
  exact Computes.limited (E := s.env h0 p) (ri := s.mem.ri.r) h1 h2 (fun _ => hf.y) hP hN

end

section examples
variable (c : Bool) (d : Display)

/-- C74: with fewer iterations the run of one proximal iteration returns SUCCESS as well, or MAXITERATIONS. -/
example (junk : DenseJunk ℝ) (P N : Int) (hP : P ≤ 2) (hN : N ≤ 200000) :
    let s := (runSolver junk c d).withOptions ((runSolver junk c d).options.limited P N)
    ∃ out, (s.solve halfQP.toDense runGuess).result = .ok out ∧ out.proxIters ≤ 1 ∧
      (out.eflag = .success ∨ out.eflag = .maxIterations) := by
  intro s
  obtain ⟨out, h1, h2, h3, -⟩ := run_dense junk c d
  obtain ⟨hf, hy, -⟩ := FBstabDense.returned h1
  have h1' : ((s.withOptions (s.options.limited 2 200000)).solve halfQP.toDense runGuess).result = .ok out := h1
  rcases C74_dense s halfQP.toDense runGuess 2 200000 hf hy hP hN with ⟨e, -⟩ | ⟨out', e1, e2, e3, -⟩
  · exact ⟨out, e.symm.trans h1', h3.le, .inl h2⟩
  · exact ⟨out', e1, h3 ▸ (e3 out h1').1, .inr e2⟩

/-- C74: both alternatives occur: with one iteration less the run returns MAXITERATIONS. -/
example (junk : DenseJunk ℝ) :
    let s := (runSolver junk c d).withOptions ((runSolver junk c d).options.limited 1 200000)
    ∃ out, (s.solve halfQP.toDense runGuess).result = .ok out ∧ out.proxIters ≤ 1 ∧ out.eflag = .maxIterations := by
  intro s
  obtain ⟨out, h1, h2, h3, -⟩ := run_dense junk c d
  obtain ⟨hf, hy, -⟩ := FBstabDense.returned h1
  have h1' : ((s.withOptions (s.options.limited 2 200000)).solve halfQP.toDense runGuess).result = .ok out := h1
  rcases C74_dense s halfQP.toDense runGuess 2 200000 hf hy (by show (1 : Int) ≤ 2; norm_num) le_rfl with
    ⟨e, -⟩ | ⟨out', e1, e2, e3, -⟩
  · exfalso
    obtain ⟨-, -, fin, -, hr, rfl, -⟩ := FBstabDense.returned (e.symm.trans h1')
    obtain ⟨tol, k, s0, -, hs, h⟩ := hr.run
    have hp : s0.prox = 0 + k := hs.prox
    rcases h with ⟨hk, h⟩ | ⟨-, rfl⟩
    · have hk : k < 1 := hk
      cases h with
      | success _ => have h3 : s0.prox = 1 := h3; omega
      | newton hi _ _ _ => cases h2
      | infeasible hi _ _ _ => have h3 : s0.prox = 1 := h3; omega
    · cases h2
  · exact ⟨out', e1, h3 ▸ (e3 out h1').1, e2⟩

/-- C74 for `FBstabMpc`. -/
example (junk : MpcJunk ℝ) (P N : Int) (hP : P ≤ 2) (hN : N ≤ 500000) :
    let s := (runSolverMpc junk c d).withOptions ((runSolverMpc junk c d).options.limited P N)
    ∃ out, (s.solve cornerOcp.toMpc runGuessMpc).result = .ok out ∧ out.proxIters ≤ 1 ∧
      (out.eflag = .success ∨ out.eflag = .maxIterations) := by
  intro s
  obtain ⟨out, h1, h2, h3, -⟩ := run_mpc junk c d
  obtain ⟨hf, hcol, -⟩ := FBstabMpc.returned real_zero_beq h1
  have h1' : ((s.withOptions (s.options.limited 2 500000)).solve cornerOcp.toMpc runGuessMpc).result = .ok out := h1
  rcases C74_mpc real_zero_beq s cornerOcp.toMpc runGuessMpc 2 500000 hf hcol hP hN with
    ⟨e, -⟩ | ⟨out', e1, e2, e3, -⟩
  · exact ⟨out, e.symm.trans h1', h3.le, .inl h2⟩
  · exact ⟨out', e1, h3 ▸ (e3 out h1').1, .inr e2⟩

end examples

end Fbstab
