import Verif.Proofs.Suspicious
import Verif.Props.Longer
import Verif.Props.Infeasible

/-!
# C75: the tolerance for infeasibility only decides when infeasibility is reported
-/

namespace Fbstab

theorem Computes.suspicious {nz nl nv : Nat} {E : Core.Env ℝ nz nl nv} {c : ℝ} {ws : FeasWs ℝ nz nl nv}
    {ri : Resid ℝ nz nl nv} {z : Vec ℝ nz} {l : Vec ℝ nl} {v : Vec ℝ nv} {x xa xa' : CallerVar ℝ}
    {log log' : List (Msg ℝ)} {r r' : Except Err (SolverOut ℝ)}
    (hc : Computes E.ops E.opts ri (Core.solve E ws z l v) x xa log r)
    (hc' : Computes E.ops (E.opts.suspicious c) ri (Core.solve (E.suspicious c) ws z l v) x xa' log' r')
    (hy : x.YWritable nv)
    (hm : ∀ x ws, (checkFeasibility E.ops x c ws).1 = .feasible →
      (checkFeasibility E.ops x E.opts.infeasTol ws).1 = .feasible) :
    (r' = r ∧ xa' = xa ∧ log' = log) ∨
    (∃ out', r' = .ok out' ∧ (out'.eflag = .primalInfeasible ∨ out'.eflag = .dualInfeasible ∨
        out'.eflag = .primalDualInfeasible) ∧
      (∀ out, r = .ok out → out'.proxIters ≤ out.proxIters ∧ out'.newtonIters ≤ out.newtonIters ∧
        out'.initialResidual = out.initialResidual) ∧
      ∃ lines rz rl rv, log' = lines ++ summaryAt E.opts out' rz rl rv (stoppingTol E.ops E.opts) ∧
        lines <+: log) := by
  have hren : ∀ es : List (Core.Event ℝ nz nl nv), ∀ ri c0,
      Core.render (E.opts.suspicious c) c0 ri es = Core.render E.opts c0 ri es := by
    intro es
    induction es with
    | nil => intros; rfl
    | cons e es ih =>
      intro ri c0
      cases e <;> simp only [Core.render, ih] <;> rfl
  have hinit : ∀ fin, (Core.solve E ws z l v).2 = .ok fin → fin.out.initialResidual =
      Core.Resid.norm (E.penRes (Core.startPt E z l v)) := fun fin h => (Core.solve_returned h).initialResidual
  have hinit' : ∀ fin, (Core.solve (E.suspicious c) ws z l v).2 = .ok fin → fin.out.initialResidual =
      Core.Resid.norm (E.penRes (Core.startPt E z l v)) := fun fin h => (Core.solve_returned h).initialResidual
  rcases Core.solve_suspicious E c (ws := ws) (z := z) (l := l) (v := v) hm with
    h | ⟨fin, pre, rk, h1, h2, h2', h3, h5, h4, h6⟩
  · left
    rw [h] at hc'
    cases hp : (Core.solve E ws z l v).2 with
    | error e =>
      obtain ⟨c1, c2, c3⟩ := hc.error e hp
      obtain ⟨d1, d2, d3⟩ := hc'.error e hp
      exact ⟨d1.trans c1.symm, d2.trans c2.symm, (d3.trans (hren _ _ _)).trans c3.symm⟩
    | ok fin =>
      obtain ⟨c1, c2, c3⟩ := hc.ok fin hp hy
      obtain ⟨d1, d2, d3⟩ := hc'.ok fin hp hy
      exact ⟨d1.trans c1.symm, d2.trans c2.symm, (d3.trans (hren _ _ _)).trans c3.symm⟩
  · right
    obtain ⟨d1, -, d3⟩ := hc'.ok _ h1 hy
    rw [h5, hren, Core.render_summaryAt] at d3
    refine ⟨_, d1, ?_, fun out h => ?_, _, _, _, _, d3, ?_⟩
    · have := ((Core.solve_returned h1).flag).1
      revert this h2 h2'
      cases fin.out.eflag <;> simp
    · cases hp : (Core.solve E ws z l v).2 with
      | error e => rw [(hc.error e hp).1] at h; cases h
      | ok fin' =>
        rw [(hc.ok fin' hp hy).1] at h
        cases h
        exact ⟨(h6 fin' hp).1, (h6 fin' hp).2, (hinit' fin h1).trans (hinit fin' hp).symm⟩
    · have hlog : log = Core.render E.opts (stoppingTol E.ops E.opts) ri (Core.solve E ws z l v).1 := by
        cases hp : (Core.solve E ws z l v).2 with
        | error e => exact (hc.error e hp).2.2
        | ok fin => exact (hc.ok fin hp hy).2.2
      obtain ⟨w, hw⟩ := h4
      rw [hlog, ← hw, Core.render_append]
      exact ⟨_, rfl⟩

/-- C75, over the reals: `infeas_tol` only decides when infeasibility is reported.  Let `s'` have the options of `s` but
for a larger `infeas_tol`.  Then `s'` does exactly what `s` does, or it reports infeasibility, after not more iterations
than `s`, and what it prints before the summary is an initial part of what `s` prints. -/
theorem C75_dense (s : FBstabDense ℝ) (p : DenseProblem ℝ) (x : CallerVar ℝ) (c : ℝ)
    (hf : DenseFits s.nz s.nl s.nv p x) (hy : x.YWritable s.nv) (h0 : 0 ≤ s.options.infeasTol)
    (hc : s.options.infeasTol ≤ c) :
    let s' := s.withOptions (s.options.suspicious c)
    ((s'.solve p x).result = (s.solve p x).result ∧ (s'.solve p x).x = (s.solve p x).x ∧
      (s'.solve p x).log = (s.solve p x).log) ∨
    (∃ out', (s'.solve p x).result = .ok out' ∧ (out'.eflag = .primalInfeasible ∨ out'.eflag = .dualInfeasible ∨
        out'.eflag = .primalDualInfeasible) ∧
      (∀ out, (s.solve p x).result = .ok out → out'.proxIters ≤ out.proxIters ∧
        out'.newtonIters ≤ out.newtonIters ∧ out'.initialResidual = out.initialResidual) ∧
      ∃ lines rz rl rv, (s'.solve p x).log = lines ++ summaryAt s.options out' rz rl rv
        (stoppingTol (s.problem p) s.options) ∧ lines <+: (s.solve p x).log) := by
  intro s'
  have h1 := FBstabDense.solve_computes (s := s) (qp := p) (x := x) hf
  have h2 := FBstabDense.solve_computes (s := s') (qp := p) (x := x) hf
  exact Computes.suspicious (E := s.env p) (ri := s.mem.ri.r) h1 h2 hy
    (fun x ws => Core.checkFeasibility_mono (s.realEnv p).ops h0 hc x ws)

/-- C75 for `FBstabMpc`. -/
theorem C75_mpc (s : FBstabMpc ℝ) (p : MpcProblem ℝ) (x : CallerVar ℝ) (c : ℝ)
    (hf : MpcFits s.N s.nx s.nu s.nc p x) (hcol : p.Columns) (h0 : 0 ≤ s.options.infeasTol)
    (hc : s.options.infeasTol ≤ c) :
    let s' := s.withOptions (s.options.suspicious c)
    ((s'.solve p x).result = (s.solve p x).result ∧ (s'.solve p x).x = (s.solve p x).x ∧
      (s'.solve p x).log = (s.solve p x).log) ∨
    (∃ out', (s'.solve p x).result = .ok out' ∧ (out'.eflag = .primalInfeasible ∨ out'.eflag = .dualInfeasible ∨
        out'.eflag = .primalDualInfeasible) ∧
      (∀ out, (s.solve p x).result = .ok out → out'.proxIters ≤ out.proxIters ∧
        out'.newtonIters ≤ out.newtonIters ∧ out'.initialResidual = out.initialResidual) ∧
      ∃ lines rz rl rv, (s'.solve p x).log = lines ++ summaryAt s.options out' rz rl rv
        (stoppingTol (s.problem p) s.options) ∧ lines <+: (s.solve p x).log) := by
  intro s'
  have h1 := FBstabMpc.solve_computes real_zero_beq (s := s) (p := p) (x := x) hf hcol
  have h2 := FBstabMpc.solve_computes real_zero_beq (s := s') (p := p) (x := x) hf hcol
  exact Computes.suspicious (E := s.env real_zero_beq p) (ri := s.mem.ri.r) h1 h2 (fun _ => hf.y)
    (fun x ws => Core.checkFeasibility_mono (s.realEnv p).ops h0 hc x ws)

section examples
variable (d : Display)

/-- C75: a run of one proximal iteration, with feasibility checks and any larger tolerance. -/
example (junk : DenseJunk ℝ) (c : ℝ) (hc : (runSolver junk true d).options.infeasTol ≤ c) :
    let s := runSolver junk true d
    let s' := s.withOptions (s.options.suspicious c)
    ∃ out, (s'.solve halfQP.toDense runGuess).result = .ok out ∧ out.proxIters ≤ 1 := by
  intro s s'
  obtain ⟨out, h1, h2, h3, -⟩ := run_dense junk true d
  obtain ⟨hf, hy, -⟩ := FBstabDense.returned h1
  rcases C75_dense s halfQP.toDense runGuess c hf hy
    (by have := (C01_reachable_dense _ (runSolver_reachable junk true d)).infeasTol
        exact le_trans (by norm_num) this) hc with ⟨e, -⟩ | ⟨out', e1, -, e3, -⟩
  · exact ⟨out, e.trans h1, h3.le⟩
  · exact ⟨out', e1, h3 ▸ (e3 out h1).1⟩

/-- C75 for `FBstabMpc`. -/
example (junk : MpcJunk ℝ) (c : ℝ) (hc : (runSolverMpc junk true d).options.infeasTol ≤ c) :
    let s := runSolverMpc junk true d
    let s' := s.withOptions (s.options.suspicious c)
    ∃ out, (s'.solve cornerOcp.toMpc runGuessMpc).result = .ok out ∧ out.proxIters ≤ 1 := by
  intro s s'
  obtain ⟨out, h1, h2, h3, -⟩ := run_mpc junk true d
  obtain ⟨hf, hcol, -⟩ := FBstabMpc.returned real_zero_beq h1
  rcases C75_mpc s cornerOcp.toMpc runGuessMpc c hf hcol
    (by have := (C01_reachable_mpc _ (runSolverMpc_reachable junk true d)).infeasTol
        exact le_trans (by norm_num) this) hc with ⟨e, -⟩ | ⟨out', e1, -, e3, -⟩
  · exact ⟨out, e.trans h1, h3.le⟩
  · exact ⟨out', e1, h3 ▸ (e3 out h1).1⟩

end examples

end Fbstab
