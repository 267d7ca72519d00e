import Verif.Proofs.Tolerance
import Verif.Props.Limits
import Verif.Props.Log
import Verif.Spec.Rounding
import Verif.Proofs.Runs

/-!
# C73: the tolerances only decide when to stop
-/

namespace Fbstab

section
variable {K : Type} [Scalar K]

/-- The trace of a run as lines and a summary. -/
theorem Core.render_summaryAt {nz nl nv : Nat} {o : Params K} {c : K} {ri : Resid K nz nl nv}
    {pre : List (Core.Event K nz nl nv)} {out : SolverOut K} {rk : Resid K nz nl nv} :
    Core.render o c ri (pre ++ [.final out.eflag out.proxIters out.newtonIters rk]) =
      Core.render o c ri pre ++ summaryAt o out rk.znorm rk.lnorm rk.vnorm c := by
  rw [Core.render_append]
  congr 1
  by_cases h : 1 ≤ o.displayLevel.toNat
  · rw [Core.render_final_event h, summaryAt, if_pos h]
  · rw [summaryAt, if_neg h]
    simp only [Core.render, List.append_nil]
    exact if_neg h

/-- What `Solve` did with the tolerances of `o` (result `r`, variables `x`, output `log`) and what it did with looser
ones (`r'`, `x'`, `log'`): the same, or the latter stopped earlier. -/
theorem Computes.tolerant {nz nl nv : Nat} {E : Core.Env K nz nl nv} {a rt st : K} {ws : FeasWs K nz nl nv}
    {ri : Resid K nz nl nv} {z : Vec K nz} {l : Vec K nl} {v : Vec K nv} {x xa xa' : CallerVar K}
    {log log' : List (Msg K)} {r r' : Except Err (SolverOut K)}
    (hc : Computes E.ops E.opts ri (Core.solve E ws z l v) x xa log r)
    (hc' : Computes E.ops (E.opts.tolerant a rt st) ri (Core.solve (E.tolerant a rt st) ws z l v) x xa' log' r')
    (hy : x.YWritable nv)
    (ht : Looser (stoppingTol E.ops E.opts) (stoppingTol E.ops (E.opts.tolerant a rt st)))
    (hst : Looser E.opts.stallTol st) :
    let tol := stoppingTol E.ops E.opts
    let tol' := stoppingTol E.ops (E.opts.tolerant a rt st)
    (r' = r ∧ xa' = xa ∧ (∀ e, r = .error e → log' = log) ∧
      ∀ out, r = .ok out → ∃ lines rz rl rv, log = lines ++ summaryAt E.opts out rz rl rv tol ∧
        log' = lines ++ summaryAt E.opts out rz rl rv tol') ∨
    (∃ out', r' = .ok out' ∧ out'.eflag = .success ∧ ¬out'.residual ≤ tol ∧
      (Looser st E.opts.stallTol → out'.residual ≤ tol') ∧
      (∀ out, r = .ok out → out'.proxIters ≤ out.proxIters ∧ out'.newtonIters ≤ out.newtonIters ∧
        out'.initialResidual = out.initialResidual) ∧
      ∃ lines rz rl rv, lines <+: log ∧ log' = lines ++ summaryAt E.opts out' rz rl rv tol') := by
  intro tol tol'
  have hsum := Core.solve_summary E ws z l v
  have hinit : ∀ fin, (Core.solve E ws z l v).2 = .ok fin → fin.out.initialResidual =
      Core.Resid.norm (E.penRes (Core.startPt E z l v)) := fun fin h => (Core.solve_returned h).initialResidual
  rcases Core.solve_tolerant E a rt st (ws := ws) (z := z) (l := l) (v := v) ht hst with
    h | ⟨pre, rest, prox, newton, y, itol, h0, h1, h2, h3, h4, h5, h6⟩
  · left
    rw [h] at hc'
    generalize Core.solve E ws z l v = p at hc hc' hsum
    obtain ⟨es, q⟩ := p
    cases q with
    | error e =>
      obtain ⟨c1, c2, c3⟩ := hc.error e rfl
      obtain ⟨d1, d2, d3⟩ := hc'.error e rfl
      refine ⟨d1.trans c1.symm, d2.trans c2.symm, fun _ _ => ?_, fun out h => by rw [c1] at h; cases h⟩
      rw [d3, c3]
      exact Core.render_tolerant (o := E.opts) (o' := E.opts.tolerant a rt st) rfl _ _ hsum _
    | ok fin =>
      obtain ⟨c1, c2, c3⟩ := hc.ok fin rfl hy
      obtain ⟨d1, d2, d3⟩ := hc'.ok fin rfl hy
      refine ⟨d1.trans c1.symm, d2.trans c2.symm, fun e h => (by rw [c1] at h; cases h), fun out h => ?_⟩
      rw [c1] at h
      cases h
      obtain ⟨pre, rk, e1, e2, -⟩ := hsum
      dsimp only at e1 c3 d3
      rw [e1, Core.render_summaryAt] at c3 d3
      rw [Core.render_tolerant (o := E.opts) (o' := E.opts.tolerant a rt st) rfl tol _ e2] at d3
      exact ⟨_, _, _, _, c3, d3⟩
  · right
    obtain ⟨d1, -, d3⟩ := hc'.ok _ h3 hy
    refine ⟨_, d1, rfl, h4, h5, fun out h => ?_, ?_⟩
    · cases hp : (Core.solve E ws z l v).2 with
      | error e => rw [(hc.error e hp).1] at h; cases h
      | ok fin =>
        rw [(hc.ok fin hp hy).1] at h
        cases h
        exact ⟨(h6 fin hp).1, (h6 fin hp).2, (hinit fin hp).symm⟩
    · have hlog : log = Core.render E.opts tol ri (Core.solve E ws z l v).1 := by
        cases hp : (Core.solve E ws z l v).2 with
        | error e => exact (hc.error e hp).2.2
        | ok fin => exact (hc.ok fin hp hy).2.2
      rw [h1, show ∀ (e f : Core.Event K nz nl nv), pre ++ [e, f] = (pre ++ [e]) ++ [f] by
        intro e f; simp] at d3
      have d4 := d3.trans (Core.render_summaryAt (o := E.opts.tolerant a rt st) (c := tol') (ri := ri)
        (pre := pre ++ [.outer prox newton (E.penRes y) itol]) (rk := E.penRes y)
        (out := (Core.mkFinal (Core.Resid.norm (E.penRes (Core.startPt E z l v))) .success prox newton
          (E.penRes y) y).out))
      refine ⟨_, _, _, _, ?_, d4⟩
      rw [hlog, h2, Core.render_append, Core.render_append,
        Core.render_tolerant (o := E.opts) (o' := E.opts.tolerant a rt st) rfl tol _ h0]
      refine (List.prefix_append_right_inj _).2 ?_
      have hri : ∀ q : Resid K nz nl nv, Core.lastRi q pre = Core.lastRi q pre := fun _ => rfl
      simp only [Core.render, List.append_nil]
      rw [show (E.opts.tolerant a rt st).displayLevel = E.opts.displayLevel from rfl]
      cases hd : E.opts.displayLevel <;> simp

/-- C73: `abs_tol`, `rel_tol` and `stall_tol` only decide when `Solve` stops.  Let `s'` have the options of `s` but for
looser tolerances.  Then `s'` does exactly what `s` does (the tolerance that is printed in the summary apart), or it
returns SUCCESS with a residual that is not within the tolerance of `s`, after not more iterations than `s`, and having
printed, before the summary, an initial part of what `s` prints. -/
theorem C73_dense (s : FBstabDense K) (p : DenseProblem K) (x : CallerVar K) (a rt st : K)
    (hf : DenseFits s.nz s.nl s.nv p x) (hy : x.YWritable s.nv) :
    let s' := s.withOptions (s.options.tolerant a rt st)
    let tol := stoppingTol (s.problem p) s.options
    let tol' := stoppingTol (s.problem p) s'.options
    Looser tol tol' → Looser s.options.stallTol st →
    ((s'.solve p x).result = (s.solve p x).result ∧ (s'.solve p x).x = (s.solve p x).x ∧
      (∀ e, (s.solve p x).result = .error e → (s'.solve p x).log = (s.solve p x).log) ∧
      ∀ out, (s.solve p x).result = .ok out → ∃ lines rz rl rv,
        (s.solve p x).log = lines ++ summaryAt s.options out rz rl rv tol ∧
        (s'.solve p x).log = lines ++ summaryAt s.options out rz rl rv tol') ∨
    (∃ out', (s'.solve p x).result = .ok out' ∧ out'.eflag = .success ∧ ¬out'.residual ≤ tol ∧
      (Looser st s.options.stallTol → out'.residual ≤ tol') ∧
      (∀ out, (s.solve p x).result = .ok out → out'.proxIters ≤ out.proxIters ∧
        out'.newtonIters ≤ out.newtonIters ∧ out'.initialResidual = out.initialResidual) ∧
      ∃ lines rz rl rv, lines <+: (s.solve p x).log ∧
        (s'.solve p x).log = lines ++ summaryAt s.options out' rz rl rv tol') := by
  intro s' tol tol' ht hst
  have h1 := FBstabDense.solve_computes (s := s) (qp := p) (x := x) hf
  have h2 := FBstabDense.solve_computes (s := s') (qp := p) (x := x) hf
  exact Computes.tolerant (E := s.env p) (ri := s.mem.ri.r) h1 h2 hy ht hst

/-- C73 for `FBstabMpc`. -/
theorem C73_mpc (h0 : ((0 : K) == 0) = true) (s : FBstabMpc K) (p : MpcProblem K) (x : CallerVar K) (a rt st : K)
    (hf : MpcFits s.N s.nx s.nu s.nc p x) (hcol : p.Columns) :
    let s' := s.withOptions (s.options.tolerant a rt st)
    let tol := stoppingTol (s.problem p) s.options
    let tol' := stoppingTol (s.problem p) s'.options
    Looser tol tol' → Looser s.options.stallTol st →
    ((s'.solve p x).result = (s.solve p x).result ∧ (s'.solve p x).x = (s.solve p x).x ∧
      (∀ e, (s.solve p x).result = .error e → (s'.solve p x).log = (s.solve p x).log) ∧
      ∀ out, (s.solve p x).result = .ok out → ∃ lines rz rl rv,
        (s.solve p x).log = lines ++ summaryAt s.options out rz rl rv tol ∧
        (s'.solve p x).log = lines ++ summaryAt s.options out rz rl rv tol') ∨
    (∃ out', (s'.solve p x).result = .ok out' ∧ out'.eflag = .success ∧ ¬out'.residual ≤ tol ∧
      (Looser st s.options.stallTol → out'.residual ≤ tol') ∧
      (∀ out, (s.solve p x).result = .ok out → out'.proxIters ≤ out.proxIters ∧
        out'.newtonIters ≤ out.newtonIters ∧ out'.initialResidual = out.initialResidual) ∧
      ∃ lines rz rl rv, lines <+: (s.solve p x).log ∧
        (s'.solve p x).log = lines ++ summaryAt s.options out' rz rl rv tol') := by
  intro s' tol tol' ht hst
  have h1 := FBstabMpc.solve_computes h0 (s := s) (p := p) (x := x) hf hcol
  have h2 := FBstabMpc.solve_computes h0 (s := s') (p := p) (x := x) hf hcol
  exact Computes.tolerant (E := s.env h0 p) (ri := s.mem.ri.r) h1 h2 (fun _ => hf.y) ht hst

end

/-- Over the reals, `Looser` is `<=`. -/
theorem C73_looser_real {t t' : ℝ} (h : t ≤ t') : Looser t t' := fun _ hw => hw.trans h

/-- In floating point arithmetic, for finite tolerances, too. -/
theorem C73_looser_rounded {K : Type} [Scalar K] {u eta : ℝ} (F : Rounding K u eta) {t t' : K} {a a' : ℝ}
    (ht : F.toReal t = some a) (ht' : F.toReal t' = some a') (h : a ≤ a') : Looser t t' := by
  intro w hw
  obtain ⟨c, hc⟩ := F.sqrt_finite w t a hw ht
  exact (F.le _ _ _ _ hc ht').2 (((F.le _ _ _ _ hc ht).1 hw).trans h)

/-- Over the reals, larger `abs_tol` and `rel_tol` make a looser tolerance. -/
theorem C73_larger_dense (s : FBstabDense ℝ) (p : DenseProblem ℝ) {a rt : ℝ} (st : ℝ) (ha : s.options.absTol ≤ a)
    (hr : s.options.relTol ≤ rt) :
    Looser (stoppingTol (s.problem p) s.options) (stoppingTol (s.problem p) (s.options.tolerant a rt st)) := by
  refine C73_looser_real ?_
  have h : 0 ≤ (s.problem p).forcingNorm := by rw [(s.realEnv p).ops.forcingNorm]; exact Real.sqrt_nonneg _
  exact add_le_add ha (mul_le_mul_of_nonneg_right hr (by linarith))

theorem C73_larger_mpc (s : FBstabMpc ℝ) (p : MpcProblem ℝ) {a rt : ℝ} (st : ℝ) (ha : s.options.absTol ≤ a)
    (hr : s.options.relTol ≤ rt) :
    Looser (stoppingTol (s.problem p) s.options) (stoppingTol (s.problem p) (s.options.tolerant a rt st)) := by
  refine C73_looser_real ?_
  have h : 0 ≤ (s.problem p).forcingNorm := by rw [(s.realEnv p).ops.forcingNorm]; exact Real.sqrt_nonneg _
  exact add_le_add ha (mul_le_mul_of_nonneg_right hr (by linarith))

section examples
variable (junk : DenseJunk ℝ) (c : Bool) (d : Display)

/-- C73: a run of one proximal iteration, with every larger `abs_tol`. -/
example (a : ℝ) (ha : (runSolver junk c d).options.absTol ≤ a) :
    let s := runSolver junk c d
    let s' := s.withOptions (s.options.tolerant a s.options.relTol s.options.stallTol)
    ∃ out, (s'.solve halfQP.toDense runGuess).result = .ok out ∧ out.eflag = .success ∧ out.proxIters ≤ 1 := by
  intro s s'
  obtain ⟨out, h1, h2, h3, -⟩ := run_dense junk c d
  obtain ⟨hf, hy, -⟩ := FBstabDense.returned h1
  rcases C73_dense s halfQP.toDense runGuess a _ _ hf hy (C73_larger_dense s _ _ ha le_rfl)
    (C73_looser_real le_rfl) with ⟨e, -⟩ | ⟨out', e1, e2, -, -, e3, -⟩
  · exact ⟨out, e.trans h1, h2, h3.le⟩
  · exact ⟨out', e1, e2, h3 ▸ (e3 out h1).1⟩

/-- C73: both alternatives occur: with a sufficiently large `abs_tol` the guess is good enough. -/
example : let s := runSolver junk c d
    ∃ a, s.options.absTol ≤ a ∧
      let s' := s.withOptions (s.options.tolerant a s.options.relTol s.options.stallTol)
      ∃ out, (s'.solve halfQP.toDense runGuess).result = .ok out ∧ out.eflag = .success ∧ out.proxIters = 0 := by
  intro s
  obtain ⟨out, h1, -, -, -⟩ := run_dense junk c d
  obtain ⟨hf, hy, -⟩ := FBstabDense.returned h1
  let r := residualNorm (s.problem halfQP.toDense) s.options.alpha (runGuess.guess (s.problem halfQP.toDense))
  refine ⟨max s.options.absTol r, le_max_left _ _, ?_⟩
  intro s'
  have hr : s.options.relTol = 0 := rfl
  have := (C12_dense s' halfQP.toDense runGuess (by show (1 : ℤ) ≤ 2; norm_num)
    (by show ¬((3e-5 : ℝ) < 3e-5); norm_num) hf hy (by
      show r ≤ max s.options.absTol r + s.options.relTol * _
      rw [hr, zero_mul, add_zero]
      exact le_max_right _ _)).1
  exact ⟨_, this, rfl, rfl⟩

/-- C73 for `FBstabMpc`. -/
example (junk : MpcJunk ℝ) (a : ℝ) (ha : (runSolverMpc junk c d).options.absTol ≤ a) :
    let s := runSolverMpc junk c d
    let s' := s.withOptions (s.options.tolerant a s.options.relTol s.options.stallTol)
    ∃ out, (s'.solve cornerOcp.toMpc runGuessMpc).result = .ok out ∧ out.eflag = .success ∧ out.proxIters ≤ 1 := by
  intro s s'
  obtain ⟨out, h1, h2, h3, -⟩ := run_mpc junk c d
  obtain ⟨hf, hcol, -⟩ := FBstabMpc.returned real_zero_beq h1
  rcases C73_mpc real_zero_beq s cornerOcp.toMpc runGuessMpc a _ _ hf hcol (C73_larger_mpc s _ _ ha le_rfl)
    (C73_looser_real le_rfl) with ⟨e, -⟩ | ⟨out', e1, e2, -, -, e3, -⟩
  · exact ⟨out, e.trans h1, h2, h3.le⟩
  · exact ⟨out', e1, e2, h3 ▸ (e3 out h1).1⟩

end examples

/-- `C73_looser_rounded` for two numbers. -/
example {K : Type} [Scalar K] {u eta : ℝ} (F : Rounding K u eta) : Looser (0 : K) 1 :=
  C73_looser_rounded F F.zero F.one zero_le_one

end Fbstab
