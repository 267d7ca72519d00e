import Verif.Proofs.Parts
import Verif.Props.Printing
import Verif.Props.Text

/-!
# C14, C66: whose residual the summary shows

The columns |rz|, |rl|, |rv| of the summary are, in this order, the norms of the gradient of the
Lagrangian, of the defect of the equations and of the complementarity residual of one point `w`.  On
SUCCESS and when the limit on Newton steps stops the run, `w` is the returned point.
-/

namespace Fbstab
section
variable {K : Type} [Scalar K]

/-- The summary, with the parts of the residual of the point `w`. -/
def summaryOf {nz nl nv : Nat} (q : QPOps K nz nl nv) (o : Params K) (out : SolverOut K)
    (w : Point K nz nl nv) : List (Msg K) :=
  summary o out (gradLagrangian q w.z w.l w.v).norm (eqDefect q w.z).norm
    (penalizedMin o.alpha w.y w.v).norm (stoppingTol q o)

theorem Computes.log_at {nz nl nv : Nat} {E : Core.Env K nz nl nv}
    {ri : Resid K nz nl nv} {p : List (Core.Event K nz nl nv) × Except Err (Core.Final K nz nl nv)}
    {x x' : CallerVar K} {log : List (Msg K)} {r : Except Err (SolverOut K)}
    (h : Computes E.ops E.opts ri p x x' log r) (hs : Core.SummaryAt E p) (hy : x.YWritable nv)
    (ho : 1 ≤ E.opts.displayLevel.toNat) {out : SolverOut K} (hr : r = .ok out) :
    ∃ pre w, log = pre ++ summaryOf E.ops E.opts out w ∧
      out.residual = residualNorm E.ops E.opts.alpha w ∧
      ((out.eflag = .success ∨ (out.eflag = .maxIterations ∧
        E.opts.maxNewtonIters ≤ (out.newtonIters : Int))) → w = x'.point nz nl nv) ∧
      (E.opts.displayLevel = .final → pre = []) := by
  cases hp : p.2 with
  | error e => rw [(h.error e hp).1] at hr; cases hr
  | ok fin =>
    obtain ⟨h1, h3, h2⟩ := h.ok fin hp hy
    rw [h1] at hr
    cases hr
    obtain ⟨pre, w, e, hn, hres, hw⟩ := hs fin hp
    rw [e, Core.render_append] at h2
    refine ⟨Core.render E.opts (stoppingTol E.ops E.opts) ri pre, w, ?_, hres, ?_,
      fun hd => Core.render_final hd _ _ hn _⟩
    · rw [h2]
      have ho' : Display.final.toNat ≤ E.opts.displayLevel.toNat := ho
      simp only [Core.render, if_pos ho', summaryOf, summary, List.append_nil]
      rfl
    · intro hf
      rw [hw hf, h3, CallerVar.point_ofPoint]

/-- C14, levels FINAL and above: the summary shows the parts of the residual of one point, the
returned one on SUCCESS and at the Newton limit. -/
theorem C14_parts_dense (s : FBstabDense K) (hl : 1 ≤ s.options.maxProxIters) (qp : DenseProblem K)
    (x : CallerVar K) (ho : 1 ≤ s.options.displayLevel.toNat) (out : SolverOut K)
    (h : (s.solve qp x).result = .ok out) :
    ∃ pre w, (s.solve qp x).log = pre ++ summaryOf (s.problem qp) s.options out w ∧
      out.residual = residualNorm (s.problem qp) s.options.alpha w ∧
      ((out.eflag = .success ∨ (out.eflag = .maxIterations ∧
          s.options.maxNewtonIters ≤ (out.newtonIters : Int))) →
        w = (s.solve qp x).x.point s.nz s.nl s.nv) ∧
      (s.options.displayLevel = .final → pre = []) := by
  obtain ⟨hf, hy, -⟩ := FBstabDense.returned h
  exact Computes.log_at (E := s.env qp) (FBstabDense.solve_computes hf)
    (Core.solve_summaryAt _ hl _ _ _ _) hy ho h

/-- C14, the parts in the summary, for FBstabMpc. -/
theorem C14_parts_mpc (h0 : ((0 : K) == 0) = true) (s : FBstabMpc K)
    (hl : 1 ≤ s.options.maxProxIters) (p : MpcProblem K)
    (x : CallerVar K) (ho : 1 ≤ s.options.displayLevel.toNat) (out : SolverOut K)
    (h : (s.solve p x).result = .ok out) :
    ∃ pre w, (s.solve p x).log = pre ++ summaryOf (s.problem p) s.options out w ∧
      out.residual = residualNorm (s.problem p) s.options.alpha w ∧
      ((out.eflag = .success ∨ (out.eflag = .maxIterations ∧
          s.options.maxNewtonIters ≤ (out.newtonIters : Int))) →
        w = (s.solve p x).x.point ((s.N + 1) * (s.nx + s.nu)) ((s.N + 1) * s.nx)
          ((s.N + 1) * s.nc)) ∧
      (s.options.displayLevel = .final → pre = []) := by
  obtain ⟨hf, hc, -⟩ := FBstabMpc.returned h0 h
  exact Computes.log_at (E := s.env h0 p) (FBstabMpc.solve_computes h0 hf hc)
    (Core.solve_summaryAt _ hl _ _ _ _) (fun _ => hf.y) ho h

/-- C66: everything `FBstabDense::Solve` prints at level FINAL when it returns SUCCESS or stops at
the Newton limit, from the returned values alone. -/
theorem C66_parts_dense {F : NumText K} (hF : F.Short) {time : String} (ht : time.length ≤ 40)
    (s : FBstabDense K) (ho : s.options.IntLimits) (hl : 1 ≤ s.options.maxProxIters)
    (hd : s.options.displayLevel = .final) (qp : DenseProblem K) (x : CallerVar K)
    (out : SolverOut K) (h : (s.solve qp x).result = .ok out)
    (hs : out.eflag = .success ∨ (out.eflag = .maxIterations ∧
      s.options.maxNewtonIters ≤ (out.newtonIters : Int))) :
    let q := s.problem qp
    let w := (s.solve qp x).x.point s.nz s.nl s.nv
    output F time (s.solve qp x).log =
      summaryText F time s.options out (gradLagrangian q w.z w.l w.v).norm (eqDefect q w.z).norm
        (penalizedMin s.options.alpha w.y w.v).norm (stoppingTol q s.options) := by
  obtain ⟨pre, w, h1, -, h2, h3⟩ := C14_parts_dense s hl qp x (by rw [hd]; decide) out h
  dsimp only
  rw [output_eq hF ht ho (s.log_within qp x (FBstabDense.returned h).2.1), h1, h3 hd, List.nil_append,
    ← h2 hs, summaryOf, summary_text]

/-- C66, the text on SUCCESS or at the Newton limit, for `FBstabMpc::Solve`. -/
theorem C66_parts_mpc (h0 : ((0 : K) == 0) = true) {F : NumText K} (hF : F.Short) {time : String}
    (ht : time.length ≤ 40) (s : FBstabMpc K) (ho : s.options.IntLimits)
    (hl : 1 ≤ s.options.maxProxIters) (hd : s.options.displayLevel = .final) (p : MpcProblem K)
    (x : CallerVar K) (out : SolverOut K) (h : (s.solve p x).result = .ok out)
    (hs : out.eflag = .success ∨ (out.eflag = .maxIterations ∧
      s.options.maxNewtonIters ≤ (out.newtonIters : Int))) :
    let q := s.problem p
    let w := (s.solve p x).x.point ((s.N + 1) * (s.nx + s.nu)) ((s.N + 1) * s.nx) ((s.N + 1) * s.nc)
    output F time (s.solve p x).log =
      summaryText F time s.options out (gradLagrangian q w.z w.l w.v).norm (eqDefect q w.z).norm
        (penalizedMin s.options.alpha w.y w.v).norm (stoppingTol q s.options) := by
  obtain ⟨pre, w, h1, -, h2, h3⟩ := C14_parts_mpc h0 s hl p x (by rw [hd]; decide) out h
  dsimp only
  rw [output_eq hF ht ho (s.log_within h0 p x), h1, h3 hd, List.nil_append,
    ← h2 hs, summaryOf, summary_text]

end
end Fbstab
