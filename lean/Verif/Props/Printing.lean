import Verif.Proofs.Trace
import Verif.Proofs.OptionsCongr
import Verif.Props.Isolation

/-!
# C14: the display level only affects printing
-/

namespace Fbstab
section
variable {K : Type} [Scalar K]

theorem Computes.log_off {nz nl nv : Nat} {ops : QPOps K nz nl nv} {opts : Params K}
    {ri : Resid K nz nl nv} {p : List (Core.Event K nz nl nv) × Except Err (Core.Final K nz nl nv)}
    {x x' : CallerVar K} {log : List (Msg K)} {r : Except Err (SolverOut K)}
    (h : Computes ops opts ri p x x' log r) (hy : x.YWritable nv) (ho : opts.displayLevel = .off) :
    log = [] := by
  cases hp : p.2 with
  | error e => rw [(h.error e hp).2.2, Core.render_off ho]
  | ok fin => rw [(h.ok fin hp hy).2.2, Core.render_off ho]

/-- What is printed when a run returns. -/
theorem Computes.log_ok {nz nl nv : Nat} {ops : QPOps K nz nl nv} {opts : Params K}
    {ri : Resid K nz nl nv} {p : List (Core.Event K nz nl nv) × Except Err (Core.Final K nz nl nv)}
    {x x' : CallerVar K} {log : List (Msg K)} {r : Except Err (SolverOut K)}
    (h : Computes ops opts ri p x x' log r) (hs : Core.Summary p) (hy : x.YWritable nv)
    (ho : 1 ≤ opts.displayLevel.toNat) {out : SolverOut K} (hr : r = .ok out) :
    ∃ pre rz rl rv, log = pre ++ summary opts out rz rl rv (stoppingTol ops opts) ∧
      out.residual = Scalar.sqrt (rz * rz + rl * rl + rv * rv) ∧
      (opts.displayLevel = .final → pre = []) := by
  cases hp : p.2 with
  | error e => rw [(h.error e hp).1] at hr; cases hr
  | ok fin =>
    obtain ⟨h1, -, h2⟩ := h.ok fin hp hy
    rw [h1] at hr
    cases hr
    unfold Core.Summary at hs
    rw [hp] at hs
    obtain ⟨pre, rk, e, hn, hres⟩ := hs
    rw [e, Core.render_append] at h2
    refine ⟨Core.render opts (stoppingTol ops opts) ri pre, rk.znorm, rk.lnorm, rk.vnorm, ?_, hres, fun hd => Core.render_final hd _ _ hn _⟩
    rw [h2]
    have ho' : Display.final.toNat ≤ opts.displayLevel.toNat := ho
    simp only [Core.render, if_pos ho', summary, List.append_nil]

theorem Computes.log_error {nz nl nv : Nat} {ops : QPOps K nz nl nv} {opts : Params K}
    {ri : Resid K nz nl nv} {p : List (Core.Event K nz nl nv) × Except Err (Core.Final K nz nl nv)}
    {x x' : CallerVar K} {log : List (Msg K)} {r : Except Err (SolverOut K)}
    (h : Computes ops opts ri p x x' log r) (hs : Core.Summary p) (hy : x.YWritable nv)
    (ho : opts.displayLevel = .final) {e : Err} (hr : r = .error e) : log = [] := by
  cases hp : p.2 with
  | error e =>
    unfold Core.Summary at hs
    rw [hp] at hs
    rw [(h.error e hp).2.2]
    exact Core.render_final ho _ _ hs _
  | ok fin => rw [(h.ok fin hp hy).1] at hr; cases hr

/-- C14, Display::OFF: nothing is printed. -/
theorem C14_off_dense (s : FBstabDense K) (qp : DenseProblem K) (x : CallerVar K)
    (hy : x.YWritable s.nv) (ho : s.options.displayLevel = .off) : (s.solve qp x).log = [] := by
  by_cases hf : DenseFits s.nz s.nl s.nv qp x
  · exact (FBstabDense.solve_computes hf).log_off hy ho
  · obtain ⟨m, h, -⟩ := FBstabDense.solve_rejects hf
    rw [h]

/-- C14, Display::OFF, for FBstabMpc. -/
theorem C14_off_mpc (h0 : ((0 : K) == 0) = true) (s : FBstabMpc K) (p : MpcProblem K)
    (x : CallerVar K) (ho : s.options.displayLevel = .off) : (s.solve p x).log = [] := by
  by_cases hf : MpcFits s.N s.nx s.nu s.nc p x
  · by_cases hcol : p.Columns
    · exact (FBstabMpc.solve_computes h0 hf hcol).log_off (fun _ => hf.y) ho
    · obtain ⟨w, h⟩ := FBstabMpc.solve_not_columns hf hcol
      rw [h]
  · obtain ⟨m, h, -⟩ := FBstabMpc.solve_rejects hf
    rw [h]

/-- C14, levels FINAL and above: when `Solve` returns, the last thing printed is the summary of the
returned output (flag, counts, limits, the parts of the returned residual, the tolerance); at level
FINAL it is all that is printed. -/
theorem C14_summary_dense (s : FBstabDense K) (qp : DenseProblem K) (x : CallerVar K)
    (ho : 1 ≤ s.options.displayLevel.toNat) (out : SolverOut K)
    (h : (s.solve qp x).result = .ok out) :
    ∃ pre rz rl rv, (s.solve qp x).log =
        pre ++ summary s.options out rz rl rv (stoppingTol (s.problem qp) s.options) ∧
      out.residual = Scalar.sqrt (rz * rz + rl * rl + rv * rv) ∧
      (s.options.displayLevel = .final → pre = []) := by
  obtain ⟨hf, hy, -⟩ := FBstabDense.returned h
  exact (FBstabDense.solve_computes hf).log_ok (Core.solve_summary _ _ _ _ _) hy ho h

/-- C14, levels FINAL and above, for FBstabMpc. -/
theorem C14_summary_mpc (h0 : ((0 : K) == 0) = true) (s : FBstabMpc K) (p : MpcProblem K)
    (x : CallerVar K) (ho : 1 ≤ s.options.displayLevel.toNat) (out : SolverOut K)
    (h : (s.solve p x).result = .ok out) :
    ∃ pre rz rl rv, (s.solve p x).log =
        pre ++ summary s.options out rz rl rv (stoppingTol (s.problem p) s.options) ∧
      out.residual = Scalar.sqrt (rz * rz + rl * rl + rv * rv) ∧
      (s.options.displayLevel = .final → pre = []) := by
  obtain ⟨hf, hc, -⟩ := FBstabMpc.returned h0 h
  exact (FBstabMpc.solve_computes h0 hf hc).log_ok (Core.solve_summary _ _ _ _ _)
    (fun _ => hf.y) ho h

/-- C14: at level FINAL nothing is printed if `Solve` throws. -/
theorem C14_throw_dense (s : FBstabDense K) (qp : DenseProblem K) (x : CallerVar K)
    (hy : x.YWritable s.nv) (ho : s.options.displayLevel = .final) (e : Err)
    (h : (s.solve qp x).result = .error e) : (s.solve qp x).log = [] := by
  by_cases hf : DenseFits s.nz s.nl s.nv qp x
  · exact (FBstabDense.solve_computes hf).log_error (Core.solve_summary _ _ _ _ _) hy ho h
  · obtain ⟨m, h, -⟩ := FBstabDense.solve_rejects hf
    rw [h]

/-- C14: at level FINAL nothing is printed if `Solve` throws, for FBstabMpc. -/
theorem C14_throw_mpc (h0 : ((0 : K) == 0) = true) (s : FBstabMpc K) (p : MpcProblem K)
    (x : CallerVar K) (ho : s.options.displayLevel = .final) (e : Err)
    (h : (s.solve p x).result = .error e) : (s.solve p x).log = [] := by
  by_cases hf : MpcFits s.N s.nx s.nu s.nc p x
  · by_cases hcol : p.Columns
    · exact (FBstabMpc.solve_computes h0 hf hcol).log_error (Core.solve_summary _ _ _ _ _)
        (fun _ => hf.y) ho h
    · obtain ⟨w, h⟩ := FBstabMpc.solve_not_columns hf hcol
      rw [h]
  · obtain ⟨m, h, -⟩ := FBstabMpc.solve_rejects hf
    rw [h]

/-- C14: the outcome does not depend on the display level. -/
theorem C14_result_dense (s : FBstabDense K) (d : Display) (qp : DenseProblem K) (x : CallerVar K) :
    (s.solve qp x).SameAs ((s.withOptions { s.options with displayLevel := d }).solve qp x) := by
  by_cases hf : DenseFits s.nz s.nl s.nv qp x
  · have h1 := FBstabDense.solve_computes (s := s) hf
    have h2 := FBstabDense.solve_computes
      (s := s.withOptions { s.options with displayLevel := d }) (qp := qp) (x := x) hf
    have e : (s.withOptions { s.options with displayLevel := d }).core qp x = s.core qp x :=
      Core.solve_display (E := s.env qp) (d := d) s.mem.feas.ws (x.z.toVec s.nz) (x.l.toVec s.nl)
        (x.v.toVec s.nv)
    rw [e] at h2
    exact h1.sameAs h2 rfl rfl
  · constructor
    · intro out ho
      obtain ⟨m, h, -⟩ := FBstabDense.solve_rejects hf
      rw [h] at ho; cases ho
    · intro m hm
      rw [FBstabDense.solve_error_of_not_fits hf] at hm
      rw [FBstabDense.solve_error_of_not_fits
        (s := s.withOptions { s.options with displayLevel := d }) hf]
      exact hm

/-- C14: the outcome does not depend on the display level, for FBstabMpc. -/
theorem C14_result_mpc (h0 : ((0 : K) == 0) = true) (s : FBstabMpc K) (d : Display)
    (p : MpcProblem K) (x : CallerVar K) :
    (s.solve p x).SameAs ((s.withOptions { s.options with displayLevel := d }).solve p x) := by
  by_cases hf : MpcFits s.N s.nx s.nu s.nc p x
  · by_cases hcol : p.Columns
    · have h1 := FBstabMpc.solve_computes h0 (s := s) hf hcol
      have h2 := FBstabMpc.solve_computes h0
        (s := s.withOptions { s.options with displayLevel := d }) (p := p) (x := x) hf hcol
      have e : (s.withOptions { s.options with displayLevel := d }).core h0 p x = s.core h0 p x :=
        Core.solve_display (E := s.env h0 p) (d := d) s.mem.feas.ws _ _ _
      rw [e] at h2
      exact h1.sameAs h2 rfl rfl
    · obtain ⟨w, h⟩ := FBstabMpc.solve_not_columns hf hcol
      constructor
      · intro out ho
        rw [h] at ho; cases ho
      · intro m hm
        rw [h] at hm; cases hm
  · constructor
    · intro out ho
      obtain ⟨m, h, -⟩ := FBstabMpc.solve_rejects hf
      rw [h] at ho; cases ho
    · intro m hm
      rw [FBstabMpc.solve_error_of_not_fits hf] at hm
      rw [FBstabMpc.solve_error_of_not_fits
        (s := s.withOptions { s.options with displayLevel := d }) hf]
      exact hm

end
end Fbstab
