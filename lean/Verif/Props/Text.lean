import Verif.Proofs.Text
import Verif.Proofs.Printf
import Verif.Props.Printing
import Verif.Proofs.Binary64
import Verif.Proofs.RoundingMpc

/-!
# C66: the text that is printed

Every message is formatted into a buffer of 100 characters.  Nothing is cut off: the text on the standard output is the
text that the format strings describe.
-/

namespace Fbstab
section
variable {K : Type} [Scalar K]

theorem Computes.log_within {nz nl nv : Nat} {ops : QPOps K nz nl nv} {opts : Params K}
    {ri : Resid K nz nl nv} {p : List (Core.Event K nz nl nv) × Except Err (Core.Final K nz nl nv)}
    {x x' : CallerVar K} {log : List (Msg K)} {r : Except Err (SolverOut K)}
    (h : Computes ops opts ri p x x' log r) (hy : x.YWritable nv) (hw : ∀ e ∈ p.1, e.Within opts) :
    ∀ m ∈ log, m.Within opts := by
  cases hp : p.2 with
  | error e => rw [(h.error e hp).2.2]; exact Core.render_within _ _ _ hw _
  | ok fin => rw [(h.ok fin hp hy).2.2]; exact Core.render_within _ _ _ hw _

theorem FBstabDense.log_within (s : FBstabDense K) (qp : DenseProblem K) (x : CallerVar K) (hy : x.YWritable s.nv) :
    ∀ m ∈ (s.solve qp x).log, m.Within s.options := by
  by_cases hf : DenseFits s.nz s.nl s.nv qp x
  · exact (FBstabDense.solve_computes hf).log_within hy (Core.solve_within (s.env qp) _ _ _ _)
  · obtain ⟨m, h, -⟩ := FBstabDense.solve_rejects hf
    rw [h]
    intro m hm
    cases hm

theorem FBstabMpc.log_within (h0 : ((0 : K) == 0) = true) (s : FBstabMpc K) (p : MpcProblem K) (x : CallerVar K) :
    ∀ m ∈ (s.solve p x).log, m.Within s.options := by
  by_cases hf : MpcFits s.N s.nx s.nu s.nc p x
  · by_cases hcol : p.Columns
    · exact (FBstabMpc.solve_computes h0 hf hcol).log_within (fun _ => hf.y) (Core.solve_within (s.env h0 p) _ _ _ _)
    · obtain ⟨w, h⟩ := FBstabMpc.solve_not_columns hf hcol
      rw [h]
      intro m hm
      cases hm
  · obtain ⟨m, h, -⟩ := FBstabMpc.solve_rejects hf
    rw [h]
    intro m hm
    cases hm

omit [Scalar K] in
theorem Msg.printed_eq {F : NumText K} (hF : F.Short) {time : String} (ht : time.length ≤ 40) {o : Params K}
    (ho : o.IntLimits) {m : Msg K} (hm : m.Within o) : m.printed F time = m.text F time :=
  snprintf_eq (lt_of_le_of_lt (Msg.text_length hF ht ho hm) (by norm_num))

omit [Scalar K] in
theorem output_eq {F : NumText K} (hF : F.Short) {time : String} (ht : time.length ≤ 40) {o : Params K}
    (ho : o.IntLimits) {log : List (Msg K)} (hm : ∀ m ∈ log, m.Within o) :
    output F time log = String.join (log.map (Msg.text F time)) := by
  unfold output
  congr 1
  exact List.map_congr_left fun m h => Msg.printed_eq hF ht ho (hm m h)

omit [Scalar K] in
theorem Msg.printed_formatted {F : NumText K} (hF : F.Short) {time : String} (ht : time.length ≤ 40) {o : Params K}
    (ho : o.IntLimits) {m : Msg K} (hm : m.Within o) : m.printed F time = m.formatted F time := by
  rw [Msg.formatted_eq, Msg.printed_eq hF ht ho hm]

omit [Scalar K] in
theorem output_formatted {F : NumText K} (hF : F.Short) {time : String} (ht : time.length ≤ 40) {o : Params K}
    (ho : o.IntLimits) {log : List (Msg K)} (hm : ∀ m ∈ log, m.Within o) :
    output F time log = String.join (log.map (Msg.formatted F time)) := by
  rw [output_eq hF ht ho hm]
  congr 1
  exact List.map_congr_left fun m _ => (Msg.formatted_eq F time m).symm

/-- C66: whatever `FBstabDense::Solve` prints, at every display level, whether it returns or throws, is printed in
full: nothing is lost in the buffer of 100 characters, and each message is what `printf` makes of its format string
and arguments (`Verif/Spec/Printf.lean`). -/
theorem C66_dense {F : NumText K} (hF : F.Short) {time : String} (ht : time.length ≤ 40) (s : FBstabDense K)
    (ho : s.options.IntLimits) (qp : DenseProblem K) (x : CallerVar K) (hy : x.YWritable s.nv) :
    (∀ m ∈ (s.solve qp x).log, m.printed F time = m.formatted F time) ∧
    output F time (s.solve qp x).log = String.join ((s.solve qp x).log.map (Msg.formatted F time)) :=
  ⟨fun m h => Msg.printed_formatted hF ht ho (s.log_within qp x hy m h), output_formatted hF ht ho (s.log_within qp x hy)⟩

/-- C66 for `FBstabMpc::Solve`. -/
theorem C66_mpc (h0 : ((0 : K) == 0) = true) {F : NumText K} (hF : F.Short) {time : String} (ht : time.length ≤ 40)
    (s : FBstabMpc K) (ho : s.options.IntLimits) (p : MpcProblem K) (x : CallerVar K) :
    (∀ m ∈ (s.solve p x).log, m.printed F time = m.formatted F time) ∧
    output F time (s.solve p x).log = String.join ((s.solve p x).log.map (Msg.formatted F time)) :=
  ⟨fun m h => Msg.printed_formatted hF ht ho (s.log_within h0 p x m h), output_formatted hF ht ho (s.log_within h0 p x)⟩

omit [Scalar K] in
theorem summary_text (F : NumText K) (time : String) (o : Params K) (out : SolverOut K) (rz rl rv tol : K) :
    String.join ((summary o out rz rl rv tol).map (Msg.text F time)) = summaryText F time o out rz rl rv tol := by
  have e : Msg.text F time .finalColumns = "      |rz|        |rl|        |rv|   Tolerance\n" := by
    show padLeft 10 "|rz|" ++ "  " ++ padLeft 10 "|rl|" ++ "  " ++ padLeft 10 "|rv|" ++ "  " ++
      padLeft 10 "Tolerance" ++ "\n" = _
    decide
  have e' : String.join ((summary o out rz rl rv tol).map (Msg.text F time)) =
      "" ++ Msg.text F time .finalBanner ++ Msg.text F time (.finalFlag out.eflag) ++ Msg.text F time .finalTime ++
      Msg.text F time (.finalProx out.proxIters o.maxProxIters) ++
      Msg.text F time (.finalNewton out.newtonIters o.maxNewtonIters) ++ Msg.text F time .finalColumns ++
      Msg.text F time (.finalNorms rz rl rv tol) ++ Msg.text F time .finalBlank := rfl
  rw [e', e, String.empty_append]
  have ef : Msg.text F time (.finalFlag out.eflag) = out.eflag.words := by
    rw [← ExitFlag.text_eq_words]
    unfold Msg.text
    exact rfl
  rw [ef]
  rfl

/-- C66, level FINAL: the text printed when `FBstabDense::Solve` returns. -/
theorem C66_final_dense {F : NumText K} (hF : F.Short) {time : String} (ht : time.length ≤ 40) (s : FBstabDense K)
    (ho : s.options.IntLimits) (hd : s.options.displayLevel = .final) (qp : DenseProblem K) (x : CallerVar K)
    (out : SolverOut K) (h : (s.solve qp x).result = .ok out) :
    ∃ rz rl rv, out.residual = Scalar.sqrt (rz * rz + rl * rl + rv * rv) ∧
      output F time (s.solve qp x).log =
        summaryText F time s.options out rz rl rv (stoppingTol (s.problem qp) s.options) := by
  obtain ⟨pre, rz, rl, rv, h1, h2, h3⟩ := C14_summary_dense s qp x (by rw [hd]; decide) out h
  refine ⟨rz, rl, rv, h2, ?_⟩
  rw [output_eq hF ht ho (s.log_within qp x (FBstabDense.returned h).2.1), h1, h3 hd, List.nil_append, summary_text]

/-- C66, level FINAL, for `FBstabMpc::Solve`. -/
theorem C66_final_mpc (h0 : ((0 : K) == 0) = true) {F : NumText K} (hF : F.Short) {time : String}
    (ht : time.length ≤ 40) (s : FBstabMpc K) (ho : s.options.IntLimits) (hd : s.options.displayLevel = .final)
    (p : MpcProblem K) (x : CallerVar K) (out : SolverOut K) (h : (s.solve p x).result = .ok out) :
    ∃ rz rl rv, out.residual = Scalar.sqrt (rz * rz + rl * rl + rv * rv) ∧
      output F time (s.solve p x).log =
        summaryText F time s.options out rz rl rv (stoppingTol (s.problem p) s.options) := by
  obtain ⟨pre, rz, rl, rv, h1, h2, h3⟩ := C14_summary_mpc h0 s p x (by rw [hd]; decide) out h
  refine ⟨rz, rl, rv, h2, ?_⟩
  rw [output_eq hF ht ho (s.log_within h0 p x), h1, h3 hd, List.nil_append, summary_text]

end

/-- C66 for `double`: printed with `%.4e` and `%e`. -/
theorem C66_binary64_dense {time : String} (ht : time.length ≤ 40) (s : FBstabDense Binary64)
    (ho : s.options.IntLimits) (qp : DenseProblem Binary64) (x : CallerVar Binary64) (hy : x.YWritable s.nv) :
    output Binary64.numText time (s.solve qp x).log =
      String.join ((s.solve qp x).log.map (Msg.formatted Binary64.numText time)) :=
  (C66_dense Binary64.numText_short ht s ho qp x hy).2

/-- C66 for `double`, `FBstabMpc`. -/
theorem C66_binary64_mpc {time : String} (ht : time.length ≤ 40) (s : FBstabMpc Binary64)
    (ho : s.options.IntLimits) (p : MpcProblem Binary64) (x : CallerVar Binary64) :
    output Binary64.numText time (s.solve p x).log =
      String.join ((s.solve p x).log.map (Msg.formatted Binary64.numText time)) :=
  (C66_mpc Binary64.rounding.beqOk.zero Binary64.numText_short ht s ho p x).2

end Fbstab
