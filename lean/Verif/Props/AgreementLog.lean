import Verif.Props.Method
import Verif.Props.Agreement
import Verif.Props.QuadraticMpc

/-!
# C26: `FBstabMpc` and `FBstabDense` print the same

The two solvers do not only return the same: they print the same, message by message.  The one exception is the
number shown, at the display level ITER, as residual of the subproblem before there was one: it is left over from
the previous call of the object.
-/

namespace Fbstab
open Matrix

/-- The message without the residual of the subproblem shown in the line about iterate 0. -/
def Msg.blank : Msg ℝ → Msg ℝ
  | .iterLine k n rz rl rv sub tol => .iterLine k n rz rl rv (if k = 0 then 0 else sub) tol
  | m => m

namespace Method
variable {nz nl nv : Nat} {q : QP nz nl nv} {o : Params ℝ}

theorem Solved.other {s : Iterate nz nl nv} {f} {sub : ℝ} (h : Solved q o s f) :
    Solved q o { s with sub := sub } f := ⟨h.goes, h.bounds, h.inner⟩

theorem iterLine_blank (s : Iterate nz nl nv) (h : s.k = 0) (sub : ℝ) :
    (iterLine q o { s with sub := sub }).blank = (iterLine q o s).blank := by
  simp only [iterLine, Msg.blank, h, if_true]

theorem opening_blank (s : Iterate nz nl nv) (h : s.k = 0) (sub : ℝ) :
    (opening q o { s with sub := sub }).map Msg.blank = (opening q o s).map Msg.blank := by
  simp only [opening, List.map_cons, List.map_nil, iterLine_blank s h sub]

/-- The number left over only shows in the line about iterate 0. -/
theorem Outer.other {E0 : ℝ} {s : Iterate nz nl nv} {r} (h : Outer q o E0 s r) (hk : s.k = 0) (sub : ℝ) :
    ∃ r', Outer q o E0 { s with sub := sub } r' ∧ r'.value = r.value ∧
      r'.log.map Msg.blank = r.log.map Msg.blank := by
  cases h with
  | proxLimit h => exact ⟨_, .proxLimit h, rfl, rfl⟩
  | success h1 h2 =>
    refine ⟨_, .success h1 h2, rfl, ?_⟩
    simp only [finish, List.map_append, List.map_cons, List.map_nil, iterLine_blank s hk sub]
  | throws h1 h2 h3 => exact ⟨_, .throws h1 h2 h3, rfl, opening_blank s hk sub⟩
  | newtonLimit h1 hf hn hx =>
    refine ⟨_, .newtonLimit h1 hf.other hn hx, rfl, ?_⟩
    simp only [finish, List.map_append, opening_blank s hk sub]
  | infeasible h1 hf hn hc he =>
    refine ⟨_, .infeasible h1 hf.other hn hc he, rfl, ?_⟩
    simp only [finish, List.map_append, opening_blank s hk sub]
  | step h1 hf hn hc hr =>
    refine ⟨_, .step h1 hf.other hn hc hr, rfl, ?_⟩
    simp only [List.map_append, opening_blank s hk sub]

theorem Run.other {x : PD nz nl nv} {sub : ℝ} {r} (h : Run q o x sub r) (sub' : ℝ) :
    ∃ r', Run q o x sub' r' ∧ r'.value = r.value ∧ r'.log.map Msg.blank = r.log.map Msg.blank := by
  cases h with
  | throws h => exact ⟨_, .throws h, rfl, rfl⟩
  | starts h hr =>
    obtain ⟨r', h1, h2, h3⟩ := hr.other rfl sub'
    exact ⟨_, .starts h h1, h2, by simp only [List.map_cons, h3]⟩

theorem visible_blank (d : Display) (m : Msg ℝ) : visible d m.blank = visible d m := by
  cases m <;> rfl

theorem filter_blank (d : Display) (l : List (Msg ℝ)) :
    (l.filter (visible d)).map Msg.blank = (l.map Msg.blank).filter (visible d) := by
  rw [List.filter_map]
  congr 1
  refine List.filter_congr fun m _ => ?_
  exact (visible_blank d m).symm

theorem blank_of_visible {d : Display} (hd : d ≠ .iter) {m : Msg ℝ} (h : visible d m = true) : m.blank = m := by
  cases m <;> first | rfl | exact absurd (of_decide_eq_true h) hd

theorem map_blank_eq {d : Display} (hd : d ≠ .iter) (l : List (Msg ℝ)) :
    (l.filter (visible d)).map Msg.blank = l.filter (visible d) := by
  refine (List.map_congr_left fun m hm => ?_).trans (List.map_id _)
  exact blank_of_visible hd (List.mem_filter.1 hm).2

end Method

/-- C26, what is printed: with the same options, guess and problem, `FBstabMpc::Solve` and `FBstabDense::Solve`
print the same messages with the same numbers, except that the residual of the subproblem shown in the line about
iterate 0 at the display level ITER may differ; the logs are equal at the other display levels, and at all levels if
neither object has solved a problem before. -/
theorem C26_log (s : FBstabMpc ℝ) (hs : s.Reachable) (p : MpcProblem ℝ) (x : CallerVar ℝ)
    (hfit : MpcFits s.N s.nx s.nu s.nc p x) (hcol : p.Columns) (hc : (s.ocp p).Convex)
    (sd : FBstabDense ℝ) (hsd : sd.Reachable)
    (hz : sd.nz = (s.N + 1) * (s.nx + s.nu)) (hl : sd.nl = (s.N + 1) * s.nx)
    (hv : sd.nv = (s.N + 1) * s.nc) (hopt : sd.options = s.options)
    (d : DenseProblem ℝ)
    (hd : DenseFits ((s.N + 1) * (s.nx + s.nu)) ((s.N + 1) * s.nx) ((s.N + 1) * s.nc) d x)
    (hq : QP.ofDense (d.toData _ _ _) = s.qp p) :
    (sd.solve d x).log.map Msg.blank = (s.solve p x).log.map Msg.blank ∧
    (s.options.displayLevel ≠ .iter → (sd.solve d x).log = (s.solve p x).log) ∧
    ∀ junk N nx nu nc s0 os junk' nz nl nv sd0 os',
      FBstabMpc.new junk N nx nu nc = .ok s0 → s = s0.after (List.map .updateOptions os) →
      FBstabDense.new junk' nz nl nv = .ok sd0 → sd = sd0.after (List.map .updateOptions os') →
      (sd.solve d x).log = (s.solve p x).log := by
  have ho := C01_reachable_mpc s hs
  have hcq : (s.qp p).Convex := (s.newtonEnv ho p hc).convex
  obtain ⟨sub, r, h1, h0, h2, -⟩ := C54_mpc s hs p x hfit hcol hc
  have key : ∃ sub' r', Method.Run (s.qp p) s.options ⟨(x.z.toVec _).fn, (x.l.toVec _).fn, (x.v.toVec _).fn⟩
      sub' r' ∧ (∀ junk nz nl nv s0 (os : List (Params ℝ)), FBstabDense.new junk nz nl nv = .ok s0 →
        sd = s0.after (os.map .updateOptions) → sub' = 0) ∧
      (sd.solve d x).log = r'.log.filter (Method.visible s.options.displayLevel) := by
    obtain ⟨nz, nl, nv, mem⟩ := sd
    dsimp only at hz hl hv
    subst hz hl hv
    obtain ⟨sub', r', k1, k0, k2, -⟩ := C54_dense
      (⟨(s.N + 1) * (s.nx + s.nu), (s.N + 1) * s.nx, (s.N + 1) * s.nc, mem⟩ : FBstabDense ℝ) hsd d x hd
      (fun _ => hfit.y) (by
        have : FBstabDense.qp (⟨(s.N + 1) * (s.nx + s.nu), (s.N + 1) * s.nx, (s.N + 1) * s.nc, mem⟩ :
          FBstabDense ℝ) d = s.qp p := hq
        rw [this]; exact hcq)
    rw [hopt] at k1 k2
    have e : FBstabDense.qp (⟨(s.N + 1) * (s.nx + s.nu), (s.N + 1) * s.nx, (s.N + 1) * s.nc, mem⟩ :
          FBstabDense ℝ) d = s.qp p := hq
    rw [e] at k1
    exact ⟨sub', r', k1, k0, k2⟩
  obtain ⟨sub', r', k1, k0, k2⟩ := key
  have hb : r'.log.map Msg.blank = r.log.map Msg.blank := by
    obtain ⟨r2, e1, -, e3⟩ := h1.other sub'
    rw [C54_unique hcq ho k1 e1, e3]
  refine ⟨?_, ?_, ?_⟩
  · rw [h2, k2, Method.filter_blank, Method.filter_blank, hb]
  · intro hd
    rw [h2, k2, ← Method.map_blank_eq hd r'.log, ← Method.map_blank_eq hd r.log, Method.filter_blank,
      Method.filter_blank, hb]
  · intro junk N nx nu nc s0 os junk' nz nl nv sd0 os' a1 a2 b1 b2
    have e1 := h0 junk N nx nu nc s0 os a1 a2
    have e2 := k0 junk' nz nl nv sd0 os' b1 b2
    subst e1
    subst e2
    rw [h2, k2, C54_unique hcq ho k1 h1]

/-- C26, the hypotheses can be met: the problem of C68 with the two solvers; both print the same lines, at least one
of them about a Newton step. -/
example (junk : MpcJunk ℝ) (junk' : DenseJunk ℝ) :
    let s := FBstabMpc.made junk 1 1 1 1 capOptions
    let sd := FBstabDense.made junk' ((1 + 1) * (1 + 1)) ((1 + 1) * 1) ((1 + 1) * 1) capOptions
    let x : CallerVar ℝ := fullGuessOf capOcpGuess.z capOcpGuess.l capOcpGuess.v
    (sd.solve capOcp.toQP.toDense x).log = (s.solve capOcp.toMpc x).log ∧
      ∃ rz rl rv, .detailedLine 1 1 rz rl rv ∈ (sd.solve capOcp.toQP.toDense x).log := by
  intro s sd x
  have ho : s.ocp capOcp.toMpc = capOcp := FBstabMpc.made_ocp junk _ _
  have hq : s.qp capOcp.toMpc = capOcp.toQP := FBstabMpc.made_qp junk _ _
  have hr : s.Reachable := FBstabMpc.made_reachable junk _ (by norm_num) (by norm_num)
    (by norm_num) (by norm_num) (by norm_num [intLimit]) (by norm_num [intLimit]) capOptions_inRange
  have hrd : sd.Reachable :=
    FBstabDense.made_reachable junk' _ (by norm_num) (by norm_num) (by norm_num [intLimit]) capOptions_inRange
  have hfit := capOcp.toMpc_fits capOcpGuess.z capOcpGuess.l capOcpGuess.v
  obtain ⟨e1, e2⟩ := C26_exists s capOcp.toMpc x hfit
  rw [hq] at e1 e2
  have e := (C26_log s hr capOcp.toMpc x hfit capOcp.toMpc_columns (ho ▸ capOcp_convex) sd hrd rfl rfl rfl rfl
    capOcp.toQP.toDense e1 (e2.trans hq.symm)).2.1 (by show Display.iterDetailed ≠ .iter; decide)
  exact ⟨e, by rw [e]; exact (C68_example_mpc junk).2.1⟩

end Fbstab
