import Verif.Props.Finite
import Verif.Props.Isolation
import Verif.Proofs.Witness
import Verif.Proofs.NanRun
import Verif.Proofs.UpWs

/-!
# C09, C49 for FBstabDense over histories, with infinities and NaN

The workspaces of the feasibility checker survive from call to call.  In arithmetic with infinities
and NaN a call depends on them only through infinities and NaN in them, and calls with finite data
put none there.
-/

namespace Fbstab

/-- A call with finite data. -/
noncomputable def DenseCall.up : DenseCall ℝ → DenseCall XReal
  | .updateOptions o => .updateOptions o.up
  | .solve qp x => .solve qp.up x.up

/-- The guess of the call can be returned in (otherwise an assertion of Eigen fails). -/
def DenseCall.YWritable (nv : Nat) : DenseCall ℝ → Prop
  | .updateOptions _ => True
  | .solve _ x => x.YWritable nv

/-- The two objects are in corresponding states, as far as later calls can tell. -/
structure FBstabDense.Mirrors (s' : FBstabDense XReal) (s : FBstabDense ℝ) : Prop where
  nz : s'.nz = s.nz
  nl : s'.nl = s.nl
  nv : s'.nv = s.nv
  options : s'.options = s.options.up
  range : s.options.InRange
  clean : s'.mem.feas.ws.Finite

theorem FBstabDense.upEnv {nz nl nv : Nat} (p : DenseProblem ℝ) {o : Params ℝ} (hr : o.InRange)
    {W : FeasWs ℝ nz nl nv → FeasWs XReal nz nl nv → Prop}
    (hW : o.checkFeasibility = true → ∀ x ws ws', W ws ws' →
          (checkFeasibility (p.up.toData nz nl nv).ops x.up (up o.infeasTol) ws').1 =
            (checkFeasibility (p.toData nz nl nv).ops x o.infeasTol ws).1 ∧
          W (checkFeasibility (p.toData nz nl nv).ops x o.infeasTol ws).2
            (checkFeasibility (p.up.toData nz nl nv).ops x.up (up o.infeasTol) ws').2) :
    Core.UpEnv (Core.env (denseSem ℝ nz nl nv) (p.toData nz nl nv) (p.toData nz nl nv).ops o)
      (Core.env (denseSem XReal nz nl nv) (p.up.toData nz nl nv) (p.up.toData nz nl nv).ops o.up)
      W := by
  obtain ⟨i1, i2, i3⟩ := hr.divisors
  constructor
  · rfl
  · rw [DenseProblem.up_toData]; exact DenseData.up_ops _
  · intro a b
    have := up_denseFactor (p.toData nz nl nv) i1 i2 i3 a b
    simp only [denseSem]
    rw [DenseProblem.up_toData]
    exact this
  · exact hW

/-- A call with finite data leaves no infinities and no NaN in the memory of the feasibility
checker. -/
theorem FBstabDense.Mirrors.solve {s' : FBstabDense XReal} {s : FBstabDense ℝ} (h : s'.Mirrors s)
    (p : DenseProblem ℝ) (x : CallerVar ℝ) (hy : x.YWritable s.nv) :
    (s'.solve p.up x.up).solver.Mirrors (s.solve p x).solver := by
  obtain ⟨nz, nl, nv, mem⟩ := s
  obtain ⟨nz', nl', nv', mem'⟩ := s'
  obtain ⟨hz, hl, hv, ho, hr, hw⟩ := h
  dsimp only at hz hl hv
  subst hz hl hv
  by_cases hf : DenseFits nz' nl' nv' p x
  · have hf' := (DenseFits.up_iff _ _ _ p x).2 hf
    have o1 := C03_solve_dense (⟨nz', nl', nv', mem⟩ : FBstabDense ℝ) p x
    have o2 := C03_solve_dense (⟨nz', nl', nv', mem'⟩ : FBstabDense XReal) p.up x.up
    have w' := FBstabDense.solve_ws (s := ⟨nz', nl', nv', mem'⟩) hf'
      ((CallerVar.up_YWritable _ _).2 hy)
    have z1 := FBstabDense.solve_fits (s := ⟨nz', nl', nv', mem⟩) hf
    have z2 := FBstabDense.solve_fits (s := ⟨nz', nl', nv', mem'⟩) hf'
    rw [ho] at w'
    refine ⟨by rw [z1, z2], by rw [z1, z2], by rw [z1, z2], by rw [o1, o2]; exact ho,
      by rw [o1]; exact hr, ?_⟩
    rw [z2]
    show FeasWs.Finite (runSolve _ _ mem' _).solver.feas.ws
    rw [w']
    obtain ⟨⟨a, ha⟩, ⟨b, hb⟩, ⟨c, hc⟩⟩ := hw
    have e1 : mem'.feas.ws = FeasWs.up ⟨a, b, c⟩ := by
      simp only at ha hb hc
      cases hws : mem'.feas.ws with | mk tz tl tv =>
      rw [hws] at ha hb hc
      simp only at ha hb hc
      rw [ha, hb, hc]; rfl
    have := (FBstabDense.upEnv (nz := nz') (nl := nl') (nv := nv') p hr (W := fun w w' => w' = w.up)
      (fun _ y w w' h => by
        subst h
        rw [DenseProblem.up_toData, (DenseData.up_ops _).checkFeasibility]
        exact ⟨rfl, rfl⟩)).solveWs ⟨a, b, c⟩ mem'.feas.ws e1 (x.z.toVec nz')
        (x.l.toVec nl') (x.v.toVec nv')
    simp only [CallerVar.up, DVec.up_toVec]
    refine (congrArg FeasWs.Finite this).mpr ?_
    exact ⟨⟨_, rfl⟩, ⟨_, rfl⟩, ⟨_, rfl⟩⟩
  · obtain ⟨m, h1, -⟩ := FBstabDense.solve_rejects (s := ⟨nz', nl', nv', mem⟩) hf
    obtain ⟨m', h2, -⟩ := FBstabDense.solve_rejects (s := ⟨nz', nl', nv', mem'⟩)
      (fun h => hf ((DenseFits.up_iff _ _ _ p x).1 h))
    rw [h1, h2]
    exact ⟨rfl, rfl, rfl, ho, hr, hw⟩

theorem FBstabDense.Mirrors.updateOptions {s' : FBstabDense XReal} {s : FBstabDense ℝ}
    (h : s'.Mirrors s) (o : Params ℝ) : (s'.updateOptions o.up).2.Mirrors (s.updateOptions o).2 := by
  obtain ⟨hz, hl, hv, ho, hr, hw⟩ := h
  have e := Params.up_validate o
  rw [validate_real] at e
  have e1 : s.updateOptions o = (.ok (), { s with mem := { s.mem with opts := validatedReal o } }) := by
    simp only [FBstabDense.updateOptions, AlgMem.updateParameters, validate_real]
  have e2 : s'.updateOptions o.up =
      (.ok (), { s' with mem := { s'.mem with opts := (validatedReal o).up } }) := by
    simp only [FBstabDense.updateOptions, AlgMem.updateParameters, e, Except.map]
  rw [e1, e2]
  exact ⟨hz, hl, hv, rfl, validatedReal_inRange o, hw⟩

theorem FBstabDense.Mirrors.after (h : List (DenseCall ℝ)) : ∀ {s' : FBstabDense XReal}
    {s : FBstabDense ℝ}, s'.Mirrors s → (∀ c ∈ h, c.YWritable s.nv) →
    (s'.after (h.map DenseCall.up)).Mirrors (s.after h) := by
  induction h with
  | nil => intro s' s hm _; exact hm
  | cons c h ih =>
    intro s' s hm hy
    have hc := hy c (List.mem_cons_self ..)
    have hv : (c.apply s).nv = s.nv := by
      cases c with
      | solve qp x => exact (s.solve_sizes qp x).2.2
      | updateOptions o => exact (s.updateOptions_sizes o).2.2
    have hstep : (c.up.apply s').Mirrors (c.apply s) := by
      cases c with
      | solve qp x => exact hm.solve qp x hc
      | updateOptions o => exact hm.updateOptions o
    exact ih hstep fun c' hc' => by rw [hv]; exact hy c' (List.mem_cons_of_mem _ hc')

theorem FBstabDense.new_feas {K : Type} [Scalar K] {junk : DenseJunk K} {nz nl nv : Int}
    {s : FBstabDense K} (h : FBstabDense.new junk nz nl nv = .ok s) :
    s.mem.feas.ws = junk.feas s.nz s.nl s.nv := by
  unfold FBstabDense.new at h
  by_cases hb : nz ≤ 0 ∨ nv ≤ 0 ∨ nl < 0
  · simp only [hb, if_true] at h; cases h
  · have hb' : ¬(nz ≤ 0 ∨ nl < 0 ∨ nv ≤ 0) := by omega
    simp only [hb, if_false, componentCheck, hb'] at h
    by_cases ho : (intLimit : Int) ≤ nz + nl
    · simp only [ho, if_true] at h; cases h
    · simp only [ho, if_false] at h
      cases h
      rfl

theorem Params.up_defaults : (Params.defaults : Params XReal) = Params.up Params.defaults := rfl

theorem FBstabDense.Mirrors.new {junk : DenseJunk ℝ} {junk' : DenseJunk XReal} {nz nl nv : Int}
    {s : FBstabDense ℝ} {s' : FBstabDense XReal}
    (hs : FBstabDense.new junk nz nl nv = .ok s) (hs' : FBstabDense.new junk' nz nl nv = .ok s')
    (hj : ∀ a b c, (junk'.feas a b c).Finite) : s'.Mirrors s := by
  obtain ⟨a0, a1, a2, a3, -⟩ := FBstabDense.new_facts hs
  obtain ⟨b0, b1, b2, b3, -⟩ := FBstabDense.new_facts hs'
  refine ⟨by omega, by omega, by omega, by rw [a0, b0]; exact Params.up_defaults,
    by rw [a0]; exact defaults_inRange, ?_⟩
  rw [FBstabDense.new_feas hs']
  exact hj _ _ _

/-- C49 for whole histories of an FBstabDense object.  Take an object that was constructed in memory
free of infinities and NaN (in the workspaces of the feasibility checker), and any history of calls
of `UpdateOptions` and `Solve` in which all numbers are finite.  In arithmetic with infinities and
NaN, the next `Solve` with finite data does what it does in real arithmetic, after the same history
in real arithmetic. -/
theorem C49_history_dense (junk : DenseJunk ℝ) (junk' : DenseJunk XReal) (nz nl nv : Int)
    (s : FBstabDense ℝ) (s' : FBstabDense XReal)
    (hs : FBstabDense.new junk nz nl nv = .ok s) (hs' : FBstabDense.new junk' nz nl nv = .ok s')
    (hj : ∀ a b c, (junk'.feas a b c).Finite)
    (h : List (DenseCall ℝ)) (hy : ∀ c ∈ h, c.YWritable s.nv)
    (p : DenseProblem ℝ) (x : CallerVar ℝ) (hx : x.YWritable s.nv) :
    ((s'.after (h.map DenseCall.up)).solve p.up x.up).result =
      ((s.after h).solve p x).result.map SolverOut.up ∧
    ((s'.after (h.map DenseCall.up)).solve p.up x.up).x = ((s.after h).solve p x).x.up := by
  have hm := (FBstabDense.Mirrors.new hs hs' hj).after h hy
  have hv := (s.after_sizes h).2.2
  exact C49_dense _ _ hm.nz hm.nl hm.nv hm.options hm.range (.inr hm.clean) p x (by rw [hv]; exact hx)

/-- C09 for FBstabDense in arithmetic with infinities and NaN, as long as no infinity and no NaN has
ever been passed to the objects: two objects constructed with the same sizes in memory free of
infinities and NaN, whatever finite calls were made on them since, do the same in the next call if
their last `UpdateOptions` was the same (or there was none). -/
theorem C09_finite_dense (junk junk' : DenseJunk XReal) (nz nl nv : Int) (s s' : FBstabDense XReal)
    (hs : FBstabDense.new junk nz nl nv = .ok s) (hs' : FBstabDense.new junk' nz nl nv = .ok s')
    (hj : ∀ a b c, (junk.feas a b c).Finite) (hj' : ∀ a b c, (junk'.feas a b c).Finite)
    (h h' : List (DenseCall ℝ)) (hh : DenseCall.lastOptions h = DenseCall.lastOptions h')
    (hy : ∀ c ∈ h, c.YWritable s.nv) (hy' : ∀ c ∈ h', c.YWritable s.nv)
    (p : DenseProblem ℝ) (x : CallerVar ℝ) (hx : x.YWritable s.nv) :
    ((s.after (h.map DenseCall.up)).solve p.up x.up).SameAs
      ((s'.after (h'.map DenseCall.up)).solve p.up x.up) := by
  obtain ⟨-, a1, a2, a3, a4⟩ := FBstabDense.new_facts hs
  obtain ⟨-, b1, b2, b3, -⟩ := FBstabDense.new_facts hs'
  have hi : ¬((intLimit : Int) ≤ nz + nl) := by
    intro hi
    have hb : ¬(nz ≤ 0 ∨ nv ≤ 0 ∨ nl < 0) := by omega
    have hb' : ¬(nz ≤ 0 ∨ nl < 0 ∨ nv ≤ 0) := by omega
    unfold FBstabDense.new at hs
    simp only [hb, if_false, componentCheck, hb', hi, if_true] at hs
    cases hs
  have hr := FBstabDense.new_ok (K := ℝ) .zeros (nz := s.nz) (nl := s.nl) (nv := s.nv) (by omega)
    (by omega) (by omega)
  rw [a1, a2, a3] at hr
  generalize (⟨s.nz, s.nl, s.nv, _⟩ : FBstabDense ℝ) = r at hr
  have hrv : r.nv = s.nv := by
    obtain ⟨-, -, -, c3, -⟩ := FBstabDense.new_facts hr
    omega
  have k1 := C49_history_dense .zeros junk nz nl nv r s hr hs hj h (by rw [hrv]; exact hy) p x
    (by rw [hrv]; exact hx)
  have k2 := C49_history_dense .zeros junk' nz nl nv r s' hr hs' hj' h' (by rw [hrv]; exact hy') p x
    (by rw [hrv]; exact hx)
  have k3 := C09_history_dense (K := ℝ) (by simp) C01_validation_total_real .zeros .zeros nz nl nv r r
    hr hr h h' hh p x
  generalize ((r.after h).solve p x) = o1 at k1 k3
  generalize ((r.after h').solve p x) = o2 at k2 k3
  generalize ((s.after (h.map DenseCall.up)).solve p.up x.up) = q1 at k1 ⊢
  generalize ((s'.after (h'.map DenseCall.up)).solve p.up x.up) = q2 at k2 ⊢
  constructor
  · intro out ho
    rw [k1.1] at ho
    cases hq : o1.result with
    | error e => rw [hq] at ho; cases ho
    | ok out' =>
      rw [hq] at ho
      obtain ⟨e1, e2⟩ := k3.ok out' hq
      rw [k2.1, k2.2, k1.2, e1, e2]
      exact ⟨ho, rfl⟩
  · intro m ho
    rw [k1.1] at ho
    cases hq : o1.result with
    | error e =>
      rw [hq] at ho
      cases ho
      rw [k2.1, k3.error m hq]; rfl
    | ok out' => rw [hq] at ho; cases ho

end Fbstab
