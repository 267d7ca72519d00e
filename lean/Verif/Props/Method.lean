import Verif.Proofs.Method
import Verif.Proofs.ExactStep
import Verif.Proofs.Runs

/-!
# C54: `Solve` performs the method

On convex problems and over the reals, `Solve` does exactly what `Method.Run` says: the point it returns,
its report, everything it prints and whether it throws are those of the only result of the method.
-/

namespace Fbstab
open Matrix

namespace Method
variable {nz nl nv : Nat} {q : QP nz nl nv} {o : Params ℝ}

theorem IsDirection.unique (hc : q.Convex) (ho : o.InRange) {c x d d' : PD nz nl nv}
    (h : IsDirection q o c x d) (h' : IsDirection q o c x d') : d = d' := by
  have hal := ho.alpha_pos
  have hal' := ho.alpha_lt
  have hsig := ho.sigma_pos
  have hn : ∀ i, 0 ≤ (phiSlopes o.alpha (pairs q o c x i) (x.v i)).1 := fun i => by
    rw [← phiSlopes_eq]; exact (pfbGradient_nonneg hal hal' _ _).1
  obtain ⟨h1, h2, h3⟩ := QP.NewtonSystem.unique hc hsig hn (fun i => by
    have h0 := hn i
    rw [← phiSlopes_eq] at h0 ⊢
    obtain ⟨-, g2⟩ := pfbGradient_nonneg hal hal' (pairs q o c x i) (x.v i)
    rcases pfbGradient_pos hal hal' (pairs q o c x i) (x.v i) with h | h
    · have := mul_pos hsig h; linarith
    · have := mul_nonneg hsig.le h0; linarith) h h'
  exact PD.ext h1 h2 h3

theorem Reductions.unique {c x d : PD nz nl nv} {ms : List ℝ} {j j' : Nat}
    (h : Reductions q o c x d ms j) (h' : Reductions q o c x d ms j') : j = j' := by
  rcases Nat.lt_trichotomy j j' with hlt | rfl | hlt
  · exact absurd (h.passed (by have := h'.le; omega)) (h'.failed j hlt)
  · rfl
  · exact absurd (h'.passed (by have := h.le; omega)) (h.failed j' hlt)

theorem Inner.unique (hc : q.Convex) (ho : o.InRange) {c : PD nz nl nv} {tol : ℝ} {i t n ms x f}
    (h : Inner q o c tol i t n ms x f) : ∀ {f'}, Inner q o c tol i t n ms x f' → f = f' := by
  induction h with
  | accept hi ha =>
    intro f' h'
    cases h' with
    | accept => rfl
    | newtonLimit _ ha' => exact absurd ha ha'
    | innerLimit _ ha' => exact absurd ha ha'
    | step _ ha' => exact absurd ha ha'
  | newtonLimit hi ha hn =>
    intro f' h'
    cases h' with
    | accept _ ha' => exact absurd ha' ha
    | newtonLimit => rfl
    | innerLimit _ _ hn' => exact absurd hn (by omega)
    | step _ _ hn' => exact absurd hn (by omega)
  | innerLimit hi ha hn hd hj =>
    intro f' h'
    cases h' with
    | accept _ ha' => exact absurd ha' ha
    | newtonLimit _ _ hn' => exact absurd hn (by omega)
    | innerLimit _ _ _ hd' hj' =>
      cases hd.unique hc ho hd'
      cases hj.unique hj'
      rfl
    | step hi' => exact absurd hi (by omega)
  | step hi ha hn hd hj hr ih =>
    intro f' h'
    cases h' with
    | accept _ ha' => exact absurd ha' ha
    | newtonLimit _ _ hn' => exact absurd hn (by omega)
    | innerLimit hi' => exact absurd hi (by omega)
    | step _ _ _ hd' hj' hr' =>
      cases hd.unique hc ho hd'
      cases hj.unique hj'
      rw [ih hr']

theorem Solved.unique (hc : q.Convex) (ho : o.InRange) {s : Iterate nz nl nv} {f f'}
    (h : Solved q o s f) (h' : Solved q o s f') : f = f' := h.inner.unique hc ho h'.inner

theorem Flag.unique {d : PD nz nl nv} {e e'} (h : Flag q o d e) (h' : Flag q o d e') : e = e' := by
  cases h <;> cases h' <;> first | rfl | contradiction

theorem Outer.unique (hc : q.Convex) (ho : o.InRange) {E0 : ℝ} {s : Iterate nz nl nv} {r}
    (h : Outer q o E0 s r) : ∀ {r'}, Outer q o E0 s r' → r = r' := by
  induction h with
  | proxLimit hk =>
    intro r' h'
    cases h' with
    | proxLimit => rfl
    | success hk' => exact absurd hk (by omega)
    | throws hk' => exact absurd hk (by omega)
    | newtonLimit hk' => exact absurd hk (by omega)
    | infeasible hk' => exact absurd hk (by omega)
    | step hk' => exact absurd hk (by omega)
  | success hk hs =>
    intro r' h'
    cases h' with
    | proxLimit hk' => exact absurd hk (by omega)
    | success => rfl
    | throws _ hs' => exact absurd hs hs'
    | newtonLimit _ hf' => exact absurd hs hf'.goes
    | infeasible _ hf' => exact absurd hs hf'.goes
    | step _ hf' => exact absurd hs hf'.goes
  | throws hk hs hb =>
    intro r' h'
    cases h' with
    | proxLimit hk' => exact absurd hk (by omega)
    | success _ hs' => exact absurd hs' hs
    | throws => rfl
    | newtonLimit _ hf' => exact absurd hb (not_lt.2 hf'.bounds)
    | infeasible _ hf' => exact absurd hb (not_lt.2 hf'.bounds)
    | step _ hf' => exact absurd hb (not_lt.2 hf'.bounds)
  | newtonLimit hk hf hn hx =>
    intro r' h'
    cases h' with
    | proxLimit hk' => exact absurd hk (by omega)
    | success _ hs' => exact absurd hs' hf.goes
    | throws _ _ hb' => exact absurd hb' (not_lt.2 hf.bounds)
    | newtonLimit _ hf' _ hx' =>
      cases hf.unique hc ho hf'
      rcases hx with ⟨h1, rfl⟩ | ⟨h1, rfl⟩ <;> rcases hx' with ⟨h2, rfl⟩ | ⟨h2, rfl⟩ <;>
        first | rfl | exact absurd h1 h2 | exact absurd h2 h1
    | infeasible _ hf' hn' => cases hf.unique hc ho hf'; exact absurd hn (by omega)
    | step _ hf' hn' => cases hf.unique hc ho hf'; exact absurd hn (by omega)
  | infeasible hk hf hn hch he =>
    intro r' h'
    cases h' with
    | proxLimit hk' => exact absurd hk (by omega)
    | success _ hs' => exact absurd hs' hf.goes
    | throws _ _ hb' => exact absurd hb' (not_lt.2 hf.bounds)
    | newtonLimit _ hf' hn' => cases hf.unique hc ho hf'; exact absurd hn (by omega)
    | infeasible _ hf' _ _ he' =>
      cases hf.unique hc ho hf'
      cases he.unique he'
      rfl
    | step _ hf' _ hc' => cases hf.unique hc ho hf'; exact absurd he (hc' hch _)
  | step hk hf hn hch hr ih =>
    intro r' h'
    cases h' with
    | proxLimit hk' => exact absurd hk (by omega)
    | success _ hs' => exact absurd hs' hf.goes
    | throws _ _ hb' => exact absurd hb' (not_lt.2 hf.bounds)
    | newtonLimit _ hf' hn' => cases hf.unique hc ho hf'; exact absurd hn (by omega)
    | infeasible _ hf' _ hc' he' => cases hf.unique hc ho hf'; exact absurd he' (hch hc' _)
    | step _ hf' _ _ hr' =>
      cases hf.unique hc ho hf'
      rw [ih hr']

end Method

/-- C54, the method is deterministic: for a convex problem and validated options it has at most one
result for every initial guess. -/
theorem C54_unique {nz nl nv : Nat} {q : QP nz nl nv} (hc : q.Convex) {o : Params ℝ} (ho : o.InRange)
    {x : PD nz nl nv} {sub : ℝ} {r r' : Method.Result nz nl nv} (h : Method.Run q o x sub r)
    (h' : Method.Run q o x sub r') : r = r' := by
  cases h with
  | throws h =>
    cases h' with
    | throws => rfl
    | starts h' => exact absurd h (not_lt.2 h')
  | starts h hr =>
    cases h' with
    | throws h' => exact absurd h' (not_lt.2 h)
    | starts _ hr' => rw [hr.unique hc ho hr']

section
variable {K : Type} [Scalar K]

/-- The cached norms in the residual object of subproblems are zero before the first call. -/
def AlgMem.Untouched {D : Type} {nz nl nv : Nat} {ls : LinearSolver K D nz nl nv}
    (m : AlgMem K D nz nl nv ls) : Prop := m.ri.r.znorm = 0 ∧ m.ri.r.lnorm = 0 ∧ m.ri.r.vnorm = 0

theorem AlgMem.Untouched.update {D : Type} {nz nl nv : Nat} {ls : LinearSolver K D nz nl nv}
    {m : AlgMem K D nz nl nv ls} (h : m.Untouched) (o : Params K) :
    (match AlgMem.updateParameters o m with | .ok _ m => m | .error _ m => m).Untouched := by
  unfold AlgMem.updateParameters
  cases o.validate <;> exact h

theorem FBstabDense.unused {junk : DenseJunk K} {nz nl nv : Int} {s0 : FBstabDense K}
    (h : FBstabDense.new junk nz nl nv = .ok s0) : s0.mem.Untouched := by
  unfold FBstabDense.new at h
  by_cases hb : nz ≤ 0 ∨ nv ≤ 0 ∨ nl < 0
  · simp only [hb, if_true] at h; cases h
  · have hb' : ¬(nz ≤ 0 ∨ nl < 0 ∨ nv ≤ 0) := by omega
    simp only [hb, if_false, componentCheck, hb'] at h
    by_cases ho : (intLimit : Int) ≤ nz + nl
    · simp only [ho, if_true] at h; cases h
    · simp only [ho, if_false] at h
      cases h
      exact ⟨rfl, rfl, rfl⟩

theorem FBstabMpc.unused {junk : MpcJunk K} {N nx nu nc : Int} {s : FBstabMpc K}
    (h : FBstabMpc.new junk N nx nu nc = .ok s) : s.mem.Untouched := by
  unfold FBstabMpc.new at h
  by_cases hb : N < 1 ∨ nx < 1 ∨ nu < 1 ∨ nc < 1
  · simp only [hb, if_true] at h; cases h
  · have p1 : 0 < (nx + nu) * (N + 1) := Int.mul_pos (by omega) (by omega)
    have p2 : 0 < nx * (N + 1) := Int.mul_pos (by omega) (by omega)
    have p3 : 0 < nc * (N + 1) := Int.mul_pos (by omega) (by omega)
    have hb' : ¬((nx + nu) * (N + 1) ≤ 0 ∨ nx * (N + 1) < 0 ∨ nc * (N + 1) ≤ 0) := by omega
    have hb2 : ¬(N ≤ 0 ∨ nx ≤ 0 ∨ nu ≤ 0 ∨ nc ≤ 0) := by omega
    simp only [hb, if_false, componentCheck, hb', hb2] at h
    by_cases ho : (intLimit : Int) ≤ (nx + nu) * (N + 1) ∨ (intLimit : Int) ≤ nx * (N + 1) ∨
        (intLimit : Int) ≤ nc * (N + 1)
    · simp only [ho, if_true] at h; cases h
    · simp only [ho, if_false] at h
      cases h
      exact ⟨rfl, rfl, rfl⟩

theorem FBstabDense.Untouched.after {s : FBstabDense K} (h : s.mem.Untouched) (os : List (Params K)) :
    (s.after (os.map .updateOptions)).mem.Untouched := by
  induction os generalizing s with
  | nil => exact h
  | cons o os ih =>
    refine ih (s := (s.updateOptions o).2) ?_
    have := h.update o
    unfold FBstabDense.updateOptions
    revert this
    cases AlgMem.updateParameters o s.mem <;> exact id

theorem FBstabMpc.Untouched.after {s : FBstabMpc K} (h : s.mem.Untouched) (os : List (Params K)) :
    (s.after (os.map .updateOptions)).mem.Untouched := by
  induction os generalizing s with
  | nil => exact h
  | cons o os ih =>
    refine ih (s := (s.updateOptions o).2) ?_
    have := h.update o
    unfold FBstabMpc.updateOptions
    revert this
    cases AlgMem.updateParameters o s.mem <;> exact id

end

/-- C54: on a convex problem, over the reals, `FBstabDense::Solve` does exactly what the method says: `r`
is its only result, what is printed is what `r` shows at the display level in force, and either `r`
contains a report and a point, and these are returned, with the margins of the point, or an exception is
thrown, and the caller's vectors are untouched.  `sub` is the number that the first line of the log shows
before there is a subproblem; it is zero in the first call of `Solve`. -/
theorem C54_dense (s : FBstabDense ℝ) (hs : s.Reachable) (p : DenseProblem ℝ) (x : CallerVar ℝ)
    (hf : DenseFits s.nz s.nl s.nv p x) (hy : x.YWritable s.nv) (hc : (s.qp p).Convex) :
    ∃ sub r, Method.Run (s.qp p) s.options ⟨(x.z.toVec s.nz).fn, (x.l.toVec s.nl).fn, (x.v.toVec s.nv).fn⟩
        sub r ∧
      (∀ junk nz nl nv s0 (os : List (Params ℝ)), FBstabDense.new junk nz nl nv = .ok s0 →
        s = s0.after (os.map .updateOptions) → sub = 0) ∧
      (s.solve p x).log = r.log.filter (Method.visible s.options.displayLevel) ∧
      match r.value with
      | some (out, w) => (s.solve p x).result = .ok out ∧ (s.returnedPoint p x).z.fn = w.z ∧
          (s.returnedPoint p x).l.fn = w.l ∧ (s.returnedPoint p x).v.fn = w.v ∧
          (s.returnedPoint p x).y.fn = (s.qp p).b - (s.qp p).A *ᵥ w.z
      | none => (s.solve p x).result = .error Method.toleranceError ∧ (s.solve p x).x = x := by
  have N := s.newtonEnv (C01_reachable_dense s hs) p hc
  obtain ⟨r, h1, h2, h3⟩ := Method.solve_full N s.mem.feas.ws (x.z.toVec s.nz) (x.l.toVec s.nl) (x.v.toVec s.nv)
    s.mem.ri.r
  have hcm := FBstabDense.solve_computes (s := s) hf
  refine ⟨_, r, h1, ?_, ?_⟩
  · rintro junk nz nl nv s0 os hn rfl
    obtain ⟨a, b, c⟩ := FBstabDense.Untouched.after (FBstabDense.unused hn) os
    rw [Core.Resid.norm, a, b, c]
    simp
  · revert h3
    cases hv : r.value with
    | none =>
      intro h3
      obtain ⟨e1, e2, e3⟩ := hcm.error _ h3
      exact ⟨e3.trans h2, e1, e2⟩
    | some w =>
      obtain ⟨out, w⟩ := w
      rintro ⟨fin, h3, rfl, rfl, hm⟩
      obtain ⟨e1, e2, e3⟩ := hcm.ok fin h3 hy
      refine ⟨e3.trans h2, e1, ?_⟩
      simp only [FBstabDense.returnedPoint, e2, CallerVar.point_ofPoint]
      exact ⟨rfl, rfl, rfl, hm⟩

/-- C54 for `FBstabMpc`. -/
theorem C54_mpc (s : FBstabMpc ℝ) (hs : s.Reachable) (p : MpcProblem ℝ) (x : CallerVar ℝ)
    (hf : MpcFits s.N s.nx s.nu s.nc p x) (hcol : p.Columns) (hc : (s.ocp p).Convex) :
    ∃ sub r, Method.Run (s.qp p) s.options ⟨(x.z.toVec _).fn, (x.l.toVec _).fn, (x.v.toVec _).fn⟩ sub r ∧
      (∀ junk N nx nu nc s0 (os : List (Params ℝ)), FBstabMpc.new junk N nx nu nc = .ok s0 →
        s = s0.after (os.map .updateOptions) → sub = 0) ∧
      (s.solve p x).log = r.log.filter (Method.visible s.options.displayLevel) ∧
      match r.value with
      | some (out, w) => (s.solve p x).result = .ok out ∧ (s.returnedPoint p x).z.fn = w.z ∧
          (s.returnedPoint p x).l.fn = w.l ∧ (s.returnedPoint p x).v.fn = w.v ∧
          (s.returnedPoint p x).y.fn = (s.qp p).b - (s.qp p).A *ᵥ w.z
      | none => (s.solve p x).result = .error Method.toleranceError ∧ (s.solve p x).x = x := by
  have N := s.newtonEnv (C01_reachable_mpc s hs) p hc
  obtain ⟨r, h1, h2, h3⟩ := Method.solve_full N s.mem.feas.ws (x.z.toVec _) (x.l.toVec _) (x.v.toVec _)
    s.mem.ri.r
  have hcm := FBstabMpc.solve_computes real_zero_beq (s := s) hf hcol
  refine ⟨_, r, h1, ?_, ?_⟩
  · rintro junk N nx nu nc s0 os hn rfl
    obtain ⟨a, b, c⟩ := FBstabMpc.Untouched.after (FBstabMpc.unused hn) os
    rw [Core.Resid.norm, a, b, c]
    simp
  · revert h3
    cases hv : r.value with
    | none =>
      intro h3
      obtain ⟨e1, e2, e3⟩ := hcm.error _ h3
      exact ⟨e3.trans h2, e1, e2⟩
    | some w =>
      obtain ⟨out, w⟩ := w
      rintro ⟨fin, h3, rfl, rfl, hm⟩
      obtain ⟨e1, e2, e3⟩ := hcm.ok fin h3 (fun _ => hf.y)
      refine ⟨e3.trans h2, e1, ?_⟩
      simp only [FBstabMpc.returnedPoint, e2, CallerVar.point_ofPoint]
      exact ⟨rfl, rfl, rfl, hm⟩

/-- C54, the hypotheses can be met: a run with one proximal iteration. -/
example (junk : DenseJunk ℝ) (c : Bool) (d : Display) :
    ∃ sub out w log, Method.Run halfQP (runOptions c d) ⟨fun _ => -1e-4, 0, 0⟩ sub ⟨log, some (out, w)⟩ ∧
      out.eflag = .success ∧ out.proxIters = 1 := by
  obtain ⟨sub, ⟨log, v⟩, h1, -, -, h2⟩ := C54_dense (runSolver junk c d) (runSolver_reachable junk c d) halfQP.toDense
    runGuess (halfQP.toDense_fits _ _ _) (guessOf_writable _ _ _ _) (runSolver_qp junk c d ▸ halfQP_convex)
  obtain ⟨out, h3, h4, h5, -⟩ := run_dense junk c d
  obtain ⟨g1, g2, g3⟩ := guessOf_point (nz := 1) (nl := 0) (nv := 1) (fun _ => -1e-4) 0 0
  cases v with
  | none => rw [h3] at h2; cases h2.1
  | some v =>
    obtain ⟨out', w⟩ := v
    have e : out' = out := by
      have := h2.1
      rw [h3] at this
      injection this with this
      exact this.symm
    subst e
    refine ⟨sub, out', w, log, ?_, h4, h5⟩
    have h1' : Method.Run halfQP (runOptions c d) ⟨(runGuess.z.toVec 1).fn, (runGuess.l.toVec 0).fn,
      (runGuess.v.toVec 1).fn⟩ sub ⟨log, some (out', w)⟩ := by
      have := h1
      rw [runSolver_qp junk c d] at this
      exact this
    rw [g1, g2, g3] at h1'
    exact h1'

end Fbstab
