import Verif.Spec.LineSearch
import Verif.Proofs.ApiSem
import Verif.Proofs.CoreFacts
import Verif.Proofs.Trace
import Verif.Props.Options

/-!
# C15: the line search
-/

namespace Fbstab
variable {K : Type} [Scalar K] {nz nl nv : Nat}

namespace Core

/-- `LineSearchLog` on traces. -/
def LineSearchTrace (o : Params K) : List K → List (Event K nz nl nv) → Prop
  | _, [] => True
  | _, .outerDetailed _ _ _ :: es => LineSearchTrace o [] es
  | ms, .inner i t r :: es =>
    i = ms.length ∧ (if ms = [] then t = 1 else StepAccepted o ms t (Resid.merit r)) ∧
      LineSearchTrace o (Resid.merit r :: ms) es
  | ms, _ :: es => LineSearchTrace o ms es

theorem LineSearchTrace.render {o : Params K} (hd : o.displayLevel = .iterDetailed) (c : K)
    (es : List (Event K nz nl nv)) : ∀ ri ms, LineSearchTrace o ms es →
      LineSearchLog o ms (render o c ri es) := by
  induction es with
  | nil => intro _ _ _; trivial
  | cons e es ih =>
    intro ri ms h
    cases e <;> simp only [Core.render, hd, if_true, List.cons_append, List.nil_append,
      LineSearchTrace, LineSearchLog, reduceCtorEq, if_false, Display.toNat, Nat.reduceLeDiff] at h ⊢
    case inner i t r => exact ⟨h.1, h.2.1, ih _ _ h.2.2⟩
    all_goals exact ih _ _ h

theorem LineSearchTrace.append {o : Params K} {a b : List (Event K nz nl nv)} :
    ∀ {ms}, LineSearchTrace o ms a → (∀ ms, LineSearchTrace o ms b) →
      LineSearchTrace o ms (a ++ b) := by
  induction a with
  | nil => intro ms _ h; exact h ms
  | cons e a ih =>
    intro ms h hb
    cases e <;> simp only [LineSearchTrace, List.cons_append] at h ⊢
    case inner i t r => exact ⟨h.1, h.2.1, ih h.2.2 hb⟩
    all_goals exact ih h hb

/-- The line search returns a power of `beta`: the first that passes the test, or the limit. -/
theorem lineSearch_spec (E : Env K nz nl nv) (sigma m0 cm : K) (x xbar dx : Point K nz nl nv)
    (n : Nat) : ∀ j0, ∃ j, j0 ≤ j ∧ j ≤ j0 + n ∧
      (lineSearch E sigma m0 cm x xbar dx n (backtracked E.opts.beta j0)).1 =
        backtracked E.opts.beta j ∧
      (j < j0 + n → Resid.merit (E.innerRes (E.axpy (backtracked E.opts.beta j) dx x) xbar sigma) ≤
        m0 - 2.0 * backtracked E.opts.beta j * E.opts.eta * cm) ∧
      ∀ i, j0 ≤ i → i < j →
        ¬Resid.merit (E.innerRes (E.axpy (backtracked E.opts.beta i) dx x) xbar sigma) ≤
          m0 - 2.0 * backtracked E.opts.beta i * E.opts.eta * cm := by
  induction n with
  | zero => exact fun j0 => ⟨j0, Nat.le_refl _, Nat.le_refl _, rfl, fun h => absurd h (Nat.lt_irrefl _),
      fun i h1 h2 => absurd h2 (by omega)⟩
  | succ n ih =>
    intro j0
    rw [lineSearch]
    dsimp only
    split
    · rename_i h
      exact ⟨j0, Nat.le_refl _, by omega, rfl, fun _ => h, fun i h1 h2 => absurd h2 (by omega)⟩
    · rename_i h
      obtain ⟨j, h1, h2, h3, h4, h5⟩ := ih (j0 + 1)
      refine ⟨j, by omega, by omega, h3, fun hj => h4 (by omega), fun i hi hi' => ?_⟩
      rcases Nat.lt_or_ge j0 i with hlt | hge
      · exact h5 i hlt hi'
      · rw [show i = j0 by omega]; exact h

theorem lineSearch_trace (o : Params K) (ms : List K) (E : Env K nz nl nv) (sigma m0 cm : K)
    (x xbar dx : Point K nz nl nv) (n : Nat) (es : List (Event K nz nl nv)) : ∀ t,
      LineSearchTrace o ms es →
      LineSearchTrace o ms ((lineSearch E sigma m0 cm x xbar dx n t).2 ++ es) := by
  induction n with
  | zero => intro t h; exact h
  | succ n ih =>
    intro t h
    rw [lineSearch]
    dsimp only
    split
    · exact h
    · exact ih _ h

/-- The merit buffer holds the newest merits. -/
def Holds (buf : Vec K 5) (ms : List K) : Prop := ∀ k : Fin 5, buf k = ms.getD k 0

theorem Holds.nil : Holds (Vec.const 0 : Vec K 5) [] := fun k => by simp

theorem Holds.iff (buf : Vec K 5) (ms : List K) : Holds buf ms ↔
    buf 0 = ms.getD 0 0 ∧ buf 1 = ms.getD 1 0 ∧ buf 2 = ms.getD 2 0 ∧ buf 3 = ms.getD 3 0 ∧
      buf 4 = ms.getD 4 0 := by
  constructor
  · exact fun h => ⟨h 0, h 1, h 2, h 3, h 4⟩
  · rintro ⟨h0, h1, h2, h3, h4⟩ k
    match k with
    | 0 => exact h0
    | 1 => exact h1
    | 2 => exact h2
    | 3 => exact h3
    | 4 => exact h4

theorem Holds.insert {buf : Vec K 5} {ms : List K} (h : Holds buf ms) (m : K) :
    Holds (Alg.insertMerit m buf) (m :: ms) := by
  rw [Holds.iff] at h ⊢
  obtain ⟨h0, h1, h2, h3, -⟩ := h
  simp only [Alg.insertMerit, forFinRev, Fin.foldr_succ, Fin.foldr_zero]
  refine ⟨?_, ?_, ?_, ?_, ?_⟩
  · simp
  · simpa [Vec.get_set] using h0
  · simpa [Vec.get_set] using h1
  · simpa [Vec.get_set] using h2
  · simpa [Vec.get_set] using h3

theorem Holds.max {buf : Vec K 5} {ms : List K} (h : Holds buf ms) :
    Alg.maxMerit buf = largestRecent ms := by
  rw [Holds.iff] at h
  obtain ⟨h0, h1, h2, h3, h4⟩ := h
  unfold Alg.maxMerit Vec.maxCoeff largestRecent
  simp only [Fin.foldl_succ, Fin.foldl_zero]
  rw [← h0, ← h1, ← h2, ← h3, ← h4]
  rfl

theorem newtonStep_accepted (E : Env K nz nl nv) (hl : 0 ≤ E.opts.maxLinesearchIters) (sigma : K)
    (xbar x : Point K nz nl nv) (g) (ri : Resid K nz nl nv) {buf : Vec K 5} {ms : List K}
    (h : Holds buf ms) :
    StepAccepted E.opts (Resid.merit ri :: ms) (newtonStep E sigma xbar g x ri buf).2.1
      (Resid.merit (E.innerRes (newtonStep E sigma xbar g x ri buf).1 xbar sigma)) := by
  obtain ⟨j, -, h2, h3, h4, -⟩ := lineSearch_spec E sigma
    (mZero E (Alg.insertMerit (Resid.merit ri) buf) (Resid.merit ri)) (Resid.merit ri) x xbar
    (g (Resid.negate ri)) E.opts.maxLinesearchIters.toNat 0
  have e : (newtonStep E sigma xbar g x ri buf).2.1 = backtracked E.opts.beta j := h3
  have e' : (newtonStep E sigma xbar g x ri buf).1 =
      E.axpy (backtracked E.opts.beta j) (g (Resid.negate ri)) x :=
    congrArg (fun t => E.axpy t (g (Resid.negate ri)) x) h3
  refine ⟨j, e, by omega, fun hj => ?_⟩
  rw [e, e']
  have hm : meritReference E.opts (Resid.merit ri :: ms) =
      mZero E (Alg.insertMerit (Resid.merit ri) buf) (Resid.merit ri) := by
    unfold meritReference mZero
    rw [(h.insert (Resid.merit ri)).max]
    rfl
  rw [hm]
  exact h4 (by omega)

theorem innerLoop_trace (E : Env K nz nl nv) (hl : 0 ≤ E.opts.maxLinesearchIters) (tol sigma Ek : K)
    (xbar : Point K nz nl nv) (fuel : Nat) : ∀ i t Eo x newton buf rk ms, Holds buf ms →
      i = ms.length →
      (if ms = [] then t = 1 else StepAccepted E.opts ms t (Resid.merit (E.innerRes x xbar sigma))) →
      LineSearchTrace E.opts ms (innerLoop E tol sigma Ek xbar fuel i t Eo x newton buf rk).1 := by
  induction fuel with
  | zero => intros; trivial
  | succ fuel ih =>
    intro i t Eo x newton buf rk ms hb hi ht
    simp only [innerLoop]
    split
    · exact ⟨hi, ht, trivial⟩
    · split
      · exact ⟨hi, ht, trivial⟩
      · split
        · exact ⟨hi, ht, trivial⟩
        · exact ⟨hi, ht, trivial⟩
        · rename_i g hg
          refine ⟨hi, ht, ?_⟩
          refine lineSearch_trace _ _ _ _ _ _ _ _ _ _ _ _ ?_
          refine ih _ _ _ _ _ _ _ _ (hb.insert _) (by simp [hi]) ?_
          rw [if_neg (by simp)]
          exact newtonStep_accepted E hl sigma xbar x g _ hb

theorem proxLoop_trace (E : Env K nz nl nv) (hl : 0 ≤ E.opts.maxLinesearchIters) (E0 : K)
    (fuel : Nat) : ∀ s ms, LineSearchTrace E.opts ms (proxLoop E E0 fuel s).1 := by
  induction fuel with
  | zero => intros; trivial
  | succ fuel ih =>
    intro s ms
    simp only [proxLoop]
    have hsub : ∀ tol, LineSearchTrace E.opts []
        (subproblem E tol (Resid.norm (E.penRes s.xk)) s.xk s.newton (E.penRes s.xk)).1 :=
      fun tol => innerLoop_trace E hl _ _ _ _ _ _ _ _ _ _ _ _ _ Holds.nil rfl (by simp)
    by_cases hs : Stop E s
    · rw [if_pos (show _ ∨ _ from hs)]
      trivial
    · rw [if_neg (show ¬(_ ∨ _) from hs)]
      cases ht : saturate (s.innerTol * E.opts.delta) E.opts.innerTolMin
          (Resid.norm (E.penRes s.xk)) with
      | error e => trivial
      | ok tol =>
        dsimp only
        cases hq : (subproblem E tol (Resid.norm (E.penRes s.xk)) s.xk s.newton
            (E.penRes s.xk)).2 with
        | error e => exact hsub _
        | ok o =>
          dsimp only
          have ha := afterInner_cases (E0 := E0) (Inner.mk hs ht hq)
          generalize afterInner E E0 (Resid.norm (E.penRes s.xk)) tol s o = a at ha
          rcases a with ⟨ev, fin⟩ | s'
          · refine LineSearchTrace.append (a := _ :: _ :: _) (hsub _) fun ms => ?_
            rw [ha.2]
            trivial
          · exact LineSearchTrace.append (a := _ :: _ :: _) (hsub _) fun ms => ih _ ms

theorem solve_trace (E : Env K nz nl nv) (hl : 0 ≤ E.opts.maxLinesearchIters)
    (ws : FeasWs K nz nl nv) (z : Vec K nz) (l : Vec K nl) (v : Vec K nv) :
    LineSearchTrace E.opts [] (solve E ws z l v).1 := by
  simp only [solve]
  split
  · trivial
  · exact proxLoop_trace E hl _ _ _ _

end Core

theorem Computes.lineSearch {ops : QPOps K nz nl nv} {opts : Params K}
    {ri : Resid K nz nl nv} {p : List (Core.Event K nz nl nv) × Except Err (Core.Final K nz nl nv)}
    {x x' : CallerVar K} {log : List (Msg K)} {r : Except Err (SolverOut K)}
    (h : Computes ops opts ri p x x' log r) (hy : x.YWritable nv)
    (ho : opts.displayLevel = .iterDetailed) (ht : Core.LineSearchTrace opts [] p.1) :
    LineSearchLog opts [] log := by
  cases hp : p.2 with
  | error e => rw [(h.error e hp).2.2]; exact ht.render ho _ _ _ _
  | ok fin => rw [(h.ok fin hp hy).2.2]; exact ht.render ho _ _ _ _

/-- C15: the step lengths and residuals in the detailed log of `FBstabDense::Solve`, whether it
returns or throws, are those of a backtracking line search: each step is a power of `beta`, and
unless the limit on reductions was reached the new iterate has sufficiently small merit, compared
with the last merit or the largest of the last five. -/
theorem C15_dense (hv : ValidationTotal K) (s : FBstabDense K) (hs : s.Reachable)
    (qp : DenseProblem K) (x : CallerVar K) (hy : x.YWritable s.nv)
    (ho : s.options.displayLevel = .iterDetailed) :
    LineSearchLog s.options [] (s.solve qp x).log := by
  by_cases hf : DenseFits s.nz s.nl s.nv qp x
  · refine (FBstabDense.solve_computes hf).lineSearch hy ho (Core.solve_trace (s.env qp) ?_ _ _ _ _)
    exact Int.le_trans (by decide) (hs.limits hv).maxLinesearchIters
  · obtain ⟨m, h, -⟩ := FBstabDense.solve_rejects hf
    rw [h]
    trivial

/-- C15 for `FBstabMpc`. -/
theorem C15_mpc (h0 : ((0 : K) == 0) = true) (hv : ValidationTotal K) (s : FBstabMpc K)
    (hs : s.Reachable) (p : MpcProblem K) (x : CallerVar K)
    (ho : s.options.displayLevel = .iterDetailed) :
    LineSearchLog s.options [] (s.solve p x).log := by
  by_cases hf : MpcFits s.N s.nx s.nu s.nc p x
  · by_cases hcol : p.Columns
    · refine (FBstabMpc.solve_computes h0 hf hcol).lineSearch (fun _ => hf.y) ho
        (Core.solve_trace (s.env h0 p) ?_ _ _ _ _)
      exact Int.le_trans (by decide) (hs.limits h0 hv).maxLinesearchIters
    · obtain ⟨w, h⟩ := FBstabMpc.solve_not_columns hf hcol
      rw [h]
      trivial
  · obtain ⟨m, h, -⟩ := FBstabMpc.solve_rejects hf
    rw [h]
    trivial

/-- C15 for one Newton step (`impl:262-298`) from any state of a run: the new iterate is
`x + t * dx` with the direction left in `dx_`, and `t` is the first power of `beta` that passes the
sufficient decrease test, or the limit on reductions was reached. -/
theorem lineSearch_step {D : Type} {ls : LinearSolver K D nz nl nv} (S : LinSem ls) (d : D)
    (ops : QPOps K nz nl nv) (sigma : K) (s : Run K D nz nl nv ls) (hs : Core.Good S d ops s)
    (hri : s.ri.r = (Core.env S d ops s.opts).innerRes s.xi.pt s.xk.pt sigma) (t : K)
    (s' : Run K D nz nl nv ls) (h : Alg.newtonStep sigma s = .ok t s') :
    let E := Core.env S d ops s.opts
    let merit := fun x => Core.Resid.merit (E.innerRes x s.xk.pt sigma)
    let m0 := if s.opts.nonmonotoneLinesearch
      then Alg.maxMerit (Alg.insertMerit (merit s.xi.pt) s.meritBuffer) else merit s.xi.pt
    ∃ (dx : Point K nz nl nv) (j : Nat), s'.xi.pt = E.axpy t dx s.xi.pt ∧
      t = backtracked s.opts.beta j ∧ j ≤ s.opts.maxLinesearchIters.toNat ∧
      (j < s.opts.maxLinesearchIters.toNat →
        merit s'.xi.pt ≤ m0 - 2.0 * t * s.opts.eta * merit s.xi.pt) ∧
      ∀ i < j, ¬merit (E.axpy (backtracked s.opts.beta i) dx s.xi.pt) ≤
        m0 - 2.0 * backtracked s.opts.beta i * s.opts.eta * merit s.xi.pt := by
  intro E merit m0
  have hn := Core.run_newtonStep (S := S) (d := d) (ops := ops) sigma s hs
  cases hf : S.factor d s.opts.alpha s.xi.pt s.xk.pt sigma with
  | error e =>
    rw [hf] at hn
    obtain ⟨lin, hn⟩ := hn
    exact nomatch h.symm.trans hn
  | ok o =>
    cases o with
    | none =>
      rw [hf] at hn
      obtain ⟨lin, hn⟩ := hn
      exact nomatch h.symm.trans hn
    | some g =>
      rw [hf] at hn
      obtain ⟨xp, ri, dx, lin, hn, -⟩ := hn
      have := h.symm.trans hn
      cases this
      obtain ⟨j, -, h2, h3, h4, h5⟩ := Core.lineSearch_spec E sigma m0 (merit s.xi.pt) s.xi.pt
        s.xk.pt (g (Core.Resid.negate s.ri.r)) s.opts.maxLinesearchIters.toNat 0
      have hm : Core.Resid.merit (Core.Resid.negate s.ri.r) = merit s.xi.pt := by
        show Core.Resid.merit s.ri.r = _
        rw [hri]
      have e : (Core.newtonStep E sigma s.xk.pt g s.xi.pt s.ri.r s.meritBuffer).2.1 =
          backtracked s.opts.beta j := by
        rw [← h3]
        unfold Core.newtonStep
        dsimp only
        rw [hm]
        rfl
      refine ⟨g (Core.Resid.negate s.ri.r), j, rfl, e, by omega, fun hj => ?_, fun i hi => ?_⟩
      · have e' : (Core.newtonStep E sigma s.xk.pt g s.xi.pt s.ri.r s.meritBuffer).1 =
            E.axpy (backtracked s.opts.beta j) (g (Core.Resid.negate s.ri.r)) s.xi.pt :=
          congrArg (fun t => E.axpy t (g (Core.Resid.negate s.ri.r)) s.xi.pt) e
        have := h4 (by omega)
        rw [← e'] at this
        show _ ≤ m0 - 2.0 * (Core.newtonStep E sigma s.xk.pt g s.xi.pt s.ri.r s.meritBuffer).2.1 *
          s.opts.eta * _
        rw [e]
        exact this
      · exact h5 i (Nat.zero_le _) hi

end Fbstab
