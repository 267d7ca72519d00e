import Verif.Proofs.Core

/-!
# The imperative model computes the functional one
-/

set_option linter.unusedSectionVars false

namespace Fbstab
variable {K : Type} [Scalar K] {D : Type} {nz nl nv : Nat}

/-- A functional description of a linear solver: what `Initialize` and `Solve` do does not depend on
the contents of the workspaces. -/
structure LinSem (ls : LinearSolver K D nz nl nv) where
  /-- throw, report failure, or the solution map -/
  factor : D → K → Point K nz nl nv → Point K nz nl nv → K →
    Except Err (Option (Resid K nz nl nv → Point K nz nl nv))
  /-- data and alpha are set -/
  Ready : D → K → ls.St → Prop
  ready : ∀ d a st, Ready d a (ls.linkData d (ls.setAlpha a st))
  spec : ∀ d a st x xbar sigma, Ready d a st →
    match factor d a x xbar sigma with
    | .error e => ∃ st', ls.init x xbar sigma st = .error e st' ∧ Ready d a st'
    | .ok none => ∃ st', ls.init x xbar sigma st = .ok false st' ∧ Ready d a st'
    | .ok (some g) => ∃ st', ls.init x xbar sigma st = .ok true st' ∧
        ∀ r dx, ∃ st'', ls.solve r dx st' = .ok (true, g r) st'' ∧ Ready d a st''

namespace Core
variable {ls : LinearSolver K D nz nl nv}

/-- The norms stored in a residual. -/
def norms (r : Resid K nz nl nv) : K × K × K := (r.znorm, r.lnorm, r.vnorm)

theorem norm_congr {r r' : Resid K nz nl nv} (h : norms r = norms r') :
    Resid.norm r = Resid.norm r' := by
  simp only [norms, Prod.mk.injEq] at h
  simp only [Resid.norm, h]

theorem lastRi_congr {r r' : Resid K nz nl nv} (es : List (Event K nz nl nv))
    (h : norms r = norms r') : norms (lastRi r es) = norms (lastRi r' es) := by
  induction es generalizing r r' with
  | nil => exact h
  | cons e es ih => cases e <;> simp only [lastRi] <;> first | exact ih h | rfl

theorem render_congr {r r' : Resid K nz nl nv} (o : Params K) (c : K)
    (es : List (Event K nz nl nv)) (h : norms r = norms r') :
    render o c r es = render o c r' es := by
  induction es generalizing r r' with
  | nil => rfl
  | cons e es ih =>
    cases e <;> simp only [render] <;> first
      | rw [ih h, norm_congr h]
      | rw [ih h]
      | rfl

theorem lastRi_append (r : Resid K nz nl nv) (es es' : List (Event K nz nl nv)) :
    lastRi r (es ++ es') = lastRi (lastRi r es) es' := by
  induction es generalizing r with
  | nil => rfl
  | cons e es ih => cases e <;> simp only [lastRi, List.cons_append, ih]

theorem render_append (o : Params K) (c : K) (r : Resid K nz nl nv)
    (es es' : List (Event K nz nl nv)) :
    render o c r (es ++ es') = render o c r es ++ render o c (lastRi r es) es' := by
  induction es generalizing r with
  | nil => rfl
  | cons e es ih => cases e <;> simp only [lastRi, render, List.cons_append, ih, List.append_assoc]

/-! ## Component methods on linked objects -/

section comp
variable {E : Env K nz nl nv}

theorem margin_linked {x : FullVariable K nz nl nv} (h : x.data = some E.ops) :
    x.initializeConstraintMargin = .ok { x with pt := { x.pt with y := margin E.ops x.pt.z } } := by
  simp only [FullVariable.initializeConstraintMargin, FullVariable.nullDataCheck, h]
  rfl

theorem axpy_linked {x this : FullVariable K nz nl nv} (a : K) (h : this.data = some E.ops) :
    FullVariable.axpy a x this = .ok ⟨E.axpy a x.pt this.pt, some E.ops⟩ := by
  simp only [FullVariable.axpy, FullVariable.nullDataCheck, h]
  rfl

theorem inner_linked {r : FullResidual K nz nl nv} (x xbar : FullVariable K nz nl nv) (sigma : K)
    (h : r.data = some E.ops) (ha : r.alpha = E.opts.alpha) :
    r.innerResidual x xbar sigma = .ok ⟨E.innerRes x.pt xbar.pt sigma, E.opts.alpha, some E.ops⟩ := by
  simp only [FullResidual.innerResidual, FullResidual.nullDataCheck, h, ha]
  rfl

theorem pen_linked {r : FullResidual K nz nl nv} (x : FullVariable K nz nl nv)
    (h : r.data = some E.ops) (ha : r.alpha = E.opts.alpha) :
    r.penalizedNaturalResidual x = .ok ⟨E.penRes x.pt, E.opts.alpha, some E.ops⟩ := by
  simp only [FullResidual.penalizedNaturalResidual, FullResidual.naturalResidual,
    FullResidual.nullDataCheck, h, ha]
  simp only [pure, Except.pure, bind, Except.bind, Env.penRes, mkResid,
    penalizedMin, gradLagrangian, eqDefect, Vec.get_ofFn]

end comp

/-- The environment of a run. -/
abbrev env (S : LinSem ls) (d : D) (ops : QPOps K nz nl nv) (o : Params K) : Env K nz nl nv :=
  ⟨o, ops, S.factor d o.alpha⟩

/-- The state during `Solve` after linking. -/
structure Good (S : LinSem ls) (d : D) (ops : QPOps K nz nl nv) (s : Run K D nz nl nv ls) :
    Prop where
  combo : s.comboTol = stoppingTol ops s.opts
  xk : s.xk.data = some ops
  xi : s.xi.data = some ops
  rk : s.rk.data = some ops
  rka : s.rk.alpha = s.opts.alpha
  ri : s.ri.data = some ops
  ria : s.ri.alpha = s.opts.alpha
  feas : s.feas.data = some ops
  lin : S.Ready d s.opts.alpha s.lin

/-! ## Running programs -/

/-- `m` started in `s` ends with `r`. -/
def Runs {α : Type} (m : Alg.M ls α) (s : Run K D nz nl nv ls)
    (r : EStateM.Result Err (Run K D nz nl nv ls) α) : Prop := m s = r

section run
variable {α β : Type} {s s' : Run K D nz nl nv ls}
  {r : EStateM.Result Err (Run K D nz nl nv ls) β}

theorem Runs.bind {m : Alg.M ls α} {f : α → Alg.M ls β} {a : α} (h : Runs m s (.ok a s'))
    (h' : Runs (f a) s' r) : Runs (m >>= f) s r := by
  show EStateM.bind m f s = _
  simp only [EStateM.bind, show m s = _ from h]
  exact h'

theorem Runs.bind_error {m : Alg.M ls α} {f : α → Alg.M ls β} {e : Err}
    (h : Runs m s (.error e s')) : Runs (m >>= f) s (.error e s') := by
  show EStateM.bind m f s = _
  simp only [EStateM.bind, show m s = _ from h]

theorem Runs.get {f : Run K D nz nl nv ls → Alg.M ls β} (h : Runs (f s) s r) :
    Runs (get >>= f) s r := h
theorem Runs.modify {g : Run K D nz nl nv ls → Run K D nz nl nv ls} {f : PUnit → Alg.M ls β}
    (h : Runs (f ⟨⟩) (g s) r) : Runs (modify g >>= f) s r := h
theorem Runs.liftE {e : Except Err α} {a : α} {f : α → Alg.M ls β} (he : e = .ok a)
    (h : Runs (f a) s r) : Runs (Alg.liftE e >>= f) s r := by subst he; exact h
theorem Runs.liftE_error {e : Except Err α} {a : Err} {f : α → Alg.M ls β} (he : e = .error a) :
    Runs (Alg.liftE e >>= f) s (.error a s) := by subst he; rfl
theorem Runs.pure {a : β} (h : s = s') : Runs (pure a) s (.ok a s') := by subst h; rfl
theorem Runs.ite_pos {c : Prop} [Decidable c] {m m' : Alg.M ls β} (hc : c) (h : Runs m s r) :
    Runs (if c then m else m') s r := by rw [if_pos hc]; exact h
theorem Runs.ite_neg {c : Prop} [Decidable c] {m m' : Alg.M ls β} (hc : ¬c) (h : Runs m' s r) :
    Runs (if c then m else m') s r := by rw [if_neg hc]; exact h

end run

section run
variable {S : LinSem ls} {d : D} {ops : QPOps K nz nl nv}

theorem run_updateRk (s : Run K D nz nl nv ls) (h : Good S d ops s) (x : FullVariable K nz nl nv) :
    Runs (Alg.updateRk x) s
      (.ok () { s with rk := ⟨(env S d ops s.opts).penRes x.pt, s.opts.alpha, some ops⟩ }) :=
  .get (.liftE (pen_linked (E := env S d ops s.opts) x h.rk h.rka) rfl)

theorem run_updateRi (s : Run K D nz nl nv ls) (h : Good S d ops s) (x : FullVariable K nz nl nv)
    (sigma : K) :
    Runs (Alg.updateRi x sigma) s (.ok () { s with
      ri := ⟨(env S d ops s.opts).innerRes x.pt s.xk.pt sigma, s.opts.alpha, some ops⟩ }) :=
  .get (.liftE (inner_linked (E := env S d ops s.opts) x s.xk sigma h.ri h.ria) rfl)

theorem run_lineSearch (sigma m0 cm : K) (n : Nat) (t : K) (s : Run K D nz nl nv ls)
    (h : Good S d ops s) :
    let q := lineSearch (env S d ops s.opts) sigma m0 cm s.xi.pt s.xk.pt s.dx.pt n t
    ∃ xp ri, Runs (Alg.lineSearch sigma m0 cm n t) s (.ok q.1 { s with xp := xp, ri := ri }) ∧
      ri.data = some ops ∧ ri.alpha = s.opts.alpha ∧ norms ri.r = norms (lastRi s.ri.r q.2) := by
  induction n generalizing t s with
  | zero => exact ⟨s.xp, s.ri, rfl, h.ri, h.ria, rfl⟩
  | succ n ih =>
    intro q
    have hq : q = lineSearch (env S d ops s.opts) sigma m0 cm s.xi.pt s.xk.pt s.dx.pt (n + 1) t :=
      rfl
    clear_value q
    by_cases hc : Resid.merit ((env S d ops s.opts).innerRes
        ((env S d ops s.opts).axpy t s.dx.pt s.xi.pt) s.xk.pt sigma) ≤
        m0 - 2.0 * t * s.opts.eta * cm
    · rw [lineSearch, if_pos hc] at hq
      rw [hq]
      refine ⟨⟨(env S d ops s.opts).axpy t s.dx.pt s.xi.pt, some ops⟩,
        ⟨(env S d ops s.opts).innerRes ((env S d ops s.opts).axpy t s.dx.pt s.xi.pt) s.xk.pt
          sigma, s.opts.alpha, some ops⟩, ?_, rfl, rfl, rfl⟩
      · refine .modify (.get (.liftE (axpy_linked (E := env S d ops s.opts) t h.xi) (.modify ?_)))
        refine .bind (run_updateRi (S := S) (d := d) (ops := ops) _ ?_ _ _) (.get (.ite_pos hc ?_))
        · exact ⟨h.combo, h.xk, h.xi, h.rk, h.rka, h.ri, h.ria, h.feas, h.lin⟩
        rfl
    · rw [lineSearch, if_neg hc] at hq
      rw [hq]
      obtain ⟨xp, ri, h1, h2, h3, h4⟩ := ih (t * s.opts.beta) { s with
        xp := ⟨(env S d ops s.opts).axpy t s.dx.pt s.xi.pt, some ops⟩
        ri := ⟨(env S d ops s.opts).innerRes ((env S d ops s.opts).axpy t s.dx.pt s.xi.pt) s.xk.pt
          sigma, s.opts.alpha, some ops⟩ }
        ⟨h.combo, h.xk, h.xi, h.rk, h.rka, rfl, rfl, h.feas, h.lin⟩
      refine ⟨xp, ri, ?_, h2, h3, h4⟩
      refine .modify (.get (.liftE (axpy_linked (E := env S d ops s.opts) t h.xi) (.modify ?_)))
      refine .bind (run_updateRi (S := S) (d := d) (ops := ops) _ ?_ _ _) (.get (.ite_neg hc ?_))
      · exact ⟨h.combo, h.xk, h.xi, h.rk, h.rka, h.ri, h.ria, h.feas, h.lin⟩
      exact h1

theorem render_lineSearch (E : Env K nz nl nv) (o : Params K) (c : K) (r : Resid K nz nl nv)
    (sigma m0 cm : K) (x xbar dx : Point K nz nl nv) (n : Nat) (t : K) :
    render o c r (lineSearch E sigma m0 cm x xbar dx n t).2 = [] := by
  induction n generalizing t r with
  | zero => rfl
  | succ n ih =>
    rw [lineSearch]
    dsimp only
    split
    · rfl
    · exact ih _ _

theorem run_newtonStep (sigma : K) (s : Run K D nz nl nv ls) (h : Good S d ops s) :
    match S.factor d s.opts.alpha s.xi.pt s.xk.pt sigma with
    | .error e => ∃ lin, Runs (Alg.newtonStep sigma) s (.error e { s with lin := lin })
    | .ok none => ∃ lin, Runs (Alg.newtonStep sigma) s (.error factorFailed { s with lin := lin })
    | .ok (some g) =>
      let N := newtonStep (env S d ops s.opts) sigma s.xk.pt g s.xi.pt s.ri.r s.meritBuffer
      ∃ xp ri dx lin, Runs (Alg.newtonStep sigma) s (.ok N.2.1
          { s with xi := ⟨N.1, some ops⟩, xp := xp, ri := ri, dx := dx, lin := lin
                   newtonIters := s.newtonIters + 1, meritBuffer := N.2.2.1 }) ∧
        ri.data = some ops ∧ ri.alpha = s.opts.alpha ∧ S.Ready d s.opts.alpha lin ∧
        norms ri.r = norms (lastRi s.ri.r N.2.2.2) := by
  have hs := S.spec d s.opts.alpha s.lin s.xi.pt s.xk.pt sigma h.lin
  cases hf : S.factor d s.opts.alpha s.xi.pt s.xk.pt sigma with
  | error e =>
    rw [hf] at hs
    obtain ⟨lin, h1, _⟩ := hs
    refine ⟨lin, .bind_error ?_⟩
    simp only [Runs, Alg.linInit, h1]
  | ok o =>
    cases o with
    | none =>
      rw [hf] at hs
      obtain ⟨lin, h1, _⟩ := hs
      refine ⟨lin, .bind (s' := { s with lin := lin }) (a := false) ?_ ?_⟩
      · simp only [Runs, Alg.linInit, h1]
      · rfl
    | some g =>
      rw [hf] at hs
      obtain ⟨lin, h1, h2⟩ := hs
      obtain ⟨lin2, h3, h4⟩ := h2 (Resid.negate s.ri.r) s.dx.pt
      obtain ⟨xp, ri, l1, l2, l3, l4⟩ := run_lineSearch (S := S) (d := d) (ops := ops) sigma
        (mZero (env S d ops s.opts)
          (Alg.insertMerit (Resid.merit (Resid.negate s.ri.r)) s.meritBuffer)
          (Resid.merit (Resid.negate s.ri.r)))
        (Resid.merit (Resid.negate s.ri.r)) s.opts.maxLinesearchIters.toNat 1
        { s with lin := lin2, ri := s.ri.negate, dx := ⟨g (Resid.negate s.ri.r), s.dx.data⟩
                 newtonIters := s.newtonIters + 1
                 meritBuffer := Alg.insertMerit (Resid.merit (Resid.negate s.ri.r)) s.meritBuffer }
        ⟨h.combo, h.xk, h.xi, h.rk, h.rka, h.ri, h.ria, h.feas, h4⟩
      refine ⟨xp, ri, ⟨g (Resid.negate s.ri.r), s.dx.data⟩, lin2, ?_, l2, l3, h4, ?_⟩
      · refine .bind (s' := { s with lin := lin }) (a := true) ?_ ?_
        · simp only [Runs, Alg.linInit, h1]
        refine .modify ?_
        refine .bind (s' := { s with
          lin := lin2, ri := s.ri.negate, dx := ⟨g (Resid.negate s.ri.r), s.dx.data⟩ })
          (a := true) ?_ ?_
        · simp only [Runs, Alg.linSolve]
          rw [show s.ri.negate.r = Resid.negate s.ri.r from rfl, h3]
        refine .modify (.get (.modify (.get ?_)))
        refine .bind l1 ?_
        refine .get ?_
        refine .liftE (axpy_linked (E := env S d ops s.opts) _ h.xi) ?_
        rfl
      · rw [l4]
        exact lastRi_congr _ rfl

theorem run_printDetailedLine (i : Nat) (t : K) (s : Run K D nz nl nv ls) (r : Resid K nz nl nv)
    (hr : s.ri.r = r) :
    Runs (Alg.printDetailedLine i t) s (.ok () { s with
      log := s.log ++ render s.opts s.comboTol r [.inner i t r] }) := by
  subst hr
  refine .get ?_
  simp only [render, List.append_nil]
  split
  · exact rfl
  · simp only [List.append_nil]; exact rfl

theorem run_printDetailedFooter (tol : K) (s : Run K D nz nl nv ls) :
    Runs (Alg.printDetailedFooter tol) s (.ok () { s with
      log := s.log ++ render s.opts s.comboTol s.ri.r [.footer tol] }) := by
  refine .get ?_
  simp only [render, List.append_nil]
  split
  · exact rfl
  · simp only [List.append_nil]; exact rfl

/-- What a call that throws leaves alone. -/
structure Kept (s s' : Run K D nz nl nv ls) : Prop where
  opts : s'.opts = s.opts
  z0 : s'.z0 = s.z0
  l0 : s'.l0 = s.l0
  v0 : s'.v0 = s.v0
  y0 : s'.y0 = s.y0

theorem var_eta {x : FullVariable K nz nl nv} (h : x.data = some ops) :
    (⟨x.pt, some ops⟩ : FullVariable K nz nl nv) = x := by rw [← h]

theorem res_eta {x : FullResidual K nz nl nv} {a : K} (h : x.data = some ops) (ha : x.alpha = a) :
    (⟨x.r, a, some ops⟩ : FullResidual K nz nl nv) = x := by rw [← h, ← ha]

theorem run_innerLoop (tol sigma Ek : K) (fuel i : Nat) (t Eo : K) (s : Run K D nz nl nv ls)
    (h : Good S d ops s) :
    let q := innerLoop (env S d ops s.opts) tol sigma Ek s.xk.pt fuel i t Eo s.xi.pt s.newtonIters
      s.meritBuffer s.rk.r
    let log := s.log ++ render s.opts s.comboTol s.ri.r q.1
    match q.2 with
    | .error e => ∃ s', Runs (Alg.innerLoop tol sigma Ek fuel i t Eo) s (.error e s') ∧
        Kept s s' ∧ s'.log = log ∧ s'.feas = s.feas
    | .ok o => ∃ xp ri dx lin buf, Runs (Alg.innerLoop tol sigma Ek fuel i t Eo) s (.ok o.Eo
          { s with xi := ⟨o.x, some ops⟩, rk := ⟨o.rk, s.opts.alpha, some ops⟩
                   newtonIters := o.newton, xp := xp, ri := ri, dx := dx, lin := lin
                   meritBuffer := buf, log := log }) ∧
        ri.data = some ops ∧ ri.alpha = s.opts.alpha ∧ S.Ready d s.opts.alpha lin ∧
        norms ri.r = norms (lastRi s.ri.r q.1) := by
  induction fuel generalizing i t Eo s with
  | zero =>
    refine ⟨s.xp, s.ri, s.dx, s.lin, s.meritBuffer, ?_, h.ri, h.ria, h.lin, rfl⟩
    simp only [innerLoop, render, List.append_nil, var_eta h.xi, res_eta h.rk h.rka]
    rfl
  | succ fuel ih =>
    intro q log
    have hq : q = innerLoop (env S d ops s.opts) tol sigma Ek s.xk.pt (fuel + 1) i t Eo s.xi.pt
      s.newtonIters s.meritBuffer s.rk.r := rfl
    have hlog : log = s.log ++ render s.opts s.comboTol s.ri.r q.1 := rfl
    clear_value q log
    subst hlog
    obtain ⟨ri, hri⟩ : ∃ ri, (env S d ops s.opts).innerRes s.xi.pt s.xk.pt sigma = ri := ⟨_, rfl⟩
    obtain ⟨rk, hrk⟩ : ∃ rk, (env S d ops s.opts).penRes s.xi.pt = rk := ⟨_, rfl⟩
    -- the state after both residuals
    obtain ⟨s1, hs1⟩ : ∃ s1 : Run K D nz nl nv ls, { s with
      ri := ⟨ri, s.opts.alpha, some ops⟩, rk := ⟨rk, s.opts.alpha, some ops⟩ } = s1 := ⟨_, rfl⟩
    have g1 : Good S d ops s1 := by
      subst hs1
      exact ⟨h.combo, h.xk, h.xi, rfl, rfl, rfl, rfl, h.feas, h.lin⟩
    have pre : ∀ {r}, Runs (do
        let s ← get
        let Eo := s.rk.norm
        let Ei := Resid.norm ri
        if (Ei ≤ tol ∧ Eo < Ek) ∨ Ei ≤ s.opts.innerTolMin then
          Alg.printDetailedLine i t
          Alg.printDetailedFooter tol
          pure Eo
        else
          Alg.printDetailedLine i t
          if s.opts.maxNewtonIters ≤ (s.newtonIters : Int) then pure Eo
          else
            let t ← Alg.newtonStep sigma
            Alg.innerLoop tol sigma Ek fuel (i + 1) t Eo) s1 r →
        Runs (Alg.innerLoop tol sigma Ek (fuel + 1) i t Eo) s r := by
      intro r hr
      refine .get ?_
      refine .bind (run_updateRi s h _ _) ?_
      refine .get ?_
      refine .get ?_
      refine .bind (run_updateRk (S := S) (d := d) (ops := ops) _ ?_ _) ?_
      · exact ⟨h.combo, h.xk, h.xi, h.rk, h.rka, rfl, rfl, h.feas, h.lin⟩
      · subst hs1 hri hrk
        exact hr
    by_cases hc : (Resid.norm ri ≤ tol ∧ Resid.norm rk < Ek) ∨ Resid.norm ri ≤ s.opts.innerTolMin
    · rw [innerLoop, hri, hrk, if_pos hc] at hq
      rw [hq]
      refine ⟨s.xp, ⟨ri, s.opts.alpha, some ops⟩, s.dx, s.lin, s.meritBuffer, ?_, rfl, rfl,
        h.lin, rfl⟩
      refine pre (.get (.ite_pos ?_ ?_))
      · subst hs1; exact hc
      refine .bind (run_printDetailedLine i t s1 ri (by subst hs1; rfl)) ?_
      refine .bind (run_printDetailedFooter tol _) ?_
      subst hs1
      simp only [render, List.append_nil, List.append_assoc, var_eta h.xi]
      rfl
    · by_cases hm : s.opts.maxNewtonIters ≤ (s.newtonIters : Int)
      · rw [innerLoop, hri, hrk, if_neg hc, if_pos hm] at hq
        rw [hq]
        refine ⟨s.xp, ⟨ri, s.opts.alpha, some ops⟩, s.dx, s.lin, s.meritBuffer, ?_, rfl, rfl,
          h.lin, rfl⟩
        refine pre (.get (.ite_neg ?_ ?_))
        · subst hs1; exact hc
        refine .bind (run_printDetailedLine i t s1 ri (by subst hs1; rfl)) ?_
        subst hs1
        refine .ite_pos hm ?_
        simp only [render, List.append_nil, var_eta h.xi]
        rfl
      · rw [innerLoop, hri, hrk, if_neg hc, if_neg hm] at hq
        -- the state after printing
        obtain ⟨s2, hs2⟩ : ∃ s2 : Run K D nz nl nv ls, { s1 with
          log := s1.log ++ render s1.opts s1.comboTol ri [.inner i t ri] } = s2 := ⟨_, rfl⟩
        have g2 : Good S d ops s2 := by
          subst hs2
          exact ⟨g1.combo, g1.xk, g1.xi, g1.rk, g1.rka, g1.ri, g1.ria, g1.feas, g1.lin⟩
        have pre2 : ∀ {r}, Runs (do
              let t ← Alg.newtonStep sigma
              Alg.innerLoop tol sigma Ek fuel (i + 1) t (Resid.norm rk)) s2 r →
            Runs (Alg.innerLoop tol sigma Ek (fuel + 1) i t Eo) s r := by
          intro r hr
          refine pre (.get (.ite_neg ?_ ?_))
          · subst hs1; exact hc
          refine .bind (run_printDetailedLine i t s1 ri (by subst hs1; rfl)) ?_
          refine .ite_neg (by subst hs1; exact hm) ?_
          subst hs2 hs1
          exact hr
        have hN := run_newtonStep sigma s2 g2
        have ef : S.factor d s2.opts.alpha s2.xi.pt s2.xk.pt sigma =
            (env S d ops s.opts).factor s.xi.pt s.xk.pt sigma := by subst hs2 hs1; rfl
        rw [ef] at hN
        have k2 : Kept s s2 := by subst hs2 hs1; exact ⟨rfl, rfl, rfl, rfl, rfl⟩
        have f2 : s2.feas = s.feas := by subst hs2 hs1; rfl
        have l2 : s2.log = s.log ++ render s.opts s.comboTol s.ri.r [.inner i t ri] := by
          subst hs2 hs1; rfl
        cases hf : (env S d ops s.opts).factor s.xi.pt s.xk.pt sigma with
        | error e =>
          rw [hf] at hN hq
          obtain ⟨lin, hN⟩ := hN
          rw [hq]
          exact ⟨_, pre2 (.bind_error hN), ⟨k2.opts, k2.z0, k2.l0, k2.v0, k2.y0⟩, l2, f2⟩
        | ok o =>
          cases o with
          | none =>
            rw [hf] at hN hq
            obtain ⟨lin, hN⟩ := hN
            rw [hq]
            exact ⟨_, pre2 (.bind_error hN), ⟨k2.opts, k2.z0, k2.l0, k2.v0, k2.y0⟩, l2, f2⟩
          | some g =>
            rw [hf] at hN hq
            obtain ⟨xp, ri', dx, lin, n1, n2, n3, n4, n5⟩ := hN
            obtain ⟨N, hNN⟩ : ∃ N, newtonStep (env S d ops s.opts) sigma s.xk.pt g s.xi.pt ri
              s.meritBuffer = N := ⟨_, rfl⟩
            have eN : newtonStep (env S d ops s2.opts) sigma s2.xk.pt g s2.xi.pt s2.ri.r
                s2.meritBuffer = N := by subst hs2 hs1; exact hNN
            rw [eN] at n1 n5
            dsimp only at hq
            rw [hNN] at hq
            obtain ⟨s3, hs3⟩ : ∃ s3 : Run K D nz nl nv ls, { s2 with
                xi := ⟨N.1, some ops⟩, xp := xp, ri := ri', dx := dx, lin := lin
                newtonIters := s2.newtonIters + 1, meritBuffer := N.2.2.1 } = s3 := ⟨_, rfl⟩
            rw [hs3] at n1
            have g3 : Good S d ops s3 := by
              subst hs3
              exact ⟨g2.combo, g2.xk, rfl, g2.rk, g2.rka, n2, n3, g2.feas, n4⟩
            have hi := ih (i + 1) N.2.1 (Resid.norm rk) s3 g3
            obtain ⟨Q, hQ⟩ : ∃ Q, innerLoop (env S d ops s.opts) tol sigma Ek s.xk.pt fuel (i + 1)
              N.2.1 (Resid.norm rk) N.1 (s.newtonIters + 1) N.2.2.1 rk = Q := ⟨_, rfl⟩
            have eQ : innerLoop (env S d ops s3.opts) tol sigma Ek s3.xk.pt fuel (i + 1) N.2.1
                (Resid.norm rk) s3.xi.pt s3.newtonIters s3.meritBuffer s3.rk.r = Q := by
              subst hs3 hs2 hs1; exact hQ
            rw [eQ] at hi
            rw [hQ] at hq
            have eR : s3.log ++ render s3.opts s3.comboTol s3.ri.r Q.1 =
                s.log ++ render s.opts s.comboTol s.ri.r (.inner i t ri :: (N.2.2.2 ++ Q.1)) := by
              have a1 : s3.log = s2.log := by subst hs3; rfl
              have a2 : s3.opts = s.opts := by subst hs3 hs2 hs1; rfl
              have a3 : s3.comboTol = s.comboTol := by subst hs3 hs2 hs1; rfl
              have a4 : s3.ri = ri' := by subst hs3; rfl
              have a5 : s2.ri.r = ri := by subst hs2 hs1; rfl
              have a6 : norms ri'.r = norms (lastRi ri N.2.2.2) := by rw [← a5]; exact n5
              have a7 : ∀ r, render s.opts s.comboTol r N.2.2.2 = [] := by
                intro r; rw [← hNN]; exact render_lineSearch ..
              have a8 : render s.opts s.comboTol s.ri.r (.inner i t ri :: (N.2.2.2 ++ Q.1)) =
                  render s.opts s.comboTol s.ri.r [.inner i t ri] ++
                    render s.opts s.comboTol ri (N.2.2.2 ++ Q.1) :=
                render_append _ _ s.ri.r [.inner i t ri] (N.2.2.2 ++ Q.1)
              rw [a1, a2, a3, a4, l2, render_congr _ _ _ a6, a8, render_append _ _ _ N.2.2.2, a7,
                List.nil_append, List.append_assoc]
            have k3 : Kept s s3 := by
              subst hs3; exact ⟨k2.opts, k2.z0, k2.l0, k2.v0, k2.y0⟩
            rw [hq]
            dsimp only at hi ⊢
            rw [eR] at hi
            cases hQ2 : Q.2 with
            | error e =>
              rw [hQ2] at hi
              obtain ⟨s', r1, r2, r3, r4⟩ := hi
              exact ⟨s', pre2 (.bind n1 r1), ⟨r2.opts.trans k3.opts, r2.z0.trans k3.z0,
                r2.l0.trans k3.l0, r2.v0.trans k3.v0, r2.y0.trans k3.y0⟩, r3,
                r4.trans (by subst hs3; exact f2)⟩
            | ok o =>
              rw [hQ2] at hi
              obtain ⟨xp', ri2, dx', lin', buf', r1, r2, r3, r4, r5⟩ := hi
              have a4 : s3.ri = ri' := by subst hs3; rfl
              have a5 : s2.ri.r = ri := by subst hs2 hs1; rfl
              have a6 : norms ri'.r = norms (lastRi ri N.2.2.2) := by rw [← a5]; exact n5
              refine ⟨xp', ri2, dx', lin', buf', pre2 (.bind n1 ?_), r2, ?_, ?_, ?_⟩
              · subst hs3 hs2 hs1
                exact r1
              · rw [r3, k3.opts]
              · rw [← k3.opts]; exact r4
              · rw [r5, a4, show lastRi s.ri.r (.inner i t ri :: (N.2.2.2 ++ Q.1)) =
                  lastRi ri (N.2.2.2 ++ Q.1) from rfl, lastRi_append]
                exact lastRi_congr _ a6

/-- The caller's `y` is a view of the wrong size. -/
def BadY (s : Run K D nz nl nv ls) : Prop := s.y0.isMap = true ∧ s.y0.data.size ≠ nv

/-- What a call that returns has done to the caller's vectors. -/
structure Written (s : Run K D nz nl nv ls) (x : Point K nz nl nv) (s' : Run K D nz nl nv ls) :
    Prop where
  opts : s'.opts = s.opts
  z0 : s'.z0 = x.z
  l0 : s'.l0 = x.l
  v0 : s'.v0 = x.v
  y0 : s'.y0 = ⟨s.y0.isMap, x.y.toVector.toArray⟩

theorem run_writeVariable_bad (x : FullVariable K nz nl nv) (s : Run K D nz nl nv ls)
    (hb : BadY s) : ∃ w s', Runs (Alg.writeVariable x) s (.error (.undefinedBehaviour w) s') ∧
      s'.opts = s.opts := by
  refine ⟨"assignment to an Eigen::Map of a different size",
    { s with z0 := x.pt.z, l0 := x.pt.l, v0 := x.pt.v }, ?_, rfl⟩
  refine .modify (.modify (.modify (.get (.ite_pos ?_ ?_))))
  · simp only [BadY] at hb
    simpa using hb
  · rfl

theorem run_writeVariable (x : FullVariable K nz nl nv) (s : Run K D nz nl nv ls)
    (hb : ¬BadY s) : Runs (Alg.writeVariable x) s (.ok () { s with
      z0 := x.pt.z, l0 := x.pt.l, v0 := x.pt.v
      y0 := ⟨s.y0.isMap, x.pt.y.toVector.toArray⟩ }) := by
  refine .modify (.modify (.modify (.get (.ite_neg ?_ ?_))))
  · simp only [BadY] at hb
    simpa using hb
  · rfl

theorem run_prepareOutput (e : ExitFlag) (E0 : K) (s : Run K D nz nl nv ls)
    (r : Resid K nz nl nv) :
    Runs (Alg.prepareOutput e E0) s (.ok ⟨e, Resid.norm s.rk.r, s.newtonIters, s.proxIters, E0⟩
      { s with log := s.log ++ (render s.opts s.comboTol r
          [.final e s.proxIters s.newtonIters s.rk.r]) }) := by
  refine .get ?_
  refine .bind (s' := { s with
      log := s.log ++ render s.opts s.comboTol r [.final e s.proxIters s.newtonIters s.rk.r] })
    (a := ()) ?_ rfl
  refine .get ?_
  simp only [render, List.append_nil]
  split
  · refine .modify (.modify (.modify (.modify (.modify (.modify (.modify ?_))))))
    show EStateM.Result.ok () _ = _
    simp only [List.append_assoc, List.cons_append, List.nil_append]
  · simp only [List.append_nil]; exact rfl

theorem run_printIterLine (tol : K) (s : Run K D nz nl nv ls) :
    Runs (Alg.printIterLine tol) s (.ok () { s with
      log := s.log ++ render s.opts s.comboTol s.ri.r
        [.outer s.proxIters s.newtonIters s.rk.r tol] }) := by
  refine .get ?_
  simp only [render, List.append_nil]
  split
  · exact rfl
  · simp only [List.append_nil]; exact rfl

theorem run_printDetailedHeader (s : Run K D nz nl nv ls) :
    Runs Alg.printDetailedHeader s (.ok () { s with
      log := s.log ++ render s.opts s.comboTol s.ri.r
        [.outerDetailed s.proxIters s.newtonIters s.rk.r] }) := by
  refine .get ?_
  simp only [render, List.append_nil]
  split
  · refine .modify ?_
    simp only [← List.singleton_append (l := [Msg.detailedColumns])]
    rw [← List.append_assoc]
    rfl
  · simp only [List.append_nil]; exact rfl

theorem run_subproblem (tol Ek : K) (s : Run K D nz nl nv ls) (h : Good S d ops s)
    (hx : s.xi.pt = s.xk.pt) :
    let q := subproblem (env S d ops s.opts) tol Ek s.xk.pt s.newtonIters s.rk.r
    let log := s.log ++ render s.opts s.comboTol s.ri.r q.1
    match q.2 with
    | .error e => ∃ s', Runs (Alg.solveProximalSubproblem tol s.opts.sigma0 Ek) s (.error e s') ∧
        Kept s s' ∧ s'.log = log ∧ s'.feas = s.feas
    | .ok o => ∃ xp ri dx lin buf, Runs (Alg.solveProximalSubproblem tol s.opts.sigma0 Ek) s
          (.ok o.Eo
          { s with xi := ⟨o.x, some ops⟩, rk := ⟨o.rk, s.opts.alpha, some ops⟩
                   newtonIters := o.newton, xp := xp, ri := ri, dx := dx, lin := lin
                   meritBuffer := buf, log := log }) ∧
        ri.data = some ops ∧ ri.alpha = s.opts.alpha ∧ S.Ready d s.opts.alpha lin ∧
        norms ri.r = norms (lastRi s.ri.r q.1) := by
  have hi := run_innerLoop (S := S) (d := d) (ops := ops) tol s.opts.sigma0 Ek
    s.opts.maxInnerIters.toNat 0 1 0 { s with meritBuffer := Vec.const 0 }
    ⟨h.combo, h.xk, h.xi, h.rk, h.rka, h.ri, h.ria, h.feas, h.lin⟩
  dsimp only at hi
  intro q log
  have hq : q = subproblem (env S d ops s.opts) tol Ek s.xk.pt s.newtonIters s.rk.r := rfl
  have hlog : log = s.log ++ render s.opts s.comboTol s.ri.r q.1 := rfl
  clear_value q log
  subst hlog
  rw [hx] at hi
  obtain ⟨Q, hQ⟩ : ∃ Q, innerLoop (env S d ops s.opts) tol s.opts.sigma0 Ek s.xk.pt
    s.opts.maxInnerIters.toNat 0 1 0 s.xk.pt s.newtonIters (Vec.const 0) s.rk.r = Q := ⟨_, rfl⟩
  rw [hQ] at hi
  have hq' : q = (Q.1, Q.2.map fun o => { o with x := projectDuals o.x }) := by
    rw [hq, ← hQ]; rfl
  rw [hq']
  cases hQ2 : Q.2 with
  | error e =>
    rw [hQ2] at hi
    obtain ⟨s', r1, r2, r3, r4⟩ := hi
    exact ⟨s', .modify (.get (.bind_error r1)), ⟨r2.opts, r2.z0, r2.l0, r2.v0, r2.y0⟩, r3,
      r4⟩
  | ok o =>
    rw [hQ2] at hi
    obtain ⟨xp, ri, dx, lin, buf, r1, r2, r3, r4, r5⟩ := hi
    refine ⟨xp, ri, dx, lin, buf, .modify (.get (.bind r1 ?_)), r2, r3, r4, r5⟩
    rfl

theorem run_check (s : Run K D nz nl nv ls) (h : Good S d ops s) :
    Runs Alg.checkForInfeasibility s
      (.ok (flagOf (checkFeasibility ops s.dx.pt s.opts.infeasTol s.feas.ws).1)
        { s with feas := ⟨(checkFeasibility ops s.dx.pt s.opts.infeasTol s.feas.ws).2, some ops⟩ }) := by
  refine .get ?_
  have : s.feas.check s.dx s.opts.infeasTol =
      .ok ((checkFeasibility ops s.dx.pt s.opts.infeasTol s.feas.ws).1,
        ⟨(checkFeasibility ops s.dx.pt s.opts.infeasTol s.feas.ws).2, some ops⟩) := by
    simp only [FullFeasibility.check, h.feas]
  refine .liftE this (.modify ?_)
  cases (checkFeasibility ops s.dx.pt s.opts.infeasTol s.feas.ws).1 <;> rfl

theorem run_proxLoop (E0 : K) (fuel : Nat) (tol : K) (s : Run K D nz nl nv ls)
    (h : Good S d ops s) :
    let p := proxLoop (env S d ops s.opts) E0 fuel
      ⟨tol, s.xk.pt, s.dx.pt, s.proxIters, s.newtonIters, s.rk.r, s.feas.ws⟩
    let log := s.log ++ render s.opts s.comboTol s.ri.r p.1
    let ws := proxWs (env S d ops s.opts) E0 fuel
      ⟨tol, s.xk.pt, s.dx.pt, s.proxIters, s.newtonIters, s.rk.r, s.feas.ws⟩
    match p.2 with
    | .error e => ∃ s', Runs (Alg.proxLoop s.opts.sigma0 E0 fuel tol) s (.error e s') ∧
        Kept s s' ∧ s'.log = log ∧ s'.feas.ws = ws
    | .ok fin =>
      (BadY s → ∃ w s', Runs (Alg.proxLoop s.opts.sigma0 E0 fuel tol) s
        (.error (.undefinedBehaviour w) s') ∧ s'.opts = s.opts) ∧
      (¬BadY s → ∃ s', Runs (Alg.proxLoop s.opts.sigma0 E0 fuel tol) s (.ok fin.out s') ∧
        Written s fin.x s' ∧ s'.log = log ∧ s'.feas.ws = ws) := by
  induction fuel generalizing tol s with
  | zero =>
    refine ⟨fun hb => ?_, fun hb => ?_⟩
    · obtain ⟨w, s', h1, h2⟩ := run_writeVariable_bad s.xk { s with
        log := s.log ++ render s.opts s.comboTol s.ri.r
          [.final .maxIterations s.proxIters s.newtonIters s.rk.r] } hb
      exact ⟨w, s', .bind (run_prepareOutput .maxIterations E0 s s.ri.r) (.get (.bind_error h1)),
        h2⟩
    · refine ⟨_, .bind (run_prepareOutput .maxIterations E0 s s.ri.r) (.get (.bind
        (run_writeVariable s.xk _ hb) rfl)), ⟨rfl, rfl, rfl, rfl, rfl⟩, rfl, rfl⟩
  | succ fuel ih =>
    intro p log ws
    have hp : p = proxLoop (env S d ops s.opts) E0 (fuel + 1)
      ⟨tol, s.xk.pt, s.dx.pt, s.proxIters, s.newtonIters, s.rk.r, s.feas.ws⟩ := rfl
    have hlog : log = s.log ++ render s.opts s.comboTol s.ri.r p.1 := rfl
    have hws : ws = proxWs (env S d ops s.opts) E0 (fuel + 1)
      ⟨tol, s.xk.pt, s.dx.pt, s.proxIters, s.newtonIters, s.rk.r, s.feas.ws⟩ := rfl
    clear_value p log ws
    subst hlog
    obtain ⟨rk, hrk⟩ : ∃ rk, (env S d ops s.opts).penRes s.xk.pt = rk := ⟨_, rfl⟩
    obtain ⟨s1, hs1⟩ : ∃ s1 : Run K D nz nl nv ls, { s with
      rk := ⟨rk, s.opts.alpha, some ops⟩ } = s1 := ⟨_, rfl⟩
    have g1 : Good S d ops s1 := by
      subst hs1
      exact ⟨h.combo, h.xk, h.xi, rfl, rfl, h.ri, h.ria, h.feas, h.lin⟩
    have u1 : Runs (Alg.updateRk s.xk) s (.ok () s1) := by
      subst hs1 hrk; exact run_updateRk s h s.xk
    have hnorm : s1.dx.norm = normPt s.dx.pt := by subst hs1; rfl
    have hEk : s1.rk.norm = Resid.norm rk := by subst hs1; rfl
    by_cases hc : Resid.norm rk ≤ (env S d ops s.opts).comboTol ∨
        normPt s.dx.pt ≤ s.opts.stallTol
    · -- converged
      rw [proxLoop, hrk] at hp
      dsimp only at hp
      rw [if_pos hc] at hp
      rw [hp]
      have hws' : ws = s.feas.ws := by
        rw [hws, proxWs, hrk]
        exact if_pos hc
      have hc1 : s1.rk.norm ≤ s1.comboTol ∨ s1.dx.norm ≤ s1.opts.stallTol := by
        rw [hnorm, hEk]
        subst hs1
        dsimp only
        rw [h.combo]
        exact hc
      have hl : ∀ l : List (Msg K), (l ++ render s1.opts s1.comboTol s1.ri.r
            [.outer s1.proxIters s1.newtonIters s1.rk.r tol]) ++
            render s1.opts s1.comboTol s1.ri.r [.final .success s1.proxIters s1.newtonIters s1.rk.r]
          = l ++ render s.opts s.comboTol s.ri.r
            [.outer s.proxIters s.newtonIters rk tol, .final .success s.proxIters s.newtonIters rk]
          := by
        intro l
        subst hs1
        simp only [render, List.append_nil, List.append_assoc]
      refine ⟨fun hb => ?_, fun hb => ?_⟩
      · obtain ⟨w, s', h1, h2⟩ := run_writeVariable_bad s1.xk { s1 with
          log := (s1.log ++ render s1.opts s1.comboTol s1.ri.r
            [.outer s1.proxIters s1.newtonIters s1.rk.r tol]) ++
            render s1.opts s1.comboTol s1.ri.r
              [.final .success s1.proxIters s1.newtonIters s1.rk.r] }
          (by subst hs1; exact hb)
        refine ⟨w, s', .get (.bind u1 (.get (.ite_pos hc1 (.bind (run_printIterLine tol s1) (.bind
          (run_prepareOutput .success E0 _ s1.ri.r) (.get (.bind_error h1))))))), ?_⟩
        rw [h2]; subst hs1; rfl
      · refine ⟨{ s1 with
            log := (s1.log ++ render s1.opts s1.comboTol s1.ri.r
              [.outer s1.proxIters s1.newtonIters s1.rk.r tol]) ++
              render s1.opts s1.comboTol s1.ri.r
                [.final .success s1.proxIters s1.newtonIters s1.rk.r]
            z0 := s1.xk.pt.z, l0 := s1.xk.pt.l, v0 := s1.xk.pt.v
            y0 := ⟨s1.y0.isMap, s1.xk.pt.y.toVector.toArray⟩ },
          .get (.bind u1 (.get (.ite_pos hc1 (.bind (run_printIterLine tol s1) (.bind
          (run_prepareOutput .success E0 _ s1.ri.r) (.get (.bind (run_writeVariable s1.xk _ ?_)
            ?_))))))), ?_, ?_, ?_⟩
        · subst hs1; exact hb
        · subst hs1; rfl
        · subst hs1; exact ⟨rfl, rfl, rfl, rfl, rfl⟩
        · rw [← hl]; subst hs1; rfl
        · rw [hws']; subst hs1; rfl
    · -- an iteration
      rw [proxLoop, hrk] at hp
      dsimp only at hp
      rw [if_neg hc] at hp
      rw [proxWs, hrk] at hws
      dsimp only at hws
      rw [if_neg hc] at hws
      have hc1 : ¬(s1.rk.norm ≤ s1.comboTol ∨ s1.dx.norm ≤ s1.opts.stallTol) := by
        rw [hnorm, hEk]
        subst hs1
        dsimp only
        rw [h.combo]
        exact hc
      obtain ⟨pre, hpre⟩ : ∃ pre, [Event.outerDetailed s.proxIters s.newtonIters rk,
        .outer s.proxIters s.newtonIters rk tol] = pre := ⟨_, rfl⟩
      have lpre : ∀ r, lastRi r pre = r := by subst hpre; intro r; rfl
      rw [hpre] at hp
      obtain ⟨s2, hs2⟩ : ∃ s2 : Run K D nz nl nv ls, { s1 with
        log := s.log ++ render s.opts s.comboTol s.ri.r pre } = s2 := ⟨_, rfl⟩
      have hprint : ∀ {r} {m : Alg.M ls (SolverOut K)}, Runs m s2 r →
          Runs (do Alg.printDetailedHeader; Alg.printIterLine tol; m) s1 r := by
        intro r m hm
        refine .bind (run_printDetailedHeader s1) (.bind (run_printIterLine tol _) ?_)
        subst hs2 hpre hs1
        simp only [render, List.append_nil, List.append_assoc] at hm ⊢
        exact hm
      have e2 : s2.log = s.log ++ render s.opts s.comboTol s.ri.r pre := by subst hs2; rfl
      have k2 : Kept s s2 := by subst hs2 hs1; exact ⟨rfl, rfl, rfl, rfl, rfl⟩
      have g2 : Good S d ops s2 := by
        subst hs2
        exact ⟨g1.combo, g1.xk, g1.xi, g1.rk, g1.rka, g1.ri, g1.ria, g1.feas, g1.lin⟩
      have eo : s1.opts = s.opts := by subst hs1; rfl
      cases hsat : saturate (tol * s.opts.delta) s.opts.innerTolMin (Resid.norm rk) with
      | error e =>
        rw [hsat] at hp hws
        rw [hp]
        refine ⟨s2, .get (.bind u1 (.get (.ite_neg hc1 (hprint (.liftE_error ?_))))), k2, e2, ?_⟩
        · rw [hEk, eo]; exact hsat
        · rw [hws]; subst hs2 hs1; rfl
      | ok tol' =>
        rw [hsat] at hp hws
        dsimp only at hp hws
        obtain ⟨s3, hs3⟩ : ∃ s3 : Run K D nz nl nv ls, { s2 with
          xi := FullVariable.copy s2.xk s2.xi } = s3 := ⟨_, rfl⟩
        have g3 : Good S d ops s3 := by
          subst hs3
          exact ⟨g2.combo, g2.xk, g2.xk, g2.rk, g2.rka, g2.ri, g2.ria, g2.feas, g2.lin⟩
        have e3 : s3.log = s.log ++ render s.opts s.comboTol s.ri.r pre := by
          subst hs3; exact e2
        have k3 : Kept s s3 := by
          subst hs3; exact ⟨k2.opts, k2.z0, k2.l0, k2.v0, k2.y0⟩
        have hsub := run_subproblem tol' (Resid.norm rk) s3 g3 (by subst hs3; rfl)
        obtain ⟨q, hq⟩ : ∃ q, subproblem (env S d ops s.opts) tol' (Resid.norm rk) s.xk.pt
          s.newtonIters rk = q := ⟨_, rfl⟩
        have eq3 : subproblem (env S d ops s3.opts) tol' (Resid.norm rk) s3.xk.pt
          s3.newtonIters s3.rk.r = q := by subst hs3 hs2 hs1; exact hq
        rw [eq3] at hsub
        rw [hq] at hp hws
        have el : ∀ es, s3.log ++ render s3.opts s3.comboTol s3.ri.r es =
            s.log ++ render s.opts s.comboTol s.ri.r (pre ++ es) := by
          intro es
          rw [e3, render_append, lpre, List.append_assoc]
          subst hs3 hs2 hs1
          rfl
        dsimp only at hsub
        rw [el] at hsub
        have so : s3.opts.sigma0 = s.opts.sigma0 := by rw [k3.opts]
        rw [so] at hsub
        cases hq2 : q.2 with
        | error e =>
          rw [hq2] at hsub hp hws
          dsimp only at hp hws
          obtain ⟨s', r1, r2, r3, r4⟩ := hsub
          rw [hp]
          refine ⟨s', .get (.bind u1 (.get (.ite_neg hc1 (hprint (.liftE (a := tol') ?_ (.modify
            ?_)))))), ⟨r2.opts.trans k3.opts, r2.z0.trans k3.z0,
                r2.l0.trans k3.l0, r2.v0.trans k3.v0, r2.y0.trans k3.y0⟩, r3, ?_⟩
          · rw [hEk, eo]; exact hsat
          · rw [hs3, hEk]
            exact .bind_error r1
          · rw [hws, r4]; subst hs3 hs2 hs1; rfl
        | ok o =>
          rw [hq2] at hsub hp hws
          dsimp only at hp hws
          obtain ⟨xp, ri, dx, lin, buf, r1, r2, r3, r4, r5⟩ := hsub
          obtain ⟨s4, hs4⟩ : ∃ s4 : Run K D nz nl nv ls, { s3 with
            xi := ⟨o.x, some ops⟩, rk := ⟨o.rk, s3.opts.alpha, some ops⟩
            newtonIters := o.newton, xp := xp, ri := ri, dx := dx, lin := lin
            meritBuffer := buf, log := s.log ++ render s.opts s.comboTol s.ri.r (pre ++ q.1) } = s4 :=
            ⟨_, rfl⟩
          rw [hs4] at r1
          have g4 : Good S d ops s4 := by
            subst hs4
            exact ⟨g3.combo, g3.xk, rfl, rfl, rfl, r2, r3, g3.feas, r4⟩
          have k4 : Kept s s4 := by
            subst hs4; exact ⟨k3.opts, k3.z0, k3.l0, k3.v0, k3.y0⟩
          have o4 : s4.opts = s.opts := k4.opts
          have x4 : s4.xi.pt = o.x := by subst hs4; rfl
          have xk4 : s4.xk = s.xk := by subst hs4 hs3 hs2 hs1; rfl
          have n4 : s4.newtonIters = o.newton := by subst hs4; rfl
          have p4 : s4.proxIters = s.proxIters := by subst hs4 hs3 hs2 hs1; rfl
          have rk4 : s4.rk.r = o.rk := by subst hs4; rfl
          have f4 : s4.feas = s.feas := by subst hs4 hs3 hs2 hs1; rfl
          have c4 : s4.comboTol = s.comboTol := by subst hs4 hs3 hs2 hs1; rfl
          have l4 : s4.log = s.log ++ render s.opts s.comboTol s.ri.r (pre ++ q.1) := by
            subst hs4; rfl
          have ri4 : norms s4.ri.r = norms (lastRi s.ri.r q.1) := by
            have : s4.ri = ri := by subst hs4; rfl
            rw [this, r5]
            subst hs3 hs2 hs1
            rfl
          have b4 : BadY s4 ↔ BadY s := by unfold BadY; rw [k4.y0]
          -- everything up to the test of the Newton limit
          have toS4 : ∀ {r}, Runs (do
              let st ← get
              if st.opts.maxNewtonIters ≤ (st.newtonIters : Int) then
                if o.Eo < Resid.norm rk then
                  Alg.writeVariable st.xi
                  Alg.updateRk st.xi
                else
                  Alg.writeVariable st.xk
                  Alg.updateRk st.xk
                Alg.prepareOutput .maxIterations E0
              else
                modify fun s => { s with dx := FullVariable.copy s.xi s.dx }
                let st ← get
                let dx ← Alg.liftE (FullVariable.axpy (-1) st.xk st.dx)
                modify fun s => { s with dx := dx }
                let eflag ← if st.opts.checkFeasibility then Alg.checkForInfeasibility
                  else pure .success
                if eflag ≠ .success then
                  let output ← Alg.prepareOutput eflag E0
                  Alg.writeVariable (← get).dx
                  return output
                else
                  modify fun s => { s with xk := FullVariable.copy s.xi s.xk }
                  modify fun s => { s with proxIters := s.proxIters + 1 }
                  Alg.proxLoop s.opts.sigma0 E0 fuel tol') s4 r →
              Runs (Alg.proxLoop s.opts.sigma0 E0 (fuel + 1) tol) s r := by
            intro r hr
            refine .get (.bind u1 (.get (.ite_neg hc1 (hprint (.liftE (a := tol') ?_ (.modify
              ?_))))))
            · rw [hEk, eo]; exact hsat
            · rw [hs3, hEk]
              exact .bind r1 hr
          obtain ⟨A, hA⟩ : ∃ A, afterInner (env S d ops s.opts) E0 (Resid.norm rk) tol'
            ⟨tol, s.xk.pt, s.dx.pt, s.proxIters, s.newtonIters, s.rk.r, s.feas.ws⟩ o = A := ⟨_, rfl⟩
          rw [hA] at hp hws
          by_cases hm : s.opts.maxNewtonIters ≤ (o.newton : Int)
          · -- the Newton limit is reached
            rw [afterInner, if_pos hm] at hA
            dsimp only at hA
            have hm4 : s4.opts.maxNewtonIters ≤ (s4.newtonIters : Int) := by rw [o4, n4]; exact hm
            obtain ⟨x, hx⟩ : ∃ x, (if o.Eo < Resid.norm rk then o.x else s.xk.pt) = x := ⟨_, rfl⟩
            rw [hx] at hA
            rw [← hA] at hp hws
            dsimp only at hp hws
            rw [afterWs, if_pos hm] at hws
            have hlog : ∀ r, s4.log ++ render s4.opts s4.comboTol r
                [.final .maxIterations s4.proxIters s4.newtonIters ((env S d ops s.opts).penRes x)] =
                s.log ++ render s.opts s.comboTol s.ri.r (pre ++ q.1 ++
                  [.final .maxIterations s.proxIters o.newton ((env S d ops s.opts).penRes x)]) := by
              intro r
              rw [l4, render_append _ _ _ (pre ++ q.1), o4, c4, p4, n4, List.append_assoc]
              rfl
            have fin : ∀ X : FullVariable K nz nl nv, X.pt = x →
                (BadY s → ∃ w s', Runs (do
                  Alg.writeVariable X
                  Alg.updateRk X
                  Alg.prepareOutput .maxIterations E0) s4 (.error (.undefinedBehaviour w) s') ∧
                    s'.opts = s.opts) ∧
                (¬BadY s → ∃ s', Runs (do
                  Alg.writeVariable X
                  Alg.updateRk X
                  Alg.prepareOutput .maxIterations E0) s4
                    (.ok ⟨.maxIterations, Resid.norm ((env S d ops s.opts).penRes x), o.newton,
                      s.proxIters, E0⟩ s') ∧ Written s x s' ∧
                    s'.log = s.log ++ render s.opts s.comboTol s.ri.r (pre ++ q.1 ++
                      [.final .maxIterations s.proxIters o.newton
                        ((env S d ops s.opts).penRes x)]) ∧ s'.feas.ws = ws) := by
              intro X hX
              subst hX
              refine ⟨fun hb => ?_, fun hb => ?_⟩
              · obtain ⟨w, s', h1, h2⟩ := run_writeVariable_bad X s4 (b4.2 hb)
                exact ⟨w, s', .bind_error h1, h2.trans o4⟩
              · have hw := run_writeVariable X s4 (fun hb' => hb (b4.1 hb'))
                have hr := run_updateRk (S := S) (d := d) (ops := ops) { s4 with
                  z0 := X.pt.z, l0 := X.pt.l, v0 := X.pt.v
                  y0 := ⟨s4.y0.isMap, X.pt.y.toVector.toArray⟩ }
                  ⟨g4.combo, g4.xk, g4.xi, g4.rk, g4.rka, g4.ri, g4.ria, g4.feas, g4.lin⟩ X
                have ho := run_prepareOutput .maxIterations E0 ({ s4 with
                  rk := ⟨(env S d ops s4.opts).penRes X.pt, s4.opts.alpha, some ops⟩
                  z0 := X.pt.z, l0 := X.pt.l, v0 := X.pt.v
                  y0 := ⟨s4.y0.isMap, X.pt.y.toVector.toArray⟩ } : Run K D nz nl nv ls) s4.ri.r
                dsimp only at ho
                refine ⟨{ s4 with
                  rk := ⟨(env S d ops s4.opts).penRes X.pt, s4.opts.alpha, some ops⟩
                  z0 := X.pt.z, l0 := X.pt.l, v0 := X.pt.v
                  y0 := ⟨s4.y0.isMap, X.pt.y.toVector.toArray⟩
                  log := (s4.log ++ render s4.opts s4.comboTol s4.ri.r
                    [.final .maxIterations s4.proxIters s4.newtonIters
                      ((env S d ops s4.opts).penRes X.pt)]) }, .bind hw (.bind hr ?_), ?_, ?_, ?_⟩
                · have hv : (⟨.maxIterations, Resid.norm ((env S d ops s.opts).penRes X.pt),
                      o.newton, s.proxIters, E0⟩ : SolverOut K) =
                      ⟨.maxIterations, Resid.norm ((env S d ops s4.opts).penRes X.pt),
                        s4.newtonIters, s4.proxIters, E0⟩ := by rw [n4, p4, o4]
                  rw [hv]
                  exact ho
                · refine ⟨o4, rfl, rfl, rfl, ?_⟩
                  rw [← k4.y0]
                · have := hlog s4.ri.r
                  rw [← this, ← o4]
                · rw [hws]; exact congrArg (·.ws) f4
            rw [hp]
            by_cases hE : o.Eo < Resid.norm rk
            · rw [if_pos hE] at hx
              obtain ⟨f1, f2⟩ := fin s4.xi (x4.trans hx)
              refine ⟨fun hb => ?_, fun hb => ?_⟩
              · obtain ⟨w, s', h1, h2⟩ := f1 hb
                exact ⟨w, s', toS4 (.get (.ite_pos hm4 (.ite_pos hE h1))), h2⟩
              · obtain ⟨s', h1, h2⟩ := f2 hb
                exact ⟨s', toS4 (.get (.ite_pos hm4 (.ite_pos hE h1))), h2⟩
            · rw [if_neg hE] at hx
              obtain ⟨f1, f2⟩ := fin s4.xk (by rw [xk4]; exact hx)
              refine ⟨fun hb => ?_, fun hb => ?_⟩
              · obtain ⟨w, s', h1, h2⟩ := f1 hb
                exact ⟨w, s', toS4 (.get (.ite_pos hm4 (.ite_neg hE h1))), h2⟩
              · obtain ⟨s', h1, h2⟩ := f2 hb
                exact ⟨s', toS4 (.get (.ite_pos hm4 (.ite_neg hE h1))), h2⟩
          · -- go on, or stop with a certificate of infeasibility
            rw [afterInner, if_neg hm] at hA
            dsimp only at hA
            have hm4 : ¬ s4.opts.maxNewtonIters ≤ (s4.newtonIters : Int) := by
              rw [o4, n4]; exact hm
            obtain ⟨dX, hdX⟩ : ∃ dX, (env S d ops s.opts).axpy (-1) s.xk.pt o.x = dX := ⟨_, rfl⟩
            rw [hdX] at hA
            obtain ⟨s5, hs5⟩ : ∃ s5 : Run K D nz nl nv ls, { s4 with
              dx := ⟨dX, some ops⟩ } = s5 := ⟨_, rfl⟩
            have g5 : Good S d ops s5 := by
              subst hs5
              exact ⟨g4.combo, g4.xk, g4.xi, g4.rk, g4.rka, g4.ri, g4.ria, g4.feas, g4.lin⟩
            have dx5 : FullVariable.axpy (-1) s4.xk (FullVariable.copy s4.xi s4.dx) =
                .ok ⟨dX, some ops⟩ := by
              have := axpy_linked (E := env S d ops s.opts) (x := s4.xk)
                (this := FullVariable.copy s4.xi s4.dx) (-1) g4.xi
              rw [this]
              rw [show (FullVariable.copy s4.xi s4.dx).pt = o.x from x4, xk4, hdX]
            obtain ⟨F, hF⟩ : ∃ F : ExitFlag × FeasWs K nz nl nv, (if s.opts.checkFeasibility then
                (flagOf (checkFeasibility ops dX s.opts.infeasTol s.feas.ws).1,
                  (checkFeasibility ops dX s.opts.infeasTol s.feas.ws).2)
              else (.success, s.feas.ws)) = F := ⟨_, rfl⟩
            rw [hF] at hA
            have hW : afterWs (env S d ops s.opts) ⟨tol, s.xk.pt, s.dx.pt, s.proxIters,
                s.newtonIters, s.rk.r, s.feas.ws⟩ o = F.2 := by
              rw [afterWs, if_neg hm, ← hF]
              dsimp only
              rw [hdX]
              split <;> rfl
            obtain ⟨s6, hs6⟩ : ∃ s6 : Run K D nz nl nv ls, { s5 with
              feas := ⟨F.2, some ops⟩ } = s6 := ⟨_, rfl⟩
            have r6 : Runs (if s4.opts.checkFeasibility then Alg.checkForInfeasibility
                else pure .success) s5 (.ok F.1 s6) := by
              by_cases hcf : s.opts.checkFeasibility
              · rw [if_pos hcf] at hF
                refine .ite_pos (by rw [o4]; exact hcf) ?_
                have := run_check (S := S) (d := d) (ops := ops) s5 g5
                have e1 : s5.dx.pt = dX := by subst hs5; rfl
                have e2 : s5.feas.ws = s.feas.ws := by subst hs5; rw [f4]
                have e3 : s5.opts.infeasTol = s.opts.infeasTol := by subst hs5; rw [o4]
                rw [e1, e2, e3] at this
                subst hs6 hF
                exact this
              · rw [if_neg hcf] at hF
                refine .ite_neg (by rw [o4]; exact hcf) ?_
                subst hF
                refine .pure ?_
                subst hs6
                have : s5.feas = ⟨s.feas.ws, some ops⟩ := by
                  have e : s5.feas = s4.feas := by subst hs5; rfl
                  rw [e, f4]
                  have := h.feas
                  cases hfe : s.feas with
                  | mk a b => rw [hfe] at this; dsimp only at this; rw [this]
                dsimp only
                rw [← this]
            have g6 : Good S d ops s6 := by
              subst hs6
              exact ⟨g5.combo, g5.xk, g5.xi, g5.rk, g5.rka, g5.ri, g5.ria, rfl, g5.lin⟩
            have k6 : Kept s s6 := by
              subst hs6 hs5; exact ⟨k4.opts, k4.z0, k4.l0, k4.v0, k4.y0⟩
            have l6 : s6.log = s.log ++ render s.opts s.comboTol s.ri.r (pre ++ q.1) := by
              subst hs6 hs5; exact l4
            have ri6 : norms s6.ri.r = norms (lastRi s.ri.r q.1) := by subst hs6 hs5; exact ri4
            have c6 : s6.comboTol = s.comboTol := by subst hs6 hs5; exact c4
            have p6 : s6.proxIters = s.proxIters := by subst hs6 hs5; exact p4
            have n6 : s6.newtonIters = o.newton := by subst hs6 hs5; exact n4
            have rk6 : s6.rk.r = o.rk := by subst hs6 hs5; exact rk4
            have dx6 : s6.dx.pt = dX := by subst hs6 hs5; rfl
            have x6 : s6.xi.pt = o.x := by subst hs6 hs5; exact x4
            have f6 : s6.feas.ws = F.2 := by subst hs6; rfl
            have b6 : BadY s6 ↔ BadY s := by unfold BadY; rw [k6.y0]
            have toS6 : ∀ {r}, Runs (
                if F.1 ≠ .success then do
                  let output ← Alg.prepareOutput F.1 E0
                  Alg.writeVariable (← get).dx
                  return output
                else do
                  modify fun s => { s with xk := FullVariable.copy s.xi s.xk }
                  modify fun s => { s with proxIters := s.proxIters + 1 }
                  Alg.proxLoop s.opts.sigma0 E0 fuel tol') s6 r →
                Runs (Alg.proxLoop s.opts.sigma0 E0 (fuel + 1) tol) s r := by
              intro r hr
              refine toS4 (.get (.ite_neg hm4 (.modify (.get (.liftE dx5 (.modify ?_))))))
              have : ({ ({ s4 with dx := FullVariable.copy s4.xi s4.dx } : Run K D nz nl nv ls) with
                dx := ⟨dX, some ops⟩ } : Run K D nz nl nv ls) = s5 := hs5
              rw [this]
              by_cases hcf : s4.opts.checkFeasibility
              · rw [if_pos hcf] at r6
                exact .ite_pos hcf (.bind r6 hr)
              · rw [if_neg hcf] at r6
                have h56 : s5 = s6 := by
                  have := r6
                  injection this
                have hF0 : ExitFlag.success = F.1 := by
                  have := r6
                  injection this
                refine .ite_neg hcf ?_
                rw [h56]
                rw [← hF0] at hr
                exact hr
            by_cases hF1 : F.1 ≠ .success
            · rw [if_pos hF1] at hA
              rw [← hA] at hp hws
              dsimp only at hp hws
              rw [hp]
              rw [hW] at hws
              have ho := run_prepareOutput F.1 E0 s6 s6.ri.r
              have hlog : ∀ r, s6.log ++ render s6.opts s6.comboTol r
                  [.final F.1 s6.proxIters s6.newtonIters s6.rk.r] =
                  s.log ++ render s.opts s.comboTol s.ri.r (pre ++ q.1 ++
                    [.final F.1 s.proxIters o.newton o.rk]) := by
                intro r
                rw [l6, render_append _ _ _ (pre ++ q.1), k6.opts, c6, p6, n6, rk6,
                  List.append_assoc]
                rfl
              rw [hlog] at ho
              refine ⟨fun hb => ?_, fun hb => ?_⟩
              · obtain ⟨w, s', h1, h2⟩ := run_writeVariable_bad s6.dx ({ s6 with
                  log := (s.log ++ render s.opts s.comboTol s.ri.r (pre ++ q.1 ++
                    [.final F.1 s.proxIters o.newton o.rk])) } : Run K D nz nl nv ls) (b6.2 hb)
                exact ⟨w, s', toS6 (.ite_pos hF1 (.bind ho (.get (.bind_error h1)))),
                  h2.trans k6.opts⟩
              · have hw := run_writeVariable s6.dx ({ s6 with
                  log := (s.log ++ render s.opts s.comboTol s.ri.r (pre ++ q.1 ++
                    [.final F.1 s.proxIters o.newton o.rk])) } : Run K D nz nl nv ls)
                  (fun hb' => hb (b6.1 hb'))
                refine ⟨{ s6 with
                  log := (s.log ++ render s.opts s.comboTol s.ri.r (pre ++ q.1 ++
                    [.final F.1 s.proxIters o.newton o.rk]))
                  z0 := s6.dx.pt.z, l0 := s6.dx.pt.l, v0 := s6.dx.pt.v
                  y0 := ⟨s6.y0.isMap, s6.dx.pt.y.toVector.toArray⟩ },
                  toS6 (.ite_pos hF1 (.bind ho (.get (.bind hw ?_)))), ?_, rfl, f6.trans hws.symm⟩
                · have hv : (mkFinal E0 F.1 s.proxIters o.newton o.rk dX).out =
                    (⟨F.1, Resid.norm s6.rk.r, s6.newtonIters, s6.proxIters, E0⟩ : SolverOut K) := by
                    rw [rk6, n6, p6]; rfl
                  rw [hv]
                  rfl
                · refine ⟨k6.opts, ?_, ?_, ?_, ?_⟩
                  · show s6.dx.pt.z = _; rw [dx6]; rfl
                  · show s6.dx.pt.l = _; rw [dx6]; rfl
                  · show s6.dx.pt.v = _; rw [dx6]; rfl
                  · show YBuf.mk s6.y0.isMap s6.dx.pt.y.toVector.toArray = _
                    rw [dx6, k6.y0]; rfl
            · rw [if_neg hF1] at hA
              rw [← hA] at hp hws
              dsimp only at hp hws
              obtain ⟨s7, hs7⟩ : ∃ s7 : Run K D nz nl nv ls, { s6 with
                xk := FullVariable.copy s6.xi s6.xk, proxIters := s6.proxIters + 1 } = s7 :=
                ⟨_, rfl⟩
              have g7 : Good S d ops s7 := by
                subst hs7
                exact ⟨g6.combo, g6.xi, g6.xi, g6.rk, g6.rka, g6.ri, g6.ria, g6.feas, g6.lin⟩
              have k7 : Kept s s7 := by
                subst hs7; exact ⟨k6.opts, k6.z0, k6.l0, k6.v0, k6.y0⟩
              have hi := ih tol' s7 g7
              dsimp only at hi
              have e7 : (⟨tol', s7.xk.pt, s7.dx.pt, s7.proxIters, s7.newtonIters, s7.rk.r,
                  s7.feas.ws⟩ : Outer K nz nl nv) =
                  ⟨tol', o.x, dX, s.proxIters + 1, o.newton, o.rk, F.2⟩ := by
                subst hs7
                dsimp only [FullVariable.copy]
                rw [x6, dx6, p6, n6, rk6, f6]
              rw [e7, k7.opts] at hi
              rw [← hws] at hi
              obtain ⟨P, hP⟩ : ∃ P, proxLoop (env S d ops s.opts) E0 fuel
                  ⟨tol', o.x, dX, s.proxIters + 1, o.newton, o.rk, F.2⟩ = P := ⟨_, rfl⟩
              rw [hP] at hi hp
              have l7 : ∀ es, s7.log ++ render s.opts s7.comboTol s7.ri.r es =
                  s.log ++ render s.opts s.comboTol s.ri.r (pre ++ q.1 ++ es) := by
                intro es
                have e1 : s7.log = s6.log := by subst hs7; rfl
                have e2 : s7.comboTol = s6.comboTol := by subst hs7; rfl
                have e3 : norms s7.ri.r = norms (lastRi s.ri.r (pre ++ q.1)) := by
                  rw [lastRi_append, lpre, ← ri6]; subst hs7; rfl
                rw [e1, l6, e2, c6, render_append _ _ _ (pre ++ q.1), List.append_assoc,
                  render_congr _ _ _ e3]
              rw [l7] at hi
              have b7 : BadY s7 ↔ BadY s := by unfold BadY; rw [k7.y0]
              have toS7 : ∀ {r}, Runs (Alg.proxLoop s.opts.sigma0 E0 fuel tol') s7 r →
                  Runs (Alg.proxLoop s.opts.sigma0 E0 (fuel + 1) tol) s r := by
                intro r hr
                refine toS6 (.ite_neg hF1 (.modify (.modify ?_)))
                subst hs7
                exact hr
              rw [hp]
              cases hP2 : P.2 with
              | error e =>
                rw [hP2] at hi
                obtain ⟨s', h1, h2, h3, h4⟩ := hi
                exact ⟨s', toS7 h1, ⟨h2.opts.trans k7.opts, h2.z0.trans k7.z0,
                  h2.l0.trans k7.l0, h2.v0.trans k7.v0, h2.y0.trans k7.y0⟩, h3, h4⟩
              | ok fin =>
                rw [hP2] at hi
                dsimp only at hi
                refine ⟨fun hb => ?_, fun hb => ?_⟩
                · obtain ⟨w, s', h1, h2⟩ := hi.1 (b7.2 hb)
                  exact ⟨w, s', toS7 h1, h2⟩
                · obtain ⟨s', h1, h2, h3, h4⟩ := hi.2 (fun hb' => hb (b7.1 hb'))
                  refine ⟨s', toS7 h1, ⟨h2.opts.trans k7.opts, h2.z0, h2.l0, h2.v0, ?_⟩, h3, h4⟩
                  rw [h2.y0, k7.y0]

theorem run_printIterHeader (s : Run K D nz nl nv ls) (c : K) (r : Resid K nz nl nv) :
    Runs Alg.printIterHeader s (.ok () { s with
      log := s.log ++ render s.opts c r [.header] }) := by
  refine .get ?_
  simp only [render, List.append_nil]
  split
  · exact rfl
  · simp only [List.append_nil]; exact rfl

/-- `Alg.solve` computes `Core.solve`. -/
theorem run_solve (S : LinSem ls) (d : D) (ops : QPOps K nz nl nv) (s : Run K D nz nl nv ls) :
    let p := solve (env S d ops s.opts) s.feas.ws s.z0 s.l0 s.v0
    let log := s.log ++ render s.opts (stoppingTol ops s.opts) s.ri.r p.1
    let ws := solveWs (env S d ops s.opts) s.feas.ws s.z0 s.l0 s.v0
    match p.2 with
    | .error e => ∃ s', Runs (Alg.solve d ops) s (.error e s') ∧ Kept s s' ∧ s'.log = log ∧
        s'.feas.ws = ws
    | .ok fin =>
      (BadY s → ∃ w s', Runs (Alg.solve d ops) s (.error (.undefinedBehaviour w) s') ∧
        s'.opts = s.opts) ∧
      (¬BadY s → ∃ s', Runs (Alg.solve d ops) s (.ok fin.out s') ∧
        Written s fin.x s' ∧ s'.log = log ∧ s'.feas.ws = ws) := by
  intro p log ws
  have hp : p = solve (env S d ops s.opts) s.feas.ws s.z0 s.l0 s.v0 := rfl
  have hlog : log = s.log ++ render s.opts (stoppingTol ops s.opts) s.ri.r p.1 := rfl
  have hws : ws = solveWs (env S d ops s.opts) s.feas.ws s.z0 s.l0 s.v0 := rfl
  clear_value p log ws
  subst hlog
  obtain ⟨x, hx⟩ : ∃ x, startPt (env S d ops s.opts) s.z0 s.l0 s.v0 = x := ⟨_, rfl⟩
  obtain ⟨rk, hrk⟩ : ∃ rk, (env S d ops s.opts).penRes x = rk := ⟨_, rfl⟩
  -- after linking, up to `copyIntoVariable`
  obtain ⟨s1, hs1⟩ : ∃ s1 : Run K D nz nl nv ls, { s with
    rk := ⟨s.rk.r, s.opts.alpha, some ops⟩, ri := ⟨s.ri.r, s.opts.alpha, some ops⟩
    lin := ls.linkData d (ls.setAlpha s.opts.alpha s.lin)
    xk := ⟨x, some ops⟩, xi := ⟨s.xi.pt, some ops⟩
    dx := ⟨s.dx.pt, some ops⟩, xp := ⟨s.xp.pt, some ops⟩
    feas := ⟨s.feas.ws, some ops⟩
    comboTol := stoppingTol ops s.opts } = s1 := ⟨_, rfl⟩
  have g1 : Good S d ops s1 := by
    subst hs1
    exact ⟨rfl, rfl, rfl, rfl, rfl, rfl, rfl, rfl, S.ready d s.opts.alpha s.lin⟩
  obtain ⟨s2, hs2⟩ : ∃ s2 : Run K D nz nl nv ls, { s1 with
    xi := ⟨x, some ops⟩, dx := ⟨onesPt (env S d ops s.opts), some ops⟩
    rk := ⟨rk, s.opts.alpha, some ops⟩
    ri := s1.ri.fill 0 } = s2 := ⟨_, rfl⟩
  have g2 : Good S d ops s2 := by
    subst hs2 hs1
    exact ⟨rfl, rfl, rfl, rfl, rfl, rfl, rfl, rfl, S.ready d s.opts.alpha s.lin⟩
  have k2 : Kept s s2 := by subst hs2 hs1; exact ⟨rfl, rfl, rfl, rfl, rfl⟩
  have hEk : s2.rk.norm = Resid.norm rk := by subst hs2; rfl
  have toS2 : ∀ {r}, Runs (do
        let innerTol ← Alg.liftE (saturate s2.rk.norm s2.opts.innerTolMin s2.opts.innerTolMax)
        modify fun s => { s with newtonIters := 0 }
        modify fun s => { s with proxIters := 0 }
        Alg.printIterHeader
        Alg.proxLoop s.opts.sigma0 s2.rk.norm s2.opts.maxProxIters.toNat innerTol) s2 r →
      Runs (Alg.solve d ops) s r := by
    intro r hr
    refine .modify (.modify (.modify (.modify (.modify (.modify (.modify (.modify (.modify (.modify
      (.modify ?_))))))))))
    change Runs _ ({ s with
      rk := ⟨s.rk.r, s.opts.alpha, some ops⟩, ri := ⟨s.ri.r, s.opts.alpha, some ops⟩
      lin := ls.linkData d (ls.setAlpha s.opts.alpha s.lin)
      xk := ⟨s.xk.pt, some ops⟩, xi := ⟨s.xi.pt, some ops⟩
      dx := ⟨s.dx.pt, some ops⟩, xp := ⟨s.xp.pt, some ops⟩
      feas := ⟨s.feas.ws, some ops⟩ } : Run K D nz nl nv ls) r
    refine .get (.modify (.bind (s' := s1) (a := ()) ?_ ?_))
    · refine .modify (.modify (.modify (.get (.liftE
        (a := ⟨x, some ops⟩) ?_ ?_))))
      · subst hx
        exact margin_linked (E := env S d ops s.opts) rfl
      · subst hs1; rfl
    refine .modify (.get (.liftE (a := ⟨onesPt (env S d ops s.opts), some ops⟩) ?_ (.modify ?_)))
    · subst hs1
      exact margin_linked (E := env S d ops s.opts)
        (x := ⟨⟨Vec.const 1, Vec.const 1, Vec.const 1, s.dx.pt.y⟩, some ops⟩) rfl
    change Runs _ ({ s1 with
      xi := FullVariable.copy s1.xk s1.xi
      dx := ⟨onesPt (env S d ops s.opts), some ops⟩ } : Run K D nz nl nv ls) r
    refine .get (.bind (run_updateRk (S := S) (d := d) (ops := ops) _ ?_ _) (.modify ?_))
    · exact ⟨g1.combo, g1.xk, g1.xk, g1.rk, g1.rka, g1.ri, g1.ria, g1.feas, g1.lin⟩
    change Runs _ ({ s1 with
      xi := FullVariable.copy s1.xk s1.xi
      dx := ⟨onesPt (env S d ops s.opts), some ops⟩
      rk := ⟨(env S d ops s1.opts).penRes s1.xk.pt, s1.opts.alpha, some ops⟩
      ri := s1.ri.fill 0 } : Run K D nz nl nv ls) r
    have : ({ s1 with
      xi := FullVariable.copy s1.xk s1.xi
      dx := ⟨onesPt (env S d ops s.opts), some ops⟩
      rk := ⟨(env S d ops s1.opts).penRes s1.xk.pt, s1.opts.alpha, some ops⟩
      ri := s1.ri.fill 0 } : Run K D nz nl nv ls) = s2 := by
      subst hs2 hrk hs1; rfl
    rw [this]
    exact .get hr
  rw [solve, hx] at hp
  dsimp only at hp
  rw [hrk] at hp
  rw [solveWs, hx] at hws
  dsimp only at hws
  rw [hrk] at hws
  cases hsat : saturate (Resid.norm rk) s.opts.innerTolMin s.opts.innerTolMax with
  | error e =>
    rw [hsat] at hp hws
    rw [hp]
    refine ⟨s2, toS2 (.liftE_error ?_), k2, ?_, ?_⟩
    · rw [hEk, k2.opts]; exact hsat
    · subst hs2 hs1; exact (List.append_nil _).symm
    · rw [hws]; subst hs2 hs1; rfl
  | ok tol =>
    rw [hsat] at hp hws
    dsimp only at hp hws
    obtain ⟨s3, hs3⟩ : ∃ s3 : Run K D nz nl nv ls, { s2 with
      newtonIters := 0, proxIters := 0
      log := s.log ++ render s.opts (stoppingTol ops s.opts) s.ri.r [.header] } = s3 := ⟨_, rfl⟩
    have g3 : Good S d ops s3 := by
      subst hs3
      exact ⟨g2.combo, g2.xk, g2.xi, g2.rk, g2.rka, g2.ri, g2.ria, g2.feas, g2.lin⟩
    have k3 : Kept s s3 := by
      subst hs3; exact ⟨k2.opts, k2.z0, k2.l0, k2.v0, k2.y0⟩
    have toS3 : ∀ {r}, Runs (Alg.proxLoop s.opts.sigma0 (Resid.norm rk) s.opts.maxProxIters.toNat
        tol) s3 r → Runs (Alg.solve d ops) s r := by
      intro r hr
      refine toS2 (.liftE (a := tol) ?_ (.modify (.modify (.bind (s' := s3) (a := ()) ?_ ?_))))
      · rw [hEk, k2.opts]; exact hsat
      · have := run_printIterHeader ({ s2 with newtonIters := 0, proxIters := 0 } :
          Run K D nz nl nv ls) (stoppingTol ops s.opts) s.ri.r
        subst hs3 hs2 hs1
        exact this
      · rw [hEk, k2.opts]; exact hr
    have hi := run_proxLoop (S := S) (d := d) (ops := ops) (Resid.norm rk)
      s.opts.maxProxIters.toNat tol s3 g3
    dsimp only at hi
    have e3 : (⟨tol, s3.xk.pt, s3.dx.pt, s3.proxIters, s3.newtonIters, s3.rk.r,
        s3.feas.ws⟩ : Outer K nz nl nv) =
        ⟨tol, x, onesPt (env S d ops s.opts), 0, 0, rk, s.feas.ws⟩ := by
      subst hs3 hs2 hs1; rfl
    rw [e3, k3.opts] at hi
    rw [← hws] at hi
    obtain ⟨P, hP⟩ : ∃ P, proxLoop (env S d ops s.opts) (Resid.norm rk) s.opts.maxProxIters.toNat
      ⟨tol, x, onesPt (env S d ops s.opts), 0, 0, rk, s.feas.ws⟩ = P := ⟨_, rfl⟩
    rw [hP] at hp hi
    have l3 : ∀ es, s3.log ++ render s.opts s3.comboTol s3.ri.r es =
        s.log ++ render s.opts (stoppingTol ops s.opts) s.ri.r (.header :: es) := by
      intro es
      have e1 : s3.log = s.log ++ render s.opts (stoppingTol ops s.opts) s.ri.r [.header] := by
        subst hs3; rfl
      have e2 : s3.comboTol = stoppingTol ops s.opts := by subst hs3 hs2 hs1; rfl
      have e3 : norms s3.ri.r = norms s.ri.r := by subst hs3 hs2 hs1; rfl
      rw [e1, e2, List.append_assoc, render_congr _ _ _ e3, ← List.singleton_append (l := es),
        render_append _ _ _ [Event.header]]
      rfl
    rw [l3] at hi
    have b3 : BadY s3 ↔ BadY s := by unfold BadY; rw [k3.y0]
    rw [hp]
    cases hP2 : P.2 with
    | error e =>
      rw [hP2] at hi
      obtain ⟨s', h1, h2, h3, h4⟩ := hi
      exact ⟨s', toS3 h1, ⟨h2.opts.trans k3.opts, h2.z0.trans k3.z0,
        h2.l0.trans k3.l0, h2.v0.trans k3.v0, h2.y0.trans k3.y0⟩, h3, h4⟩
    | ok fin =>
      rw [hP2] at hi
      dsimp only at hi
      refine ⟨fun hb => ?_, fun hb => ?_⟩
      · obtain ⟨w, s', h1, h2⟩ := hi.1 (b3.2 hb)
        exact ⟨w, s', toS3 h1, h2⟩
      · obtain ⟨s', h1, h2, h3, h4⟩ := hi.2 (fun hb' => hb (b3.1 hb'))
        refine ⟨s', toS3 h1, ⟨h2.opts.trans k3.opts, h2.z0, h2.l0, h2.v0, ?_⟩, h3, h4⟩
        rw [h2.y0, k3.y0]

end run

end Core
end Fbstab
