import Verif.Spec.Log
import Verif.Props.Control

/-!
# C46: the progress log is truthful
-/

namespace Fbstab
variable {K : Type} [Scalar K] {nz nl nv : Nat}

namespace Core

/-- The events of a subproblem. -/
def block (E : Env K nz nl nv) (s : Outer K nz nl nv) (tol : K) : List (Event K nz nl nv) :=
  [Event.outerDetailed s.prox s.newton (E.penRes s.xk),
    .outer s.prox s.newton (E.penRes s.xk) s.innerTol] ++
    (subproblem E tol (Resid.norm (E.penRes s.xk)) s.xk s.newton (E.penRes s.xk)).1

/-- The trace of a run that returns. -/
inductive RunTrace (E : Env K nz nl nv) (E0 : K) :
    Nat → Outer K nz nl nv → List (Event K nz nl nv) → Final K nz nl nv → Prop
  | limit (s) : RunTrace E E0 0 s [.final .maxIterations s.prox s.newton s.rk]
      (mkFinal E0 .maxIterations s.prox s.newton s.rk s.xk)
  | success {fuel s} (h : Stop E s) : RunTrace E E0 (fuel + 1) s
      [.outer s.prox s.newton (E.penRes s.xk) s.innerTol,
        .final .success s.prox s.newton (E.penRes s.xk)]
      (mkFinal E0 .success s.prox s.newton (E.penRes s.xk) s.xk)
  | exit {fuel s tol o rk fin} (h : Inner E s tol o) (hx : Exit E E0 s fin)
      (hp : fin.out.proxIters = s.prox) (hn : fin.out.newtonIters = o.newton)
      (hr : fin.out.residual = Resid.norm rk)
      (hf : fin.out.eflag ≠ .success)
      (hm : fin.out.eflag = .maxIterations → E.opts.maxNewtonIters ≤ (o.newton : Int)) :
      RunTrace E E0 (fuel + 1) s
        (block E s tol ++ [.final fin.out.eflag fin.out.proxIters fin.out.newtonIters rk]) fin
  | step {fuel s s' tol o es fin} (h : Step E s s' tol o) (ht : RunTrace E E0 fuel s' es fin) :
      RunTrace E E0 (fuel + 1) s (block E s tol ++ es) fin

theorem flagOf_ne_max (f : FeasStatus) : flagOf f ≠ .maxIterations := by cases f <;> simp [flagOf]

theorem proxLoop_runTrace (E : Env K nz nl nv) (E0 : K) (fuel : Nat) : ∀ (s : Outer K nz nl nv) fin,
    (proxLoop E E0 fuel s).2 = .ok fin → RunTrace E E0 fuel s (proxLoop E E0 fuel s).1 fin := by
  induction fuel with
  | zero =>
    intro s fin h
    simp only [proxLoop] at h ⊢
    cases h
    exact .limit s
  | succ fuel ih =>
    intro s fin
    simp only [proxLoop]
    by_cases hs : Stop E s
    · rw [if_pos (show _ ∨ _ from hs)]
      intro h
      cases h
      exact .success hs
    · rw [if_neg (show ¬(_ ∨ _) from hs)]
      cases ht : saturate (s.innerTol * E.opts.delta) E.opts.innerTolMin
          (Resid.norm (E.penRes s.xk)) with
      | error e => intro h; cases h
      | ok tol =>
        dsimp only
        cases hq : (subproblem E tol (Resid.norm (E.penRes s.xk)) s.xk s.newton
            (E.penRes s.xk)).2 with
        | error e => intro h; cases h
        | ok o =>
          dsimp only
          have hI := Inner.mk hs ht hq
          by_cases hn : E.opts.maxNewtonIters ≤ (o.newton : Int)
          · simp only [afterInner, if_pos hn]
            intro h
            cases h
            exact .exit hI (.newton hI hn _ rfl) rfl rfl rfl (by simp [mkFinal]) (fun _ => hn)
          · by_cases hx : E.opts.checkFeasibility = true ∧ check E s o ≠ .feasible
            · have h1 : flagOf (checkFeasibility E.ops (E.axpy (-1) s.xk o.x) E.opts.infeasTol
                  s.ws).1 ≠ .success := (flagOf_ne_success _).2 hx.2
              simp only [afterInner, if_neg hn, hx.1, if_true, if_pos h1]
              intro h
              cases h
              exact .exit hI (.infeasible hI hn hx.1 hx.2) rfl rfl rfl h1
                (fun h => absurd h (flagOf_ne_max _))
            · have ha := afterInner_cases (E0 := E0) hI
              generalize hA : afterInner E E0 (Resid.norm (E.penRes s.xk)) tol s o = a at ha
              rcases a with ⟨ev, fin'⟩ | s'
              · exfalso
                rcases Classical.not_and_iff_not_or_not.1 hx with hx | hx
                · simp [afterInner, if_neg hn, hx] at hA
                · have h1 : flagOf (checkFeasibility E.ops (E.axpy (-1) s.xk o.x) E.opts.infeasTol
                      s.ws).1 = .success := by
                    rw [show (checkFeasibility _ _ _ _).1 = _ from Classical.not_not.1 hx]; rfl
                  by_cases hc : E.opts.checkFeasibility = true <;>
                    simp [afterInner, if_neg hn, hc, h1] at hA
              · dsimp only at ha ⊢
                intro h
                exact .step ha (ih _ _ h)

theorem RunTrace.solve {E : Env K nz nl nv} {ws : FeasWs K nz nl nv} {z : Vec K nz} {l : Vec K nl}
    {v : Vec K nv} {fin : Final K nz nl nv} (h : (solve E ws z l v).2 = .ok fin) :
    ∃ tol es, saturate (Resid.norm (E.penRes (startPt E z l v))) E.opts.innerTolMin
        E.opts.innerTolMax = .ok tol ∧ (Core.solve E ws z l v).1 = .header :: es ∧
      RunTrace E (Resid.norm (E.penRes (startPt E z l v))) E.opts.maxProxIters.toNat
        (start E ws (startPt E z l v) tol) es fin := by
  simp only [Core.solve] at h ⊢
  split at h
  · cases h
  · rename_i tol ht
    exact ⟨tol, _, ht, rfl, proxLoop_runTrace E _ _ _ _ h⟩

/-! ## Level ITER -/

/-- Events that print nothing at level ITER. -/
def Quiet (es : List (Event K nz nl nv)) : Prop :=
  ∀ e ∈ es, (∃ i t r, e = .inner i t r) ∨ (∃ t, e = .footer t) ∨ ∃ t x r, e = .trial t x r

theorem lineSearch_quiet (E : Env K nz nl nv) (sigma m0 cm : K) (x xbar dx : Point K nz nl nv)
    (n : Nat) : ∀ t, ∀ e ∈ (lineSearch E sigma m0 cm x xbar dx n t).2,
      ∃ t x r, e = Event.trial t x r := by
  induction n with
  | zero => intro t e h; cases h
  | succ n ih =>
    intro t e
    rw [lineSearch]
    dsimp only
    split
    · intro h
      rw [List.mem_singleton] at h
      exact ⟨_, _, _, h⟩
    · intro h
      rcases List.mem_cons.1 h with h | h
      · exact ⟨_, _, _, h⟩
      · exact ih _ _ h

theorem innerLoop_quiet (E : Env K nz nl nv) (tol sigma Ek : K) (xbar : Point K nz nl nv)
    (fuel : Nat) : ∀ i t Eo x newton buf rk,
      Quiet (innerLoop E tol sigma Ek xbar fuel i t Eo x newton buf rk).1 := by
  induction fuel with
  | zero => intro i t Eo x newton buf rk e h; cases h
  | succ fuel ih =>
    intro i t Eo x newton buf rk
    have one : ∀ {r : Resid K nz nl nv} {es}, Quiet es → Quiet (.inner i t r :: es) := by
      intro r es h e he
      rcases List.mem_cons.1 he with rfl | he
      · exact .inl ⟨_, _, _, rfl⟩
      · exact h _ he
    have nil : Quiet ([] : List (Event K nz nl nv)) := fun e h => by cases h
    simp only [innerLoop]
    split
    · refine one fun e he => ?_
      rw [List.mem_singleton] at he
      exact .inr (.inl ⟨_, he⟩)
    · split
      · exact one nil
      · split
        · exact one nil
        · exact one nil
        · refine one fun e he => ?_
          rcases List.mem_append.1 he with he | he
          · exact .inr (.inr (lineSearch_quiet _ _ _ _ _ _ _ _ _ _ he))
          · exact ih _ _ _ _ _ _ _ _ he

theorem render_quiet {o : Params K} (ho : o.displayLevel = .iter) (c : K)
    (es rest : List (Event K nz nl nv)) (h : Quiet es) :
    ∀ ri, ∃ ri', render o c ri (es ++ rest) = render o c ri' rest := by
  induction es with
  | nil => exact fun ri => ⟨ri, rfl⟩
  | cons e es ih =>
    intro ri
    have h' : Quiet es := fun e he => h e (List.mem_cons_of_mem _ he)
    rcases h e (List.mem_cons_self ..) with ⟨i, t, r, rfl⟩ | ⟨t, rfl⟩ | ⟨t, x, r, rfl⟩ <;>
    · simp only [List.cons_append, render, ho, reduceCtorEq, if_false, List.nil_append]
      exact ih h' _

theorem render_final_event {o : Params K} (ho : 1 ≤ o.displayLevel.toNat) (c : K)
    (ri rk : Resid K nz nl nv) (out : SolverOut K) :
    render o c ri [.final out.eflag out.proxIters out.newtonIters rk] =
      summary o out rk.znorm rk.lnorm rk.vnorm c := by
  simp only [render, summary, List.append_nil]
  rw [if_pos (show Display.final.toNat ≤ _ from ho)]

/-- `x`, `newtons`, `tol` describe all states reached from `s`, which is number `k`. -/
def Describes (E : Env K nz nl nv) (x : Nat → Point K nz nl nv) (newtons : Nat → Nat)
    (tol : Nat → K) (k : Nat) (s : Outer K nz nl nv) : Prop :=
  ∀ j s', Steps E j s s' → s'.prox = k + j ∧ s'.xk = x (k + j) ∧ s'.newton = newtons (k + j) ∧
    s'.innerTol = tol (k + j)

theorem Describes.step {E : Env K nz nl nv} {x : Nat → Point K nz nl nv} {newtons : Nat → Nat}
    {tol : Nat → K} {k : Nat} {s s' : Outer K nz nl nv} {t o} (h : Describes E x newtons tol k s)
    (hs : Step E s s' t o) : Describes E x newtons tol (k + 1) s' := by
  intro j s'' h'
  have := h (j + 1) s'' (.head hs h')
  rwa [show k + (j + 1) = k + 1 + j by omega] at this

theorem RunTrace.iter {E : Env K nz nl nv} {E0 : K} {fuel : Nat} {s : Outer K nz nl nv}
    {es : List (Event K nz nl nv)} {fin : Final K nz nl nv} (h : RunTrace E E0 fuel s es fin)
    (ho : E.opts.displayLevel = .iter) (c : K) {x : Nat → Point K nz nl nv} {newtons : Nat → Nat}
    {tol : Nat → K} : ∀ k ri, Describes E x newtons tol k s →
    (k = 0 ∨ ¬E.opts.maxNewtonIters ≤ (s.newton : Int)) →
    ∃ n lines rz rl rv, render E.opts c ri es = lines ++ summary E.opts fin.out rz rl rv c ∧
      fin.out.residual = Scalar.sqrt (rz * rz + rl * rl + rv * rv) ∧
      IterLines E.ops E.opts.alpha x newtons tol k n lines ∧
      ((n = fin.out.proxIters ∧ n = k + fuel ∧ fin.out.eflag = .maxIterations ∧
          (n = 0 ∨ ¬E.opts.maxNewtonIters ≤ (fin.out.newtonIters : Int))) ∨
       (n = fin.out.proxIters + 1 ∧ fin.out.eflag = .success ∧
          fin.out.newtonIters = newtons fin.out.proxIters) ∨
       (n = fin.out.proxIters + 1 ∧ fin.out.eflag ≠ .success ∧
         (fin.out.eflag = .maxIterations →
           E.opts.maxNewtonIters ≤ (fin.out.newtonIters : Int)))) := by
  have ho' : 1 ≤ E.opts.displayLevel.toNat := by rw [ho]; decide
  induction h with
  | limit s =>
    intro k ri hd hb
    obtain ⟨h1, h2, h3, h4⟩ := hd 0 s (.refl s)
    exact ⟨k, [], _, _, _, render_final_event ho' c ri s.rk
      (mkFinal E0 .maxIterations s.prox s.newton s.rk s.xk).out, rfl, .nil k,
      .inl ⟨h1.symm, rfl, rfl, hb⟩⟩
  | @success fuel s hs =>
    intro k ri hd hb
    obtain ⟨h1, h2, h3, h4⟩ := hd 0 s (.refl s)
    simp only [Nat.add_zero] at h1 h2 h3 h4
    refine ⟨k + 1, [_], _, _, _, ?_, rfl, .cons (ri := Resid.norm ri) (.nil _), .inr (.inl
      ⟨by simp only [mkFinal, h1], rfl, ?_⟩)⟩
    · rw [render, if_pos ho, ← h4, ← h3, ← h2, ← h1]
      exact congrArg (_ :: ·) (render_final_event ho' c ri (E.penRes s.xk)
        (mkFinal E0 .success s.prox s.newton (E.penRes s.xk) s.xk).out)
    · simp only [mkFinal, h1, h3]
  | @exit fuel s t o rk fin hI hx hp hn hr hf hm =>
    intro k ri hd hb
    obtain ⟨h1, h2, h3, h4⟩ := hd 0 s (.refl s)
    simp only [Nat.add_zero] at h1 h2 h3 h4
    refine ⟨k + 1, [_], _, _, _, ?_, hr, .cons (ri := Resid.norm ri) (.nil _), .inr (.inr
      ⟨by rw [hp, h1], hf, fun h => by rw [hn]; exact hm h⟩)⟩
    obtain ⟨ri', e⟩ := render_quiet ho c (subproblem E t (Resid.norm (E.penRes s.xk)) s.xk s.newton
      (E.penRes s.xk)).1 [.final fin.out.eflag fin.out.proxIters fin.out.newtonIters rk]
      (innerLoop_quiet _ _ _ _ _ _ _ _ _ _ _ _ _) ri
    simp only [block, List.cons_append, List.nil_append, render, ho, reduceCtorEq, if_false, if_true]
    rw [← h4, ← h3, ← h2, ← h1]
    exact congrArg (_ :: ·) (e.trans (render_final_event ho' c ri' rk _))
  | @step fuel s s' t o es fin hs ht ih =>
    intro k ri hd hb
    obtain ⟨h1, h2, h3, h4⟩ := hd 0 s (.refl s)
    simp only [Nat.add_zero] at h1 h2 h3 h4
    obtain ⟨ri', e⟩ := render_quiet ho c (subproblem E t (Resid.norm (E.penRes s.xk)) s.xk s.newton
      (E.penRes s.xk)).1 es (innerLoop_quiet _ _ _ _ _ _ _ _ _ _ _ _ _) ri
    obtain ⟨n, lines, rz, rl, rv, g1, g2, g3, g4⟩ := ih (k + 1) ri' (hd.step hs)
      (.inr (by rw [hs.eq]; exact hs.below))
    refine ⟨n, _ :: lines, rz, rl, rv, ?_, g2, .cons (ri := Resid.norm ri) g3, ?_⟩
    · simp only [block, List.cons_append, List.nil_append, render, ho, reduceCtorEq, if_false,
        if_true]
      rw [← h4, ← h3, ← h2, ← h1]
      exact congrArg (_ :: ·) (e.trans g1)
    · rcases g4 with g | g | g
      · exact .inl ⟨g.1, by omega, g.2.2⟩
      · exact .inr (.inl g)
      · exact .inr (.inr g)

/-! ## Level ITER_DETAILED -/

theorem lineSearch_render {o : Params K} (c : K) (E : Env K nz nl nv)
    (sigma m0 cm : K) (x xbar dx : Point K nz nl nv) (rest : List (Event K nz nl nv)) (n : Nat) :
    ∀ t ri, ∃ ri', render o c ri ((lineSearch E sigma m0 cm x xbar dx n t).2 ++ rest) =
      render o c ri' rest := by
  induction n with
  | zero => exact fun t ri => ⟨ri, rfl⟩
  | succ n ih =>
    intro t ri
    rw [lineSearch]
    dsimp only
    split
    · exact ⟨_, rfl⟩
    · exact ih _ _

/-- What is printed about an iterate. -/
def logOf (t : K) (r : Resid K nz nl nv) : IterateLog K := ⟨t, r.znorm, r.lnorm, r.vnorm⟩

theorem innerLoop_log (E : Env K nz nl nv) (ho : E.opts.displayLevel = .iterDetailed) (c : K)
    (tol sigma Ek : K) (xbar : Point K nz nl nv) (rest : List (Event K nz nl nv)) (fuel : Nat) :
    ∀ i t Eo x newton buf rk ri out,
      (innerLoop E tol sigma Ek xbar fuel i t Eo x newton buf rk).2 = .ok out →
      ∃ ps footer ri', Iterates E.opts tol fuel newton ps footer out.newton ∧
        render E.opts c ri ((innerLoop E tol sigma Ek xbar fuel i t Eo x newton buf rk).1 ++ rest) =
          iterateMsgs i ps ++ footerMsgs footer ++ render E.opts c ri' rest := by
  induction fuel with
  | zero =>
    intro i t Eo x newton buf rk ri out h
    simp only [innerLoop] at h ⊢
    cases h
    exact ⟨[], none, ri, .innerLimit _, rfl⟩
  | succ fuel ih =>
    intro i t Eo x newton buf rk ri out
    simp only [innerLoop]
    split
    · rename_i hacc
      intro h
      cases h
      refine ⟨[logOf t (E.innerRes x xbar sigma)], some (Resid.norm (E.innerRes x xbar sigma), tol),
        E.innerRes x xbar sigma, .accepted (hacc.imp And.left id), ?_⟩
      simp only [render, List.cons_append, List.nil_append, ho, if_true, iterateMsgs, footerMsgs,
        logOf]
    · rename_i hacc
      have hmin : ¬(logOf t (E.innerRes x xbar sigma)).norm ≤ E.opts.innerTolMin :=
        fun h => hacc (.inr h)
      split
      · rename_i hn
        intro h
        cases h
        refine ⟨[logOf t (E.innerRes x xbar sigma)], none, E.innerRes x xbar sigma,
          .newtonLimit hmin hn, ?_⟩
        simp only [render, List.cons_append, List.nil_append, ho, if_true, iterateMsgs, footerMsgs,
          logOf]
      · rename_i hn
        split
        · intro h; cases h
        · intro h; cases h
        · rename_i g hg
          intro h
          dsimp only at h ⊢
          obtain ⟨ri1, e1⟩ := lineSearch_render (o := E.opts) c E sigma
            (mZero E (Alg.insertMerit (Resid.merit (Resid.negate (E.innerRes x xbar sigma))) buf)
              (Resid.merit (Resid.negate (E.innerRes x xbar sigma))))
            (Resid.merit (Resid.negate (E.innerRes x xbar sigma))) x xbar
            (g (Resid.negate (E.innerRes x xbar sigma)))
            ((innerLoop E tol sigma Ek xbar fuel (i + 1)
              (newtonStep E sigma xbar g x (E.innerRes x xbar sigma) buf).2.1
              (Resid.norm (E.penRes x)) (newtonStep E sigma xbar g x (E.innerRes x xbar sigma) buf).1
              (newton + 1) (newtonStep E sigma xbar g x (E.innerRes x xbar sigma) buf).2.2.1
              (E.penRes x)).1 ++ rest) E.opts.maxLinesearchIters.toNat 1 (E.innerRes x xbar sigma)
          obtain ⟨ps, footer, ri', h1, h2⟩ := ih _ _ _ _ _ _ _ ri1 _ h
          refine ⟨logOf t (E.innerRes x xbar sigma) :: ps, footer, ri',
            .step hmin (by omega) h1, ?_⟩
          simp only [render, List.cons_append, List.nil_append, ho, if_true, iterateMsgs, logOf,
            List.append_assoc]
          refine congrArg (_ :: ·) ?_
          refine Eq.trans ?_ (h2.trans (List.append_assoc _ _ _))
          exact e1

theorem RunTrace.detailed {E : Env K nz nl nv} {E0 : K} {fuel : Nat} {s : Outer K nz nl nv}
    {es : List (Event K nz nl nv)} {fin : Final K nz nl nv} (h : RunTrace E E0 fuel s es fin)
    (ho : E.opts.displayLevel = .iterDetailed) (c : K) {x : Nat → Point K nz nl nv}
    {newtons : Nat → Nat} {tol : Nat → K}
    (htol : ∀ k, tol (k + 1) = cmax (cmin (tol k * E.opts.delta)
      (residualNorm E.ops E.opts.alpha (x k))) E.opts.innerTolMin) :
    ∀ k ri, Describes E x newtons tol k s →
    (k = 0 ∨ ¬E.opts.maxNewtonIters ≤ (s.newton : Int)) →
    ∃ n lines rz rl rv, render E.opts c ri es = lines ++ summary E.opts fin.out rz rl rv c ∧
      SubproblemLog E.opts (fun k => residualNorm E.ops E.opts.alpha (x k)) newtons tol
        fin.out.newtonIters k n lines ∧
      ((n = fin.out.proxIters ∧ n = k + fuel ∧ fin.out.eflag = .maxIterations ∧
          (n = 0 ∨ ¬E.opts.maxNewtonIters ≤ (fin.out.newtonIters : Int))) ∨
       (n = fin.out.proxIters ∧ fin.out.eflag = .success ∧ fin.out.newtonIters = newtons n) ∨
       (n = fin.out.proxIters + 1 ∧ fin.out.eflag ≠ .success ∧
         (fin.out.eflag = .maxIterations →
           E.opts.maxNewtonIters ≤ (fin.out.newtonIters : Int)))) := by
  have ho' : 1 ≤ E.opts.displayLevel.toNat := by rw [ho]; decide
  have sub : ∀ {s : Outer K nz nl nv} {t o} {k : Nat}, Inner E s t o → s.xk = x k →
      s.newton = newtons k → s.innerTol = tol k → ∀ rest ri,
      ∃ ps footer ri', Iterates E.opts (tol (k + 1)) E.opts.maxInnerIters.toNat (newtons k) ps footer
          o.newton ∧
        render E.opts c ri ((subproblem E t (Resid.norm (E.penRes s.xk)) s.xk s.newton
          (E.penRes s.xk)).1 ++ rest) =
        iterateMsgs 0 ps ++ footerMsgs footer ++ render E.opts c ri' rest := by
    intro s t o k hI h2 h3 h4 rest ri
    have ht : t = tol (k + 1) := by
      have := hI.htol
      unfold saturate at this
      split at this
      · cases this
      · rw [htol, ← h4, ← h2]
        cases this
        rfl
    obtain ⟨o', ho', rfl⟩ := subproblem_ok hI.sub
    rw [← h3, ← ht]
    exact innerLoop_log E ho c t _ _ _ rest _ _ _ _ _ _ _ _ ri o' ho'
  induction h with
  | limit s =>
    intro k ri hd hb
    obtain ⟨h1, h2, h3, h4⟩ := hd 0 s (.refl s)
    exact ⟨k, [], _, _, _, render_final_event ho' c ri s.rk
      (mkFinal E0 .maxIterations s.prox s.newton s.rk s.xk).out, .nil k,
      .inl ⟨h1.symm, rfl, rfl, hb⟩⟩
  | @success fuel s hs =>
    intro k ri hd hb
    obtain ⟨h1, h2, h3, h4⟩ := hd 0 s (.refl s)
    refine ⟨k, [], (E.penRes s.xk).znorm, (E.penRes s.xk).lnorm, (E.penRes s.xk).vnorm, ?_, .nil k,
      .inr (.inl ⟨h1.symm, rfl, h3⟩)⟩
    rw [render, if_neg (by rw [ho]; simp), List.nil_append]
    exact render_final_event ho' c ri (E.penRes s.xk)
      (mkFinal E0 .success s.prox s.newton (E.penRes s.xk) s.xk).out
  | @exit fuel s t o rk fin hI hx hp hn hr hf hm =>
    intro k ri hd hb
    obtain ⟨h1, h2, h3, h4⟩ := hd 0 s (.refl s)
    simp only [Nat.add_zero] at h1 h2 h3 h4
    obtain ⟨ps, footer, ri', hit, e⟩ := sub hI h2 h3 h4
      [.final fin.out.eflag fin.out.proxIters fin.out.newtonIters rk] ri
    refine ⟨k + 1, _, rk.znorm, rk.lnorm, rk.vnorm, ?_, .last (ps := ps) (footer := footer) (by rw [hn]; exact hit),
      .inr (.inr ⟨by rw [hp, h1], hf, fun h => by rw [hn]; exact hm h⟩)⟩
    simp only [block, List.cons_append, List.nil_append, render, ho, reduceCtorEq, if_false, if_true]
    rw [← h3, ← h2, ← h1]
    exact congrArg (fun l => _ :: _ :: l) (e.trans (congrArg (_ ++ ·)
      (render_final_event ho' c ri' rk _)))
  | @step fuel s s' t o es fin hs ht ih =>
    intro k ri hd hb
    obtain ⟨h1, h2, h3, h4⟩ := hd 0 s (.refl s)
    simp only [Nat.add_zero] at h1 h2 h3 h4
    have hnext := (hd 1 s' (.head hs (.refl s'))).2.2.1
    obtain ⟨ps, footer, ri', hit, e⟩ := sub hs.toInner h2 h3 h4 es ri
    obtain ⟨n, lines, rz, rl, rv, g1, g3, g4⟩ := ih (k + 1) ri' (hd.step hs)
      (.inr (by rw [hs.eq]; exact hs.below))
    have ho2 : o.newton = newtons (k + 1) := by rw [← hnext, hs.eq]; rfl
    refine ⟨n, _, rz, rl, rv, ?_, .cons (ps := ps) (footer := footer) (by rw [← ho2]; exact hit) g3,
      ?_⟩
    · simp only [block, List.cons_append, List.nil_append, render, ho, reduceCtorEq, if_false,
        if_true]
      rw [← h3, ← h2, ← h1, List.append_assoc]
      rw [g1] at e
      exact congrArg (fun l => _ :: _ :: l) e
    · rcases g4 with g | g | g
      · exact .inl ⟨g.1, by omega, g.2.2⟩
      · exact .inr (.inl g)
      · exact .inr (.inr g)

/-- What the states of a run from `start` are. -/
theorem start_describes {E : Env K nz nl nv} {ws : FeasWs K nz nl nv} {x0 : Point K nz nl nv} {tol : K}
    (ht : saturate (Resid.norm (E.penRes x0)) E.opts.innerTolMin E.opts.innerTolMax = .ok tol)
    {x : Nat → Point K nz nl nv} {newtons : Nat → Nat}
    (h0 : x 0 = x0)
    (hx : ∀ j s, Steps E j (start E ws x0 tol) s → s.xk = x j ∧ s.newton = newtons j) :
    Describes E x newtons (tolAt E.opts fun k => residualNorm E.ops E.opts.alpha (x k)) 0
      (start E ws x0 tol) := by
  have sat : ∀ {a b c t : K}, saturate a b c = .ok t → t = cmax (cmin a c) b := by
    intro a b c t h
    unfold saturate at h
    split at h <;> cases h
    rfl
  intro j
  induction j with
  | zero =>
    intro s hs
    obtain ⟨h1, h2⟩ := hx 0 s hs
    cases hs
    refine ⟨rfl, h1, h2, ?_⟩
    show tol = cmax (cmin (residualNorm E.ops E.opts.alpha (x 0)) _) _
    rw [h0]
    exact sat ht
  | succ j ih =>
    intro s hs
    obtain ⟨h1, h2⟩ := hx _ s hs
    rw [Nat.zero_add]
    refine ⟨by rw [hs.prox]; simp [start], h1, h2, ?_⟩
    cases hs with
    | tail g1 g2 =>
      rename_i s' t o
      obtain ⟨-, k2, -, k4⟩ := ih s' g1
      rw [Nat.zero_add] at k2 k4
      rw [g2.eq]
      show t = cmax (cmin (tolAt _ _ j * _) (residualNorm E.ops E.opts.alpha (x j))) _
      rw [← k4, ← k2]
      exact sat g2.htol

theorem solve_iter_log {E : Env K nz nl nv} {ws : FeasWs K nz nl nv} {z : Vec K nz} {l : Vec K nl}
    {v : Vec K nv} {fin : Final K nz nl nv} (h : (Core.solve E ws z l v).2 = .ok fin)
    (hl : 1 ≤ E.opts.maxProxIters) (ho : E.opts.displayLevel = .iter) (c : K) (ri : Resid K nz nl nv)
    {x : Nat → Point K nz nl nv} {newtons : Nat → Nat} (h0 : x 0 = startPt E z l v)
    (hx : ∀ tol, saturate (Resid.norm (E.penRes (startPt E z l v))) E.opts.innerTolMin
        E.opts.innerTolMax = .ok tol → ∀ j s, Steps E j (start E ws (startPt E z l v) tol) s →
        s.xk = x j ∧ s.newton = newtons j) :
    ∃ n lines rz rl rv, render E.opts c ri (Core.solve E ws z l v).1 = .iterHeader :: lines ++
        summary E.opts fin.out rz rl rv c ∧
      fin.out.residual = Scalar.sqrt (rz * rz + rl * rl + rv * rv) ∧
      IterLines E.ops E.opts.alpha x newtons
        (tolAt E.opts fun k => residualNorm E.ops E.opts.alpha (x k)) 0 n lines ∧
      (ProxLimited E.opts fin.out → n = fin.out.proxIters) ∧
      (¬ProxLimited E.opts fin.out → n = fin.out.proxIters + 1) ∧
      (fin.out.eflag = .success → fin.out.newtonIters = newtons fin.out.proxIters) := by
  obtain ⟨tol, es, ht, he, hT⟩ := Core.RunTrace.solve h
  obtain ⟨n, lines, rz, rl, rv, g1, g2, g3, g4⟩ := hT.iter ho c 0 ri
    (start_describes ht h0 (hx tol ht)) (.inl rfl)
  refine ⟨n, lines, rz, rl, rv, ?_, g2, g3, ?_⟩
  · rw [he, Core.render, if_pos ho]
    exact congrArg (_ :: ·) g1
  · unfold ProxLimited
    rcases g4 with ⟨e1, e2, e3, e4⟩ | ⟨e1, e2, e3⟩ | ⟨e1, e2, e3⟩
    · refine ⟨fun _ => e1, fun hn => absurd ⟨e3, ?_⟩ hn, fun hs => absurd (e3.symm.trans hs) (by simp)⟩
      rcases e4 with e4 | e4 <;> omega
    · exact ⟨fun hn => absurd (e2.symm.trans hn.1) (by simp), fun _ => e1, fun _ => e3⟩
    · exact ⟨fun hn => absurd (e3 hn.1) (by omega), fun _ => e1, fun hs => absurd hs e2⟩

theorem solve_detailed_log {E : Env K nz nl nv} {ws : FeasWs K nz nl nv} {z : Vec K nz}
    {l : Vec K nl} {v : Vec K nv} {fin : Final K nz nl nv}
    (h : (Core.solve E ws z l v).2 = .ok fin) (hl : 1 ≤ E.opts.maxProxIters)
    (ho : E.opts.displayLevel = .iterDetailed) (c : K) (ri : Resid K nz nl nv)
    {x : Nat → Point K nz nl nv} {newtons : Nat → Nat} (h0 : x 0 = startPt E z l v)
    (hx : ∀ tol, saturate (Resid.norm (E.penRes (startPt E z l v))) E.opts.innerTolMin
        E.opts.innerTolMax = .ok tol → ∀ j s, Steps E j (start E ws (startPt E z l v) tol) s →
        s.xk = x j ∧ s.newton = newtons j) :
    ∃ n lines rz rl rv, render E.opts c ri (Core.solve E ws z l v).1 = lines ++
        summary E.opts fin.out rz rl rv c ∧
      SubproblemLog E.opts (fun k => residualNorm E.ops E.opts.alpha (x k)) newtons
        (tolAt E.opts fun k => residualNorm E.ops E.opts.alpha (x k)) fin.out.newtonIters 0 n lines ∧
      ((fin.out.eflag = .success ∨ ProxLimited E.opts fin.out) → n = fin.out.proxIters) ∧
      (¬(fin.out.eflag = .success ∨ ProxLimited E.opts fin.out) → n = fin.out.proxIters + 1) ∧
      (fin.out.eflag = .success → fin.out.newtonIters = newtons fin.out.proxIters) := by
  obtain ⟨tol, es, ht, he, hT⟩ := Core.RunTrace.solve h
  obtain ⟨n, lines, rz, rl, rv, g1, g3, g4⟩ := hT.detailed ho c (fun k => rfl) 0 ri
    (start_describes ht h0 (hx tol ht)) (.inl rfl)
  refine ⟨n, lines, rz, rl, rv, ?_, g3, ?_⟩
  · rw [he, Core.render, if_neg (by rw [ho]; simp)]
    exact g1
  · unfold ProxLimited
    rcases g4 with ⟨e1, e2, e3, e4⟩ | ⟨e1, e2, e3⟩ | ⟨e1, e2, e3⟩
    · refine ⟨fun _ => e1, fun hn => absurd (.inr ⟨e3, ?_⟩) hn,
        fun hs => absurd (e3.symm.trans hs) (by simp)⟩
      rcases e4 with e4 | e4 <;> omega
    · exact ⟨fun _ => e1, fun hn => absurd (.inl e2) hn, fun _ => by rw [e3, e1]⟩
    · refine ⟨fun hn => ?_, fun _ => e1, fun hs => absurd hs e2⟩
      rcases hn with hn | hn
      · exact absurd hn e2
      · exact absurd (e3 hn.1) (by omega)

end Core

/-! ## The public classes -/

theorem FBstabDense.states {s : FBstabDense K} {qp : DenseProblem K} {x : CallerVar K}
    (hf : DenseFits s.nz s.nl s.nv qp x) (hy : x.YWritable s.nv) {tol : K}
    (ht : saturate (Core.Resid.norm ((s.env qp).penRes (x.guess (s.problem qp))))
      s.options.innerTolMin s.options.innerTolMax = .ok tol) :
    ∀ j st, Core.Steps (s.env qp) j
      (Core.start (s.env qp) s.mem.feas.ws (x.guess (s.problem qp)) tol) st →
      st.xk = s.proxIterate qp x j ∧ st.newton = s.newtonsAt qp x j := by
  intro j st hst
  refine ⟨(FBstabDense.proxIterate_eq hf hy ht hst).symm, ?_⟩
  cases j with
  | zero => cases hst; rfl
  | succ k =>
    simp only [newtonsAt, Nat.add_one_ne_zero, if_false]
    have hc := solve_computes (s := s.withOptions { s.options with maxProxIters := (k + 1 : Nat) })
      (qp := qp) (x := x) hf
    rw [FBstabDense.core_maxProx] at hc
    rw [(hc.ok _ (Core.Steps.solve ht hst) hy).1]
    rfl

theorem FBstabMpc.states (h0 : ((0 : K) == 0) = true) {s : FBstabMpc K} {p : MpcProblem K}
    {x : CallerVar K} (hf : MpcFits s.N s.nx s.nu s.nc p x) (hcol : p.Columns) {tol : K}
    (ht : saturate (Core.Resid.norm ((s.env h0 p).penRes (x.guess (s.problem p))))
      s.options.innerTolMin s.options.innerTolMax = .ok tol) :
    ∀ j st, Core.Steps (s.env h0 p) j
      (Core.start (s.env h0 p) s.mem.feas.ws (x.guess (s.problem p)) tol) st →
      st.xk = s.proxIterate p x j ∧ st.newton = s.newtonsAt p x j := by
  intro j st hst
  refine ⟨(FBstabMpc.proxIterate_eq h0 hf hcol ht hst).symm, ?_⟩
  cases j with
  | zero => cases hst; rfl
  | succ k =>
    simp only [newtonsAt, Nat.add_one_ne_zero, if_false]
    have hc := solve_computes h0
      (s := s.withOptions { s.options with maxProxIters := (k + 1 : Nat) })
      (p := p) (x := x) hf hcol
    rw [FBstabMpc.core_maxProx] at hc
    rw [(hc.ok _ (Core.Steps.solve ht hst) (fun _ => hf.y)).1]
    rfl

/-- C46, level ITER: when `FBstabDense::Solve` returns, it has printed the header, one line for each
proximal iterate it looked at, and the summary.  The line of iterate `k` shows `k`, the number of
Newton steps that led to it, the norms of the three parts of its residual, and the current
tolerance for subproblems. -/
theorem C46_iter_dense (s : FBstabDense K) (hl : 1 ≤ s.options.maxProxIters) (qp : DenseProblem K)
    (x : CallerVar K) (ho : s.options.displayLevel = .iter) (out : SolverOut K)
    (h : (s.solve qp x).result = .ok out) :
    ∃ n lines rz rl rv, (s.solve qp x).log = .iterHeader :: lines ++
        summary s.options out rz rl rv (stoppingTol (s.problem qp) s.options) ∧
      out.residual = Scalar.sqrt (rz * rz + rl * rl + rv * rv) ∧
      IterLines (s.problem qp) s.options.alpha (s.proxIterate qp x) (s.newtonsAt qp x)
        (tolAt s.options fun k => residualNorm (s.problem qp) s.options.alpha
          (s.proxIterate qp x k)) 0 n lines ∧
      (ProxLimited s.options out → n = out.proxIters) ∧
      (¬ProxLimited s.options out → n = out.proxIters + 1) ∧
      (out.eflag = .success → out.newtonIters = s.newtonsAt qp x out.proxIters) := by
  obtain ⟨hf, hy, fin, hc, -, rfl, -⟩ := FBstabDense.returned h
  rw [((FBstabDense.solve_computes hf).ok fin hc hy).2.2]
  exact Core.solve_iter_log hc hl ho _ _ rfl (fun tol ht => FBstabDense.states hf hy ht)

/-- C46, level ITER_DETAILED: when `FBstabDense::Solve` returns, it has printed one block for each
proximal subproblem and the summary.  The block of subproblem `k` shows the Newton steps made before
it, the residual of the `k`-th proximal iterate, and the Newton iterates, each of which costs one
step of the reported total; it ends with a footer exactly if an iterate was accepted. -/
theorem C46_detailed_dense (s : FBstabDense K) (hl : 1 ≤ s.options.maxProxIters) (qp : DenseProblem K)
    (x : CallerVar K) (ho : s.options.displayLevel = .iterDetailed) (out : SolverOut K)
    (h : (s.solve qp x).result = .ok out) :
    ∃ n lines rz rl rv, (s.solve qp x).log = lines ++
        summary s.options out rz rl rv (stoppingTol (s.problem qp) s.options) ∧
      SubproblemLog s.options
        (fun k => residualNorm (s.problem qp) s.options.alpha (s.proxIterate qp x k))
        (s.newtonsAt qp x)
        (tolAt s.options fun k => residualNorm (s.problem qp) s.options.alpha (s.proxIterate qp x k))
        out.newtonIters 0 n lines ∧
      ((out.eflag = .success ∨ ProxLimited s.options out) → n = out.proxIters) ∧
      (¬(out.eflag = .success ∨ ProxLimited s.options out) → n = out.proxIters + 1) ∧
      (out.eflag = .success → out.newtonIters = s.newtonsAt qp x out.proxIters) := by
  obtain ⟨hf, hy, fin, hc, -, rfl, -⟩ := FBstabDense.returned h
  rw [((FBstabDense.solve_computes hf).ok fin hc hy).2.2]
  exact Core.solve_detailed_log hc hl ho _ _ rfl (fun tol ht => FBstabDense.states hf hy ht)

/-- C46, level ITER, for `FBstabMpc`. -/
theorem C46_iter_mpc (h0 : ((0 : K) == 0) = true) (s : FBstabMpc K) (hl : 1 ≤ s.options.maxProxIters) (p : MpcProblem K)
    (x : CallerVar K) (ho : s.options.displayLevel = .iter) (out : SolverOut K)
    (h : (s.solve p x).result = .ok out) :
    ∃ n lines rz rl rv, (s.solve p x).log = .iterHeader :: lines ++
        summary s.options out rz rl rv (stoppingTol (s.problem p) s.options) ∧
      out.residual = Scalar.sqrt (rz * rz + rl * rl + rv * rv) ∧
      IterLines (s.problem p) s.options.alpha (s.proxIterate p x) (s.newtonsAt p x)
        (tolAt s.options fun k => residualNorm (s.problem p) s.options.alpha
          (s.proxIterate p x k)) 0 n lines ∧
      (ProxLimited s.options out → n = out.proxIters) ∧
      (¬ProxLimited s.options out → n = out.proxIters + 1) ∧
      (out.eflag = .success → out.newtonIters = s.newtonsAt p x out.proxIters) := by
  obtain ⟨hf, hcol, fin, hc, -, rfl, -⟩ := FBstabMpc.returned h0 h
  rw [((FBstabMpc.solve_computes h0 hf hcol).ok fin hc (fun _ => hf.y)).2.2]
  exact Core.solve_iter_log hc hl ho _ _ rfl (fun tol ht => FBstabMpc.states h0 hf hcol ht)

/-- C46, level ITER_DETAILED, for `FBstabMpc`. -/
theorem C46_detailed_mpc (h0 : ((0 : K) == 0) = true) (s : FBstabMpc K) (hl : 1 ≤ s.options.maxProxIters) (p : MpcProblem K)
    (x : CallerVar K) (ho : s.options.displayLevel = .iterDetailed) (out : SolverOut K)
    (h : (s.solve p x).result = .ok out) :
    ∃ n lines rz rl rv, (s.solve p x).log = lines ++
        summary s.options out rz rl rv (stoppingTol (s.problem p) s.options) ∧
      SubproblemLog s.options
        (fun k => residualNorm (s.problem p) s.options.alpha (s.proxIterate p x k))
        (s.newtonsAt p x)
        (tolAt s.options fun k => residualNorm (s.problem p) s.options.alpha (s.proxIterate p x k))
        out.newtonIters 0 n lines ∧
      ((out.eflag = .success ∨ ProxLimited s.options out) → n = out.proxIters) ∧
      (¬(out.eflag = .success ∨ ProxLimited s.options out) → n = out.proxIters + 1) ∧
      (out.eflag = .success → out.newtonIters = s.newtonsAt p x out.proxIters) := by
  obtain ⟨hf, hcol, fin, hc, -, rfl, -⟩ := FBstabMpc.returned h0 h
  rw [((FBstabMpc.solve_computes h0 hf hcol).ok fin hc (fun _ => hf.y)).2.2]
  exact Core.solve_detailed_log hc hl ho _ _ rfl (fun tol ht => FBstabMpc.states h0 hf hcol ht)

end Fbstab
