import Verif.Proofs.OptionsCongr

/-!
# Iteration limits that are not reached, and feasibility checks that find nothing
-/

namespace Fbstab.Core
variable {K : Type} [Scalar K] {nz nl nv : Nat}

theorem flagOf_ne (f : FeasStatus) : flagOf f ≠ .maxIterations := by cases f <;> simp [flagOf]

/-- Below the Newton limit a run goes on or declares infeasibility. -/
theorem afterInner_below {E : Env K nz nl nv} {E0 w tol : K} {s : Outer K nz nl nv} {o : InnerOut K nz nl nv}
    (hn : ¬(E.opts.maxNewtonIters ≤ (o.newton : Int))) :
    (∃ f ev, f ≠ .success ∧ f ≠ .maxIterations ∧ afterInner E E0 w tol s o =
      .inl (ev, mkFinal E0 f s.prox o.newton o.rk (E.axpy (-1) s.xk o.x))) ∨
    ∃ s', afterInner E E0 w tol s o = .inr s' := by
  unfold afterInner
  simp only [if_neg hn]
  by_cases hc : E.opts.checkFeasibility
  · simp only [hc, if_true]
    by_cases hf : flagOf (checkFeasibility E.ops (E.axpy (-1) s.xk o.x) E.opts.infeasTol s.ws).1 = .success
    · right
      exact ⟨_, if_neg (fun h => h hf)⟩
    · left
      exact ⟨_, _, hf, flagOf_ne _, if_pos hf⟩
  · right
    simp only [hc]
    exact ⟨_, if_neg (fun h => h rfl)⟩

/-! ## Limits -/

/-- The environment with other iteration limits. -/
def Env.limits (E : Env K nz nl nv) (P N I : Int) : Env K nz nl nv :=
  { E with opts := { E.opts with maxProxIters := P, maxNewtonIters := N, maxInnerIters := I } }

variable (E : Env K nz nl nv) (P N I : Int)

theorem lineSearch_limits (sigma m0 cm : K) (x xbar dx : Point K nz nl nv) (n : Nat) (t : K) :
    lineSearch (E.limits P N I) sigma m0 cm x xbar dx n t = lineSearch E sigma m0 cm x xbar dx n t := by
  induction n generalizing t with
  | zero => rfl
  | succ n ih => simp only [lineSearch, ih]; rfl

theorem newtonStep_limits (sigma : K) (xbar : Point K nz nl nv) (g) (x : Point K nz nl nv)
    (ri : Resid K nz nl nv) (buf : Vec K 5) :
    newtonStep (E.limits P N I) sigma xbar g x ri buf = newtonStep E sigma xbar g x ri buf := by
  simp only [newtonStep, lineSearch_limits]
  rfl

theorem innerLoop_limits (tol sigma Ek : K) (xbar : Point K nz nl nv) (fuel : Nat) :
    ∀ (fuel' i : Nat) (t Eo : K) (x : Point K nz nl nv) (newton : Nat) (buf : Vec K 5)
    (rk : Resid K nz nl nv) (o : InnerOut K nz nl nv),
    (innerLoop E tol sigma Ek xbar fuel i t Eo x newton buf rk).2 = .ok o →
    o.newton < newton + fuel → o.newton < newton + fuel' →
    (o.newton : Int) < E.opts.maxNewtonIters → (o.newton : Int) < N →
    innerLoop (E.limits P N I) tol sigma Ek xbar fuel' i t Eo x newton buf rk =
      innerLoop E tol sigma Ek xbar fuel i t Eo x newton buf rk := by
  induction fuel with
  | zero =>
    intro fuel' i t Eo x newton buf rk o h h1 h2 h3 h4
    have := (innerLoop_facts _ _ _ _ _ _ _ _ _ _ _ _ _ _ h).ge
    omega
  | succ fuel ih =>
    intro fuel' i t Eo x newton buf rk o h h1 h2 h3 h4
    have hge := (innerLoop_facts _ _ _ _ _ _ _ _ _ _ _ _ _ _ h).ge
    obtain ⟨fuel', rfl⟩ : ∃ n, fuel' = n + 1 := ⟨fuel' - 1, by omega⟩
    have hN : ¬(N ≤ (newton : Int)) := by omega
    have hM : ¬(E.opts.maxNewtonIters ≤ (newton : Int)) := by omega
    simp only [innerLoop] at h ⊢
    by_cases hc : (Resid.norm (E.innerRes x xbar sigma) ≤ tol ∧ Resid.norm (E.penRes x) < Ek) ∨
        Resid.norm (E.innerRes x xbar sigma) ≤ E.opts.innerTolMin
    · rw [if_pos hc, if_pos (show (Resid.norm ((E.limits P N I).innerRes x xbar sigma) ≤ tol ∧
        Resid.norm ((E.limits P N I).penRes x) < Ek) ∨
        Resid.norm ((E.limits P N I).innerRes x xbar sigma) ≤ (E.limits P N I).opts.innerTolMin from hc)]
      rfl
    · rw [if_neg hc, if_neg hM] at h
      rw [if_neg hc, if_neg hM, if_neg (show ¬((Resid.norm ((E.limits P N I).innerRes x xbar sigma) ≤ tol ∧
        Resid.norm ((E.limits P N I).penRes x) < Ek) ∨
        Resid.norm ((E.limits P N I).innerRes x xbar sigma) ≤ (E.limits P N I).opts.innerTolMin) from hc),
        if_neg (show ¬((E.limits P N I).opts.maxNewtonIters ≤ (newton : Int)) from hN)]
      show (match E.factor x xbar sigma with
        | .error e => _
        | .ok none => _
        | .ok (some g) => _) = _
      cases hf : E.factor x xbar sigma with
      | error e => rfl
      | ok g =>
        cases g with
        | none => rfl
        | some g =>
          rw [hf] at h
          dsimp only at h ⊢
          have e : newtonStep (E.limits P N I) sigma xbar g x ((E.limits P N I).innerRes x xbar sigma) buf =
            newtonStep E sigma xbar g x (E.innerRes x xbar sigma) buf := newtonStep_limits E P N I ..
          rw [e]
          have := ih fuel' (i + 1) (newtonStep E sigma xbar g x (E.innerRes x xbar sigma) buf).2.1
            (Resid.norm (E.penRes x)) (newtonStep E sigma xbar g x (E.innerRes x xbar sigma) buf).1
            (newton + 1) (newtonStep E sigma xbar g x (E.innerRes x xbar sigma) buf).2.2.1 (E.penRes x) o h
            (by omega) (by omega) h3 h4
          rw [show (E.limits P N I).penRes x = E.penRes x from rfl, this]
          rfl

theorem subproblem_limits {tol Ek : K} {xk : Point K nz nl nv} {newton : Nat} {rk : Resid K nz nl nv}
    {o : InnerOut K nz nl nv} (h : (subproblem E tol Ek xk newton rk).2 = .ok o)
    (h1 : (o.newton : Int) < E.opts.maxInnerIters) (h2 : (o.newton : Int) < I)
    (h3 : (o.newton : Int) < E.opts.maxNewtonIters) (h4 : (o.newton : Int) < N) :
    subproblem (E.limits P N I) tol Ek xk newton rk = subproblem E tol Ek xk newton rk := by
  obtain ⟨o', ho, rfl⟩ := subproblem_ok h
  have := innerLoop_limits E P N I tol E.opts.sigma0 Ek xk E.opts.maxInnerIters.toNat I.toNat 0 1 0 xk newton
    (Vec.const 0) rk o' ho (by dsimp only at h1; omega) (by dsimp only at h2; omega) h3 h4
  simp only [subproblem]
  rw [show (E.limits P N I).opts.maxInnerIters.toNat = I.toNat from rfl,
    show (E.limits P N I).opts.sigma0 = E.opts.sigma0 from rfl, this]

theorem proxLoop_counts {E : Env K nz nl nv} {E0 : K} {fuel : Nat} {s : Outer K nz nl nv}
    {fin : Final K nz nl nv} (h : (proxLoop E E0 fuel s).2 = .ok fin) :
    s.prox ≤ fin.out.proxIters ∧ s.newton ≤ fin.out.newtonIters := by
  have steps : ∀ {k s s'}, Steps E k s s' → s.prox ≤ s'.prox ∧ s.newton ≤ s'.newton := by
    intro k s s' h
    induction h with
    | refl => exact ⟨Nat.le_refl _, Nat.le_refl _⟩
    | tail _ h2 ih =>
      rw [h2.eq]
      obtain ⟨o', ho, e⟩ := subproblem_ok h2.sub
      have := (innerLoop_facts _ _ _ _ _ _ _ _ _ _ _ _ _ _ ho).ge
      simp only [next, e]
      omega
  have hc := proxLoop_cases E E0 fuel s
  rw [h] at hc
  rcases hc with ⟨k, s', -, h2, h3⟩ | ⟨s', h2, rfl⟩
  · have := steps h2
    have inner : ∀ {tol o}, Inner E s' tol o → s'.newton ≤ o.newton := by
      intro tol o hi
      obtain ⟨o', ho, e⟩ := subproblem_ok hi.sub
      have := (innerLoop_facts _ _ _ _ _ _ _ _ _ _ _ _ _ _ ho).ge
      rw [e]
      exact this
    cases h3 with
    | success => exact this
    | newton hi => have := inner hi; simp only [mkFinal]; omega
    | infeasible hi => have := inner hi; simp only [mkFinal]; omega
  · exact steps h2

theorem proxLoop_limits (E0 : K) (fuel : Nat) :
    ∀ (fuel' : Nat) (s : Outer K nz nl nv) (fin : Final K nz nl nv),
    (proxLoop E E0 fuel s).2 = .ok fin → fin.out.eflag ≠ .maxIterations →
    fin.out.proxIters < s.prox + fuel' →
    (fin.out.newtonIters : Int) < E.opts.maxInnerIters → (fin.out.newtonIters : Int) < I →
    (fin.out.newtonIters : Int) < N →
    proxLoop (E.limits P N I) E0 fuel' s = proxLoop E E0 fuel s := by
  induction fuel with
  | zero =>
    intro fuel' s fin h hf
    simp only [proxLoop] at h
    cases h
    exact absurd rfl hf
  | succ fuel ih =>
    intro fuel' s fin h hf hp h1 h2 h4
    have hpc := proxLoop_counts h
    obtain ⟨fuel', rfl⟩ : ∃ n, fuel' = n + 1 := ⟨fuel' - 1, by omega⟩
    simp only [proxLoop] at h ⊢
    rw [show (E.limits P N I).penRes s.xk = E.penRes s.xk from rfl,
      show (E.limits P N I).comboTol = E.comboTol from rfl,
      show (E.limits P N I).opts.stallTol = E.opts.stallTol from rfl,
      show (E.limits P N I).opts.innerTolMin = E.opts.innerTolMin from rfl,
      show (E.limits P N I).opts.delta = E.opts.delta from rfl]
    by_cases hs : Resid.norm (E.penRes s.xk) ≤ E.comboTol ∨ normPt s.dx ≤ E.opts.stallTol
    · rw [if_pos hs, if_pos hs]
    · rw [if_neg hs] at h
      rw [if_neg hs, if_neg hs]
      cases ht : saturate (s.innerTol * E.opts.delta) E.opts.innerTolMin (Resid.norm (E.penRes s.xk)) with
      | error e => rfl
      | ok tol =>
        rw [ht] at h
        dsimp only at h ⊢
        cases hq : (subproblem E tol (Resid.norm (E.penRes s.xk)) s.xk s.newton (E.penRes s.xk)).2 with
        | error e => rw [hq] at h; cases h
        | ok o =>
          rw [hq] at h
          dsimp only at h ⊢
          have hi : Inner E s tol o := ⟨hs, ht, hq⟩
          have ha := afterInner_cases (E0 := E0) hi
          cases hr : afterInner E E0 (Resid.norm (E.penRes s.xk)) tol s o with
          | inl r =>
            rw [hr] at h ha
            obtain ⟨ev, fin'⟩ := r
            dsimp only at h ha
            cases h
            have hn : ¬(E.opts.maxNewtonIters ≤ (o.newton : Int)) ∧ fin.out.newtonIters = o.newton := by
              by_cases hn : E.opts.maxNewtonIters ≤ (o.newton : Int)
              · unfold afterInner at hr
                rw [if_pos hn] at hr
                cases hr
                exact absurd rfl hf
              · refine ⟨hn, ?_⟩
                rcases afterInner_below (E0 := E0) (w := Resid.norm (E.penRes s.xk)) (tol := tol) (s := s)
                  hn with ⟨f, ev', -, -, he⟩ | ⟨s', he⟩
                · rw [he] at hr; cases hr; rfl
                · rw [he] at hr; cases hr
            obtain ⟨hn, en⟩ := hn
            rw [en] at h1 h2 h4
            rw [subproblem_limits E P N I hq h1 h2 (by omega) h4, hq]
            dsimp only
            have : afterInner (E.limits P N I) E0 (Resid.norm (E.penRes s.xk)) tol s o =
                afterInner E E0 (Resid.norm (E.penRes s.xk)) tol s o := by
              unfold afterInner
              rw [if_neg hn, if_neg (show ¬((E.limits P N I).opts.maxNewtonIters ≤ (o.newton : Int)) from
                by show ¬(N ≤ _); omega)]
              rfl
            rw [this, hr]
          | inr s' =>
            rw [hr] at h ha
            dsimp only at h ha
            have hc := proxLoop_counts h
            have e1 : s'.newton = o.newton := by rw [ha.eq]; rfl
            have e2 : s'.prox = s.prox + 1 := by rw [ha.eq]; rfl
            have hn := ha.below
            rw [subproblem_limits E P N I hq (by omega) (by omega) (by omega) (by omega), hq]
            dsimp only
            have : afterInner (E.limits P N I) E0 (Resid.norm (E.penRes s.xk)) tol s o =
                afterInner E E0 (Resid.norm (E.penRes s.xk)) tol s o := by
              unfold afterInner
              rw [if_neg hn, if_neg (show ¬((E.limits P N I).opts.maxNewtonIters ≤ (o.newton : Int)) from
                by show ¬(N ≤ _); omega)]
              rfl
            rw [this, hr]
            dsimp only
            rw [ih fuel' s' fin h hf (by omega) h1 h2 h4]

theorem solve_limits {ws : FeasWs K nz nl nv} {z : Vec K nz} {l : Vec K nl} {v : Vec K nv}
    {fin : Final K nz nl nv} (h : (solve E ws z l v).2 = .ok fin) (hf : fin.out.eflag ≠ .maxIterations)
    (hp : (fin.out.proxIters : Int) < P) (hi : (fin.out.newtonIters : Int) < E.opts.maxInnerIters)
    (hi' : (fin.out.newtonIters : Int) < I) (hn : (fin.out.newtonIters : Int) < N) :
    solve (E.limits P N I) ws z l v = solve E ws z l v := by
  simp only [solve] at h ⊢
  rw [show saturate (Resid.norm ((E.limits P N I).penRes (startPt (E.limits P N I) z l v)))
      (E.limits P N I).opts.innerTolMin (E.limits P N I).opts.innerTolMax =
      saturate (Resid.norm (E.penRes (startPt E z l v))) E.opts.innerTolMin E.opts.innerTolMax from rfl]
  cases ht : saturate (Resid.norm (E.penRes (startPt E z l v))) E.opts.innerTolMin E.opts.innerTolMax with
  | error e => rfl
  | ok tol =>
    rw [ht] at h
    dsimp only at h ⊢
    have := proxLoop_limits E P N I (Resid.norm (E.penRes (startPt E z l v))) _ P.toNat _ _ h hf
      (by dsimp only; omega) hi hi' hn
    exact congrArg (fun p : List (Event K nz nl nv) × Except Err (Final K nz nl nv) =>
      (Event.header :: p.1, p.2)) this

/-! ## Feasibility checks -/

/-- The environment without feasibility checks, and with another tolerance for them. -/
def Env.unchecked (E : Env K nz nl nv) (c : K) : Env K nz nl nv :=
  { E with opts := { E.opts with checkFeasibility := false, infeasTol := c } }

theorem lineSearch_unchecked (c sigma m0 cm : K) (x xbar dx : Point K nz nl nv) (n : Nat) (t : K) :
    lineSearch (E.unchecked c) sigma m0 cm x xbar dx n t = lineSearch E sigma m0 cm x xbar dx n t := by
  induction n generalizing t with
  | zero => rfl
  | succ n ih => simp only [lineSearch, ih]; rfl

theorem newtonStep_unchecked (c sigma : K) (xbar : Point K nz nl nv) (g) (x : Point K nz nl nv)
    (ri : Resid K nz nl nv) (buf : Vec K 5) :
    newtonStep (E.unchecked c) sigma xbar g x ri buf = newtonStep E sigma xbar g x ri buf := by
  simp only [newtonStep, lineSearch_unchecked]
  rfl

theorem innerLoop_unchecked (c tol sigma Ek : K) (xbar : Point K nz nl nv) (fuel i : Nat) (t Eo : K)
    (x : Point K nz nl nv) (newton : Nat) (buf : Vec K 5) (rk : Resid K nz nl nv) :
    innerLoop (E.unchecked c) tol sigma Ek xbar fuel i t Eo x newton buf rk =
      innerLoop E tol sigma Ek xbar fuel i t Eo x newton buf rk := by
  induction fuel generalizing i t Eo x newton buf rk with
  | zero => rfl
  | succ fuel ih => simp only [innerLoop, newtonStep_unchecked, ih]; rfl

theorem subproblem_unchecked (c tol Ek : K) (xk : Point K nz nl nv) (newton : Nat)
    (rk : Resid K nz nl nv) :
    subproblem (E.unchecked c) tol Ek xk newton rk = subproblem E tol Ek xk newton rk := by
  simp only [subproblem, innerLoop_unchecked]
  rfl

theorem proxLoop_unchecked (c E0 : K) (fuel : Nat) (s : Outer K nz nl nv) (ws : FeasWs K nz nl nv)
    (h : ∀ fin, (proxLoop E E0 fuel s).2 = .ok fin →
      fin.out.eflag = .success ∨ fin.out.eflag = .maxIterations) :
    proxLoop (E.unchecked c) E0 fuel { s with ws := ws } = proxLoop E E0 fuel s := by
  induction fuel generalizing s ws with
  | zero => rfl
  | succ fuel ih =>
    simp only [proxLoop] at h ⊢
    rw [show (E.unchecked c).penRes s.xk = E.penRes s.xk from rfl,
      show (E.unchecked c).comboTol = E.comboTol from rfl,
      show (E.unchecked c).opts.stallTol = E.opts.stallTol from rfl,
      show (E.unchecked c).opts.innerTolMin = E.opts.innerTolMin from rfl,
      show (E.unchecked c).opts.delta = E.opts.delta from rfl]
    by_cases hs : Resid.norm (E.penRes s.xk) ≤ E.comboTol ∨ normPt s.dx ≤ E.opts.stallTol
    · rw [if_pos hs, if_pos hs]
    · rw [if_neg hs] at h
      rw [if_neg hs, if_neg hs]
      cases ht : saturate (s.innerTol * E.opts.delta) E.opts.innerTolMin (Resid.norm (E.penRes s.xk)) with
      | error e => rfl
      | ok tol =>
        rw [ht] at h
        dsimp only at h ⊢
        rw [subproblem_unchecked]
        cases hq : (subproblem E tol (Resid.norm (E.penRes s.xk)) s.xk s.newton (E.penRes s.xk)).2 with
        | error e => rfl
        | ok o =>
          rw [hq] at h
          dsimp only at h ⊢
          by_cases hn : E.opts.maxNewtonIters ≤ (o.newton : Int)
          · have e1 : ∀ (E' : Env K nz nl nv) (s' : Outer K nz nl nv) (w),
                E'.opts.maxNewtonIters = E.opts.maxNewtonIters →
                afterInner E' E0 w tol s' o = .inl
                  ([.final .maxIterations s'.prox o.newton (E'.penRes (if o.Eo < w then o.x else s'.xk))],
                    mkFinal E0 .maxIterations s'.prox o.newton
                      (E'.penRes (if o.Eo < w then o.x else s'.xk)) (if o.Eo < w then o.x else s'.xk)) := by
              intro E' s' w he
              unfold afterInner
              rw [if_pos (he ▸ hn)]
            rw [e1 E s _ rfl, e1 (E.unchecked c) { s with ws := ws } _ rfl]
            rfl
          · have e2 : afterInner (E.unchecked c) E0 (Resid.norm (E.penRes s.xk)) tol { s with ws := ws } o =
                .inr ⟨tol, o.x, E.axpy (-1) s.xk o.x, s.prox + 1, o.newton, o.rk, ws⟩ := by
              unfold afterInner
              rw [if_neg (show ¬((E.unchecked c).opts.maxNewtonIters ≤ (o.newton : Int)) from hn)]
              rfl
            rw [e2]
            have ha := afterInner_cases (E0 := E0) (Inner.mk hs ht hq)
            cases hr : afterInner E E0 (Resid.norm (E.penRes s.xk)) tol s o with
            | inl r =>
              exfalso
              rcases afterInner_below (E0 := E0) (w := Resid.norm (E.penRes s.xk)) (tol := tol) (s := s)
                hn with ⟨f, ev', h1, h2, he⟩ | ⟨s', he⟩
              · rw [he] at h
                rcases h _ rfl with h | h
                · exact h1 h
                · exact h2 h
              · rw [he] at hr; cases hr
            | inr s' =>
              rw [hr] at ha h
              dsimp only at ha h ⊢
              have es : (⟨tol, o.x, E.axpy (-1) s.xk o.x, s.prox + 1, o.newton, o.rk, ws⟩ :
                  Outer K nz nl nv) = { s' with ws := ws } := by rw [ha.eq]; rfl
              rw [es, ih s' ws h]

theorem solve_unchecked {c : K} {ws ws' : FeasWs K nz nl nv} {z : Vec K nz} {l : Vec K nl} {v : Vec K nv}
    (h : ∀ fin, (solve E ws z l v).2 = .ok fin →
      fin.out.eflag = .success ∨ fin.out.eflag = .maxIterations) :
    solve (E.unchecked c) ws' z l v = solve E ws z l v := by
  simp only [solve] at h ⊢
  rw [show saturate (Resid.norm ((E.unchecked c).penRes (startPt (E.unchecked c) z l v)))
      (E.unchecked c).opts.innerTolMin (E.unchecked c).opts.innerTolMax =
      saturate (Resid.norm (E.penRes (startPt E z l v))) E.opts.innerTolMin E.opts.innerTolMax from rfl]
  cases ht : saturate (Resid.norm (E.penRes (startPt E z l v))) E.opts.innerTolMin E.opts.innerTolMax with
  | error e => rfl
  | ok tol =>
    rw [ht] at h
    dsimp only at h ⊢
    have := proxLoop_unchecked E c (Resid.norm (E.penRes (startPt E z l v))) E.opts.maxProxIters.toNat
      ⟨tol, startPt E z l v, onesPt E, 0, 0, E.penRes (startPt E z l v), ws⟩ ws' h
    exact congrArg (fun p : List (Event K nz nl nv) × Except Err (Final K nz nl nv) =>
      (Event.header :: p.1, p.2)) this

theorem render_unchecked (o : Params K) (c comboTol : K) (ri : Resid K nz nl nv)
    (es : List (Event K nz nl nv)) :
    render { o with checkFeasibility := false, infeasTol := c } comboTol ri es = render o comboTol ri es := by
  induction es generalizing ri with
  | nil => rfl
  | cons e es ih => cases e <;> simp only [render, ih]

end Fbstab.Core
