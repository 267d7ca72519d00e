import Verif.Proofs.Core

/-!
# Facts about runs of the pure algorithm, in any arithmetic
-/

namespace Fbstab.Core
variable {K : Type} [Scalar K] {nz nl nv : Nat}

/-! ## The inner loop -/

/-- One Newton step of the inner loop leads from `x` to `x'`. -/
def NewtonTo (E : Env K nz nl nv) (sigma : K) (xbar x x' : Point K nz nl nv) : Prop :=
  ∃ g r t, E.factor x xbar sigma = .ok (some g) ∧ x' = E.axpy t (g r) x

/-- What the inner loop returns: a Newton iterate `x` and how many steps were taken. -/
structure InnerFacts (E : Env K nz nl nv) (fuel newton : Nat) (o : InnerOut K nz nl nv) : Prop where
  ge : newton ≤ o.newton
  le : o.newton ≤ newton + fuel
  limit : (o.newton : Int) ≤ max (newton : Int) E.opts.maxNewtonIters

theorem innerLoop_facts (E : Env K nz nl nv) (tol sigma Ek : K) (xbar : Point K nz nl nv)
    (fuel : Nat) : ∀ (i : Nat) (t Eo : K) (x : Point K nz nl nv) (newton : Nat) (buf : Vec K 5)
    (rk : Resid K nz nl nv) (o : InnerOut K nz nl nv),
    (innerLoop E tol sigma Ek xbar fuel i t Eo x newton buf rk).2 = .ok o →
    InnerFacts E fuel newton o := by
  induction fuel with
  | zero =>
    intro i t Eo x newton buf rk o h
    simp only [innerLoop] at h
    cases h
    exact ⟨by simp, by simp, by simp; omega⟩
  | succ fuel ih =>
    intro i t Eo x newton buf rk o h
    simp only [innerLoop] at h
    split at h
    · cases h
      exact ⟨by simp, by simp, by simp; omega⟩
    · split at h
      · cases h
        exact ⟨by simp, by simp, by simp; omega⟩
      · split at h
        · cases h
        · cases h
        · have f := ih _ _ _ _ _ _ _ _ h
          exact ⟨by have := f.ge; omega, by have := f.le; omega, by have := f.limit; omega⟩

/-- The residual norm the loop reports belongs to the residual it leaves behind. -/
theorem innerLoop_Eo (E : Env K nz nl nv) (tol sigma Ek : K) (xbar : Point K nz nl nv)
    (fuel : Nat) : ∀ (i : Nat) (t Eo : K) (x : Point K nz nl nv) (newton : Nat) (buf : Vec K 5)
    (rk : Resid K nz nl nv) (o : InnerOut K nz nl nv),
    (innerLoop E tol sigma Ek xbar fuel i t Eo x newton buf rk).2 = .ok o →
    (o.Eo = Resid.norm o.rk ∨ (o.Eo = Eo ∧ fuel = 0)) ∧
    ((o.rk = rk ∧ fuel = 0) ∨ ∃ x', o.rk = E.penRes x') := by
  induction fuel with
  | zero =>
    intro i t Eo x newton buf rk o h
    simp only [innerLoop] at h
    cases h
    simp
  | succ fuel ih =>
    intro i t Eo x newton buf rk o h
    simp only [innerLoop] at h
    split at h
    · cases h; exact ⟨.inl rfl, .inr ⟨_, rfl⟩⟩
    · split at h
      · cases h; exact ⟨.inl rfl, .inr ⟨_, rfl⟩⟩
      · split at h
        · cases h
        · cases h
        · obtain ⟨f1, f2⟩ := ih _ _ _ _ _ _ _ _ h
          refine ⟨?_, ?_⟩
          · rcases f1 with f | ⟨f, rfl⟩
            · exact .inl f
            · left
              simp only [innerLoop] at h
              cases h
              rfl
          · rcases f2 with ⟨f, rfl⟩ | f
            · exact .inr ⟨_, f⟩
            · exact .inr f

/-- Errors of the inner loop come from the linear solver. -/
theorem innerLoop_error (E : Env K nz nl nv) (tol sigma Ek : K) (xbar : Point K nz nl nv)
    (fuel : Nat) : ∀ (i : Nat) (t Eo : K) (x : Point K nz nl nv) (newton : Nat) (buf : Vec K 5)
    (rk : Resid K nz nl nv) (e : Err),
    (innerLoop E tol sigma Ek xbar fuel i t Eo x newton buf rk).2 = .error e →
    ∃ x', E.factor x' xbar sigma = .error e ∨
      (E.factor x' xbar sigma = .ok none ∧ e = factorFailed) := by
  induction fuel with
  | zero =>
    intro i t Eo x newton buf rk o h
    simp only [innerLoop] at h
    cases h
  | succ fuel ih =>
    intro i t Eo x newton buf rk o h
    simp only [innerLoop] at h
    split at h
    · cases h
    · split at h
      · cases h
      · split at h
        · cases h; exact ⟨_, .inl ‹_›⟩
        · cases h; exact ⟨_, .inr ⟨‹_›, rfl⟩⟩
        · exact ih _ _ _ _ _ _ _ _ h

/-- Invariants of the Newton iterates. -/
theorem innerLoop_invariant (E : Env K nz nl nv) (tol sigma Ek : K) (xbar : Point K nz nl nv)
    (P : Point K nz nl nv → Prop)
    (hP : ∀ x x', P x → NewtonTo E sigma xbar x x' → P x')
    (fuel : Nat) : ∀ (i : Nat) (t Eo : K) (x : Point K nz nl nv) (newton : Nat) (buf : Vec K 5)
    (rk : Resid K nz nl nv) (o : InnerOut K nz nl nv), P x →
    (innerLoop E tol sigma Ek xbar fuel i t Eo x newton buf rk).2 = .ok o → P o.x := by
  induction fuel with
  | zero =>
    intro i t Eo x newton buf rk o hx h
    simp only [innerLoop] at h
    cases h
    exact hx
  | succ fuel ih =>
    intro i t Eo x newton buf rk o hx h
    simp only [innerLoop] at h
    split at h
    · cases h; exact hx
    · split at h
      · cases h; exact hx
      · split at h
        · cases h
        · cases h
        · exact ih _ _ _ _ _ _ _ _ (hP _ _ hx ⟨_, _, _, ‹_›, rfl⟩) h

/-- The same, for the errors. -/
theorem innerLoop_error_invariant (E : Env K nz nl nv) (tol sigma Ek : K)
    (xbar : Point K nz nl nv) (P : Point K nz nl nv → Prop)
    (hP : ∀ x x', P x → NewtonTo E sigma xbar x x' → P x')
    (fuel : Nat) : ∀ (i : Nat) (t Eo : K) (x : Point K nz nl nv) (newton : Nat) (buf : Vec K 5)
    (rk : Resid K nz nl nv) (e : Err), P x →
    (innerLoop E tol sigma Ek xbar fuel i t Eo x newton buf rk).2 = .error e →
    ∃ x', P x' ∧ (E.factor x' xbar sigma = .error e ∨
      (E.factor x' xbar sigma = .ok none ∧ e = factorFailed)) := by
  induction fuel with
  | zero =>
    intro i t Eo x newton buf rk o hx h
    simp only [innerLoop] at h
    cases h
  | succ fuel ih =>
    intro i t Eo x newton buf rk o hx h
    simp only [innerLoop] at h
    split at h
    · cases h
    · split at h
      · cases h
      · split at h
        · cases h; exact ⟨_, hx, .inl ‹_›⟩
        · cases h; exact ⟨_, hx, .inr ⟨‹_›, rfl⟩⟩
        · exact ih _ _ _ _ _ _ _ _ (hP _ _ hx ⟨_, _, _, ‹_›, rfl⟩) h

theorem subproblem_ok {E : Env K nz nl nv} {tol Ek : K} {xk : Point K nz nl nv} {newton : Nat}
    {rk : Resid K nz nl nv} {o : InnerOut K nz nl nv}
    (h : (subproblem E tol Ek xk newton rk).2 = .ok o) :
    ∃ o', (innerLoop E tol E.opts.sigma0 Ek xk E.opts.maxInnerIters.toNat 0 1 0 xk newton
      (Vec.const 0) rk).2 = .ok o' ∧ o = { o' with x := projectDuals o'.x } := by
  simp only [subproblem] at h
  cases hq : (innerLoop E tol E.opts.sigma0 Ek xk E.opts.maxInnerIters.toNat 0 1 0 xk newton
      (Vec.const 0) rk).2 with
  | error e => rw [hq] at h; cases h
  | ok o' => rw [hq] at h; cases h; exact ⟨o', rfl, rfl⟩

theorem subproblem_error {E : Env K nz nl nv} {tol Ek : K} {xk : Point K nz nl nv} {newton : Nat}
    {rk : Resid K nz nl nv} {e : Err}
    (h : (subproblem E tol Ek xk newton rk).2 = .error e) :
    (innerLoop E tol E.opts.sigma0 Ek xk E.opts.maxInnerIters.toNat 0 1 0 xk newton
      (Vec.const 0) rk).2 = .error e := by
  simp only [subproblem] at h
  cases hq : (innerLoop E tol E.opts.sigma0 Ek xk E.opts.maxInnerIters.toNat 0 1 0 xk newton
      (Vec.const 0) rk).2 with
  | error e => rw [hq] at h; cases h; rfl
  | ok o' => rw [hq] at h; cases h

/-! ## The outer loop -/

/-- The stopping test of the outer loop. -/
def Stop (E : Env K nz nl nv) (s : Outer K nz nl nv) : Prop :=
  Resid.norm (E.penRes s.xk) ≤ E.comboTol ∨ normPt s.dx ≤ E.opts.stallTol

/-- The subproblem was started in state `s` with tolerance `tol` and returned `o`. -/
structure Inner (E : Env K nz nl nv) (s : Outer K nz nl nv) (tol : K) (o : InnerOut K nz nl nv) :
    Prop where
  nostop : ¬Stop E s
  htol : saturate (s.innerTol * E.opts.delta) E.opts.innerTolMin (Resid.norm (E.penRes s.xk)) =
    .ok tol
  sub : (subproblem E tol (Resid.norm (E.penRes s.xk)) s.xk s.newton (E.penRes s.xk)).2 = .ok o

/-- The infeasibility check at the difference of the iterates. -/
def check (E : Env K nz nl nv) (s : Outer K nz nl nv) (o : InnerOut K nz nl nv) : FeasStatus :=
  (checkFeasibility E.ops (E.axpy (-1) s.xk o.x) E.opts.infeasTol s.ws).1

/-- The next outer state. -/
def next (E : Env K nz nl nv) (s : Outer K nz nl nv) (tol : K) (o : InnerOut K nz nl nv) :
    Outer K nz nl nv :=
  ⟨tol, o.x, E.axpy (-1) s.xk o.x, s.prox + 1, o.newton, o.rk,
    if E.opts.checkFeasibility then
      (checkFeasibility E.ops (E.axpy (-1) s.xk o.x) E.opts.infeasTol s.ws).2 else s.ws⟩

/-- One proximal iteration that does not end the run. -/
structure Step (E : Env K nz nl nv) (s s' : Outer K nz nl nv) (tol : K)
    (o : InnerOut K nz nl nv) : Prop extends Inner E s tol o where
  below : ¬(E.opts.maxNewtonIters ≤ (o.newton : Int))
  feas : E.opts.checkFeasibility = true → check E s o = .feasible
  eq : s' = next E s tol o

/-- `k` proximal iterations. -/
inductive Steps (E : Env K nz nl nv) : Nat → Outer K nz nl nv → Outer K nz nl nv → Prop
  | refl (s) : Steps E 0 s s
  | tail {k s s' s'' tol o} : Steps E k s s' → Step E s' s'' tol o → Steps E (k + 1) s s''

/-- How a run ends in state `s`. -/
inductive Exit (E : Env K nz nl nv) (E0 : K) (s : Outer K nz nl nv) : Final K nz nl nv → Prop
  | success (h : Stop E s) :
      Exit E E0 s (mkFinal E0 .success s.prox s.newton (E.penRes s.xk) s.xk)
  | newton {tol o} (h : Inner E s tol o) (hn : E.opts.maxNewtonIters ≤ (o.newton : Int))
      (x : Point K nz nl nv)
      (hx : x = if o.Eo < Resid.norm (E.penRes s.xk) then o.x else s.xk) :
      Exit E E0 s (mkFinal E0 .maxIterations s.prox o.newton (E.penRes x) x)
  | infeasible {tol o} (h : Inner E s tol o) (hn : ¬(E.opts.maxNewtonIters ≤ (o.newton : Int)))
      (hc : E.opts.checkFeasibility = true) (hf : check E s o ≠ .feasible) :
      Exit E E0 s (mkFinal E0 (flagOf (check E s o)) s.prox o.newton o.rk
        (E.axpy (-1) s.xk o.x))

/-- How a run throws in state `s`. -/
inductive Throws (E : Env K nz nl nv) (s : Outer K nz nl nv) : Err → Prop
  | tol {e} (h : ¬Stop E s) (ht : saturate (s.innerTol * E.opts.delta) E.opts.innerTolMin
      (Resid.norm (E.penRes s.xk)) = .error e) : Throws E s e
  | inner {e tol} (h : ¬Stop E s) (ht : saturate (s.innerTol * E.opts.delta) E.opts.innerTolMin
      (Resid.norm (E.penRes s.xk)) = .ok tol)
      (hs : (subproblem E tol (Resid.norm (E.penRes s.xk)) s.xk s.newton (E.penRes s.xk)).2 =
        .error e) : Throws E s e

theorem Steps.head {E : Env K nz nl nv} {s s' : Outer K nz nl nv} {tol : K}
    {o : InnerOut K nz nl nv} (h : Step E s s' tol o) :
    ∀ {k s''}, Steps E k s' s'' → Steps E (k + 1) s s'' := by
  intro k s'' h'
  induction h' with
  | refl => exact .tail (.refl s) h
  | tail _ h2 ih => exact .tail (ih h) h2

theorem flagOf_ne_success (f : FeasStatus) : flagOf f ≠ .success ↔ f ≠ .feasible := by
  cases f <;> simp [flagOf]

/-- What follows a subproblem: an exit or a step. -/
theorem afterInner_cases {E : Env K nz nl nv} {E0 tol : K} {s : Outer K nz nl nv}
    {o : InnerOut K nz nl nv} (h : Inner E s tol o) :
    match afterInner E E0 (Resid.norm (E.penRes s.xk)) tol s o with
    | .inl (ev, fin) => Exit E E0 s fin ∧
        ev = [.final fin.out.eflag fin.out.proxIters fin.out.newtonIters
          (if E.opts.maxNewtonIters ≤ (o.newton : Int) then E.penRes fin.x else o.rk)]
    | .inr s' => Step E s s' tol o := by
  unfold afterInner
  by_cases hn : E.opts.maxNewtonIters ≤ (o.newton : Int)
  · simp only [if_pos hn]
    exact ⟨.newton h hn _ rfl, rfl⟩
  · simp only [if_neg hn]
    by_cases hc : E.opts.checkFeasibility
    · simp only [hc, if_true]
      by_cases hf : check E s o = .feasible
      · have : flagOf (checkFeasibility E.ops (E.axpy (-1) s.xk o.x) E.opts.infeasTol s.ws).1 =
            .success := by rw [show (checkFeasibility _ _ _ _).1 = _ from hf]; rfl
        simp only [this, ne_eq, not_true_eq_false, if_false]
        exact ⟨h, hn, fun _ => hf, by simp only [next, hc, if_true]⟩
      · have h1 : flagOf (checkFeasibility E.ops (E.axpy (-1) s.xk o.x) E.opts.infeasTol s.ws).1 ≠
            .success := (flagOf_ne_success _).2 hf
        simp only [h1, ne_eq, not_false_eq_true, if_true]
        exact ⟨.infeasible h hn hc hf, rfl⟩
    · simp only [hc, ne_eq, not_true_eq_false, Bool.false_eq_true, if_false]
      exact ⟨h, hn, fun h => absurd h hc, by simp only [next, hc, Bool.false_eq_true, if_false]⟩

/-- The shape of every run of the main loop. -/
theorem proxLoop_cases (E : Env K nz nl nv) (E0 : K) (fuel : Nat) : ∀ s : Outer K nz nl nv,
    match (proxLoop E E0 fuel s).2 with
    | .error e => ∃ k s', k < fuel ∧ Steps E k s s' ∧ Throws E s' e
    | .ok fin => (∃ k s', k < fuel ∧ Steps E k s s' ∧ Exit E E0 s' fin) ∨
        ∃ s', Steps E fuel s s' ∧
          fin = mkFinal E0 .maxIterations s'.prox s'.newton s'.rk s'.xk := by
  induction fuel with
  | zero =>
    intro s
    simp only [proxLoop]
    exact .inr ⟨s, .refl s, rfl⟩
  | succ fuel ih =>
    intro s
    simp only [proxLoop]
    by_cases hs : Stop E s
    · rw [if_pos (show _ ∨ _ from hs)]
      exact .inl ⟨0, s, Nat.succ_pos _, .refl s, .success hs⟩
    · rw [if_neg (show ¬(_ ∨ _) from hs)]
      cases ht : saturate (s.innerTol * E.opts.delta) E.opts.innerTolMin
          (Resid.norm (E.penRes s.xk)) with
      | error e => exact ⟨0, s, Nat.succ_pos _, .refl s, .tol hs ht⟩
      | ok tol =>
        dsimp only
        cases hq : (subproblem E tol (Resid.norm (E.penRes s.xk)) s.xk s.newton
            (E.penRes s.xk)).2 with
        | error e => exact ⟨0, s, Nat.succ_pos _, .refl s, .inner hs ht hq⟩
        | ok o =>
          dsimp only
          have ha := afterInner_cases (E0 := E0) (Inner.mk hs ht hq)
          generalize afterInner E E0 (Resid.norm (E.penRes s.xk)) tol s o = a at ha
          rcases a with ⟨ev, fin⟩ | s'
          · exact .inl ⟨0, s, Nat.succ_pos _, .refl s, ha.1⟩
          · dsimp only at ha ⊢
            have := ih s'
            cases hp : (proxLoop E E0 fuel s').2 with
            | error e =>
              rw [hp] at this
              obtain ⟨k, s'', h1, h2, h3⟩ := this
              exact ⟨k + 1, s'', Nat.succ_lt_succ h1, .head ha h2, h3⟩
            | ok fin =>
              rw [hp] at this
              rcases this with ⟨k, s'', h1, h2, h3⟩ | ⟨s'', h2, h3⟩
              · exact .inl ⟨k + 1, s'', Nat.succ_lt_succ h1, .head ha h2, h3⟩
              · exact .inr ⟨s'', .head ha h2, h3⟩

/-- The first outer state. -/
def start (E : Env K nz nl nv) (ws : FeasWs K nz nl nv) (x : Point K nz nl nv) (tol : K) :
    Outer K nz nl nv := ⟨tol, x, onesPt E, 0, 0, E.penRes x, ws⟩

/-- A run that returned: the state in which it ended. -/
structure Returned (E : Env K nz nl nv) (ws : FeasWs K nz nl nv) (x : Point K nz nl nv)
    (fin : Final K nz nl nv) : Prop where
  run : ∃ tol k s, saturate (Resid.norm (E.penRes x)) E.opts.innerTolMin E.opts.innerTolMax =
      .ok tol ∧ Steps E k (start E ws x tol) s ∧
      ((k < E.opts.maxProxIters.toNat ∧ Exit E (Resid.norm (E.penRes x)) s fin) ∨
       (k = E.opts.maxProxIters.toNat ∧
         fin = mkFinal (Resid.norm (E.penRes x)) .maxIterations s.prox s.newton s.rk s.xk))

theorem solve_returned {E : Env K nz nl nv} {ws : FeasWs K nz nl nv} {z : Vec K nz} {l : Vec K nl}
    {v : Vec K nv} {fin : Final K nz nl nv} (h : (solve E ws z l v).2 = .ok fin) :
    Returned E ws (startPt E z l v) fin := by
  simp only [solve] at h
  split at h
  · cases h
  · rename_i tol ht
    have := proxLoop_cases E (Resid.norm (E.penRes (startPt E z l v)))
      E.opts.maxProxIters.toNat (start E ws (startPt E z l v) tol)
    dsimp only at h
    rw [show (proxLoop _ _ _ (start E ws (startPt E z l v) tol)).2 = _ from h] at this
    rcases this with ⟨k, s, h1, h2, h3⟩ | ⟨s, h2, h3⟩
    · exact ⟨tol, k, s, ht, h2, .inl ⟨h1, h3⟩⟩
    · exact ⟨tol, _, s, ht, h2, .inr ⟨rfl, h3⟩⟩

theorem solve_threw {E : Env K nz nl nv} {ws : FeasWs K nz nl nv} {z : Vec K nz} {l : Vec K nl}
    {v : Vec K nv} {e : Err} (h : (solve E ws z l v).2 = .error e) :
    saturate (Resid.norm (E.penRes (startPt E z l v))) E.opts.innerTolMin E.opts.innerTolMax =
      .error e ∨
    ∃ tol k s, saturate (Resid.norm (E.penRes (startPt E z l v))) E.opts.innerTolMin
      E.opts.innerTolMax = .ok tol ∧ Steps E k (start E ws (startPt E z l v) tol) s ∧
      Throws E s e := by
  simp only [solve] at h
  split at h
  · cases h; exact .inl ‹_›
  · rename_i tol ht
    have := proxLoop_cases E (Resid.norm (E.penRes (startPt E z l v)))
      E.opts.maxProxIters.toNat (start E ws (startPt E z l v) tol)
    dsimp only at h
    rw [show (proxLoop _ _ _ (start E ws (startPt E z l v) tol)).2 = _ from h] at this
    obtain ⟨k, s, -, h2, h3⟩ := this
    exact .inr ⟨tol, k, s, ht, h2, h3⟩

/-- Invariants of outer states. -/
theorem Steps.invariant {E : Env K nz nl nv} {P : Outer K nz nl nv → Prop}
    (hP : ∀ s s' tol o, P s → Step E s s' tol o → P s') {k s s'} (h : Steps E k s s') (hs : P s) :
    P s' := by
  induction h with
  | refl => exact hs
  | tail _ h2 ih => exact hP _ _ _ _ (ih hs) h2

/-! ## Consequences -/

theorem Steps.prox {E : Env K nz nl nv} {k s s'} (h : Steps E k s s') : s'.prox = s.prox + k := by
  induction h with
  | refl => rfl
  | tail _ h2 ih => rw [h2.eq]; simp only [next]; omega

theorem Inner.newton {E : Env K nz nl nv} {s tol o} (h : Inner E s tol o) :
    s.newton ≤ o.newton ∧ o.newton ≤ s.newton + E.opts.maxInnerIters.toNat ∧
      (o.newton : Int) ≤ max (s.newton : Int) E.opts.maxNewtonIters := by
  obtain ⟨o', h', rfl⟩ := subproblem_ok h.sub
  have f := innerLoop_facts _ _ _ _ _ _ _ _ _ _ _ _ _ _ h'
  exact ⟨f.ge, f.le, f.limit⟩

theorem Steps.newton {E : Env K nz nl nv} {k s s'} (h : Steps E k s s') :
    s.newton ≤ s'.newton ∧ s'.newton ≤ s.newton + k * E.opts.maxInnerIters.toNat ∧
    (s'.newton : Int) ≤ max (s.newton : Int) E.opts.maxNewtonIters := by
  induction h with
  | refl => exact ⟨Nat.le_refl _, by simp, by omega⟩
  | tail _ h2 ih =>
    have := h2.toInner.newton
    rw [h2.eq]
    simp only [next, Nat.succ_mul]
    omega

end Fbstab.Core
