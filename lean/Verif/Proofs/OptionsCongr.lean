import Verif.Proofs.CoreFacts

/-!
# Options the loops do not look at

The display level and the proximal iteration limit have no influence inside the loops.
-/

namespace Fbstab.Core
variable {K : Type} [Scalar K] {nz nl nv : Nat}

/-- The environment with another display level and another proximal iteration limit. -/
def Env.with (E : Env K nz nl nv) (d : Display) (m : Int) : Env K nz nl nv :=
  { E with opts := { E.opts with displayLevel := d, maxProxIters := m } }

variable (E : Env K nz nl nv) (d : Display) (m : Int)

theorem lineSearch_with (sigma m0 cm : K) (x xbar dx : Point K nz nl nv) (n : Nat) (t : K) :
    lineSearch (E.with d m) sigma m0 cm x xbar dx n t = lineSearch E sigma m0 cm x xbar dx n t := by
  induction n generalizing t with
  | zero => rfl
  | succ n ih => simp only [lineSearch, ih]; rfl

theorem newtonStep_with (sigma : K) (xbar : Point K nz nl nv) (g) (x : Point K nz nl nv)
    (ri : Resid K nz nl nv) (buf : Vec K 5) :
    newtonStep (E.with d m) sigma xbar g x ri buf = newtonStep E sigma xbar g x ri buf := by
  simp only [newtonStep, lineSearch_with]
  rfl

theorem innerLoop_with (tol sigma Ek : K) (xbar : Point K nz nl nv) (fuel i : Nat) (t Eo : K)
    (x : Point K nz nl nv) (newton : Nat) (buf : Vec K 5) (rk : Resid K nz nl nv) :
    innerLoop (E.with d m) tol sigma Ek xbar fuel i t Eo x newton buf rk =
      innerLoop E tol sigma Ek xbar fuel i t Eo x newton buf rk := by
  induction fuel generalizing i t Eo x newton buf rk with
  | zero => rfl
  | succ fuel ih => simp only [innerLoop, newtonStep_with, ih]; rfl

theorem subproblem_with (tol Ek : K) (xk : Point K nz nl nv) (newton : Nat)
    (rk : Resid K nz nl nv) :
    subproblem (E.with d m) tol Ek xk newton rk = subproblem E tol Ek xk newton rk := by
  simp only [subproblem, innerLoop_with]
  rfl

theorem proxLoop_with (E0 : K) (fuel : Nat) (s : Outer K nz nl nv) :
    proxLoop (E.with d m) E0 fuel s = proxLoop E E0 fuel s := by
  induction fuel generalizing s with
  | zero => rfl
  | succ fuel ih => simp only [proxLoop, subproblem_with, ih]; rfl

theorem solve_display (ws : FeasWs K nz nl nv) (z : Vec K nz) (l : Vec K nl) (v : Vec K nv) :
    solve (E.with d E.opts.maxProxIters) ws z l v = solve E ws z l v := by
  simp only [solve, proxLoop_with]
  rfl

/-- After `k` steps a run with limit `k` stops there. -/
theorem Steps.proxLoop {E : Env K nz nl nv} {E0 : K} {k : Nat} {s s' : Outer K nz nl nv}
    (h : Steps E k s s') :
    (proxLoop E E0 k s).2 = .ok (mkFinal E0 .maxIterations s'.prox s'.newton s'.rk s'.xk) := by
  -- steps at the front
  have key : ∀ k s s', Steps E (k + 1) s s' → ∃ s1 tol o, Step E s s1 tol o ∧ Steps E k s1 s' := by
    intro k
    induction k with
    | zero =>
      intro s s' h
      cases h with | tail h1 h2 => cases h1; exact ⟨_, _, _, h2, .refl _⟩
    | succ k ih =>
      intro s s' h
      cases h with | tail h1 h2 =>
      obtain ⟨s1, tol, o, h3, h4⟩ := ih _ _ h1
      exact ⟨s1, tol, o, h3, .tail h4 h2⟩
  induction k generalizing s with
  | zero => cases h; rfl
  | succ k ih =>
    obtain ⟨s1, tol, o, h1, h2⟩ := key _ _ _ h
    have := ih h2
    simp only [Core.proxLoop]
    rw [if_neg (show ¬(_ ∨ _) from h1.nostop), h1.htol]
    dsimp only
    rw [h1.sub]
    dsimp only
    have ha := afterInner_cases (E0 := E0) h1.toInner
    have : afterInner E E0 (Resid.norm (E.penRes s.xk)) tol s o = .inr s1 := by
      unfold afterInner
      rw [if_neg h1.below, h1.eq]
      by_cases hc : E.opts.checkFeasibility
      · have hf : flagOf (checkFeasibility E.ops (E.axpy (-1) s.xk o.x) E.opts.infeasTol s.ws).1 =
            .success := by rw [show (checkFeasibility _ _ _ _).1 = _ from h1.feas hc]; rfl
        simp only [hc, if_true, hf, ne_eq, not_true_eq_false, if_false, next]
      · simp only [hc, ne_eq, not_true_eq_false, Bool.false_eq_true, if_false, next]
    rw [this]
    assumption

/-- A run with the proximal limit set to `k` returns the state after `k` steps. -/
theorem Steps.solve {E : Env K nz nl nv} {ws : FeasWs K nz nl nv} {z : Vec K nz} {l : Vec K nl}
    {v : Vec K nv} {tol : K} {k : Nat} {s : Outer K nz nl nv}
    (ht : saturate (Resid.norm (E.penRes (startPt E z l v))) E.opts.innerTolMin E.opts.innerTolMax =
      .ok tol) (h : Steps E k (start E ws (startPt E z l v) tol) s) :
    (solve (E.with E.opts.displayLevel k) ws z l v).2 =
      .ok (mkFinal (Resid.norm (E.penRes (startPt E z l v))) .maxIterations s.prox s.newton s.rk
        s.xk) := by
  have e : Core.solve (E.with E.opts.displayLevel k) ws z l v =
      (.header :: (Core.proxLoop E (Resid.norm (E.penRes (startPt E z l v))) k
        (start E ws (startPt E z l v) tol)).1,
       (Core.proxLoop E (Resid.norm (E.penRes (startPt E z l v))) k
        (start E ws (startPt E z l v) tol)).2) := by
    simp only [Core.solve, proxLoop_with]
    rw [show saturate (Resid.norm ((E.with E.opts.displayLevel k).penRes
      (startPt (E.with E.opts.displayLevel k) z l v)))
      (E.with E.opts.displayLevel k).opts.innerTolMin
      (E.with E.opts.displayLevel k).opts.innerTolMax = .ok tol from ht]
    rfl
  rw [e]
  exact h.proxLoop

end Fbstab.Core
