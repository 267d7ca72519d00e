import Verif.Proofs.NanDense
import Verif.Props.Finite

/-!
# A run whose Newton steps do nothing
-/

namespace Fbstab
namespace Core
variable {nz nl nv : Nat}

/-- The step length is finite if `beta` is. -/
theorem lineSearch_finite (E : Env XReal nz nl nv) {b : ℝ} (hb : E.opts.beta = up b) (sigma m0 cm : XReal)
    (x xbar dx : Point XReal nz nl nv) (n : Nat) : ∀ t : ℝ, ∃ t' : ℝ,
      (lineSearch E sigma m0 cm x xbar dx n (up t)).1 = up t' := by
  induction n with
  | zero => intro t; exact ⟨t, rfl⟩
  | succ n ih =>
    intro t
    simp only [lineSearch]
    split
    · exact ⟨t, rfl⟩
    · rw [hb, up_mul]
      exact ih _

/-- The inner loop, when the Newton step does not move the iterate and the residual is NaN. -/
theorem innerLoop_stuck (E : Env XReal nz nl nv) {b : ℝ} (hb : E.opts.beta = up b) {sigma tol Ek : XReal}
    {x xbar : Point XReal nz nl nv} (hn : Resid.norm (E.innerRes x xbar sigma) = .nan)
    {g : Resid XReal nz nl nv → Point XReal nz nl nv} (hf : E.factor x xbar sigma = .ok (some g))
    (hfix : ∀ t : ℝ, E.axpy (up t) (g (Resid.negate (E.innerRes x xbar sigma))) x = x) (fuel : Nat) :
    ∀ (i : Nat) (t Eo : XReal) (newton : Nat) (buf : Vec XReal 5) (rk : Resid XReal nz nl nv),
      ((newton + fuel : Nat) : Int) ≤ E.opts.maxNewtonIters →
      ∃ Eo' rk', (innerLoop E tol sigma Ek xbar fuel i t Eo x newton buf rk).2 =
        .ok ⟨x, Eo', newton + fuel, rk'⟩ := by
  induction fuel with
  | zero => intro i t Eo newton buf rk _; exact ⟨_, _, rfl⟩
  | succ fuel ih =>
    intro i t Eo newton buf rk h
    simp only [innerLoop, hn]
    rw [if_neg (by rintro (⟨h, -⟩ | h) <;> exact XReal.nan_le h), if_neg (by push_cast at h; omega), hf]
    dsimp only
    obtain ⟨t', ht⟩ := lineSearch_finite E hb sigma
      (mZero E (Alg.insertMerit (Resid.merit (Resid.negate (E.innerRes x xbar sigma))) buf)
        (Resid.merit (Resid.negate (E.innerRes x xbar sigma))))
      (Resid.merit (Resid.negate (E.innerRes x xbar sigma))) x xbar
      (g (Resid.negate (E.innerRes x xbar sigma))) E.opts.maxLinesearchIters.toNat 1
    rw [← up_one] at ht
    have hx : (newtonStep E sigma xbar g x (E.innerRes x xbar sigma) buf).1 = x := by
      simp only [newtonStep, ht]
      exact hfix t'
    rw [hx]
    obtain ⟨a, c, e⟩ := ih (i + 1) (newtonStep E sigma xbar g x (E.innerRes x xbar sigma) buf).2.1
      (Resid.norm (E.penRes x)) (newton + 1)
      (newtonStep E sigma xbar g x (E.innerRes x xbar sigma) buf).2.2.1 (E.penRes x) (by
        rw [show newton + 1 + fuel = newton + (fuel + 1) by omega]; exact h)
    exact ⟨a, c, by rw [e, show newton + 1 + fuel = newton + (fuel + 1) by omega]⟩

theorem saturate_nan_ok {x a b : XReal} (h : ¬b < a) : ∃ y, saturate x a b = .ok y := by
  unfold saturate
  rw [if_neg h]
  exact ⟨_, rfl⟩

/-- If the Newton step at the guess does not move it, the run ends with SUCCESS after one proximal
iteration, although the residual is NaN. -/
theorem solve_stuck (E : Env XReal nz nl nv) {ws : FeasWs XReal nz nl nv} {z : Vec XReal nz}
    {l : Vec XReal nl} {v : Vec XReal nv} {X : Point XReal nz nl nv} (hX : startPt E z l v = X)
    {b : ℝ} (hb : E.opts.beta = up b) (hn : Resid.norm (E.innerRes X X E.opts.sigma0) = .nan)
    (hpen : Resid.norm (E.penRes X) = .nan)
    {g : Resid XReal nz nl nv → Point XReal nz nl nv} (hf : E.factor X X E.opts.sigma0 = .ok (some g))
    (hfix : ∀ t : ℝ, E.axpy (up t) (g (Resid.negate (E.innerRes X X E.opts.sigma0))) X = X)
    (hm : E.opts.maxInnerIters < E.opts.maxNewtonIters) (hproj : projectDuals X = X)
    (hck : (checkFeasibility E.ops (E.axpy (-1) X X) E.opts.infeasTol ws).1 = .feasible)
    (hst : normPt (E.axpy (-1) X X) ≤ E.opts.stallTol) (hones : ¬normPt (onesPt E) ≤ E.opts.stallTol)
    (hsat : ¬E.opts.innerTolMax < E.opts.innerTolMin) (hi : 0 ≤ E.opts.maxInnerIters)
    (hp : 2 ≤ E.opts.maxProxIters) :
    ∃ fin, (solve E ws z l v).2 = .ok fin ∧ fin.out.eflag = .success ∧ fin.out.residual = .nan ∧
      fin.out.proxIters = 1 ∧ fin.x = X := by
  simp only [solve, hX]
  obtain ⟨tol, htol⟩ := saturate_nan_ok (x := Resid.norm (E.penRes X)) hsat
  rw [htol]
  obtain ⟨f, hf2⟩ : ∃ f, E.opts.maxProxIters.toNat = f + 1 + 1 := ⟨E.opts.maxProxIters.toNat - 2, by omega⟩
  dsimp only
  rw [hf2]
  simp only [proxLoop, hpen]
  rw [if_neg (by rintro (h | h); exacts [XReal.nan_le h, hones h])]
  obtain ⟨tol2, htol2⟩ := saturate_nan_ok (x := tol * E.opts.delta) (a := E.opts.innerTolMin) (b := .nan)
    XReal.nan_lt
  rw [htol2]
  dsimp only
  obtain ⟨Eo, rk, e⟩ := innerLoop_stuck E hb (tol := tol2) (Ek := .nan) hn hf hfix
    E.opts.maxInnerIters.toNat 0 1 0 0 (Vec.const 0) (E.penRes X) (by omega)
  have es : (subproblem E tol2 .nan X 0 (E.penRes X)).2 = .ok ⟨X, Eo, 0 + E.opts.maxInnerIters.toNat, rk⟩ := by
    simp only [subproblem, e, Except.map, hproj]
  rw [es]
  dsimp only
  have ea : ∃ w, afterInner E .nan .nan tol2 ⟨tol, X, onesPt E, 0, 0, E.penRes X, ws⟩
      ⟨X, Eo, 0 + E.opts.maxInnerIters.toNat, rk⟩ =
      .inr ⟨tol2, X, E.axpy (-1) X X, 1, 0 + E.opts.maxInnerIters.toNat, rk, w⟩ := by
    simp only [afterInner]
    rw [if_neg (by omega)]
    by_cases hc : E.opts.checkFeasibility = true
    · rw [if_pos hc, hck]
      exact ⟨_, rfl⟩
    · rw [if_neg hc]
      exact ⟨_, rfl⟩
  obtain ⟨w, ea⟩ := ea
  rw [ea]
  dsimp only
  rw [if_pos (.inr hst)]
  exact ⟨_, rfl, rfl, hpen, rfl, rfl⟩

end Core
end Fbstab
