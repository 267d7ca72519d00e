import Verif.Proofs.NewtonRun

/-!
# Runs whose first proximal iteration is the last
-/

namespace Fbstab.Core
open Matrix
variable {nz nl nv : Nat} {E : Env ℝ nz nl nv} {q : QP nz nl nv}

/-- A run that ends with an infeasibility flag after the first subproblem. -/
theorem solve_first {ws : FeasWs ℝ nz nl nv} {z : Vec ℝ nz} {l : Vec ℝ nl} {v : Vec ℝ nv}
    (hp : 1 ≤ E.opts.maxProxIters) {tol0 tol : ℝ} {o : InnerOut ℝ nz nl nv}
    (h0 : saturate (Resid.norm (E.penRes (startPt E z l v))) E.opts.innerTolMin
      E.opts.innerTolMax = .ok tol0)
    (h : Inner E (start E ws (startPt E z l v) tol0) tol o)
    (hn : ¬(E.opts.maxNewtonIters ≤ (o.newton : Int))) (hc : E.opts.checkFeasibility = true)
    (hf : check E (start E ws (startPt E z l v) tol0) o ≠ .feasible) :
    (solve E ws z l v).2 = .ok (mkFinal (Resid.norm (E.penRes (startPt E z l v)))
      (flagOf (check E (start E ws (startPt E z l v) tol0) o)) 0 o.newton o.rk
      (E.axpy (-1) (startPt E z l v) o.x)) := by
  simp only [solve]
  rw [h0]
  dsimp only
  obtain ⟨n, hn'⟩ : ∃ n, E.opts.maxProxIters.toNat = n + 1 := ⟨E.opts.maxProxIters.toNat - 1, by omega⟩
  rw [hn']
  have hst := h.nostop
  have ht := h.htol
  have hs := h.sub
  simp only [Stop, start] at hst ht hs
  simp only [proxLoop, if_neg hst]
  rw [ht]
  dsimp only
  rw [hs]
  have h1 : flagOf (checkFeasibility E.ops (E.axpy (-1) (startPt E z l v) o.x) E.opts.infeasTol ws).1 ≠
            .success := (flagOf_ne_success _).2 hf
  simp only [afterInner, if_neg hn, hc, if_true, h1, ne_eq, not_false_eq_true]
  rfl

/-- Induction over the iterates of a subproblem whose first iterate does not pass the exit test. -/
theorem innerLoop_induct_pos (N : NewtonEnv E q) {tol Ek : ℝ} {xbar : Point ℝ nz nl nv}
    (P : Nat → Point ℝ nz nl nv → Prop)
    (hstep : ∀ n x x', P n x → NewtonMove E q xbar x x' → P (n + 1) x') {fuel : Nat}
    {t Eo : ℝ} {x : Point ℝ nz nl nv} {newton : Nat} {buf : Vec ℝ 5} {rk o} (hx : P 0 x)
    (h1 : tol < Resid.norm (E.innerRes x xbar E.opts.sigma0))
    (h2 : E.opts.innerTolMin < Resid.norm (E.innerRes x xbar E.opts.sigma0))
    (h3 : ¬E.opts.maxNewtonIters ≤ (newton : Int))
    (h : (innerLoop E tol E.opts.sigma0 Ek xbar (fuel + 1) 0 t Eo x newton buf rk).2 = .ok o) :
      ∃ n, P (n + 1) o.x := by
  simp only [innerLoop] at h
  rw [if_neg (by push Not; exact ⟨fun h => absurd h h1.not_ge, h2⟩), if_neg h3] at h
  obtain ⟨g, hg, -⟩ := N.factor x xbar
  rw [hg] at h
  obtain ⟨n, h4, h5⟩ := innerLoop_induct N P hstep _ _ _ _ _ _ _ _ _
    (hstep _ _ _ hx (N.newtonStep hg buf)) h
  obtain ⟨m, rfl⟩ : ∃ m, n = m + 1 := ⟨n - 1, by omega⟩
  exact ⟨m, h5⟩

/-- A subproblem that is stopped by `max_inner_iters = 1`. -/
theorem innerLoop_one (N : NewtonEnv E q) {tol Ek : ℝ} {xbar : Point ℝ nz nl nv} {i : Nat}
    {t Eo : ℝ} {x : Point ℝ nz nl nv} {newton : Nat} {buf : Vec ℝ 5} {rk o}
    (h1 : tol < Resid.norm (E.innerRes x xbar E.opts.sigma0))
    (h2 : E.opts.innerTolMin < Resid.norm (E.innerRes x xbar E.opts.sigma0))
    (h3 : ¬E.opts.maxNewtonIters ≤ (newton : Int))
    (h : (innerLoop E tol E.opts.sigma0 Ek xbar 1 i t Eo x newton buf rk).2 = .ok o) :
    ∃ x', NewtonMove E q xbar x x' ∧ o = ⟨x', Resid.norm (E.penRes x), newton + 1, E.penRes x⟩ := by
  simp only [innerLoop] at h
  rw [if_neg (by push Not; exact ⟨fun h => absurd h h1.not_ge, h2⟩), if_neg h3] at h
  obtain ⟨g, hg, -⟩ := N.factor x xbar
  rw [hg] at h
  refine ⟨_, N.newtonStep hg buf, ?_⟩
  cases h
  rfl

/-- The first subproblem of a call at a convex problem: whatever holds along Newton steps holds at
its result. -/
theorem first_subproblem (N : NewtonEnv E q) (ws : FeasWs ℝ nz nl nv) (x : Point ℝ nz nl nv)
    (P : Nat → Point ℝ nz nl nv → Prop)
    (hstep : ∀ n y y', P n y → NewtonMove E q x y y' → P (n + 1) y') (hx : P 0 x)
    (ht : E.opts.innerTolMin ≤ E.opts.innerTolMax)
    (hs : E.comboTol < Resid.norm (E.penRes x)) (hd : E.opts.stallTol < normPt (onesPt E))
    (ht' : E.opts.innerTolMin ≤ Resid.norm (E.penRes x))
    (h1 : E.opts.innerTolMax < Resid.norm (E.innerRes x x E.opts.sigma0)) :
    ∃ tol0 tol o xn, saturate (Resid.norm (E.penRes x)) E.opts.innerTolMin
      E.opts.innerTolMax = .ok tol0 ∧ Inner E (start E ws x tol0) tol o ∧
      o.x = projectDuals xn ∧ ∃ n, P (n + 1) xn := by
  have e1 := saturate_real (x := Resid.norm (E.penRes x)) ht
  have e2 := saturate_real (x := max (min (Resid.norm (E.penRes x)) E.opts.innerTolMax)
    E.opts.innerTolMin * E.opts.delta) ht'
  obtain ⟨o, ho⟩ := innerLoop_total (E := E) (fun a b => (N.factor a b).imp fun g h => h.1)
    (max (min (max (min (Resid.norm (E.penRes x)) E.opts.innerTolMax) E.opts.innerTolMin *
      E.opts.delta) (Resid.norm (E.penRes x))) E.opts.innerTolMin)
    (Resid.norm (E.penRes x)) x E.opts.maxInnerIters.toNat 0 1 0 x 0 (Vec.const 0) (E.penRes x)
  obtain ⟨n, hn⟩ : ∃ n, E.opts.maxInnerIters.toNat = n + 1 :=
    ⟨E.opts.maxInnerIters.toNat - 1, by have := N.inRange.maxInnerIters; omega⟩
  have hi := N.inRange
  have hmax : E.opts.innerTolMin < Resid.norm (E.innerRes x x E.opts.sigma0) := lt_of_le_of_lt ht h1
  have hdel : E.opts.delta ≤ 1 := hi.delta.2.trans (by norm_num)
  have hdel0 : 0 ≤ E.opts.delta := le_trans (by norm_num) hi.delta.1
  have h0 : (0:ℝ) ≤ E.opts.innerTolMin := le_trans (by norm_num) hi.innerTolMin.1
  have htol : max (min (max (min (Resid.norm (E.penRes x)) E.opts.innerTolMax) E.opts.innerTolMin *
      E.opts.delta) (Resid.norm (E.penRes x))) E.opts.innerTolMin <
      Resid.norm (E.innerRes x x E.opts.sigma0) := by
    refine max_lt (lt_of_le_of_lt (min_le_left _ _) (lt_of_le_of_lt ?_ h1)) hmax
    have : max (min (Resid.norm (E.penRes x)) E.opts.innerTolMax) E.opts.innerTolMin ≤
      E.opts.innerTolMax := max_le (min_le_right _ _) ht
    have h2 : 0 ≤ max (min (Resid.norm (E.penRes x)) E.opts.innerTolMax) E.opts.innerTolMin :=
      le_trans h0 (le_max_right _ _)
    nlinarith
  refine ⟨_, _, { o with x := projectDuals o.x }, o.x, e1, ⟨?_, e2, ?_⟩, rfl, ?_⟩
  · rintro (h | h)
    · exact absurd h hs.not_ge
    · exact absurd h hd.not_ge
  · show (subproblem _ _ _ _ _ _).2 = _
    simp only [subproblem, start]
    rw [ho]; rfl
  · rw [hn] at ho
    exact innerLoop_induct_pos N P hstep hx htol hmax (by have := hi.maxNewtonIters; omega) ho

end Fbstab.Core
