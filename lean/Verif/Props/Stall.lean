import Verif.Proofs.RealCore
import Verif.Proofs.Witness
import Verif.Proofs.NewtonRun
import Verif.Props.Kkt
import Verif.Props.EqualityOnly
import Verif.Props.StaleResidual

/-!
# C44: what SUCCESS means when the solver stopped because it stalled

`Solve` also returns SUCCESS when the last proximal step is not longer than `stall_tol`, whatever the
residual is.  Any guess is returned as a solution when `stall_tol` is at least the norm of the all-ones
vector, which validation accepts; in the other direction a stall does bound the violation of the KKT
conditions.
-/

namespace Fbstab
open Matrix

/-! ## A large `stall_tol` -/

section
variable {K : Type} [Scalar K]

theorem Core.solve_stalled {nz nl nv : Nat} {E : Core.Env K nz nl nv} {ws : FeasWs K nz nl nv}
    {z : Vec K nz} {l : Vec K nl} {v : Vec K nv}
    (hm : ¬E.opts.innerTolMax < E.opts.innerTolMin) (hl : 1 ≤ E.opts.maxProxIters)
    (h : onesNorm K nz nl nv ≤ E.opts.stallTol) :
    (Core.solve E ws z l v).2 = .ok (Core.mkFinal (Core.Resid.norm (E.penRes (Core.startPt E z l v)))
      .success 0 0 (E.penRes (Core.startPt E z l v)) (Core.startPt E z l v)) := by
  obtain ⟨n, hn⟩ : ∃ n, E.opts.maxProxIters.toNat = n + 1 :=
    ⟨E.opts.maxProxIters.toNat - 1, by omega⟩
  simp only [Core.solve, saturate, if_neg hm, hn, Core.proxLoop]
  rw [if_pos (.inr h)]

/-- C44: with `stall_tol` at least the norm of the all-ones vector, every guess whatsoever is returned
unchanged as SUCCESS after no iterations. -/
theorem C44_any_guess_dense (s : FBstabDense K) (qp : DenseProblem K) (x : CallerVar K)
    (hl : 1 ≤ s.options.maxProxIters) (hm : ¬s.options.innerTolMax < s.options.innerTolMin)
    (hf : DenseFits s.nz s.nl s.nv qp x) (hy : x.YWritable s.nv)
    (h : onesNorm K s.nz s.nl s.nv ≤ s.options.stallTol) :
    let r := residualNorm (s.problem qp) s.options.alpha (x.guess (s.problem qp))
    (s.solve qp x).result = .ok ⟨.success, r, 0, 0, r⟩ ∧
    (s.solve qp x).x.z = x.z ∧ (s.solve qp x).x.l = x.l ∧ (s.solve qp x).x.v = x.v := by
  have hc := FBstabDense.solve_computes hf
  obtain ⟨h1, h2, -⟩ := hc.ok _ (Core.solve_stalled hm hl h) hy
  refine ⟨h1, ?_⟩
  rw [h2]
  exact ⟨DVec.ofVec_toVec _ hf.z, DVec.ofVec_toVec _ hf.l, DVec.ofVec_toVec _ hf.v⟩

/-- C44 for `FBstabMpc`. -/
theorem C44_any_guess_mpc (h0 : ((0 : K) == 0) = true) (s : FBstabMpc K) (p : MpcProblem K)
    (x : CallerVar K)
    (hl : 1 ≤ s.options.maxProxIters) (hm : ¬s.options.innerTolMax < s.options.innerTolMin)
    (hf : MpcFits s.N s.nx s.nu s.nc p x) (hcol : p.Columns)
    (h : onesNorm K ((s.N + 1) * (s.nx + s.nu)) ((s.N + 1) * s.nx) ((s.N + 1) * s.nc) ≤
      s.options.stallTol) :
    let r := residualNorm (s.problem p) s.options.alpha (x.guess (s.problem p))
    (s.solve p x).result = .ok ⟨.success, r, 0, 0, r⟩ ∧
    (s.solve p x).x.z = x.z ∧ (s.solve p x).x.l = x.l ∧ (s.solve p x).x.v = x.v := by
  have hc := FBstabMpc.solve_computes h0 hf hcol
  obtain ⟨h1, h2, -⟩ := hc.ok _ (Core.solve_stalled hm hl h) (fun _ => hf.y)
  refine ⟨h1, ?_⟩
  rw [h2]
  exact ⟨DVec.ofVec_toVec _ hf.z, DVec.ofVec_toVec _ hf.l, DVec.ofVec_toVec _ hf.v⟩

end

/-! ## A small `stall_tol` -/

/-- The penalized Fischer-Burmeister function bounds the minimum. -/
theorem pfb_bound {alpha a b e : ℝ} (h0 : 0 < alpha) (h1 : alpha < 1)
    (h : |pfb a b alpha| ≤ e) : |min a b| ≤ 2 * e / alpha := by
  rw [pfb_real] at h
  have e0 : 0 ≤ e := le_trans (abs_nonneg _) h
  rw [le_div_iff₀ h0]
  have hs0 := Real.sqrt_nonneg (a * a + b * b)
  have hs : √(a * a + b * b) * √(a * a + b * b) = a * a + b * b :=
    Real.mul_self_sqrt (by nlinarith [mul_self_nonneg a, mul_self_nonneg b])
  generalize √(a * a + b * b) = w at *
  by_cases hm : 0 ≤ min a b
  · have ha : 0 ≤ a := le_trans hm (min_le_left _ _)
    have hb : 0 ≤ b := le_trans hm (min_le_right _ _)
    rw [max_eq_right ha, max_eq_right hb] at h
    have hp : 0 ≤ (1 - alpha) * a * b := by
      have : 0 ≤ 1 - alpha := by linarith
      positivity
    have hw : min a b ≤ 2 * (a + b - w) := by
      rcases le_total a b with hab | hab
      · rw [min_eq_left hab]; nlinarith
      · rw [min_eq_right hab]; nlinarith
    have h2 := le_trans (le_abs_self _) h
    rw [abs_of_nonneg hm]
    nlinarith
  · have hp : max 0 a * max 0 b = 0 := by
      rcases le_total a b with hyv | hyv
      · rw [min_eq_left hyv] at hm
        rw [max_eq_left (not_le.1 hm).le, zero_mul]
      · rw [min_eq_right hyv] at hm
        rw [max_eq_left (not_le.1 hm).le, mul_zero]
    rw [mul_assoc, hp, mul_zero, add_zero, abs_mul, abs_of_pos h0] at h
    have hm' := not_le.1 hm
    have hw : a + b - w ≤ min a b := by
      rcases le_total a b with hab | hab
      · rw [min_eq_left hab]; nlinarith
      · rw [min_eq_right hab]; nlinarith
    rw [abs_of_neg hm']
    rw [abs_of_nonpos (by linarith)] at h
    nlinarith

theorem euclid_add_le {n : Nat} (x y : Fin n → ℝ) : euclid (x + y) ≤ euclid x + euclid y := by
  have h1 := dot_le_euclid x y
  have h2 := euclid_nonneg x
  have h3 := euclid_nonneg y
  rw [euclid, Real.sqrt_le_left (by linarith)]
  have h4 := euclid_sq x
  have h5 := euclid_sq y
  have : (x + y) ⬝ᵥ (x + y) = x ⬝ᵥ x + 2 * (x ⬝ᵥ y) + y ⬝ᵥ y := by
    rw [add_dotProduct, dotProduct_add, dotProduct_add, dotProduct_comm y x]; ring
  nlinarith

theorem euclid_smul {n : Nat} (c : ℝ) (x : Fin n → ℝ) : euclid (c • x) = |c| * euclid x := by
  rw [euclid, euclid, smul_dotProduct, dotProduct_smul, smul_eq_mul, smul_eq_mul, ← mul_assoc,
    ← Real.sqrt_mul_self_eq_abs, Real.sqrt_mul (mul_self_nonneg _)]

theorem euclid_neg {n : Nat} (x : Fin n → ℝ) : euclid (-x) = euclid x := by simp [euclid]

/-- A small residual of the regularised problem and a small step bound the violation of the KKT
conditions. -/
theorem Core.innerRes_nearKKT {nz nl nv : Nat} {E : Core.Env ℝ nz nl nv} {q : QP nz nl nv}
    (I : q.Implements E.ops) (h0 : 0 < E.opts.alpha) (h1 : E.opts.alpha < 1) {sigma t d e : ℝ}
    (hsig : 0 ≤ sigma) {x xbar : Point ℝ nz nl nv} (hy : Core.Marg q x)
    (hr : Core.Resid.norm (E.innerRes x xbar sigma) ≤ t)
    (hz : euclid (x.z.fn - xbar.z.fn) ≤ d) (hl : euclid (x.l.fn - xbar.l.fn) ≤ d)
    (hv : ∀ i, |x.v i - xbar.v i| ≤ e) :
    q.NearKKT (t + sigma * d) (2 * t / E.opts.alpha + sigma * e) x.z.fn x.l.fn x.v.fn := by
  obtain ⟨i1, i2, i3⟩ := Core.innerRes_fn (E := E) I x xbar sigma
  obtain ⟨b1, b2, b3⟩ := norm3_bounds (z := (E.innerRes x xbar sigma).z)
    (l := (E.innerRes x xbar sigma).l) (v := (E.innerRes x xbar sigma).v) (e := t) hr
  rw [i1] at b1
  rw [i2] at b2
  have hyi : ∀ i, x.y i = q.b i - (q.A *ᵥ x.z.fn) i := fun i => congrFun hy i
  have hmin : ∀ i, |min (q.b i - (q.A *ᵥ x.z.fn) i) (x.v i)| ≤
      2 * t / E.opts.alpha + sigma * e := by
    intro i
    have b4 : |pfb (x.y i + sigma * (x.v i - xbar.v i)) (x.v i) E.opts.alpha| ≤ t := by
      rw [← i3]
      exact le_trans (abs_le_euclid (E.innerRes x xbar sigma).v.fn i) b3
    have b5 := pfb_bound h0 h1 b4
    have b6 : |sigma * (x.v i - xbar.v i)| ≤ sigma * e := by
      rw [abs_mul, abs_of_nonneg hsig]
      exact mul_le_mul_of_nonneg_left (hv i) hsig
    have b7 := abs_min_sub_min_le_max (x.y i) (x.v i) (x.y i + sigma * (x.v i - xbar.v i)) (x.v i)
    rw [sub_self, abs_zero, sub_add_cancel_left, abs_neg, max_eq_left (abs_nonneg _)] at b7
    rw [← hyi]
    have b8 := abs_sub_abs_le_abs_sub (min (x.y i) (x.v i))
      (min (x.y i + sigma * (x.v i - xbar.v i)) (x.v i))
    linarith
  refine ⟨?_, ?_, fun i => ?_, fun i => ?_, hmin⟩
  · have e1 : q.lagrangeGrad x.z.fn x.l.fn x.v.fn = (q.lagrangeGrad x.z.fn x.l.fn x.v.fn +
      sigma • (x.z.fn - xbar.z.fn)) + -(sigma • (x.z.fn - xbar.z.fn)) := by abel
    rw [e1]
    refine le_trans (euclid_add_le _ _) ?_
    rw [euclid_neg, euclid_smul, abs_of_nonneg hsig]
    have := mul_le_mul_of_nonneg_left hz hsig
    linarith
  · have e1 : q.G *ᵥ x.z.fn - q.h = -(q.h - q.G *ᵥ x.z.fn + sigma • (x.l.fn - xbar.l.fn)) +
      sigma • (x.l.fn - xbar.l.fn) := by abel
    rw [e1]
    refine le_trans (euclid_add_le _ _) ?_
    rw [euclid_neg, euclid_smul, abs_of_nonneg hsig]
    have := mul_le_mul_of_nonneg_left hl hsig
    linarith
  · have := (abs_le.1 (hmin i)).1
    have h2 := min_le_left (q.b i - (q.A *ᵥ x.z.fn) i) (x.v i)
    linarith
  · have := (abs_le.1 (hmin i)).1
    have h2 := min_le_right (q.b i - (q.A *ᵥ x.z.fn) i) (x.v i)
    show _ ≤ x.v i
    linarith

namespace Core
variable {nz nl nv : Nat} {E : Env ℝ nz nl nv} {q : QP nz nl nv}

/-- The inner loop stops at a point with a small residual, or it hits one of its limits. -/
theorem innerLoop_converged (E : Env ℝ nz nl nv) (tol sigma Ek : ℝ) (xbar : Point ℝ nz nl nv)
    (fuel : Nat) : ∀ (i : Nat) (t Eo : ℝ) (x : Point ℝ nz nl nv) (newton : Nat) (buf : Vec ℝ 5)
    (rk : Resid ℝ nz nl nv) (o : InnerOut ℝ nz nl nv),
    (innerLoop E tol sigma Ek xbar fuel i t Eo x newton buf rk).2 = .ok o →
    Resid.norm (E.innerRes o.x xbar sigma) ≤ max tol E.opts.innerTolMin ∨
      E.opts.maxNewtonIters ≤ (o.newton : Int) ∨ o.newton = newton + fuel := by
  induction fuel with
  | zero =>
    intro i t Eo x newton buf rk o h
    simp only [innerLoop] at h
    cases h
    simp
  | succ fuel ih =>
    intro i t Eo x newton buf rk o h
    simp only [innerLoop] at h
    split at h
    · rename_i hc
      cases h
      rcases hc with ⟨hc, -⟩ | hc
      · exact .inl (le_max_of_le_left hc)
      · exact .inl (le_max_of_le_right hc)
    · split at h
      · rename_i hn
        cases h
        exact .inr (.inl hn)
      · split at h
        · cases h
        · cases h
        · rcases ih _ _ _ _ _ _ _ _ h with h | h | h
          · exact .inl h
          · exact .inr (.inl h)
          · exact .inr (.inr (by omega))

/-- The tolerance of the subproblems. -/
theorem Steps.innerTol {k : Nat} {s s' : Outer ℝ nz nl nv} (h : Steps E k s s')
    (hd0 : 0 ≤ E.opts.delta) (hd1 : E.opts.delta ≤ 1) (hm : 0 ≤ E.opts.innerTolMin) :
    s'.innerTol ≤ max E.opts.innerTolMin (s.innerTol * E.opts.delta ^ k) := by
  induction h with
  | refl => simp
  | tail h1 h2 ih =>
    rename_i k s1 s2 tol o
    have e : s2.innerTol = tol := by rw [h2.eq]; rfl
    rw [e]
    have ht := h2.htol
    have hle : E.opts.innerTolMin ≤ Resid.norm (E.penRes s1.xk) := by
      by_contra hc
      obtain ⟨e, he⟩ := (C41_throws_iff (s1.innerTol * E.opts.delta) E.opts.innerTolMin
        (Resid.norm (E.penRes s1.xk))).2 (not_le.1 hc)
      rw [he] at ht; cases ht
    rw [saturate_real hle] at ht
    injection ht with ht
    rw [← ht]
    refine max_le (le_trans (min_le_left _ _) ?_) (le_max_left _ _)
    refine le_trans (mul_le_mul_of_nonneg_right ih hd0) ?_
    rw [max_mul_of_nonneg _ _ hd0, mul_assoc, ← pow_succ]
    refine max_le_max ?_ le_rfl
    nlinarith

theorem Returned.stalled (R : RealEnv E q) (o : E.opts.InRange) {ws x fin}
    (hx : Marg q x)
    (h : Returned E ws x fin) (hf : fin.out.eflag = .success)
    (hr : ¬fin.out.residual ≤ stoppingTol E.ops E.opts) (hk : 0 < fin.out.proxIters)
    (hn : (fin.out.newtonIters : Int) < E.opts.maxInnerIters) :
    let t := max E.opts.innerTolMin (E.opts.innerTolMax * E.opts.delta ^ fin.out.proxIters)
    ∃ v' : Fin nv → ℝ, (∀ i, |v' i - fin.x.v i| ≤ 2 * t / E.opts.alpha) ∧
      q.NearKKT (t + E.opts.sigma0 * E.opts.stallTol)
        (2 * t / E.opts.alpha + E.opts.sigma0 * (E.opts.stallTol + 2 * t / E.opts.alpha))
        fin.x.z.fn fin.x.l.fn v' := by
  intro t
  have hsig : 0 ≤ E.opts.sigma0 := le_trans (by norm_num) o.sigma0_pos
  have ha0 : 0 < E.opts.alpha := lt_of_lt_of_le (by norm_num) o.alpha.1
  have ha1 : E.opts.alpha < 1 := lt_of_le_of_lt o.alpha.2 (by norm_num)
  obtain ⟨tol, k, s, ht, hs, h⟩ := h.run
  rcases h with ⟨-, h⟩ | ⟨-, rfl⟩
  · cases h with
    | newton hi hn x hx => cases hf
    | infeasible hi hn hc hf' => exact absurd hf ((flagOf_ne_success _).2 hf')
    | success hstop =>
      have hst : normPt s.dx ≤ E.opts.stallTol := by
        rcases hstop with h | h
        · exact absurd h hr
        · exact h
      have hp := hs.prox
      have hti := hs.innerTol (le_trans (by norm_num) o.delta.1)
        (le_trans o.delta.2 (by norm_num)) (le_trans (by norm_num) o.innerTolMin.1)
      have htol : (start E ws x tol).innerTol ≤ E.opts.innerTolMax := by
        show tol ≤ _
        have hle : E.opts.innerTolMin ≤ E.opts.innerTolMax := by
          by_contra hc
          obtain ⟨e, he⟩ := (C41_throws_iff (Resid.norm (E.penRes x)) E.opts.innerTolMin
            E.opts.innerTolMax).2 (not_le.1 hc)
          rw [he] at ht; cases ht
        rw [saturate_real hle] at ht
        injection ht with ht
        rw [← ht]
        exact max_le (min_le_right _ _) hle
      have hmarg := Marg.steps R hs hx
      cases hs with
      | refl => exact absurd hk (by simp [mkFinal, start])
      | tail h1 h2 =>
        rename_i k s1 tol1 o1
        simp only [start, Nat.zero_add] at hp
        have hd1 : 0 ≤ E.opts.delta := le_trans (by norm_num) o.delta.1
        have htt : s.innerTol ≤ t := by
          refine le_trans hti (max_le_max le_rfl ?_)
          show _ ≤ E.opts.innerTolMax * E.opts.delta ^ s.prox
          rw [hp]
          exact mul_le_mul_of_nonneg_right htol (pow_nonneg hd1 _)
        obtain ⟨o', ho', rfl⟩ := subproblem_ok h2.sub
        have hx1 := Marg.steps R h1 hx
        have hm' : Marg q o'.x := by
          refine innerLoop_invariant E tol1 E.opts.sigma0 _ s1.xk (Marg q) ?_ _ _ _ _ _ _ _ _ _
            hx1 ho'
          rintro x x' hx ⟨g, r, t, hg, rfl⟩
          exact Marg.axpy R.ops hx (R.margin hg r) t
        have hnew : s.newton = o'.newton := by rw [h2.eq]; rfl
        have hn' : (s.newton : Int) < E.opts.maxInnerIters := hn
        have hres : Resid.norm (E.innerRes o'.x s1.xk E.opts.sigma0) ≤ t := by
          rcases innerLoop_converged _ _ _ _ _ _ _ _ _ _ _ _ _ _ ho' with h | h | h
          · refine le_trans h (max_le ?_ (le_max_left _ _))
            have : s.innerTol = tol1 := by rw [h2.eq]; rfl
            rw [← this]; exact htt
          · exact absurd h h2.below
          · omega
        have hxk : s.xk = projectDuals o'.x := by rw [h2.eq]; rfl
        have hdx : s.dx = E.axpy (-1) s1.xk (projectDuals o'.x) := by rw [h2.eq]; rfl
        rw [hdx] at hst
        obtain ⟨d1, d2, d3⟩ := norm3_bounds hst
        have ez : (E.axpy (-1) s1.xk (projectDuals o'.x)).z.fn = o'.x.z.fn - s1.xk.z.fn := by
          simp only [Env.axpy, Vec.fn_add, Vec.fn_smul, projectDuals, neg_smul, one_smul,
            sub_eq_add_neg]
        have el : (E.axpy (-1) s1.xk (projectDuals o'.x)).l.fn = o'.x.l.fn - s1.xk.l.fn := by
          simp only [Env.axpy, Vec.fn_add, Vec.fn_smul, projectDuals, neg_smul, one_smul,
            sub_eq_add_neg]
        have ev : (E.axpy (-1) s1.xk (projectDuals o'.x)).v.fn =
            (projectDuals o'.x).v.fn - s1.xk.v.fn := by
          simp only [Env.axpy, Vec.fn_add, Vec.fn_smul, neg_smul, one_smul, sub_eq_add_neg]
        rw [ez] at d1
        rw [el] at d2
        rw [ev] at d3
        have hpj : ∀ i, (projectDuals o'.x).v i = max (o'.x.v i) 0 := by
          intro i; simp [projectDuals, Vec.cwiseMax, max_comm]
        have hneg : ∀ i, |o'.x.v i - (projectDuals o'.x).v i| ≤ 2 * t / E.opts.alpha := by
          intro i
          obtain ⟨-, -, b3⟩ := norm3_bounds (z := (E.innerRes o'.x s1.xk E.opts.sigma0).z)
            (l := (E.innerRes o'.x s1.xk E.opts.sigma0).l)
            (v := (E.innerRes o'.x s1.xk E.opts.sigma0).v) (e := t) hres
          have b4 := le_trans (abs_le_euclid _ i) b3
          rw [show (E.innerRes o'.x s1.xk E.opts.sigma0).v.fn i = _ from
            (innerRes_fn R.ops o'.x s1.xk E.opts.sigma0).2.2 i] at b4
          have b5 := pfb_bound ha0 ha1 b4
          rw [hpj]
          rcases le_total 0 (o'.x.v i) with hv | hv
          · rw [max_eq_left hv, sub_self, abs_zero]; exact le_trans (abs_nonneg _) b5
          · rw [max_eq_right hv, sub_zero]
            refine le_trans ?_ b5
            have := min_le_right (o'.x.y i + E.opts.sigma0 * (o'.x.v i - s1.xk.v i)) (o'.x.v i)
            rw [abs_of_nonpos hv, abs_of_nonpos (by linarith)]
            linarith
        refine ⟨o'.x.v.fn, ?_, ?_⟩
        · intro i
          show |o'.x.v i - s.xk.v i| ≤ _
          rw [hxk]; exact hneg i
        · have := innerRes_nearKKT R.ops ha0 ha1 hsig hm' hres d1 d2
            (e := E.opts.stallTol + 2 * t / E.opts.alpha) (fun i => by
              have a1 := hneg i
              have a2 := le_trans (abs_le_euclid _ i) d3
              have a3 := abs_add_le ((projectDuals o'.x).v i - s1.xk.v i)
                (o'.x.v i - (projectDuals o'.x).v i)
              rw [show (projectDuals o'.x).v i - s1.xk.v i + (o'.x.v i - (projectDuals o'.x).v i) =
                o'.x.v i - s1.xk.v i by ring] at a3
              have a2' : |(projectDuals o'.x).v i - s1.xk.v i| ≤ E.opts.stallTol := a2
              linarith)
          show q.NearKKT _ _ s.xk.z.fn s.xk.l.fn _
          rw [hxk]
          exact this
  · cases hf

end Core

/-- C44: if SUCCESS was reported with a residual above the tolerance, after at least one proximal
iteration and fewer than `max_inner_iters` Newton iterations, then up to a change of at most `2t/alpha`
in each inequality multiplier the returned point satisfies the KKT conditions to within
`t + sigma*stall_tol` (stationarity, equations) and `2t/alpha + sigma*(stall_tol + 2t/alpha)`
(inequalities, signs, complementarity), where `t` is the larger of `inner_tol_min` and
`inner_tol_max * delta^prox_iters`. -/
theorem C44_stalled_dense (s : FBstabDense ℝ) (hs : s.Reachable) (p : DenseProblem ℝ)
    (x : CallerVar ℝ) (out : SolverOut ℝ) (h : (s.solve p x).result = .ok out)
    (hf : out.eflag = .success) (hr : stoppingTol (s.problem p) s.options < out.residual)
    (hk : 0 < out.proxIters) (hn : (out.newtonIters : Int) < s.options.maxInnerIters) :
    let o := s.options
    let t := max o.innerTolMin (o.innerTolMax * o.delta ^ out.proxIters)
    let xr := s.returnedPoint p x
    ∃ v' : Fin s.nv → ℝ, (∀ i, |v' i - xr.v i| ≤ 2 * t / o.alpha) ∧
      (s.qp p).NearKKT (t + o.sigma0 * o.stallTol)
        (2 * t / o.alpha + o.sigma0 * (o.stallTol + 2 * t / o.alpha)) xr.z.fn xr.l.fn v' := by
  obtain ⟨-, -, fin, -, h2, rfl, e⟩ := FBstabDense.returned h
  rw [show s.returnedPoint p x = fin.x by
    rw [FBstabDense.returnedPoint, e, CallerVar.point_ofPoint]]
  exact Core.Returned.stalled (s.realEnv p) (C01_reachable_dense s hs)
    (Core.Marg.start (s.realEnv p).ops _ _ _) h2 hf (not_le.2 hr) hk hn

/-- C44 for `FBstabMpc`. -/
theorem C44_stalled_mpc (s : FBstabMpc ℝ) (hs : s.Reachable) (p : MpcProblem ℝ)
    (x : CallerVar ℝ) (out : SolverOut ℝ) (h : (s.solve p x).result = .ok out)
    (hf : out.eflag = .success) (hr : stoppingTol (s.problem p) s.options < out.residual)
    (hk : 0 < out.proxIters) (hn : (out.newtonIters : Int) < s.options.maxInnerIters) :
    let o := s.options
    let t := max o.innerTolMin (o.innerTolMax * o.delta ^ out.proxIters)
    let xr := s.returnedPoint p x
    ∃ v' : Fin ((s.N + 1) * s.nc) → ℝ, (∀ i, |v' i - xr.v i| ≤ 2 * t / o.alpha) ∧
      (s.qp p).NearKKT (t + o.sigma0 * o.stallTol)
        (2 * t / o.alpha + o.sigma0 * (o.stallTol + 2 * t / o.alpha)) xr.z.fn xr.l.fn v' := by
  obtain ⟨-, -, fin, -, h2, rfl, e⟩ := FBstabMpc.returned real_zero_beq h
  rw [show s.returnedPoint p x = fin.x by
    rw [FBstabMpc.returnedPoint, e, CallerVar.point_ofPoint]]
  exact Core.Returned.stalled (s.realEnv p) (C01_reachable_mpc s hs)
    (Core.Marg.start (s.realEnv p).ops _ _ _) h2 hf (not_le.2 hr) hk hn

/-! ## Instances -/

/-- The default options with `stall_tol = 2`, which passes validation. -/
noncomputable def lazyOptions : Params ℝ := { Params.defaults with stallTol := 2 }

theorem lazyOptions_inRange : lazyOptions.InRange := by
  constructor <;> simp only [lazyOptions, Params.defaults, Between] <;> norm_num

/-- C44: with the default options and `stall_tol = 2`, SUCCESS is reported at the guess with residual
`M`, however large `M` is, on the problem `min z^2/2` whose solution is `0`. -/
theorem C44_large_residual (junk : DenseJunk ℝ) (M : ℝ) (hM : 0 ≤ M) :
    let s := FBstabDense.made junk 1 0 1 lazyOptions
    let x : CallerVar ℝ := guessOf (nz := 1) (nl := 0) (nv := 1) (fun _ => M) 0 0
    s.Reachable ∧ (s.solve unitQP.toDense x).result = .ok ⟨.success, M, 0, 0, M⟩ := by
  intro s x
  have hr : s.Reachable := FBstabDense.made_reachable junk _ (by norm_num) (by norm_num)
    (by norm_num [intLimit]) lazyOptions_inRange
  refine ⟨hr, ?_⟩
  have hq : s.qp unitQP.toDense = unitQP := FBstabDense.made_qp junk _ _
  have I : unitQP.Implements (s.env unitQP.toDense).ops := by
    have := (s.realEnv unitQP.toDense).ops; rwa [hq] at this
  obtain ⟨g1, g2, g3⟩ := guessOf_point (nz := 1) (nl := 0) (nv := 1) (fun _ => M) 0 0
  have h := (C44_any_guess_dense s unitQP.toDense x (by show (1 : Int) ≤ 30; norm_num)
    (by show ¬(1e-2 : ℝ) < 1e-12; norm_num) (unitQP.toDense_fits _ _ _) (guessOf_writable _ _ _ _) (by
      show norm3 _ _ _ ≤ (2 : ℝ)
      rw [norm3_eq, Real.sqrt_le_left (by norm_num)]
      show (Vec.fn (Vec.const 1 : Vec ℝ 1)) ⬝ᵥ Vec.fn (Vec.const 1 : Vec ℝ 1) +
        (Vec.fn (Vec.const 1 : Vec ℝ 0)) ⬝ᵥ Vec.fn (Vec.const 1 : Vec ℝ 0) +
        (Vec.fn (Vec.const 1 : Vec ℝ 1)) ⬝ᵥ Vec.fn (Vec.const 1 : Vec ℝ 1) ≤ 2 ^ 2
      simp [dotProduct]; norm_num)).1
  have e : residualNorm (s.problem unitQP.toDense) s.options.alpha
      (x.guess (s.problem unitQP.toDense)) = M := by
    have := unitQP.residual I (alpha := s.options.alpha)
      (x := x.guess (s.problem unitQP.toDense)) (w := M) g1 g3 (CallerVar.guess_margin I x)
    rwa [abs_of_nonneg hM] at this
  rw [e] at h
  exact h

/-- Options in range with `sigma = 1` and `stall_tol = 1.2`. -/
noncomputable def stallOptions : Params ℝ :=
  { Params.defaults with sigma0 := 1, sigmaMax := 1, stallTol := 1.2, checkFeasibility := false }

theorem stallOptions_inRange : stallOptions.InRange := by
  constructor <;> simp only [stallOptions, Params.defaults, Between] <;> norm_num

/-- The run on `min z^2/2` from `z = 1`: it stalls at `z = 1/2`. -/
theorem stall_run {E : Core.Env ℝ 1 0 1} (N : Core.NewtonEnv E unitQP) (ho : E.opts = stallOptions)
    {ws : FeasWs ℝ 1 0 1} {x : Point ℝ 1 0 1} {fin : Core.Final ℝ 1 0 1}
    (hz : x.z.fn = fun _ => 1) (hx : Core.Plain unitQP x) (h : Core.Returned E ws x fin) :
    fin.out.eflag = .success ∧ fin.out.residual = 1 / 2 ∧ fin.out.proxIters = 1 ∧
      fin.out.newtonIters = 1 := by
  have ht : unitQP.Trivial := ⟨rfl, fun i => zero_le_one⟩
  have hcombo : E.comboTol ≤ 1e-6 + 1e-12 * 2 := by
    have h2 : unitQP.f ⬝ᵥ unitQP.f + unitQP.h ⬝ᵥ unitQP.h + unitQP.b ⬝ᵥ unitQP.b = 1 := by
      simp [unitQP, dotProduct]
    unfold Core.Env.comboTol stoppingTol
    rw [N.ops.forcingNorm, h2, ho]
    simp only [stallOptions, Params.defaults]
    norm_num
  have hmin : E.opts.innerTolMin ≤ E.comboTol := by
    have := absTol_le_stoppingTol N.ops N.inRange
    refine le_trans ?_ this
    rw [ho]; norm_num [stallOptions, Params.defaults]
  have hones : E.opts.stallTol < Core.normPt (Core.onesPt E) := by
    show _ < norm3 (Vec.const 1) (Vec.const 1) (Vec.const 1)
    rw [norm3_eq, ho]
    refine Real.lt_sqrt_of_sq_lt ?_
    simp [dotProduct, stallOptions, Params.defaults]
    norm_num
  have hpen : Core.Resid.norm (E.penRes x) = 1 := by
    have := unitQP.residual N.ops (alpha := E.opts.alpha) hz hx.v hx.marg
    rw [abs_one] at this
    exact this
  have hsig : E.opts.sigma0 = 1 := by rw [ho]; rfl
  have hns : ∀ tol, ¬Core.Stop E (Core.start E ws x tol) := by
    rintro tol (h | h)
    · simp only [Core.start] at h; rw [hpen] at h; norm_num at hcombo; linarith
    · exact absurd h hones.not_ge
  -- what the first subproblem returns
  have key : ∀ {tol0 tol o}, Core.Inner E (Core.start E ws x tol0) tol o →
      Core.Plain unitQP o.x ∧ o.newton = 1 ∧ (o.x.z.fn = fun _ => 1 / 2) := by
    intro tol0 tol o hi
    obtain ⟨e1, e2, e3⟩ := Core.Inner.equality N ht (s := Core.start E ws x tol0) hx hmin
      (by rw [ho]; show ¬((200 : Int) ≤ ((0 : Nat) : Int)); norm_num) hi
    refine ⟨e1, e2, ?_⟩
    have := e3.stationary
    rw [unitQP.grad, hsig, one_smul] at this
    have hz' : (Core.start E ws x tol0).xk.z.fn = fun _ => 1 := hz
    rw [hz'] at this
    ext i
    have := congrFun this i
    simp only [Pi.add_apply, Pi.sub_apply, Pi.zero_apply] at this
    linarith
  obtain ⟨tol0, k, s, h0, hs, h⟩ := h.run
  have hI : s = Core.start E ws x tol0 ∨ (Core.Stop E s ∧ Core.Plain unitQP s.xk ∧
      s.newton = 1 ∧ s.prox = 1 ∧ (s.xk.z.fn = fun _ => 1 / 2)) := by
    refine Core.Steps.invariant (P := fun s => s = Core.start E ws x tol0 ∨ (Core.Stop E s ∧
      Core.Plain unitQP s.xk ∧ s.newton = 1 ∧ s.prox = 1 ∧ (s.xk.z.fn = fun _ => 1 / 2))) ?_ hs
      (.inl rfl)
    intro s s' tol o hP hst
    rcases hP with rfl | hP
    · right
      obtain ⟨k1, k2, k3⟩ := key hst.toInner
      rw [hst.eq]
      refine ⟨.inr ?_, k1, k2, rfl, k3⟩
      show norm3 _ _ _ ≤ E.opts.stallTol
      rw [norm3_eq, ho]
      have a1 : (E.axpy (-1) (Core.start E ws x tol0).xk o.x).z.fn = fun _ => -1 / 2 := by
        simp only [Core.Env.axpy, Vec.fn_add, Vec.fn_smul]
        rw [k3, show (Core.start E ws x tol0).xk.z.fn = _ from hz]
        ext i; simp; norm_num
      have a2 : (E.axpy (-1) (Core.start E ws x tol0).xk o.x).v.fn = 0 := by
        simp only [Core.Env.axpy, Vec.fn_add, Vec.fn_smul]
        rw [k1.v, show (Core.start E ws x tol0).xk.v.fn = _ from hx.v]; simp
      simp only [Core.next]
      rw [a1, a2]
      rw [Real.sqrt_le_left (by norm_num [stallOptions])]
      simp [dotProduct, stallOptions]; norm_num
    · exact absurd hP.1 hst.nostop
  rcases h with ⟨hkm, h⟩ | ⟨hkm, rfl⟩
  · cases h with
    | success hst =>
      rcases hI with rfl | ⟨-, k1, k2, k3, k4⟩
      · exact absurd hst (hns _)
      · refine ⟨rfl, ?_, k3, k2⟩
        have := unitQP.residual N.ops (alpha := E.opts.alpha) k4 k1.v k1.marg
        rw [abs_of_pos (by norm_num)] at this
        exact this
    | newton hi hn' x hx =>
      exfalso
      rcases hI with rfl | ⟨k0, -⟩
      · rw [(key hi).2.1, ho] at hn'
        revert hn'
        show ¬((200 : Int) ≤ ((1 : Nat) : Int))
        norm_num
      · exact hi.nostop k0
    | infeasible hi hn' hc hf =>
      rw [ho] at hc; cases hc
  · exfalso
    have hp := hs.prox
    simp only [Core.start, Nat.zero_add] at hp
    have h30 : E.opts.maxProxIters.toNat = 30 := by rw [ho]; rfl
    rw [h30] at hkm
    rcases hI with rfl | ⟨-, -, -, k3, -⟩
    · simp only [Core.start] at hp; omega
    · omega

/-- The hypotheses of `C44_stalled_dense` are met: with validated options the run on `min z^2/2` from
`z = 1` reports SUCCESS with residual `1/2` (far above the stopping tolerance, which is at most
`1e-6 + 2e-12`) after one proximal and one Newton iteration. -/
theorem C44_stall_example (junk : DenseJunk ℝ) :
    let s := FBstabDense.made junk 1 0 1 stallOptions
    let x : CallerVar ℝ := guessOf (nz := 1) (nl := 0) (nv := 1) (fun _ => 1) 0 0
    ∃ out, s.Reachable ∧ (s.solve unitQP.toDense x).result = .ok out ∧ out.eflag = .success ∧
      out.residual = 1 / 2 ∧ stoppingTol (s.problem unitQP.toDense) s.options < out.residual ∧
      1 ≤ out.proxIters ∧ (out.newtonIters : Int) < s.options.maxInnerIters := by
  intro s x
  have hr : s.Reachable := FBstabDense.made_reachable junk _ (by norm_num) (by norm_num)
    (by norm_num [intLimit]) stallOptions_inRange
  have hq : s.qp unitQP.toDense = unitQP := FBstabDense.made_qp junk _ _
  have hcv : (s.qp unitQP.toDense).Convex := by rw [hq]; exact unitQP.convex
  have hc := C01_reachable_dense s hr
  have N := s.newtonEnv hc unitQP.toDense hcv
  have hst : (1e-6 : ℝ) ≤ stoppingTol (s.problem unitQP.toDense) s.options :=
    absTol_le_stoppingTol N.ops hc
  obtain ⟨out, ho⟩ := C13_dense s hr unitQP.toDense x (unitQP.toDense_fits _ _ _)
    (guessOf_writable _ _ _ _) hcv
    ⟨by show (1e-12 : ℝ) ≤ 1e-2; norm_num, le_trans (by show (1e-12 : ℝ) ≤ 1e-6; norm_num) hst⟩
  obtain ⟨-, -, fin, -, h2, rfl, -⟩ := FBstabDense.returned ho
  obtain ⟨g1, g2, g3⟩ := guessOf_point (nz := 1) (nl := 0) (nv := 1) (fun _ => 1) 0 0
  rw [hq] at N
  have hx : Core.Plain unitQP (Core.startPt (s.env unitQP.toDense) (x.z.toVec _)
    (x.l.toVec _) (x.v.toVec _)) := ⟨Core.Marg.start N.ops _ _ _, g3⟩
  obtain ⟨r1, r2, r3, r4⟩ := stall_run N rfl g1 hx h2
  refine ⟨_, hr, ho, r1, r2, ?_, r3.ge, ?_⟩
  · rw [r2]
    have h2 : unitQP.f ⬝ᵥ unitQP.f + unitQP.h ⬝ᵥ unitQP.h + unitQP.b ⬝ᵥ unitQP.b = 1 := by
      simp [unitQP, dotProduct]
    unfold stoppingTol
    have := N.ops.forcingNorm
    replace this := this.trans (congrArg Real.sqrt h2)
    show (1e-6 : ℝ) + 1e-12 * (1 + (s.env unitQP.toDense).ops.forcingNorm) < 1 / 2
    rw [this]
    norm_num
  · rw [r4]
    show ((1 : Nat) : Int) < 50
    norm_num

end Fbstab
