import Verif.Proofs.NewtonRun
import Verif.Proofs.Certificates

/-!
# Subproblems that one Newton step solves exactly

If the full Newton step from the starting point makes the residual of the subproblem zero, the line
search accepts it and the subproblem ends there.
-/

namespace Fbstab.Core
open Matrix
variable {nz nl nv : Nat} {E : Env ℝ nz nl nv} {q : QP nz nl nv}

theorem slopes_pos (N : NewtonEnv E q) (x xbar : Point ℝ nz nl nv) (i : Fin nv) :
    0 ≤ (slopes E.opts.alpha E.opts.sigma0 x xbar i).1 ∧
    0 < (slopes E.opts.alpha E.opts.sigma0 x xbar i).2 +
      E.opts.sigma0 * (slopes E.opts.alpha E.opts.sigma0 x xbar i).1 := by
  have hal := N.inRange.alpha_pos
  have hal' := N.inRange.alpha_lt
  have hsig := N.inRange.sigma_pos
  obtain ⟨g1, g2⟩ := pfbGradient_nonneg hal hal'
    (x.y i + E.opts.sigma0 * (x.v i - xbar.v i)) (x.v i)
  refine ⟨g1, ?_⟩
  show 0 < (pfbGradient _ _ _).2 + E.opts.sigma0 * (pfbGradient _ _ _).1
  rcases pfbGradient_pos hal hal' (x.y i + E.opts.sigma0 * (x.v i - xbar.v i)) (x.v i) with h | h
  · have := mul_pos hsig h; linarith
  · have := mul_nonneg hsig.le g1; linarith

/-- There is one Newton direction. -/
theorem Direction.unique (N : NewtonEnv E q) {x xbar : Point ℝ nz nl nv} {dz dl dv dz' dl' dv'}
    (h : Direction E q x xbar dz dl dv) (h' : Direction E q x xbar dz' dl' dv') :
    dz = dz' ∧ dl = dl' ∧ dv = dv' :=
  QP.NewtonSystem.unique N.convex N.inRange.sigma_pos (fun i => (slopes_pos N x xbar i).1)
    (fun i => (slopes_pos N x xbar i).2) h.system h'.system

theorem le_maxMerit (cm : ℝ) (buf : Vec ℝ 5) : cm ≤ Alg.maxMerit (Alg.insertMerit cm buf) := by
  have h : Alg.insertMerit cm buf 0 = cm := by simp [Alg.insertMerit]
  conv_lhs => rw [← h]
  unfold Alg.maxMerit Vec.maxCoeff
  simp only [Fin.foldl_succ, Fin.foldl_zero, cmax_eq_max]
  simp

theorem le_mZero (E : Env ℝ nz nl nv) (cm : ℝ) (buf : Vec ℝ 5) :
    cm ≤ mZero E (Alg.insertMerit cm buf) cm := by
  unfold mZero
  split
  · exact le_maxMerit cm buf
  · exact le_rfl

/-- A subproblem whose residual is zero after the full Newton step. -/
theorem innerLoop_exact (N : NewtonEnv E q) {tol Ek : ℝ} {xbar : Point ℝ nz nl nv} {fuel i : Nat}
    {t Eo : ℝ} {x : Point ℝ nz nl nv} {newton : Nat} {buf : Vec ℝ 5} {rk o}
    {dz : Fin nz → ℝ} {dl : Fin nl → ℝ} {dv : Fin nv → ℝ} (hm : Marg q x)
    (hd : Direction E q x xbar dz dl dv)
    (hzero : ∀ x' : Point ℝ nz nl nv, Marg q x' → x'.z.fn = x.z.fn + dz → x'.l.fn = x.l.fn + dl →
      x'.v.fn = x.v.fn + dv → Resid.norm (E.innerRes x' xbar E.opts.sigma0) = 0)
    (h : (innerLoop E tol E.opts.sigma0 Ek xbar (fuel + 1) i t Eo x newton buf rk).2 = .ok o) :
    (o.x = x ∧ o.newton = newton ∧ ((Resid.norm (E.innerRes x xbar E.opts.sigma0) ≤ tol ∧
        Resid.norm (E.penRes x) < Ek) ∨
      Resid.norm (E.innerRes x xbar E.opts.sigma0) ≤ E.opts.innerTolMin ∨
      E.opts.maxNewtonIters ≤ (newton : Int))) ∨
    (Marg q o.x ∧ o.newton = newton + 1 ∧ o.x.z.fn = x.z.fn + dz ∧ o.x.l.fn = x.l.fn + dl ∧
      o.x.v.fn = x.v.fn + dv) := by
  simp only [innerLoop] at h
  split at h
  · rename_i hc
    cases h
    rcases hc with hc | hc
    · exact .inl ⟨rfl, rfl, .inl hc⟩
    · exact .inl ⟨rfl, rfl, .inr (.inl hc)⟩
  · split at h
    · rename_i hn
      cases h
      exact .inl ⟨rfl, rfl, .inr (.inr hn)⟩
    · obtain ⟨g, hg, hn⟩ := N.factor x xbar
      rw [hg] at h
      dsimp only at h
      right
      -- the accepted step is the full step
      have hstep : ∃ x', (Core.newtonStep E E.opts.sigma0 xbar g x
          (E.innerRes x xbar E.opts.sigma0) buf).1 = x' ∧ Marg q x' ∧ x'.z.fn = x.z.fn + dz ∧
          x'.l.fn = x.l.fn + dl ∧ x'.v.fn = x.v.fn + dv := by
        set cm := Resid.merit (Resid.negate (E.innerRes x xbar E.opts.sigma0)) with hcm
        set d := g (Resid.negate (E.innerRes x xbar E.opts.sigma0)) with hdd
        obtain ⟨i1, i2, i3⟩ := innerRes_fn (E := E) N.ops x xbar E.opts.sigma0
        have hz : ∀ {n : Nat} (w : Vec ℝ n), (Vec.ofFn fun i => w i * (-1)).fn = -w.fn := by
          intro n w; ext i; simp
        have hdir : Direction E q x xbar d.z.fn d.l.fn d.v.fn := by
          constructor
          have := hn (Resid.negate (E.innerRes x xbar E.opts.sigma0))
          have e1 : (Resid.negate (E.innerRes x xbar E.opts.sigma0)).z.fn =
            -(q.lagrangeGrad x.z.fn x.l.fn x.v.fn + E.opts.sigma0 • (x.z.fn - xbar.z.fn)) := by
            rw [← i1]; exact hz _
          have e2 : (Resid.negate (E.innerRes x xbar E.opts.sigma0)).l.fn =
            -(q.h - q.G *ᵥ x.z.fn + E.opts.sigma0 • (x.l.fn - xbar.l.fn)) := by
            rw [← i2]; exact hz _
          have e3 : (Resid.negate (E.innerRes x xbar E.opts.sigma0)).v.fn =
            fun i => -pfb (x.y i + E.opts.sigma0 * (x.v i - xbar.v i)) (x.v i) E.opts.alpha := by
            funext i; rw [← i3]; exact congrFun (hz _) i
          rw [e1, e2, e3] at this
          exact this
        obtain ⟨rfl, rfl, rfl⟩ := hdir.unique N hd
        have hx1 : ∀ t : ℝ, Marg q (E.axpy t d x) := fun t => Marg.axpy N.ops hm (N.margin hg _) t
        have hfull : Resid.merit (E.innerRes (E.axpy (backtracked E.opts.beta 0) d x) xbar
            E.opts.sigma0) = 0 := by
          have := hzero (E.axpy (backtracked E.opts.beta 0) d x) (hx1 _)
            (by simp [backtracked, Env.axpy, Vec.fn_add, Vec.fn_smul])
            (by simp [backtracked, Env.axpy, Vec.fn_add, Vec.fn_smul])
            (by simp [backtracked, Env.axpy, Vec.fn_add, Vec.fn_smul])
          unfold Resid.merit
          rw [this]; simp
        have hcm0 : 0 ≤ cm := by
          rw [hcm]; unfold Resid.merit
          have : ∀ w : ℝ, 0 ≤ 0.5 * w * w := fun w => by nlinarith [mul_self_nonneg w]
          exact this _
        obtain ⟨j, -, hj, h3, -, h5⟩ := lineSearch_spec E E.opts.sigma0
          (mZero E (Alg.insertMerit cm buf) cm) cm x xbar d E.opts.maxLinesearchIters.toNat 0
        have hj0 : j = 0 := by
          by_contra hne
          refine h5 0 (le_refl _) (by omega) ?_
          rw [hfull]
          have hle := le_mZero E cm buf
          have he := N.inRange.eta
          have : 2.0 * backtracked E.opts.beta 0 * E.opts.eta * cm ≤ cm := by
            rw [show backtracked E.opts.beta 0 = 1 from rfl]
            have := he.2
            have h0 : (0 : ℝ) ≤ E.opts.eta := le_trans (by norm_num) he.1
            nlinarith
          linarith
        rw [hj0] at h3
        refine ⟨_, rfl, ?_⟩
        have h3' : (Core.newtonStep E E.opts.sigma0 xbar g x (E.innerRes x xbar E.opts.sigma0)
            buf).1 = E.axpy 1 d x := congrArg (fun t => E.axpy t d x) h3
        rw [h3']
        refine ⟨hx1 1, ?_, ?_, ?_⟩ <;> simp [Env.axpy, Vec.fn_add, Vec.fn_smul]
      obtain ⟨x', hx', hm', e1, e2, e3⟩ := hstep
      have hr := hzero x' hm' e1 e2 e3
      cases fuel with
      | zero =>
        simp only [innerLoop] at h
        cases h
        rw [hx']
        exact ⟨hm', rfl, e1, e2, e3⟩
      | succ fuel =>
        rw [innerLoop] at h
        dsimp only at h
        rw [hx'] at h
        rw [if_pos (.inr (by rw [hr]; exact le_trans (by norm_num) N.inRange.innerTolMin.1))] at h
        cases h
        exact ⟨hm', rfl, e1, e2, e3⟩

end Fbstab.Core
