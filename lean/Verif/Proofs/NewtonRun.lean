import Verif.Proofs.NoThrow
import Verif.Proofs.Witness
import Verif.Props.Newton
import Verif.Props.LineSearch
import Verif.Props.Mpc

/-!
# Following runs over the reals

Newton iterations seen as functions of real vectors.
-/

namespace Fbstab
open Matrix

theorem backtracked_real (beta : ℝ) (j : Nat) : backtracked beta j = beta ^ j := by
  induction j with
  | zero => rfl
  | succ j ih => rw [backtracked, ih, pow_succ]

namespace Core
variable {nz nl nv : Nat} {E : Env ℝ nz nl nv} {q : QP nz nl nv}

/-- An environment whose linear solver always solves the Newton system. -/
structure NewtonEnv (E : Env ℝ nz nl nv) (q : QP nz nl nv) : Prop extends RealEnv E q where
  inRange : E.opts.InRange
  convex : q.Convex
  factor : ∀ x xbar, ∃ g, E.factor x xbar E.opts.sigma0 = .ok (some g) ∧ ∀ r,
    q.NewtonSystem E.opts.sigma0 (fun i => (slopes E.opts.alpha E.opts.sigma0 x xbar i).1)
      (fun i => (slopes E.opts.alpha E.opts.sigma0 x xbar i).2) r.z.fn r.l.fn r.v.fn
      (g r).z.fn (g r).l.fn (g r).v.fn

/-- The residual of the subproblem, as real vectors. -/
theorem innerRes_fn (I : q.Implements E.ops) (x xbar : Point ℝ nz nl nv) (sigma : ℝ) :
    (E.innerRes x xbar sigma).z.fn = q.lagrangeGrad x.z.fn x.l.fn x.v.fn + sigma • (x.z.fn - xbar.z.fn) ∧
    (E.innerRes x xbar sigma).l.fn = q.h - q.G *ᵥ x.z.fn + sigma • (x.l.fn - xbar.l.fn) ∧
    (∀ i, (E.innerRes x xbar sigma).v i =
      pfb (x.y i + sigma * (x.v i - xbar.v i)) (x.v i) E.opts.alpha) := by
  refine ⟨?_, ?_, fun i => ?_⟩
  · show (gradLagrangian E.ops x.z x.l x.v + sigma * (x.z - xbar.z)).fn = _
    rw [Vec.fn_add, Vec.fn_smul, Vec.fn_sub, I.gradLagrangian]
  · show (eqDefect E.ops x.z + sigma * (x.l - xbar.l)).fn = _
    rw [Vec.fn_add, Vec.fn_smul, Vec.fn_sub, I.eqDefect]
  · show (Vec.ofFn _).get i = _
    rw [Vec.get_ofFn]

/-- A solution of the Newton system at `x` for the right-hand side minus the residual. -/
structure Direction (E : Env ℝ nz nl nv) (q : QP nz nl nv) (x xbar : Point ℝ nz nl nv)
    (dz : Fin nz → ℝ) (dl : Fin nl → ℝ) (dv : Fin nv → ℝ) : Prop where
  system : q.NewtonSystem E.opts.sigma0
    (fun i => (slopes E.opts.alpha E.opts.sigma0 x xbar i).1)
    (fun i => (slopes E.opts.alpha E.opts.sigma0 x xbar i).2)
    (-(q.lagrangeGrad x.z.fn x.l.fn x.v.fn + E.opts.sigma0 • (x.z.fn - xbar.z.fn)))
    (-(q.h - q.G *ᵥ x.z.fn + E.opts.sigma0 • (x.l.fn - xbar.l.fn)))
    (fun i => -pfb (x.y i + E.opts.sigma0 * (x.v i - xbar.v i)) (x.v i) E.opts.alpha) dz dl dv

/-- One Newton step of a run. -/
structure NewtonMove (E : Env ℝ nz nl nv) (q : QP nz nl nv) (xbar x x' : Point ℝ nz nl nv) : Prop where
  move : ∃ (j : Nat) (dz : Fin nz → ℝ) (dl : Fin nl → ℝ) (dv : Fin nv → ℝ),
    j ≤ E.opts.maxLinesearchIters.toNat ∧ Direction E q x xbar dz dl dv ∧ x'.z.fn = x.z.fn + E.opts.beta ^ j • dz ∧
    x'.l.fn = x.l.fn + E.opts.beta ^ j • dl ∧ x'.v.fn = x.v.fn + E.opts.beta ^ j • dv ∧
    (Marg q x → Marg q x')

theorem NewtonEnv.newtonStep (N : NewtonEnv E q) {x xbar : Point ℝ nz nl nv} {g}
    (hg : E.factor x xbar E.opts.sigma0 = .ok (some g)) (buf : Vec ℝ 5) :
    NewtonMove E q xbar x
      (Core.newtonStep E E.opts.sigma0 xbar g x (E.innerRes x xbar E.opts.sigma0) buf).1 := by
  obtain ⟨g', hg', hn⟩ := N.factor x xbar
  have : g = g' := by rw [hg] at hg'; injection hg' with h; injection h
  subst this
  obtain ⟨j, -, hj, h3, -, -⟩ := lineSearch_spec E E.opts.sigma0
    (mZero E (Alg.insertMerit (Resid.merit (Resid.negate (E.innerRes x xbar E.opts.sigma0))) buf)
      (Resid.merit (Resid.negate (E.innerRes x xbar E.opts.sigma0))))
    (Resid.merit (Resid.negate (E.innerRes x xbar E.opts.sigma0))) x xbar
    (g (Resid.negate (E.innerRes x xbar E.opts.sigma0))) E.opts.maxLinesearchIters.toNat 0
  have h3' : (Core.newtonStep E E.opts.sigma0 xbar g x (E.innerRes x xbar E.opts.sigma0) buf).1 =
      E.axpy (E.opts.beta ^ j) (g (Resid.negate (E.innerRes x xbar E.opts.sigma0))) x := by
    rw [← backtracked_real]
    exact congrArg (fun t => E.axpy t (g (Resid.negate (E.innerRes x xbar E.opts.sigma0))) x) h3
  obtain ⟨i1, i2, i3⟩ := innerRes_fn (E := E) N.ops x xbar E.opts.sigma0
  have hz : ∀ {n : Nat} (w : Vec ℝ n), (Vec.ofFn fun i => w i * (-1)).fn = -w.fn := by
    intro n w; ext i; simp
  set d := g (Resid.negate (E.innerRes x xbar E.opts.sigma0)) with hd
  refine ⟨j, d.z.fn, d.l.fn, d.v.fn, by omega, ⟨?_⟩, ?_, ?_, ?_, fun hm => ?_⟩
  · have := hn (Resid.negate (E.innerRes x xbar E.opts.sigma0))
    have e1 : (Resid.negate (E.innerRes x xbar E.opts.sigma0)).z.fn =
      -(q.lagrangeGrad x.z.fn x.l.fn x.v.fn + E.opts.sigma0 • (x.z.fn - xbar.z.fn)) := by
      rw [← i1]; exact hz _
    have e2 : (Resid.negate (E.innerRes x xbar E.opts.sigma0)).l.fn =
      -(q.h - q.G *ᵥ x.z.fn + E.opts.sigma0 • (x.l.fn - xbar.l.fn)) := by
      rw [← i2]; exact hz _
    have e3 : (Resid.negate (E.innerRes x xbar E.opts.sigma0)).v.fn =
      fun i => -pfb (x.y i + E.opts.sigma0 * (x.v i - xbar.v i)) (x.v i) E.opts.alpha := by
      funext i; rw [← i3]; exact congrFun (hz _) i
    rw [e1, e2, e3] at this
    exact this
  · rw [h3']; simp only [Env.axpy, Vec.fn_add, Vec.fn_smul]
  · rw [h3']; simp only [Env.axpy, Vec.fn_add, Vec.fn_smul]
  · rw [h3']; simp only [Env.axpy, Vec.fn_add, Vec.fn_smul]
  · rw [h3']; exact Marg.axpy N.ops hm (N.margin hg _) _

/-- Induction over the iterates of a subproblem. -/
theorem innerLoop_induct (N : NewtonEnv E q) {tol Ek : ℝ} {xbar : Point ℝ nz nl nv}
    (P : Nat → Point ℝ nz nl nv → Prop)
    (hstep : ∀ n x x', P n x → NewtonMove E q xbar x x' → P (n + 1) x') (fuel : Nat) :
    ∀ i t Eo x newton buf rk o, P i x →
      (innerLoop E tol E.opts.sigma0 Ek xbar fuel i t Eo x newton buf rk).2 = .ok o →
      ∃ n, i ≤ n ∧ P n o.x := by
  induction fuel with
  | zero =>
    intro i t Eo x newton buf rk o hx h
    simp only [innerLoop] at h
    cases h
    exact ⟨i, Nat.le_refl _, hx⟩
  | succ fuel ih =>
    intro i t Eo x newton buf rk o hx h
    simp only [innerLoop] at h
    split at h
    · cases h; exact ⟨i, Nat.le_refl _, hx⟩
    · split at h
      · cases h; exact ⟨i, Nat.le_refl _, hx⟩
      · obtain ⟨g, hg, -⟩ := N.factor x xbar
        rw [hg] at h
        obtain ⟨n, h1, h2⟩ := ih _ _ _ _ _ _ _ _ (hstep _ _ _ hx (N.newtonStep hg buf)) h
        exact ⟨n, by omega, h2⟩

end Core

theorem FBstabDense.newtonEnv (s : FBstabDense ℝ) (ho : s.options.InRange) (p : DenseProblem ℝ)
    (hc : (s.qp p).Convex) : Core.NewtonEnv (s.env p) (s.qp p) where
  toRealEnv := s.realEnv p
  inRange := ho
  convex := hc
  factor := fun x xbar => by
    obtain ⟨h1, h2⟩ := dense_newton (p.toData s.nz s.nl s.nv) hc ho.alpha_pos ho.alpha_lt
      ho.sigma_tiny x xbar
    exact ⟨_, h1, fun r => (h2 r).1⟩

theorem FBstabMpc.newtonEnv (s : FBstabMpc ℝ) (ho : s.options.InRange) (p : MpcProblem ℝ)
    (hc : (s.ocp p).Convex) : Core.NewtonEnv (s.env real_zero_beq p) (s.qp p) where
  toRealEnv := s.realEnv p
  inRange := ho
  convex := (C29_convex _).2 hc
  factor := fun x xbar => by
    obtain ⟨h1, h2⟩ := riccati_newton (p.toData s.N s.nx s.nu s.nc) hc ho.alpha_pos ho.alpha_lt
      ho.sigma_pos x xbar
    exact ⟨_, h1, fun r => h2 r⟩

end Fbstab
