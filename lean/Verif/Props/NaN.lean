import Verif.Proofs.NanDense
import Verif.Props.Finite
import Verif.Props.Control
import Verif.Spec.Special

/-!
# C60: NaN in the inputs

In arithmetic with NaN.  Only the persistence of NaN through each entry is used.
-/

namespace Fbstab

/-! ## NaN in the data: a reported SUCCESS is not a small residual -/

/-- C60, FBstabDense: if any number of the problem is NaN, SUCCESS never means that the returned
residual met the tolerance. -/
theorem C60_data_dense (s : FBstabDense XReal) (hs : s.Reachable) (p : DenseProblem XReal)
    (x : CallerVar XReal) (hn : p.HasNaN) (out : SolverOut XReal)
    (h : (s.solve p x).result = .ok out) (hf : out.eflag = .success) :
    ¬out.residual ≤ stoppingTol (s.problem p) s.options := by
  rw [(C06_dense s (hs.limits C01_validation_total_xreal).maxProxIters p x out h hf).1]
  exact residual_nan (DenseData.nan_residual (hn.toData (FBstabDense.returned h).1)) _ _

/-- C60, FBstabMpc: if any number of the problem is NaN, SUCCESS never means that the returned
residual met the tolerance. -/
theorem C60_data_mpc (s : FBstabMpc XReal) (hs : s.Reachable) (p : MpcProblem XReal)
    (x : CallerVar XReal) (hn : p.HasNaN) (out : SolverOut XReal)
    (h : (s.solve p x).result = .ok out) (hf : out.eflag = .success) :
    ¬out.residual ≤ stoppingTol (s.problem p) s.options := by
  rw [(C06_mpc XReal.beq_zero s (hs.limits XReal.beq_zero C01_validation_total_xreal).maxProxIters p x
    out h hf).1]
  obtain ⟨h1, h2, -⟩ := FBstabMpc.returned XReal.beq_zero h
  exact residual_nan (MpcData.nan_residual (hn.toData h1 h2)) _ _

/-! ## NaN in the guess -/

/-- C60, FBstabDense: a guess that contains NaN never leads to SUCCESS (unless the stall tolerance
is so large that `Solve` returns at once whatever it is given). -/
theorem C60_guess_dense (s : FBstabDense XReal) (hs : s.Reachable) (p : DenseProblem XReal)
    (x : CallerVar XReal) (hn : x.HasNaN)
    (hst : ¬onesNorm XReal s.nz s.nl s.nv ≤ s.options.stallTol) (out : SolverOut XReal)
    (h : (s.solve p x).result = .ok out) : out.eflag ≠ .success := by
  obtain ⟨h1, -, fin, -, hr, rfl, -⟩ := FBstabDense.returned h
  exact hr.nan hst (fun x hx => DenseData.point_nan _ hs.pos.1 _ hx)
    (.inl (hn.guess h1.z h1.l h1.v))

/-- C60, FBstabMpc: a guess that contains NaN never leads to SUCCESS. -/
theorem C60_guess_mpc (s : FBstabMpc XReal) (hs : s.Reachable) (p : MpcProblem XReal)
    (x : CallerVar XReal) (hn : x.HasNaN)
    (hst : ¬onesNorm XReal ((s.N + 1) * (s.nx + s.nu)) ((s.N + 1) * s.nx) ((s.N + 1) * s.nc) ≤
      s.options.stallTol) (out : SolverOut XReal)
    (h : (s.solve p x).result = .ok out) : out.eflag ≠ .success := by
  obtain ⟨h1, -, fin, -, hr, rfl, -⟩ := FBstabMpc.returned XReal.beq_zero h
  exact hr.nan hst (fun x hx => MpcData.point_nan _ hs.pos _ hx)
    (.inl (hn.guess h1.z h1.l h1.v))

/-! ## NaN anywhere -/

theorem MpcData.nan_start {N nx nu nc : Nat} {d : MpcData XReal N nx nu nc} (h : d.HasNaN)
    (z l v) : (gradLagrangian d.ops z l v).HasNaN ∨ (eqDefect d.ops z).HasNaN ∨
      (margin d.ops z).HasNaN := by
  rcases h with ⟨k, i, j, h⟩ | ⟨k, i, j, h⟩ | ⟨k, i, j, h⟩ | ⟨k, i, h⟩ | ⟨k, i, h⟩ | ⟨k, i, j, h⟩ |
    ⟨k, i, j, h⟩ | ⟨k, i, h⟩ | ⟨k, i, j, h⟩ | ⟨k, i, j, h⟩ | ⟨k, i, h⟩ | ⟨i, h⟩
  · exact .inl ⟨_, d.grad_x_nan k i (.inr (.inl ⟨j, h⟩))⟩
  · exact .inl ⟨_, d.grad_u_nan k i (.inr (.inr (.inl ⟨j, h⟩)))⟩
  · exact .inl ⟨_, d.grad_u_nan k i (.inr (.inl ⟨j, h⟩))⟩
  · exact .inl ⟨_, d.grad_x_nan k i (.inl h)⟩
  · exact .inl ⟨_, d.grad_u_nan k i (.inl h)⟩
  · exact .inl ⟨_, d.grad_A_nan k i j h⟩
  · exact .inl ⟨_, d.grad_B_nan k i j h⟩
  · exact .inr (.inl ⟨_, d.eqDefect_succ_nan k i (.inl h)⟩)
  · exact .inl ⟨_, d.grad_x_nan k j (.inr (.inr (.inl ⟨i, h⟩)))⟩
  · exact .inl ⟨_, d.grad_u_nan k j (.inr (.inr (.inr (.inl ⟨i, h⟩))))⟩
  · exact .inr (.inr ⟨_, d.margin_nan k i (.inl h)⟩)
  · exact .inr (.inl ⟨_, d.eqDefect_zero_nan i h⟩)

/-- C60, FBstabMpc: NaN anywhere in the problem or in the guess never leads to SUCCESS. -/
theorem C60_mpc (s : FBstabMpc XReal) (hs : s.Reachable) (p : MpcProblem XReal)
    (x : CallerVar XReal) (hn : p.HasNaN ∨ x.HasNaN)
    (hst : ¬onesNorm XReal ((s.N + 1) * (s.nx + s.nu)) ((s.N + 1) * s.nx) ((s.N + 1) * s.nc) ≤
      s.options.stallTol) (out : SolverOut XReal)
    (h : (s.solve p x).result = .ok out) : out.eflag ≠ .success := by
  rcases hn with hn | hn
  · have hlim := hs.limits XReal.beq_zero C01_validation_total_xreal
    obtain ⟨h1, h2, fin, -, hr, rfl, -⟩ := FBstabMpc.returned XReal.beq_zero h
    have hd := hn.toData h1 h2
    have hin := Core.innerRes_nan (E := s.env XReal.beq_zero p) (x := x.guess (s.problem p))
      (xbar := x.guess (s.problem p)) (sigma := s.options.sigma0) (MpcData.nan_start hd _ _ _)
    refine hr.nan hst (fun x hx => MpcData.point_nan _ hs.pos _ hx) (.inr ⟨?_, ⟨norm3_nan hin, ?_⟩,
      hlim.maxInnerIters, hlim.maxNewtonIters⟩)
    · exact residual_nan (MpcData.nan_residual hd) s.options _
    · intro g hg
      have hg : RiccatiWs.factor (p.toData s.N s.nx s.nu s.nc) s.options.alpha (x.guess (s.problem p))
        (x.guess (s.problem p)) s.options.sigma0 = .ok (some g) := hg
      unfold RiccatiWs.factor at hg
      split at hg
      · cases hg
      · split at hg
        · injection hg with hg
          injection hg with hg
          subst hg
          exact RiccatiWs.step_nan (Core.negate_nan hin)
        · cases hg
  · exact C60_guess_mpc s hs p x hn hst out h

/-- The common part of the dense theorems: NaN in the first Newton step. -/
theorem FBstabDense.nan_step {s : FBstabDense XReal} (hs : s.Reachable) {p : DenseProblem XReal}
    {x : CallerVar XReal} (hn : p.HasNaN)
    (hst : ¬onesNorm XReal s.nz s.nl s.nv ≤ s.options.stallTol) {out : SolverOut XReal}
    (h : (s.solve p x).result = .ok out)
    (hin : ∀ r, r = (s.env p).innerRes (x.guess (s.problem p)) (x.guess (s.problem p)) s.options.sigma0 →
      (r.z.HasNaN ∨ r.l.HasNaN ∨ r.v.HasNaN) ∧
      (denseStep (p.toData s.nz s.nl s.nv) s.options.alpha (x.guess (s.problem p))
        (x.guess (s.problem p)) s.options.sigma0 (Core.Resid.negate r)).HasNaN) : out.eflag ≠ .success := by
  have hlim := hs.limits C01_validation_total_xreal
  obtain ⟨h1, -, fin, -, hr, rfl, -⟩ := FBstabDense.returned h
  have hd := hn.toData h1
  obtain ⟨hin, hst2⟩ := hin _ rfl
  refine hr.nan hst (fun x hx => DenseData.point_nan _ hs.pos.1 _ hx) (.inr ⟨?_, ⟨norm3_nan hin, ?_⟩,
    hlim.maxInnerIters, hlim.maxNewtonIters⟩)
  · exact residual_nan (DenseData.nan_residual hd) s.options _
  · intro g hg
    have hg : denseFactor (p.toData s.nz s.nl s.nv) s.options.alpha (x.guess (s.problem p))
      (x.guess (s.problem p)) s.options.sigma0 = .ok (some g) := hg
    unfold denseFactor at hg
    split at hg
    · cases hg
    · split at hg
      · injection hg with hg
        injection hg with hg
        subst hg
        exact hst2
      · cases hg

/-- C60, FBstabDense: NaN in `A`, in `b` or in the guess never leads to SUCCESS. -/
theorem C60_bounds_dense (s : FBstabDense XReal) (hs : s.Reachable) (p : DenseProblem XReal)
    (x : CallerVar XReal) (hn : p.A.HasNaN ∨ p.b.HasNaN ∨ x.HasNaN)
    (hst : ¬onesNorm XReal s.nz s.nl s.nv ≤ s.options.stallTol) (out : SolverOut XReal)
    (h : (s.solve p x).result = .ok out) : out.eflag ≠ .success := by
  obtain ⟨h1, -⟩ := FBstabDense.returned h
  have key : p.A.HasNaN ∨ p.b.HasNaN → out.eflag ≠ .success := by
    intro hn
    have hm : (margin (s.problem p) (x.z.toVec s.nz)).HasNaN := by
      rcases hn with hn | hn
      · obtain ⟨i, j, e⟩ := hn.toMat h1.Ar h1.Ac
        exact ⟨i, DenseData.margin_nan i (.inr (.inl ⟨j, e⟩))⟩
      · obtain ⟨i, e⟩ := hn.toVec h1.b
        exact ⟨i, DenseData.margin_nan i (.inl e)⟩
    refine FBstabDense.nan_step hs (by unfold DenseProblem.HasNaN; tauto) hst h ?_
    rintro r rfl
    obtain ⟨i, e⟩ := hm
    have hv : ((s.env p).innerRes (x.guess (s.problem p)) (x.guess (s.problem p))
        s.options.sigma0).v.HasNaN := ⟨i, by
      simp only [Core.Env.innerRes, Core.mkResid, Vec.get_ofFn]
      refine XReal.pfb_nan _ _ _ (.inl ?_)
      rw [show (x.guess (s.problem p)).y i = _ from e, XReal.nan_add']⟩
    refine ⟨.inr (.inr hv), denseStep_nan_v ?_⟩
    obtain ⟨i, e⟩ := hv
    exact ⟨i, by simp [Core.Resid.negate, e]⟩
  rcases hn with hn | hn | hn
  · exact key (.inl hn)
  · exact key (.inr hn)
  · exact C60_guess_dense s hs p x hn hst out h

/-- C60, FBstabDense: NaN in `f` or `h` never leads to SUCCESS, for finite `H`, `G`, `A`, `b` with
`H` symmetric positive semidefinite, a finite guess and finite options. -/
theorem C60_forcing_dense (s : FBstabDense XReal) (hs : s.Reachable) (p : DenseProblem XReal)
    (x : CallerVar XReal) (hn : p.f.HasNaN ∨ p.h.HasNaN)
    (p' : DenseProblem ℝ) (hH : p.H = p'.H.up) (hG : p.G = p'.G.up) (hA : p.A = p'.A.up)
    (hb : p.b = p'.b.up) (hc : (QP.ofDense (p'.toData s.nz s.nl s.nv)).Convex)
    (x' : CallerVar ℝ) (hx : x = x'.up) (o : Params ℝ) (ho : s.options = o.up) (hr : o.InRange)
    (hst : ¬onesNorm XReal s.nz s.nl s.nv ≤ s.options.stallTol) (out : SolverOut XReal)
    (h : (s.solve p x).result = .ok out) : out.eflag ≠ .success := by
  obtain ⟨h1, -⟩ := FBstabDense.returned h
  obtain ⟨i1, i2, i3⟩ := hr.divisors
  have hsig : (1e-10 : ℝ) ≤ o.sigma0 := hr.sigma0_pos
  refine FBstabDense.nan_step hs (by unfold DenseProblem.HasNaN; tauto) hst h ?_
  rintro r rfl
  have hz : ((s.env p).innerRes (x.guess (s.problem p)) (x.guess (s.problem p)) s.options.sigma0).z.HasNaN ∨
      ((s.env p).innerRes (x.guess (s.problem p)) (x.guess (s.problem p)) s.options.sigma0).l.HasNaN := by
    rcases hn with hn | hn
    · obtain ⟨i, e⟩ := hn.toVec h1.f
      refine .inl ⟨i, ?_⟩
      simp only [Core.Env.innerRes, Core.mkResid, Vec.get_add]
      have := DenseData.grad_nan (d := p.toData s.nz s.nl s.nv) (z := (x.guess (s.problem p)).z)
        (l := (x.guess (s.problem p)).l) (v := (x.guess (s.problem p)).v) i (.inl e)
      rw [show gradLagrangian (s.problem p) _ _ _ i = _ from this]
      simp
    · obtain ⟨i, e⟩ := hn.toVec h1.h
      refine .inr ⟨i, ?_⟩
      simp only [Core.Env.innerRes, Core.mkResid, Vec.get_add]
      have := DenseData.eqDefect_nan (d := p.toData s.nz s.nl s.nv) (z := (x.guess (s.problem p)).z) i
        (.inl e)
      rw [show eqDefect (s.problem p) _ i = _ from this]
      simp
  refine ⟨by tauto, denseStep_nan ?_ ?_⟩
  · rcases hz with ⟨i, e⟩ | ⟨i, e⟩
    · exact .inl ⟨i, by simp [Core.Resid.negate, e]⟩
    · exact .inr ⟨i, by simp [Core.Resid.negate, e]⟩
  · have hg : x.guess (s.problem p) = (x'.guess (p'.toData s.nz s.nl s.nv).ops).up := by
      have : margin (s.problem p) (x.z.toVec s.nz) =
          (margin (p'.toData s.nz s.nl s.nv).ops (x'.z.toVec s.nz)).up := by
        have := (DenseData.up_ops (p'.toData s.nz s.nl s.nv)).margin (x'.z.toVec s.nz)
        rw [← this, ← DenseProblem.up_toData, ← DVec.up_toVec, hx]
        simp only [margin, FBstabDense.problem, DenseProblem.toData, DenseData.ops, DenseData.gemvA,
          DenseData.axpyb, hA, hb]
        rfl
      simp only [CallerVar.guess, this, Point.up]
      simp only [hx, CallerVar.up, DVec.up_toVec]
    have hK : ∀ x xbar sigma, denseK (p.toData s.nz s.nl s.nv) o.up.alpha x xbar sigma =
        denseK (p'.toData s.nz s.nl s.nv).up (up o.alpha) x xbar sigma := by
      intro x xbar sigma
      rw [← DenseProblem.up_toData]
      simp only [denseK, DenseProblem.toData, hH, hG, hA]
      rfl
    rw [hg, ho, hK]
    exact up_pivots (p'.toData s.nz s.nl s.nv) hc i1 i2 hsig (x'.guess (p'.toData s.nz s.nl s.nv).ops)
      (x'.guess (p'.toData s.nz s.nl s.nv).ops)

end Fbstab
