import Verif.Proofs.NanRun
import Verif.Proofs.WitnessMpc
import Verif.Props.NaN
import Verif.Props.NaNHessian
import Verif.Props.NewtonMpc
import Verif.Props.Stall
import Verif.Props.FullConvergenceMpc

/-!
# Cases that meet the hypotheses of C60
-/

namespace Fbstab

/-! ## FBstabDense: problems with one variable never make the factorisation fail -/

section
variable {nv : Nat}

/-- A default solver for one variable and no equations. -/
noncomputable def oneSolver (junk : DenseJunk XReal) (nv : Nat) : FBstabDense XReal :=
  ⟨1, 0, nv, AlgMem.fresh (ls := denseSolver XReal 1 0 nv)
    { junk.lin 1 0 nv with alpha := 0.95, data := none } (junk.feas 1 0 nv)⟩

theorem oneSolver_reachable (junk : DenseJunk XReal) (hv : 0 < nv) : (oneSolver junk nv).Reachable :=
  ⟨junk, 1, 0, nv, _, [], FBstabDense.new_ok junk (by norm_num) hv (by norm_num [intLimit]), rfl⟩

theorem oneSolver_ones (junk : DenseJunk XReal) :
    ¬onesNorm XReal (oneSolver junk nv).nz (oneSolver junk nv).nl (oneSolver junk nv).nv ≤
      (oneSolver junk nv).options.stallTol := by
  show ¬onesNorm XReal 1 0 nv ≤ (1e-10 : XReal)
  have h1 := one_le_onesNorm (nz := 1) (nl := 0) (nv := nv) one_pos
  rw [onesNorm_up, up_ofScientific, up_le]
  intro h
  norm_num at h
  linarith

theorem oneSolver_returns (junk : DenseJunk XReal) {p : DenseProblem XReal} {x : CallerVar XReal}
    (hf : DenseFits 1 0 nv p x) (hy : x.isMap = false)
    (hn : (∀ z l v, (gradLagrangian (p.toData 1 0 nv).ops z l v).HasNaN) ∨ x.HasNaN) :
    ∃ out, ((oneSolver junk nv).solve p x).result = .ok out := by
  have hc := FBstabDense.solve_computes (s := oneSolver junk nv) hf
  have hfac : ∀ a b, ∃ g, ((oneSolver junk nv).env p).factor a b ((oneSolver junk nv).env p).opts.sigma0 =
      .ok (some g) := by
    intro a b
    show ∃ g, denseFactor (p.toData 1 0 nv) (0.95 : XReal) a b 1e-8 = _
    unfold denseFactor
    rw [if_neg (by rw [up_ofScientific, up_zero, up_le]; norm_num), if_pos (ldlt_one_success _)]
    exact ⟨_, rfl⟩
  have hsat : ¬((oneSolver junk nv).env p).opts.innerTolMax < ((oneSolver junk nv).env p).opts.innerTolMin := by
    show ¬(1e-2 : XReal) < 1e-12
    rw [up_ofScientific, up_ofScientific, up_lt]; norm_num
  have : ∃ fin, ((oneSolver junk nv).core p x).2 = .ok fin := by
    rcases hn with hn | hn
    · exact Core.solve_total_nan ((oneSolver junk nv).env p) hfac hsat (fun _ => True) trivial
        (fun x _ => norm3_nan (.inl (hn _ _ _))) (fun _ _ _ _ _ => trivial)
    · exact Core.solve_total_nan ((oneSolver junk nv).env p) hfac hsat Point.HasNaN
        (hn.guess (q := (p.toData 1 0 nv).ops) hf.z hf.l hf.v)
        (fun x hx => DenseData.point_nan (p.toData 1 0 nv) one_pos _ hx) (fun s tol o h1 h2 => h2.nan (.inl h1))
  obtain ⟨fin, h⟩ := this
  exact ⟨_, (hc.ok fin h (fun e => by rw [hy] at e; cases e)).1⟩

end

/-- `min 0 s.t. NaN z <= 1`. -/
noncomputable def nanBound : DenseProblem XReal := { slackQP.toDense.up with A := ⟨1, 1, #[.nan], rfl⟩ }

/-- `min NaN z s.t. z <= 1`. -/
noncomputable def nanCost : DenseProblem XReal := { slackQP.toDense.up with f := ⟨#[.nan]⟩ }

/-- The guess `z = NaN`. -/
noncomputable def nanGuess : CallerVar XReal := { flatGuess.up with z := ⟨#[.nan]⟩ }

theorem slack_fits : DenseFits 1 0 1 slackQP.toDense.up flatGuess.up :=
  (DenseFits.up_iff _ _ _ _ _).2 (slackQP.toDense_fits 0 0 0)

/-- C60_bounds_dense and C60_data_dense: a default solver and `A = NaN`. -/
example (junk : DenseJunk XReal) : ∃ out,
    ((oneSolver junk 1).solve nanBound flatGuess.up).result = .ok out ∧ out.eflag ≠ .success := by
  have hA : nanBound.A.HasNaN := by simp [DMat.HasNaN, nanBound]
  obtain ⟨out, h⟩ := oneSolver_returns junk (p := nanBound) (x := flatGuess.up)
    ⟨slack_fits.Hr, slack_fits.Hc, slack_fits.f, slack_fits.Gr, slack_fits.Gc, slack_fits.h, rfl, rfl,
      slack_fits.b, slack_fits.z, slack_fits.l, slack_fits.v⟩ rfl
    (.inl fun z l v => ⟨0, DenseData.grad_nan (d := nanBound.toData 1 0 1) 0 (.inr (.inr (.inr (.inl ⟨0, by
      simp [nanBound, DenseProblem.toData, DMat.toMat]⟩))))⟩)
  exact ⟨out, h, C60_bounds_dense _ (oneSolver_reachable junk one_pos) _ _ (.inl hA) (oneSolver_ones junk) out h⟩

/-- C60_guess_dense: a default solver and the guess `z = NaN` for a finite problem. -/
example (junk : DenseJunk XReal) : ∃ out,
    ((oneSolver junk 1).solve slackQP.toDense.up nanGuess).result = .ok out ∧ out.eflag ≠ .success := by
  have hx : nanGuess.HasNaN := .inl (by simp [DVec.HasNaN, nanGuess])
  obtain ⟨out, h⟩ := oneSolver_returns junk (p := slackQP.toDense.up) (x := nanGuess)
    ⟨slack_fits.Hr, slack_fits.Hc, slack_fits.f, slack_fits.Gr, slack_fits.Gc, slack_fits.h, slack_fits.Ar,
      slack_fits.Ac, slack_fits.b, rfl, slack_fits.l, slack_fits.v⟩ rfl (.inr hx)
  exact ⟨out, h, C60_guess_dense _ (oneSolver_reachable junk one_pos) _ _ hx (oneSolver_ones junk) out h⟩

/-- C60_forcing_dense: a default solver and `f = NaN`. -/
example (junk : DenseJunk XReal) : ∃ out,
    ((oneSolver junk 1).solve nanCost flatGuess.up).result = .ok out ∧ out.eflag ≠ .success := by
  have hn : nanCost.f.HasNaN := by simp [DVec.HasNaN, nanCost]
  obtain ⟨out, h⟩ := oneSolver_returns junk (p := nanCost) (x := flatGuess.up)
    ⟨slack_fits.Hr, slack_fits.Hc, rfl, slack_fits.Gr, slack_fits.Gc, slack_fits.h, slack_fits.Ar,
      slack_fits.Ac, slack_fits.b, slack_fits.z, slack_fits.l, slack_fits.v⟩ rfl
    (.inl fun z l v => ⟨0, DenseData.grad_nan (d := nanCost.toData 1 0 1) 0 (.inl (by
      simp [nanCost, DenseProblem.toData, DVec.toVec]))⟩)
  refine ⟨out, h, C60_forcing_dense (oneSolver junk 1) (oneSolver_reachable junk one_pos) _ _ (.inl hn)
    slackQP.toDense rfl rfl rfl rfl ?_ flatGuess rfl Params.defaults ?_ defaults_inRange (oneSolver_ones junk) out h⟩
  · show (QP.ofDense (slackQP.toDense.toData 1 0 1)).Convex
    rw [slackQP.toDense_toData]
    refine ⟨Matrix.IsSymm.ext fun i j => rfl, fun x => ?_⟩
    simp [slackQP, Matrix.mulVec, dotProduct]
  · simp only [oneSolver, FBstabDense.options, AlgMem.fresh, Params.up, Params.defaults, up_ofScientific]

/-- C60_data_dense: SUCCESS can indeed be reported (see C60_not_dense), and then means nothing. -/
example (junk : DenseJunk XReal) : ∃ (s : FBstabDense XReal) (out : SolverOut XReal),
    (s.solve nanHessian flatGuess.up).result = .ok out ∧ out.eflag = .success ∧
    ¬out.residual ≤ stoppingTol (s.problem nanHessian) s.options := by
  obtain ⟨s, h1, h2, -, out, h3, h4, -⟩ := C60_not_dense junk
  exact ⟨s, out, h3, h4, C60_data_dense s ⟨junk, 1, 0, 1, s, [], h1, rfl⟩ _ _ (.inl h2) out h3 h4⟩

/-! ## FBstabMpc -/

theorem riccati_factor_linear {N nx nu nc : Nat} (d : MpcData ℝ N nx nu nc) (hc : (Ocp.ofMpc d).Convex)
    {alpha sigma : ℝ} (h0 : 0 < alpha) (h1 : alpha < 1) (hs : 0 < sigma) (x0 : Vec XReal nx)
    (x xbar : Point ℝ ((N + 1) * (nx + nu)) ((N + 1) * nx) ((N + 1) * nc)) (l l' : Vec XReal ((N + 1) * nx)) :
    ∃ g, RiccatiWs.factor { d.up with x0 := x0 } (up alpha) ⟨x.z.up, l, x.v.up, x.y.up⟩
      ⟨xbar.z.up, l', xbar.v.up, xbar.y.up⟩ (up sigma) = .ok (some g) := by
  have hu := RiccatiWs.up_factor d h0 h1 hs x xbar
  rw [(riccati_newton d hc h0 h1 hs x xbar).1] at hu
  obtain ⟨g', hg, -⟩ := hu
  unfold RiccatiWs.factor at hg ⊢
  split at hg
  · cases hg
  · rename_i h
    rw [if_neg h]
    split at hg
    · rename_i h2
      have := RiccatiWs.initPair_setData (some { d.up with x0 := x0 }) d.up x.up xbar.up (up sigma)
        (RiccatiWs.zero d.up (up alpha))
      rw [if_pos (show (RiccatiWs.initPair { d.up with x0 := x0 } ⟨x.z.up, l, x.v.up, x.y.up⟩
        ⟨xbar.z.up, l', xbar.v.up, xbar.y.up⟩ (up sigma)
        (RiccatiWs.zero { d.up with x0 := x0 } (up alpha))).1 = true from this.trans h2)]
      exact ⟨_, rfl⟩
    · cases hg

theorem MpcData.margin_x0 {K : Type} [Scalar K] {N nx nu nc : Nat} (d : MpcData K N nx nu nc) (x0 : Vec K nx)
    (z : Vec K ((N + 1) * (nx + nu))) :
    margin ({ d with x0 := x0 } : MpcData K N nx nu nc).ops z = margin d.ops z := by
  simp only [margin, MpcData.ops]
  unfold MpcData.gemvA MpcData.axpyb
  rfl

/-- A call with one Newton step on a finite convex problem, except that `x0` and the guess for the
multipliers of the dynamics are arbitrary. -/
theorem FBstabMpc.nan_returns (s : FBstabMpc XReal) (hx : 0 < s.nx) (p : MpcProblem ℝ) (x : CallerVar ℝ)
    (hf : MpcFits s.N s.nx s.nu s.nc p x) (hcol : p.Columns)
    (hc : (Ocp.ofMpc (p.toData s.N s.nx s.nu s.nc)).Convex) (o : Params ℝ) (ho : s.options = o.up)
    (hr : o.InRange) (hp : o.maxProxIters = 1) (hi : o.maxInnerIters = 1)
    (hio : o.innerTolMin ≤ o.innerTolMax) (x0 l : DVec XReal)
    (hx0 : x0.size = s.nx) (hl : l.size = (s.N + 1) * s.nx) (hn : x0.HasNaN ∨ l.HasNaN)
    (P : MpcProblem XReal) (hP : P = { p.up with x0 := x0 }) (X : CallerVar XReal) (hX : X = { x.up with l := l }) :
    ∃ out, (s.solve P X).result = .ok out := by
  have hf' := (MpcFits.up_iff _ _ _ _ p x).2 hf
  have hfits : MpcFits s.N s.nx s.nu s.nc P X := by
    rw [hP, hX]
    exact ⟨hf'.Q, hf'.R, hf'.S, hf'.q, hf'.r, hf'.A, hf'.B, hf'.c, hf'.E, hf'.L, hf'.d, hx0, hf'.z, hl, hf'.v, hf'.y⟩
  have hcol' : P.Columns := by rw [hP]; exact hcol
  have hcomp := FBstabMpc.solve_computes XReal.beq_zero hfits hcol'
  have hd : P.toData s.N s.nx s.nu s.nc =
      { (p.toData s.N s.nx s.nu s.nc).up with x0 := x0.toVec s.nx } := by
    rw [← MpcProblem.up_toData, hP]
    rfl
  obtain ⟨i1, i2, i3⟩ := hr.divisors
  have e1 : X.z.toVec ((s.N + 1) * (s.nx + s.nu)) = (x.z.toVec _).up := by rw [hX]; exact DVec.up_toVec ..
  have e2 : X.v.toVec ((s.N + 1) * s.nc) = (x.v.toVec _).up := by rw [hX]; exact DVec.up_toVec ..
  have e3 : X.l.toVec ((s.N + 1) * s.nx) = l.toVec _ := by rw [hX]
  have hstart : Core.startPt (s.env XReal.beq_zero P) (X.z.toVec _) (X.l.toVec _)
      (X.v.toVec _) = ⟨(x.z.toVec _).up, l.toVec _, (x.v.toVec _).up,
        (margin (p.toData s.N s.nx s.nu s.nc).ops (x.z.toVec _)).up⟩ := by
    have : margin (s.env XReal.beq_zero P).ops (x.z.toVec _).up =
        (margin (p.toData s.N s.nx s.nu s.nc).ops (x.z.toVec _)).up := by
      rw [← (MpcData.up_ops (p.toData s.N s.nx s.nu s.nc)).margin]
      show margin (P.toData s.N s.nx s.nu s.nc).ops _ = _
      rw [hd, MpcData.margin_x0]
    unfold Core.startPt
    rw [e1, e2, e3, this]
  have hnan : Core.Resid.norm ((s.env XReal.beq_zero P).penRes (Core.startPt (s.env XReal.beq_zero P)
      (X.z.toVec _) (X.l.toVec _) (X.v.toVec _))) = .nan := by
    rcases hn with hn | hn
    · obtain ⟨j, hj⟩ := hn.toVec hx0
      exact norm3_nan (.inr (.inl ⟨_, MpcData.eqDefect_zero_nan (d := P.toData s.N s.nx s.nu s.nc) j (by
        rw [hd]; exact hj)⟩))
    · exact MpcData.point_nan (P.toData s.N s.nx s.nu s.nc) hx _ (.inr (.inl (by
        show (X.l.toVec ((s.N + 1) * s.nx)).HasNaN
        rw [e3]
        exact hn.toVec hl)))
  have hfac : ∃ g, (s.env XReal.beq_zero P).factor (Core.startPt (s.env XReal.beq_zero P)
      (X.z.toVec _) (X.l.toVec _) (X.v.toVec _)) (Core.startPt (s.env XReal.beq_zero P)
      (X.z.toVec _) (X.l.toVec _) (X.v.toVec _)) (s.env XReal.beq_zero P).opts.sigma0 = .ok (some g) := by
    rw [hstart]
    show ∃ g, RiccatiWs.factor (P.toData s.N s.nx s.nu s.nc) s.options.alpha _ _ s.options.sigma0 = _
    rw [hd, ho]
    exact riccati_factor_linear _ hc i1 i2 i3 _ ⟨_, Vec.const 0, _, _⟩ ⟨_, Vec.const 0, _, _⟩ _ _
  have hsat : ¬(s.env XReal.beq_zero P).opts.innerTolMax < (s.env XReal.beq_zero P).opts.innerTolMin := by
    show ¬s.options.innerTolMax < s.options.innerTolMin
    rw [ho]
    show ¬up o.innerTolMax < up o.innerTolMin
    rw [up_lt]
    exact not_lt.2 hio
  have : ∃ fin, (s.core XReal.beq_zero P X).2 = .ok fin :=
    Core.solve_one_ok (s.env XReal.beq_zero P) hnan hfac hsat
      (by show s.options.maxProxIters = 1; rw [ho]; exact hp)
      (by show s.options.maxInnerIters = 1; rw [ho]; exact hi)
  obtain ⟨fin, h⟩ := this
  exact ⟨_, (hcomp.ok fin h (fun _ => hfits.y)).1⟩

/-- Default options but for the iteration limits. -/
noncomputable def oneStepOptions : Params ℝ := { Params.defaults with maxProxIters := 1, maxInnerIters := 1 }

theorem oneStepOptions_inRange : oneStepOptions.InRange := by
  constructor <;> simp only [oneStepOptions, Params.defaults, Between] <;> norm_num

/-- An `FBstabMpc` for horizon 1 and one state, control and constraint, after `UpdateOptions`. -/
noncomputable def oneStepSolver (junk : MpcJunk XReal) : FBstabMpc XReal :=
  ⟨1, 1, 1, 1, { (AlgMem.fresh (ls := riccatiSolver XReal 1 1 1 1)
    { junk.lin 1 1 1 1 with alpha := 0.95, data := none } (junk.feas _ _ _)) with opts := oneStepOptions.up }⟩

theorem oneStepSolver_reachable (junk : MpcJunk XReal) : (oneStepSolver junk).Reachable := by
  refine ⟨junk, 1, 1, 1, 1, _, [.updateOptions oneStepOptions.up], FBstabMpc.new_ok junk one_pos one_pos
    one_pos one_pos (by norm_num [intLimit]) (by norm_num [intLimit]), ?_⟩
  simp only [FBstabMpc.after, List.foldl, MpcCall.apply, FBstabMpc.updateOptions,
    AlgMem.updateParameters, Params.up_validate, C02_inRange_unchanged _ oneStepOptions_inRange]
  rfl

theorem oneStepSolver_ones (junk : MpcJunk XReal) (s : FBstabMpc XReal) (hs : s = oneStepSolver junk) :
    ¬onesNorm XReal ((s.N + 1) * (s.nx + s.nu)) ((s.N + 1) * s.nx) ((s.N + 1) * s.nc) ≤ s.options.stallTol := by
  rw [hs]
  show ¬onesNorm XReal 4 2 2 ≤ up 1e-10
  have h1 := one_le_onesNorm (nz := 4) (nl := 2) (nv := 2) (by norm_num)
  rw [onesNorm_up, up_le]
  intro h
  norm_num at h
  linarith

/-- C60_mpc and C60_guess_mpc: a convex problem whose initial state is NaN, and one with a NaN in the
guess for the multipliers of the dynamics. -/
example (junk : MpcJunk XReal) : ∃ out out',
    ((oneStepSolver junk).solve { cornerOcp.toMpc.up with x0 := ⟨#[.nan]⟩ } (fullGuessOf (nz := 4) (nl := 2)
      (nv := 2) 0 0 0).up).result = .ok out ∧ out.eflag ≠ .success ∧
    ((oneStepSolver junk).solve cornerOcp.toMpc.up { (fullGuessOf (nz := 4) (nl := 2) (nv := 2) 0 0 0).up with
      l := ⟨#[0, .nan]⟩ }).result = .ok out' ∧ out'.eflag ≠ .success := by
  have hc : (Ocp.ofMpc (cornerOcp.toMpc.toData 1 1 1 1)).Convex := by
    rw [cornerOcp.toMpc_toData]; exact cornerOcp_convex
  have hio : oneStepOptions.innerTolMin ≤ oneStepOptions.innerTolMax := by
    show (1e-12 : ℝ) ≤ 1e-2
    norm_num
  have n1 : (⟨#[.nan]⟩ : DVec XReal).HasNaN := by simp [DVec.HasNaN]
  have n2 : (⟨#[0, .nan]⟩ : DVec XReal).HasNaN := by simp [DVec.HasNaN]
  obtain ⟨out, h⟩ := FBstabMpc.nan_returns (oneStepSolver junk) one_pos cornerOcp.toMpc
    (fullGuessOf (nz := 4) (nl := 2) (nv := 2) 0 0 0) (cornerOcp.toMpc_fits 0 0 0) cornerOcp.toMpc_columns hc
    oneStepOptions rfl oneStepOptions_inRange rfl rfl hio ⟨#[.nan]⟩
    (fullGuessOf (nz := 4) (nl := 2) (nv := 2) 0 0 0).up.l rfl ((MpcFits.up_iff _ _ _ _ _ _).2 (cornerOcp.toMpc_fits 0 0 0)).l
    (.inl n1) _ rfl _ rfl
  obtain ⟨out', h'⟩ := FBstabMpc.nan_returns (oneStepSolver junk) one_pos cornerOcp.toMpc
    (fullGuessOf (nz := 4) (nl := 2) (nv := 2) 0 0 0) (cornerOcp.toMpc_fits 0 0 0) cornerOcp.toMpc_columns hc
    oneStepOptions rfl oneStepOptions_inRange rfl rfl hio cornerOcp.toMpc.up.x0 ⟨#[0, .nan]⟩
    ((MpcFits.up_iff _ _ _ _ _ _).2 (cornerOcp.toMpc_fits 0 0 0)).x0 rfl (.inr n2) _ rfl _ rfl
  refine ⟨out, out', h, ?_, h', ?_⟩
  · exact C60_mpc _ (oneStepSolver_reachable junk) _ _
      (.inl (.inr (.inr (.inr (.inr (.inr (.inr (.inr (.inr (.inr (.inr (.inr n1))))))))))))
      (oneStepSolver_ones junk _ rfl) out h
  · exact C60_guess_mpc _ (oneStepSolver_reachable junk) _ _ (.inr (.inl n2)) (oneStepSolver_ones junk _ rfl) out' h'

/-- As `oneStepOptions`, with a useless stall tolerance. -/
noncomputable def lazyStepOptions : Params ℝ := { oneStepOptions with stallTol := onesNorm ℝ 4 2 2 }

theorem lazyStepOptions_inRange : lazyStepOptions.InRange := by
  have h := oneStepOptions_inRange
  refine ⟨h.1, h.2, h.3, h.4, h.5, h.6, h.7, h.8, h.9, h.10, h.11, ?_, h.13, h.14, h.15, h.16, h.17, h.18, h.19⟩
  show (1e-14 : ℝ) ≤ onesNorm ℝ 4 2 2
  exact le_trans (by norm_num) (one_le_onesNorm (nz := 4) (nl := 2) (nv := 2) (by norm_num))

noncomputable def lazyStepSolver (junk : MpcJunk XReal) : FBstabMpc XReal :=
  ⟨1, 1, 1, 1, { (AlgMem.fresh (ls := riccatiSolver XReal 1 1 1 1)
    { junk.lin 1 1 1 1 with alpha := 0.95, data := none } (junk.feas _ _ _)) with opts := lazyStepOptions.up }⟩

theorem lazyStepSolver_reachable (junk : MpcJunk XReal) : (lazyStepSolver junk).Reachable := by
  refine ⟨junk, 1, 1, 1, 1, _, [.updateOptions lazyStepOptions.up], FBstabMpc.new_ok junk one_pos one_pos
    one_pos one_pos (by norm_num [intLimit]) (by norm_num [intLimit]), ?_⟩
  simp only [FBstabMpc.after, List.foldl, MpcCall.apply, FBstabMpc.updateOptions,
    AlgMem.updateParameters, Params.up_validate, C02_inRange_unchanged _ lazyStepOptions_inRange]
  rfl

/-- C60_data_mpc: NaN as initial state and SUCCESS. -/
example (junk : MpcJunk XReal) : ∃ out,
    ((lazyStepSolver junk).solve { cornerOcp.toMpc.up with x0 := ⟨#[.nan]⟩ } (fullGuessOf (nz := 4) (nl := 2)
      (nv := 2) 0 0 0).up).result = .ok out ∧ out.eflag = .success ∧
    ¬out.residual ≤ stoppingTol ((lazyStepSolver junk).problem { cornerOcp.toMpc.up with x0 := ⟨#[.nan]⟩ })
      (lazyStepSolver junk).options := by
  have n1 : (⟨#[.nan]⟩ : DVec XReal).HasNaN := by simp [DVec.HasNaN]
  have hf := (MpcFits.up_iff _ _ _ _ _ _).2 (cornerOcp.toMpc_fits 0 0 0)
  have h := (C44_any_guess_mpc XReal.beq_zero (lazyStepSolver junk) { cornerOcp.toMpc.up with x0 := ⟨#[.nan]⟩ }
    (fullGuessOf (nz := 4) (nl := 2) (nv := 2) 0 0 0).up le_rfl
    (by
      show ¬(up 1e-2) < up 1e-12
      rw [up_lt]; norm_num)
    ⟨hf.Q, hf.R, hf.S, hf.q, hf.r, hf.A, hf.B, hf.c, hf.E, hf.L, hf.d, rfl, hf.z, hf.l, hf.v, hf.y⟩
    cornerOcp.toMpc_columns
    (by
      show onesNorm XReal 4 2 2 ≤ up (onesNorm ℝ 4 2 2)
      rw [onesNorm_up, up_le])).1
  exact ⟨_, h, rfl, C60_data_mpc _ (lazyStepSolver_reachable junk) _ _
    (.inr (.inr (.inr (.inr (.inr (.inr (.inr (.inr (.inr (.inr (.inr n1))))))))))) _ h rfl⟩

end Fbstab
