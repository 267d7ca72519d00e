import Verif.Proofs.InnerConv
import Verif.Props.Convergence
import Mathlib.Analysis.Complex.ExponentialBounds
import Verif.Proofs.WitnessRun

/-!
# C48: the solver converges
-/

namespace Fbstab
open Matrix

namespace Core
variable {nz nl nv : Nat} {E : Env ℝ nz nl nv} {q : QP nz nl nv}

theorem Returned.solves (N : NewtonEnv E q) (hmin : E.opts.innerTolMin ≤ E.comboTol)
    (hmm : E.opts.innerTolMin ≤ E.opts.innerTolMax)
    {ws x fin} (hx : Marg q x) {zs ls vs} (hk : q.KKT zs ls vs) {D M : ℝ} (hD0 : 0 ≤ D)
    (hD : QP.dist2 x.z.fn x.l.fn x.v.fn zs ls vs ≤ D ^ 2)
    (hM : ∀ i, q.b i - (q.A *ᵥ zs) i ≤ M ∧ vs i ≤ M) (hM0 : 0 ≤ M)
    {k0 K : Nat} (he : q.Enough E.opts E.comboTol D M k0 K)
    (hn : q.NewtonEnough E.opts M (q.reach E.opts D K) K)
    (hp : (K : Int) < E.opts.maxProxIters) (h : Returned E ws x fin) :
    (fin.out.eflag = .success ∧ fin.out.proxIters ≤ K ∧
      (fin.out.newtonIters : ℝ) ≤ fin.out.proxIters * q.newtonPerProx E.opts M (q.reach E.opts D K) ∧
      QP.dist2 fin.x.z.fn fin.x.l.fn fin.x.v.fn zs ls vs ≤ q.reach E.opts D K ^ 2) ∨
    (E.opts.checkFeasibility = true ∧ fin.out.eflag ≠ .success ∧ fin.out.eflag ≠ .maxIterations) := by
  have hr := N.inRange
  have hd0 : 0 ≤ E.opts.delta := le_trans (by norm_num) hr.delta.1
  have hd1 : E.opts.delta < 1 := lt_of_le_of_lt hr.delta.2 (by norm_num)
  have hx0 : 0 ≤ E.opts.innerTolMax := le_trans (by norm_num) hr.innerTolMax.1
  have hn0 : 0 ≤ E.opts.innerTolMin := le_trans (by norm_num) hr.innerTolMin.1
  have hkap := q.errFactor_pos hr.alpha_pos hr.sigma_pos
  have hD' : ‖x.vec - vec3 zs ls vs‖ ≤ D := by
    refine abs_le_of_sq_le_sq' ?_ hD0 |>.2
    rw [Point.vec, vec3_dist2]
    exact hD
  set rho := q.reach E.opts D K with hrho
  set npp := q.newtonPerProx E.opts M rho with hnpp
  have ctx : ∀ {s : Outer ℝ nz nl nv}, ‖s.xk.vec - vec3 zs ls vs‖ ≤ rho →
      SubCtx E q s.xk M rho := fun hnear => SubCtx.ofKKT N hk hM0 hM hnear hn.band hn.linesearch
  have hin : ∀ {s : Outer ℝ nz nl nv} {tol o}, Marg q s.xk → ‖s.xk.vec - vec3 zs ls vs‖ ≤ rho →
      Inner E s tol o → o.newton < s.newton + E.opts.maxInnerIters.toNat := by
    intro s tol o hms hnear hi
    have h1 := (ctx hnear).count hms hi
    have h2 := hn.inner
    have h3 : (E.opts.maxInnerIters : ℝ) = (E.opts.maxInnerIters.toNat : ℝ) := by
      have := hr.maxInnerIters
      exact_mod_cast (Int.toNat_of_nonneg (by omega)).symm
    rw [h3] at h2
    have h4 : (o.newton : ℝ) < (s.newton + E.opts.maxInnerIters.toNat : ℕ) := by
      push_cast
      linarith
    exact_mod_cast h4
  have hreach : ∀ {k s'}, k ≤ K → Approach E q zs ls vs D M k0 K k s' →
      ‖s'.xk.vec - vec3 zs ls vs‖ ≤ rho := by
    intro k s' hkK hap
    refine hap.near.trans ?_
    rw [hrho, QP.reach]
    have := mul_le_mul_of_nonneg_left (tolPart_le (K := K) hd0 hd1 hx0 hn0 hkK) hkap.le
    linarith
  have happ : ∀ {k s'}, k ≤ K → Steps E k (start E ws x
      (max (min (Resid.norm (E.penRes x)) E.opts.innerTolMax) E.opts.innerTolMin)) s' →
      Approach E q zs ls vs D M k0 K k s' ∧ (s'.newton : ℝ) ≤ k * npp := by
    intro k
    induction k with
    | zero =>
      intro s' _ hs
      cases hs
      refine ⟨⟨hx, ?_, ?_, .inl (Nat.zero_le _)⟩, ?_⟩
      · simp only [start]
        rw [pow_zero, mul_one]
        refine max_le ((min_le_right _ _).trans (by linarith)) (by linarith)
      · refine hD'.trans ?_
        simp [tolPart]
      · simp [start]
    | succ k ih =>
      intro s' hkK hs
      cases hs with
      | tail h1 h2 =>
        rename_i s tol o
        obtain ⟨hap, hnew⟩ := ih (by omega) h1
        have hnear := hreach (show k ≤ K by omega) hap
        refine ⟨hap.step N hmin hk hM hM0 (by omega) he.small h2 ?_, ?_⟩
        · exact h2.toInner.accepted N.toRealEnv hap.marg hmin h2.below (hin hap.marg hnear h2.toInner)
        · have h3 := (ctx hnear).count hap.marg h2.toInner
          rw [h2.eq]
          show (o.newton : ℝ) ≤ _
          push_cast
          linarith
  have hcount : fin.out.eflag = .success → fin.out.proxIters ≤ K →
      (fin.out.newtonIters : ℝ) ≤ fin.out.proxIters * npp := by
    intro f1 f2
    obtain ⟨tol, k, s, ht, hs, h⟩ := h.run
    rw [saturate_real hmm] at ht
    injection ht with ht
    subst ht
    rcases h with ⟨hk1, hx1⟩ | ⟨-, rfl⟩
    · cases hx1 with
      | success _ =>
        have e : s.prox = k := by
          have := hs.prox
          simpa [start] using this
        simp only [mkFinal] at f2 ⊢
        rw [e] at f2 ⊢
        exact (happ f2 hs).2
      | newton => cases f1
      | infeasible _ _ _ hf => exact absurd f1 ((flagOf_ne_success _).2 hf)
    · cases f1
  rcases h.converges N hmin hmm hx hk hD' hM hM0 he hp (fun {k s tol o} hkK hs hnear hi _ =>
      hin (happ hkK.le hs).1.marg hnear hi) with
    ⟨h1, h2, h3⟩ | ⟨k, s, tol, o, hkK, h2, hnear, h3, h4, h5, h6⟩ | h
  · refine .inl ⟨h1, h2, hcount h1 h2, ?_⟩
    rw [← vec3_dist2]
    exact pow_le_pow_left₀ (norm_nonneg _) h3 2
  · exfalso
    obtain ⟨hap, hnew⟩ := happ hkK.le h2
    have h7 := (ctx hnear).count hap.marg h3
    have h8 := hn.newton
    have h9 : (E.opts.maxNewtonIters : ℝ) ≤ (o.newton : ℝ) := by exact_mod_cast h4
    have hnpp0 : 0 ≤ npp := by
      have hg : 0 < q.newtonRate E.opts M rho := by
        have h1 := (ctx hnear).safe.1
        have h2 := hr.beta.1
        have h3 := hr.eta.1
        rw [QP.newtonRate]
        norm_num at h2 h3
        have h4 : 0 < E.opts.beta := by linarith
        have h5 : 0 < E.opts.eta := by linarith
        positivity
      rw [hnpp, QP.newtonPerProx]
      split
      · positivity
      · have := le_max_left 0 (Real.log (q.startResidual M rho ^ 2 / E.opts.innerTolMin ^ 2) /
          q.newtonRate E.opts M rho)
        linarith
    have h10 : ((k : ℝ) + 1) * npp ≤ K * npp := by
      refine mul_le_mul_of_nonneg_right ?_ hnpp0
      exact_mod_cast hkK
    have h11 : (K : ℝ) * npp < E.opts.maxNewtonIters := h8
    linarith
  · exact .inr h

end Core

/-- C48: let a convex problem have a solution `(zs, ls, vs)` at distance at most `D` from the guess, with
slacks and multipliers at most `M`.  Let `K` proximal iterations be enough (`QP.Enough`), let the limits on
inner, Newton and line search iterations be large enough (`QP.NewtonEnough`: explicit bounds in terms of the
size of the data, `D`, `M`, `K` and the options), and let `inner_tol_min` not be too small compared with the
1e-13 threshold of the linear solvers.  Then `Solve` returns SUCCESS after at most `K` proximal iterations, each of at most
`QP.newtonPerProx` Newton iterations on average, with a point no farther from the solution than `QP.reach`; if it is asked to check feasibility it may instead declare
infeasibility. -/
theorem C48_dense (s : FBstabDense ℝ) (hs : s.Reachable) (p : DenseProblem ℝ) (x : CallerVar ℝ)
    (hf : DenseFits s.nz s.nl s.nv p x) (hy : x.YWritable s.nv) (hc : (s.qp p).Convex)
    (ht : TolerancesOrdered s.options (stoppingTol (s.problem p) s.options))
    (zs ls vs) (hk : (s.qp p).KKT zs ls vs) (D M : ℝ) (hD0 : 0 ≤ D)
    (hD : QP.dist2 (x.z.toVec s.nz).fn (x.l.toVec s.nl).fn (x.v.toVec s.nv).fn zs ls vs ≤ D ^ 2)
    (hM0 : 0 ≤ M) (hM : ∀ i, (s.qp p).b i - ((s.qp p).A *ᵥ zs) i ≤ M ∧ vs i ≤ M) (k0 K : Nat)
    (he : (s.qp p).Enough s.options (stoppingTol (s.problem p) s.options) D M k0 K)
    (hn : (s.qp p).NewtonEnough s.options M ((s.qp p).reach s.options D K) K)
    (hp : (K : Int) < s.options.maxProxIters) :
    let xr := s.returnedPoint p x
    ∃ out, (s.solve p x).result = .ok out ∧
      ((out.eflag = .success ∧ out.proxIters ≤ K ∧
        (out.newtonIters : ℝ) ≤ out.proxIters *
          (s.qp p).newtonPerProx s.options M ((s.qp p).reach s.options D K) ∧
        QP.dist2 xr.z.fn xr.l.fn xr.v.fn zs ls vs ≤ (s.qp p).reach s.options D K ^ 2) ∨
      (s.options.checkFeasibility = true ∧ out.eflag ≠ .success ∧ out.eflag ≠ .maxIterations)) := by
  intro xr
  obtain ⟨out, ho⟩ := C13_dense s hs p x hf hy hc ht
  obtain ⟨-, -, fin, -, h2, rfl, e⟩ := FBstabDense.returned ho
  have N := s.newtonEnv (C01_reachable_dense s hs) p hc
  refine ⟨_, ho, ?_⟩
  rw [show xr = fin.x by
    show s.returnedPoint p x = _
    rw [FBstabDense.returnedPoint, e, CallerVar.point_ofPoint]]
  exact h2.solves N ht.2 ht.1 (Core.Marg.start N.ops _ _ _) hk hD0 hD hM hM0 he hn hp

/-- C48 for `FBstabMpc`. -/
theorem C48_mpc (s : FBstabMpc ℝ) (hs : s.Reachable) (p : MpcProblem ℝ) (x : CallerVar ℝ)
    (hf : MpcFits s.N s.nx s.nu s.nc p x) (hcol : p.Columns) (hc : (s.ocp p).Convex)
    (ht : TolerancesOrdered s.options (stoppingTol (s.problem p) s.options))
    (zs ls vs) (hk : (s.qp p).KKT zs ls vs) (D M : ℝ) (hD0 : 0 ≤ D)
    (hD : QP.dist2 (x.z.toVec ((s.N + 1) * (s.nx + s.nu))).fn
      (x.l.toVec ((s.N + 1) * s.nx)).fn (x.v.toVec ((s.N + 1) * s.nc)).fn zs ls vs ≤ D ^ 2)
    (hM0 : 0 ≤ M) (hM : ∀ i, (s.qp p).b i - ((s.qp p).A *ᵥ zs) i ≤ M ∧ vs i ≤ M) (k0 K : Nat)
    (he : (s.qp p).Enough s.options (stoppingTol (s.problem p) s.options) D M k0 K)
    (hn : (s.qp p).NewtonEnough s.options M ((s.qp p).reach s.options D K) K)
    (hp : (K : Int) < s.options.maxProxIters) :
    let xr := s.returnedPoint p x
    ∃ out, (s.solve p x).result = .ok out ∧
      ((out.eflag = .success ∧ out.proxIters ≤ K ∧
        (out.newtonIters : ℝ) ≤ out.proxIters *
          (s.qp p).newtonPerProx s.options M ((s.qp p).reach s.options D K) ∧
        QP.dist2 xr.z.fn xr.l.fn xr.v.fn zs ls vs ≤ (s.qp p).reach s.options D K ^ 2) ∨
      (s.options.checkFeasibility = true ∧ out.eflag ≠ .success ∧ out.eflag ≠ .maxIterations)) := by
  intro xr
  obtain ⟨out, ho⟩ := C13_mpc s hs p x hf hcol hc ht
  obtain ⟨-, -, fin, -, h2, rfl, e⟩ := FBstabMpc.returned real_zero_beq ho
  have N := s.newtonEnv (C01_reachable_mpc s hs) p hc
  refine ⟨_, ho, ?_⟩
  rw [show xr = fin.x by
    show s.returnedPoint p x = _
    rw [FBstabMpc.returnedPoint, e, CallerVar.point_ofPoint]]
  exact h2.solves N ht.2 ht.1 (Core.Marg.start N.ops _ _ _) hk hD0 hD hM hM0 he hn hp

/-! ## An instance -/

/-- minimise `5 z^2` subject to `z / 10 >= 0`. -/
noncomputable def halfQP : QP 1 0 1 where
  H := fun _ _ => 10
  f := fun _ => 0
  G := fun i _ => i.elim0
  h := fun i => i.elim0
  A := fun _ _ => -0.1
  b := fun _ => 0

/-- Options for which one proximal iteration is provably enough; the limits are below `2^31`. -/
noncomputable def halfOptions : Params ℝ :=
  { Params.defaults with
    checkFeasibility := false, nonmonotoneLinesearch := false, sigma0 := 1, sigmaMax := 1, alpha := 0.999, beta := 0.99, eta := 0.49,
    delta := 0.0001, innerTolMax := 3e-5, innerTolMin := 3e-5, absTol := 9e-4, relTol := 0,
    maxProxIters := 2, maxNewtonIters := 200000, maxInnerIters := 200000, maxLinesearchIters := 2000 }

theorem halfOptions_inRange : halfOptions.InRange := by
  constructor <;> simp only [halfOptions, Params.defaults, Between] <;> norm_num

theorem halfQP_convex : halfQP.Convex where
  symm := by ext i j; rfl
  nonneg := fun z => by
    have : halfQP.H *ᵥ z = 10 • z := by
      ext i
      simp [halfQP, Matrix.mulVec, dotProduct, Subsingleton.elim i 0]
    rw [this, dotProduct_smul]
    exact nsmul_nonneg (dot_self_nonneg z) 10

theorem halfQP_kkt : halfQP.KKT 0 0 0 where
  stationary := by
    unfold QP.lagrangeGrad
    simp only [mulVec_zero]
    ext i
    simp [halfQP]
  feasible := ⟨by ext i; exact i.elim0, fun i => by
    rw [mulVec_zero]
    simp [halfQP]⟩
  dual := fun i => le_rfl
  complementary := fun i => .inl rfl

theorem halfQP_sizes : halfQP.sizeA = 0.1 ∧ halfQP.sizeH = 10 ∧ halfQP.sizeG = 0 := by
  refine ⟨?_, ?_, ?_⟩
  · rw [QP.sizeA]
    simp only [halfQP, Finset.univ_unique, Finset.sum_singleton]
    rw [Real.sqrt_sq_eq_abs]
    norm_num
  · rw [QP.sizeH]
    simp only [halfQP, Finset.univ_unique, Finset.sum_singleton]
    rw [Real.sqrt_sq_eq_abs]
    norm_num
  · simp [QP.sizeG]

theorem halfQP_errFactor : halfQP.errFactor halfOptions.alpha halfOptions.sigma0 = 7199 / 999 := by
  rw [QP.errFactor, halfQP_sizes.1, halfOptions]; norm_num

theorem halfQP_reach : halfQP.reach halfOptions 1e-4 1 ≤ 3.163e-4 ∧ 0 ≤ halfQP.reach halfOptions 1e-4 1 := by
  rw [QP.reach, halfQP_errFactor, QP.tolSum, halfOptions]; norm_num

theorem halfQP_enough {tol : ℝ} (h : 9e-4 ≤ tol) : halfQP.Enough halfOptions tol 1e-4 0 0 1 := by
  obtain ⟨e2, e3⟩ := halfQP_reach
  have e4 : 4.49e-4 ≤ halfQP.stepNeeded halfOptions tol 1e-4 0 1 := by
    rw [QP.stepNeeded, halfQP_sizes.1, show halfOptions.sigma0 = 1 from rfl, le_div_iff₀ (by positivity)]
    norm_num at h e2 ⊢
    nlinarith
  constructor
  · rw [halfQP_errFactor]
    refine le_trans ?_ e4
    simp only [halfOptions]; norm_num
  · have := pow_le_pow_left₀ (by norm_num) e4 2
    have h2 := pow_le_pow_left₀ e3 e2 2
    norm_num at this h2 ⊢
    nlinarith

theorem halfQP_newtonEnough :
    halfQP.NewtonEnough halfOptions 0 (halfQP.reach halfOptions 1e-4 1) 1 := by
  obtain ⟨e2, e3⟩ := halfQP_reach
  obtain ⟨sA, sH, sG⟩ := halfQP_sizes
  generalize halfQP.reach halfOptions 1e-4 1 = rho at e2 e3
  have c1 : halfQP.pairSpeed halfOptions = 2.1 * (7199 / 999) := by
    rw [QP.pairSpeed, halfQP_errFactor, sA, halfOptions]; norm_num
  have hF : halfQP.startResidual 0 rho ≤ 4.6e-3 := by
    rw [QP.startResidual, sA, sH, sG]
    norm_num at e2 ⊢
    nlinarith
  have hF0 : 0 ≤ halfQP.startResidual 0 rho := QP.startResidual_nonneg _ le_rfl e3
  have hB : halfQP.pairBound halfOptions 0 rho ≤ 0.175 := by
    rw [QP.pairBound, halfQP_errFactor, c1, sA, show halfOptions.sigma0 = 1 from rfl]
    norm_num at e2 hF ⊢
    linarith
  have hB0 : 0 ≤ halfQP.pairBound halfOptions 0 rho :=
    QP.pairBound_nonneg _ halfOptions_inRange.alpha_pos halfOptions_inRange.sigma_pos le_rfl e3
  have hs : 7.3e-5 ≤ halfQP.safeStep halfOptions 0 rho := by
    rw [QP.safeStep, c1, show halfOptions.eta = 0.49 from rfl, le_div_iff₀ (by positivity)]
    have : (1 + halfQP.pairBound halfOptions 0 rho) ^ 2 ≤ 1.175 ^ 2 :=
      pow_le_pow_left₀ (by linarith) (by norm_num at hB ⊢; linarith) 2
    norm_num at this ⊢
    linarith
  have hN : halfQP.newtonPerProx halfOptions 0 rho < 200000 := by
    have hr : 7e-5 ≤ halfQP.newtonRate halfOptions 0 rho := by
      rw [QP.newtonRate, show halfOptions.eta = 0.49 from rfl, show halfOptions.beta = 0.99 from rfl]
      norm_num at hs ⊢
      linarith
    have hr0 : 0 < halfQP.newtonRate halfOptions 0 rho := lt_of_lt_of_le (by norm_num) hr
    have hl : Real.log (halfQP.startResidual 0 rho ^ 2 / halfOptions.innerTolMin ^ 2) ≤ 11 := by
      rcases eq_or_lt_of_le hF0 with h | h
      · rw [← h]; norm_num
      · rw [show halfOptions.innerTolMin = 3e-5 from rfl, Real.log_le_iff_le_exp (by positivity)]
        have h1 : (2.7 : ℝ) ^ 11 ≤ Real.exp 11 := by
          have := pow_le_pow_left₀ (by norm_num) (le_trans (by norm_num) Real.exp_one_gt_d9.le :
            (2.7 : ℝ) ≤ Real.exp 1) 11
          rwa [← Real.exp_nat_mul, mul_one] at this
        have h2 := pow_le_pow_left₀ hF0 hF 2
        refine le_trans ?_ h1
        rw [div_le_iff₀ (by norm_num)]
        norm_num at h2 ⊢
        linarith
    have hq : Real.log (halfQP.startResidual 0 rho ^ 2 / halfOptions.innerTolMin ^ 2) /
        halfQP.newtonRate halfOptions 0 rho ≤ 160000 := by
      rw [div_le_iff₀ hr0]
      norm_num at hr ⊢
      linarith
    rw [QP.newtonPerProx]
    rw [if_neg (by simp [halfOptions])]
    have := max_le (show (0 : ℝ) ≤ 160000 by norm_num) hq
    linarith
  refine ⟨?_, ?_, ?_, ?_⟩
  · rw [c1, show halfOptions.eta = 0.49 from rfl, show halfOptions.innerTolMin = 3e-5 from rfl]
    norm_num at hB ⊢
    linarith
  · rw [show halfOptions.beta = 0.99 from rfl, show halfOptions.maxLinesearchIters.toNat - 1 = 1999 from rfl]
    refine le_trans ?_ hs
    have h1 : (0.99 : ℝ) ^ 100 ≤ 0.37 := by norm_num
    calc (0.99 : ℝ) ^ 1999 ≤ 0.99 ^ 1000 := pow_le_pow_of_le_one (by norm_num) (by norm_num) (by norm_num)
      _ = (0.99 ^ 100) ^ 10 := by rw [← pow_mul]
      _ ≤ 0.37 ^ 10 := pow_le_pow_left₀ (by positivity) h1 10
      _ ≤ _ := by norm_num
  · rw [show halfOptions.maxInnerIters = 200000 from rfl]
    push_cast
    exact hN
  · rw [show halfOptions.maxNewtonIters = 200000 from rfl]
    push_cast
    linarith

/-- The hypotheses of C48 are met, with limits that fit into an `int`; the guess is not a solution to the
tolerance. -/
theorem C48_example (junk : DenseJunk ℝ) :
    let s := FBstabDense.made junk 1 0 1 halfOptions
    let x : CallerVar ℝ := guessOf (nz := 1) (nl := 0) (nv := 1) (fun _ => -1e-4) 0 0
    ∃ out, (s.solve halfQP.toDense x).result = .ok out ∧ out.eflag = .success ∧ out.proxIters = 1 := by
  intro s x
  have hq : s.qp halfQP.toDense = halfQP := FBstabDense.made_qp junk _ _
  have hr : s.Reachable := FBstabDense.made_reachable junk _ (by norm_num) (by norm_num)
    (by norm_num [intLimit]) halfOptions_inRange
  have hst := absTol_le_stoppingTol (s.realEnv halfQP.toDense).ops (C01_reachable_dense s hr)
  have hst' : (9e-4 : ℝ) ≤ stoppingTol (s.problem halfQP.toDense) s.options := hst
  obtain ⟨g1, g2, g3⟩ := guessOf_point (nz := 1) (nl := 0) (nv := 1) (fun _ => -1e-4) 0 0
  have g1' : (x.z.toVec s.nz).fn = fun _ => -1e-4 := g1
  have g2' : (x.l.toVec s.nl).fn = 0 := g2
  have g3' : (x.v.toVec s.nv).fn = 0 := g3
  have hk : (s.qp halfQP.toDense).KKT 0 0 0 := by
    rw [hq]; exact halfQP_kkt
  obtain ⟨out, h1, h2⟩ := C48_dense s hr halfQP.toDense x (halfQP.toDense_fits _ _ _)
    (guessOf_writable _ _ _ _) (hq ▸ halfQP_convex)
    ⟨by show (3e-5 : ℝ) ≤ 3e-5; norm_num,
      le_trans (by show (3e-5 : ℝ) ≤ 9e-4; norm_num) hst'⟩ _ _ _ hk 1e-4 0 (by norm_num) (by
      rw [g1', g2', g3']
      show QP.dist2 (nz := 1) (nl := 0) (nv := 1) (fun _ => -1e-4) 0 0 0 0 0 ≤ _
      simp [QP.dist2, dotProduct]; norm_num) le_rfl
    (by
      have h : ∀ i : Fin 1, halfQP.b i - (halfQP.A *ᵥ 0) i ≤ 0 ∧ (0 : ℝ) ≤ 0 := fun i => by
        rw [mulVec_zero]
        simp [halfQP]
      rw [hq]
      exact h) 0 1 (by rw [hq]; exact halfQP_enough hst') (by rw [hq]; exact halfQP_newtonEnough)
    (by show ((1 : ℕ) : ℤ) < 2; norm_num)
  refine ⟨out, h1, ?_⟩
  rcases h2 with h | h
  · refine ⟨h.1, le_antisymm h.2.1 (FBstabDense.one_prox (s := s) (Nat.one_pos) ?_ h1 h.1 ?_)⟩
    · show (1e-10 : ℝ) < 1
      norm_num
    · have et : stoppingTol (s.problem halfQP.toDense) s.options = 9e-4 := by
        have e1 : s.options.relTol = 0 := rfl
        have e2 : s.options.absTol = 9e-4 := rfl
        rw [stoppingTol, e1, e2, zero_mul, add_zero]
      rw [et, hq, g1', g2', g3']
      refine .inl ⟨(0 : Fin 1), ?_⟩
      show _ < abs (halfQP.lagrangeGrad (fun _ => -1e-4) 0 0 0)
      simp only [QP.lagrangeGrad, mulVec_zero, add_zero]
      simp [halfQP, mulVec, dotProduct]
      norm_num [abs_of_pos]
  · exact absurd h.1 Bool.false_ne_true

end Fbstab
