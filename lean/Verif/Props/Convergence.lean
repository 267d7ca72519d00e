import Verif.Proofs.Outer
import Verif.Props.EqualityOnly

/-!
# C47: the proximal iteration converges
-/

namespace Fbstab
open Matrix

namespace Core
variable {nz nl nv : Nat} {E : Env ℝ nz nl nv} {q : QP nz nl nv}

theorem Returned.converges_or_limit (N : NewtonEnv E q) (hmin : E.opts.innerTolMin ≤ E.comboTol)
    (hmm : E.opts.innerTolMin ≤ E.opts.innerTolMax)
    (hl : E.opts.maxNewtonIters ≤ E.opts.maxInnerIters)
    {ws x fin} (hx : Marg q x) {zs ls vs} (hk : q.KKT zs ls vs) {D M : ℝ} (hD0 : 0 ≤ D)
    (hD : QP.dist2 x.z.fn x.l.fn x.v.fn zs ls vs ≤ D ^ 2)
    (hM : ∀ i, q.b i - (q.A *ᵥ zs) i ≤ M ∧ vs i ≤ M) (hM0 : 0 ≤ M)
    {k0 K : Nat} (he : q.Enough E.opts E.comboTol D M k0 K)
    (hp : (K : Int) < E.opts.maxProxIters) (h : Returned E ws x fin) :
    (fin.out.eflag = .success ∧ fin.out.proxIters ≤ K ∧
      QP.dist2 fin.x.z.fn fin.x.l.fn fin.x.v.fn zs ls vs ≤ q.reach E.opts D K ^ 2) ∨
    (fin.out.eflag = .maxIterations ∧ (fin.out.newtonIters : Int) = E.opts.maxNewtonIters) ∨
    (E.opts.checkFeasibility = true ∧ fin.out.eflag ≠ .success ∧ fin.out.eflag ≠ .maxIterations) := by
  have hnn := N.inRange.maxNewtonIters
  have hD' : ‖x.vec - vec3 zs ls vs‖ ≤ D := by
    refine abs_le_of_sq_le_sq' ?_ hD0 |>.2
    rw [Point.vec, vec3_dist2]
    exact hD
  rcases h.converges N hmin hmm hx hk hD' hM hM0 he hp (fun hk hs hr hin hb => by omega) with
    ⟨h1, h2, h3⟩ | ⟨k, s, tol, o, -, h2, -, h3, h4, h5, h6⟩ | h
  · refine .inl ⟨h1, h2, ?_⟩
    rw [← vec3_dist2]
    exact pow_le_pow_left₀ (norm_nonneg _) h3 2
  · refine .inr (.inl ⟨h5, ?_⟩)
    have a1 := h2.newton.2.2
    have a2 := h3.newton.2.2
    simp only [start] at a1
    rw [h6]
    omega
  · exact .inr (.inr h)

end Core

/-- C47: let a convex problem have a solution `(zs, ls, vs)` at distance at most `D` from the guess, with
slacks and multipliers at most `M`, and let `K` be enough in the sense of `QP.Enough`.  If
`max_prox_iters > K` and the limit on inner iterations is not stricter than that on Newton iterations, then
`Solve` returns SUCCESS after at most `K` proximal iterations, and no farther from the solution than
`QP.reach`, unless it uses up its Newton iterations or (if it is asked to check) declares infeasibility. -/
theorem C47_dense (s : FBstabDense ℝ) (hs : s.Reachable) (p : DenseProblem ℝ) (x : CallerVar ℝ)
    (hf : DenseFits s.nz s.nl s.nv p x) (hy : x.YWritable s.nv) (hc : (s.qp p).Convex)
    (ht : TolerancesOrdered s.options (stoppingTol (s.problem p) s.options))
    (hl : s.options.maxNewtonIters ≤ s.options.maxInnerIters)
    (zs ls vs) (hk : (s.qp p).KKT zs ls vs) (D M : ℝ) (hD0 : 0 ≤ D)
    (hD : QP.dist2 (x.z.toVec s.nz).fn (x.l.toVec s.nl).fn (x.v.toVec s.nv).fn zs ls vs ≤ D ^ 2)
    (hM0 : 0 ≤ M) (hM : ∀ i, (s.qp p).b i - ((s.qp p).A *ᵥ zs) i ≤ M ∧ vs i ≤ M) (k0 K : Nat)
    (he : (s.qp p).Enough s.options (stoppingTol (s.problem p) s.options) D M k0 K)
    (hp : (K : Int) < s.options.maxProxIters) :
    let xr := s.returnedPoint p x
    ∃ out, (s.solve p x).result = .ok out ∧
      ((out.eflag = .success ∧ out.proxIters ≤ K ∧
        QP.dist2 xr.z.fn xr.l.fn xr.v.fn zs ls vs ≤ (s.qp p).reach s.options D K ^ 2) ∨
      (out.eflag = .maxIterations ∧ (out.newtonIters : Int) = s.options.maxNewtonIters) ∨
      (s.options.checkFeasibility = true ∧ out.eflag ≠ .success ∧ out.eflag ≠ .maxIterations)) := by
  intro xr
  obtain ⟨out, ho⟩ := C13_dense s hs p x hf hy hc ht
  obtain ⟨-, -, fin, -, h2, rfl, e⟩ := FBstabDense.returned ho
  have N := s.newtonEnv (C01_reachable_dense s hs) p hc
  refine ⟨_, ho, ?_⟩
  rw [show xr = fin.x by
    show s.returnedPoint p x = _
    rw [FBstabDense.returnedPoint, e, CallerVar.point_ofPoint]]
  exact h2.converges_or_limit N ht.2 ht.1 hl (Core.Marg.start N.ops _ _ _) hk hD0 hD hM hM0 he hp

/-- C47 for `FBstabMpc`. -/
theorem C47_mpc (s : FBstabMpc ℝ) (hs : s.Reachable) (p : MpcProblem ℝ) (x : CallerVar ℝ)
    (hf : MpcFits s.N s.nx s.nu s.nc p x) (hcol : p.Columns) (hc : (s.ocp p).Convex)
    (ht : TolerancesOrdered s.options (stoppingTol (s.problem p) s.options))
    (hl : s.options.maxNewtonIters ≤ s.options.maxInnerIters)
    (zs ls vs) (hk : (s.qp p).KKT zs ls vs) (D M : ℝ) (hD0 : 0 ≤ D)
    (hD : QP.dist2 (x.z.toVec ((s.N + 1) * (s.nx + s.nu))).fn
      (x.l.toVec ((s.N + 1) * s.nx)).fn (x.v.toVec ((s.N + 1) * s.nc)).fn zs ls vs ≤ D ^ 2)
    (hM0 : 0 ≤ M) (hM : ∀ i, (s.qp p).b i - ((s.qp p).A *ᵥ zs) i ≤ M ∧ vs i ≤ M) (k0 K : Nat)
    (he : (s.qp p).Enough s.options (stoppingTol (s.problem p) s.options) D M k0 K)
    (hp : (K : Int) < s.options.maxProxIters) :
    let xr := s.returnedPoint p x
    ∃ out, (s.solve p x).result = .ok out ∧
      ((out.eflag = .success ∧ out.proxIters ≤ K ∧
        QP.dist2 xr.z.fn xr.l.fn xr.v.fn zs ls vs ≤ (s.qp p).reach s.options D K ^ 2) ∨
      (out.eflag = .maxIterations ∧ (out.newtonIters : Int) = s.options.maxNewtonIters) ∨
      (s.options.checkFeasibility = true ∧ out.eflag ≠ .success ∧ out.eflag ≠ .maxIterations)) := by
  intro xr
  obtain ⟨out, ho⟩ := C13_mpc s hs p x hf hcol hc ht
  obtain ⟨-, -, fin, -, h2, rfl, e⟩ := FBstabMpc.returned real_zero_beq ho
  have N := s.newtonEnv (C01_reachable_mpc s hs) p hc
  refine ⟨_, ho, ?_⟩
  rw [show xr = fin.x by
    show s.returnedPoint p x = _
    rw [FBstabMpc.returnedPoint, e, CallerVar.point_ofPoint]]
  exact h2.converges_or_limit N ht.2 ht.1 hl (Core.Marg.start N.ops _ _ _) hk hD0 hD hM hM0 he hp

/-! ## An instance -/

/-- minimise `z^2 / 2` subject to `z >= 1`. -/
noncomputable def aboveQP : QP 1 0 1 where
  H := fun _ _ => 1
  f := fun _ => 0
  G := fun i _ => i.elim0
  h := fun i => i.elim0
  A := fun _ _ => -1
  b := fun _ => -1

/-- Options with which `Enough` is easily checked. -/
noncomputable def aboveOptions : Params ℝ :=
  { Params.defaults with
    checkFeasibility := false, sigma0 := 1, sigmaMax := 1, alpha := 0.5, delta := 0.1, innerTolMax := 1e-8,
    innerTolMin := 1e-8, absTol := 0.1, relTol := 0, maxProxIters := 60000,
    maxNewtonIters := 1000000, maxInnerIters := 1000000 }

theorem aboveOptions_inRange : aboveOptions.InRange := by
  constructor <;> simp only [aboveOptions, Params.defaults, Between] <;> norm_num

theorem aboveQP_convex : aboveQP.Convex where
  symm := by ext i j; rfl
  nonneg := fun z => by
    rw [show aboveQP.H *ᵥ z = z from ones_mul z]; exact dot_self_nonneg z

theorem aboveQP_A (z : Fin 1 → ℝ) : aboveQP.A *ᵥ z = -z := by
  ext i
  simp [aboveQP, Matrix.mulVec, dotProduct, Subsingleton.elim i 0]

theorem aboveQP_At (z : Fin 1 → ℝ) : aboveQP.Aᵀ *ᵥ z = -z := by
  rw [show aboveQP.Aᵀ = aboveQP.A from rfl, aboveQP_A]

theorem aboveQP_kkt : aboveQP.KKT (fun _ => 1) 0 (fun _ => 1) where
  stationary := by
    unfold QP.lagrangeGrad
    rw [show aboveQP.H *ᵥ (fun _ => (1 : ℝ)) = _ from ones_mul _, mulVec_zero, aboveQP_At]
    ext i
    show (1 : ℝ) + 0 + 0 + -1 = 0
    norm_num
  feasible := ⟨by ext i; exact i.elim0, fun i => by
    rw [aboveQP_A]
    show (-1 : ℝ) ≤ -1
    norm_num⟩
  dual := fun i => zero_le_one
  complementary := fun i => .inr (by rw [aboveQP_A]; rfl)

theorem aboveQP_sizeA : aboveQP.sizeA = 1 := by
  simp [QP.sizeA, aboveQP]

theorem aboveQP_enough {tol : ℝ} (h : 0.1 ≤ tol) :
    aboveQP.Enough aboveOptions tol (3 / 2) 1 0 50000 := by
  have e1 : aboveQP.errFactor aboveOptions.alpha aboveOptions.sigma0 = 17 := by
    rw [QP.errFactor, aboveQP_sizeA, aboveOptions]; norm_num
  have e2 : aboveQP.reach aboveOptions (3 / 2) 50000 ≤ 1.51 := by
    rw [QP.reach, e1, QP.tolSum, aboveOptions]; norm_num
  have e3 : 0 ≤ aboveQP.reach aboveOptions (3 / 2) 50000 := by
    rw [QP.reach, e1, QP.tolSum, aboveOptions]; norm_num
  have e4 : 0.0099 ≤ aboveQP.stepNeeded aboveOptions tol (3 / 2) 1 50000 := by
    rw [QP.stepNeeded, aboveQP_sizeA, show aboveOptions.sigma0 = 1 from rfl, le_div_iff₀ (by positivity)]
    nlinarith
  constructor
  · rw [e1]
    refine le_trans ?_ e4
    simp only [aboveOptions]; norm_num
  · have := pow_le_pow_left₀ (by norm_num) e4 2
    have h2 := pow_le_pow_left₀ e3 e2 2
    norm_num at this h2 ⊢
    nlinarith

/-- The hypotheses of C47 are met with `K = 50000`. -/
theorem C47_example (junk : DenseJunk ℝ) :
    let s := FBstabDense.made junk 1 0 1 aboveOptions
    let x : CallerVar ℝ := guessOf (nz := 1) (nl := 0) (nv := 1) 0 0 0
    ∃ out, (s.solve aboveQP.toDense x).result = .ok out ∧
      ((out.eflag = .success ∧ out.proxIters ≤ 50000) ∨
        (out.eflag = .maxIterations ∧ out.newtonIters = 1000000)) := by
  intro s x
  have hq : s.qp aboveQP.toDense = aboveQP := FBstabDense.made_qp junk _ _
  have hr : s.Reachable := FBstabDense.made_reachable junk _ (by norm_num) (by norm_num)
    (by norm_num [intLimit]) aboveOptions_inRange
  have hst := absTol_le_stoppingTol (s.realEnv aboveQP.toDense).ops (C01_reachable_dense s hr)
  have hst' : (0.1 : ℝ) ≤ stoppingTol (s.problem aboveQP.toDense) s.options := hst
  obtain ⟨g1, g2, g3⟩ := guessOf_point (nz := 1) (nl := 0) (nv := 1) 0 0 0
  have g1' : (x.z.toVec s.nz).fn = 0 := g1
  have g2' : (x.l.toVec s.nl).fn = 0 := g2
  have g3' : (x.v.toVec s.nv).fn = 0 := g3
  have hk : (s.qp aboveQP.toDense).KKT (fun _ => 1) 0 (fun _ => 1) := by
    rw [hq]; exact aboveQP_kkt
  obtain ⟨out, h1, h2⟩ := C47_dense s hr aboveQP.toDense x (aboveQP.toDense_fits _ _ _)
    (guessOf_writable _ _ _ _) (hq ▸ aboveQP_convex)
    ⟨by show (1e-8 : ℝ) ≤ 1e-8; norm_num,
      le_trans (by show (1e-8 : ℝ) ≤ 0.1; norm_num) hst'⟩ le_rfl _ _ _ hk (3 / 2) 1 (by norm_num) (by
      rw [g1', g2', g3']
      show QP.dist2 (nz := 1) (nl := 0) (nv := 1) 0 0 0 (fun _ => 1) 0 (fun _ => 1) ≤ _
      simp [QP.dist2, dotProduct]; norm_num) zero_le_one
    (by
      have h : ∀ i : Fin 1, aboveQP.b i - (aboveQP.A *ᵥ fun _ => 1) i ≤ 1 ∧ (1 : ℝ) ≤ 1 := fun i => by
        rw [aboveQP_A]
        refine ⟨?_, le_rfl⟩
        show (-1 : ℝ) - -1 ≤ 1
        norm_num
      rw [hq]
      exact h) 0 50000 (by rw [hq]; exact aboveQP_enough hst')
    (by show ((50000 : ℕ) : ℤ) < 60000; norm_num)
  refine ⟨out, h1, ?_⟩
  rcases h2 with h | h | h
  · exact .inl ⟨h.1, h.2.1⟩
  · exact .inr ⟨h.1, by
      have : (out.newtonIters : Int) = 1000000 := h.2
      omega⟩
  · exact absurd h.1 Bool.false_ne_true

end Fbstab
