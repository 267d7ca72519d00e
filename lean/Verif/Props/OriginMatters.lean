import Verif.Props.Origin
import Verif.Props.Benchmarks

/-!
# C71: with a relative tolerance the origin of the coordinates decides

The relative tolerance is a fraction of `1 + |(f, h, b)|`, and this depends on the origin.  Whatever the guess, there are
coordinates in which `Solve` accepts it.
-/

namespace Fbstab
open Matrix

/-- There is something to multiply the unknowns with. -/
def QP.Nonzero {nz nl nv : Nat} (q : QP nz nl nv) : Prop := q.H ≠ 0 ∨ q.G ≠ 0 ∨ q.A ≠ 0

theorem QP.le_forcing {nz nl nv : Nat} (q : QP nz nl nv) {B : ℝ}
    (h : (∃ i, |q.f i| = B) ∨ (∃ i, |q.h i| = B) ∨ ∃ i, |q.b i| = B) : B ≤ q.forcing := by
  have h1 := dot_self_nonneg q.f
  have h2 := dot_self_nonneg q.h
  have h3 := dot_self_nonneg q.b
  have key : ∀ {n : Nat} (x : Fin n → ℝ) (i : Fin n), |x i| = B → B ^ 2 ≤ x ⬝ᵥ x := by
    intro n x i hi
    rw [← hi, sq_abs, sq]
    exact Finset.single_le_sum (f := fun i => x i * x i) (fun i _ => mul_self_nonneg _) (Finset.mem_univ i)
  refine Real.le_sqrt_of_sq_le ?_
  rcases h with ⟨i, hi⟩ | ⟨i, hi⟩ | ⟨i, hi⟩
  · linarith [key q.f i hi]
  · linarith [key q.h i hi]
  · linarith [key q.b i hi]

theorem exists_entry {m n : Nat} {M : Matrix (Fin m) (Fin n) ℝ} (h : M ≠ 0) : ∃ i j, M i j ≠ 0 := by
  by_contra hc
  push Not at hc
  exact h (Matrix.ext hc)

theorem mulVec_entry {m n : Nat} (M : Matrix (Fin m) (Fin n) ℝ) (j : Fin n) (t : ℝ) (i : Fin m) :
    (M *ᵥ Pi.single j t) i = M i j * t := by
  rw [Matrix.mulVec_single]; simp

/-- The norm of `(f, h, b)` is as large as you like, in suitable coordinates. -/
theorem Origin.forcing_large {nz nl nv : Nat} {q : QP nz nl nv} (h : q.Nonzero) {B : ℝ} (hB : 0 ≤ B) :
    ∃ g : Origin nz nl, B ≤ (g.qp q).forcing := by
  rcases h with h | h | h
  · obtain ⟨i, j, hij⟩ := exists_entry h
    refine ⟨⟨Pi.single j ((q.f i - B) / q.H i j), 0⟩, QP.le_forcing _ (.inl ⟨i, ?_⟩)⟩
    have e : (q.f - q.H *ᵥ Pi.single j ((q.f i - B) / q.H i j) - q.Gᵀ *ᵥ 0) i = B := by
      rw [mulVec_zero, sub_zero, Pi.sub_apply, mulVec_entry, mul_div_cancel₀ _ hij]; ring
    show |(q.f - q.H *ᵥ Pi.single j ((q.f i - B) / q.H i j) - q.Gᵀ *ᵥ 0) i| = B
    rw [e, abs_of_nonneg hB]
  · obtain ⟨i, j, hij⟩ := exists_entry h
    refine ⟨⟨Pi.single j ((B - q.h i) / q.G i j), 0⟩, QP.le_forcing _ (.inr (.inl ⟨i, ?_⟩))⟩
    have e : (q.h + q.G *ᵥ Pi.single j ((B - q.h i) / q.G i j)) i = B := by
      rw [Pi.add_apply, mulVec_entry, mul_div_cancel₀ _ hij]; ring
    show |(q.h + q.G *ᵥ Pi.single j ((B - q.h i) / q.G i j)) i| = B
    rw [e, abs_of_nonneg hB]
  · obtain ⟨i, j, hij⟩ := exists_entry h
    refine ⟨⟨Pi.single j ((B - q.b i) / q.A i j), 0⟩, QP.le_forcing _ (.inr (.inr ⟨i, ?_⟩))⟩
    have e : (q.b + q.A *ᵥ Pi.single j ((B - q.b i) / q.A i j)) i = B := by
      rw [Pi.add_apply, mulVec_entry, mul_div_cancel₀ _ hij]; ring
    show |(q.b + q.A *ᵥ Pi.single j ((B - q.b i) / q.A i j)) i| = B
    rw [e, abs_of_nonneg hB]

/-- The same for optimal control problems: it suffices to move the initial state. -/
theorem StageOrigin.forcing_large {N nx nu nc : Nat} (p : Ocp N nx nu nc) (hx : 0 < nx) {B : ℝ} (hB : 0 ≤ B) :
    ∃ g : StageOrigin N nx nu, B ≤ (g.ocp p).toQP.forcing := by
  refine ⟨⟨fun _ _ => B - p.x0 ⟨0, hx⟩, 0, 0⟩, QP.le_forcing _ (.inr (.inl ⟨flatIdx 0 ⟨0, hx⟩, ?_⟩))⟩
  have e : ∀ p : Ocp N nx nu nc, p.toQP.h (flatIdx 0 ⟨0, hx⟩) = -p.x0 ⟨0, hx⟩ := fun p => by
    simp only [Ocp.toQP, block_flatIdx, Fin.cases_zero]
  rw [e, abs_neg]
  show |p.x0 ⟨0, hx⟩ + (B - p.x0 ⟨0, hx⟩)| = B
  rw [add_sub_cancel, abs_of_nonneg hB]

/-- The residual does not depend on the origin. -/
theorem Origin.residualNorm_moved {nz nl nv : Nat} (g : Origin nz nl) {q : QP nz nl nv} {ops ops' : QPOps ℝ nz nl nv}
    (I : q.Implements ops) (J : (g.qp q).Implements ops') (alpha : ℝ) {x x' : Point ℝ nz nl nv}
    (hm : Core.Marg q x) (hm' : Core.Marg (g.qp q) x') (hz : x'.z.fn = x.z.fn + g.z) (hl : x'.l.fn = x.l.fn + g.l)
    (hv : x'.v.fn = x.v.fn) : residualNorm ops' alpha x' = residualNorm ops alpha x := by
  have hy : x'.y = x.y := Vec.fn_inj.1 (by
    have h : x'.y.fn = (g.qp q).b - (g.qp q).A *ᵥ x'.z.fn := hm'
    have h' : x.y.fn = q.b - q.A *ᵥ x.z.fn := hm
    rw [h, h', hz, g.margin])
  have hv' : x'.v = x.v := Vec.fn_inj.1 hv
  refine (sq_eq_sq₀ (norm3_nonneg _ _ _) (norm3_nonneg _ _ _)).1 ?_
  show residualNorm ops' alpha x' ^ 2 = residualNorm ops alpha x ^ 2
  rw [I.residualNorm_sq, J.residualNorm_sq, hy, hv', hz, hl, g.gradient, g.defect]

theorem tolerance_large {a r F R : ℝ} (ha : 0 ≤ a) (hr : 0 < r) (hF : R / r ≤ F) : R ≤ a + r * (1 + F) := by
  have : R = r * (R / r) := by field_simp
  nlinarith [mul_le_mul_of_nonneg_left hF hr.le]

/-- C71: the hypothesis on the tolerance is necessary.  Let the relative tolerance be positive, as by default.  For every
quadratic program with a nonzero `H`, `G` or `A` and every guess, however far from a solution, there are coordinates in
which `FBstabDense::Solve` returns SUCCESS with zero iterations and the guess unchanged; if in the given coordinates the
residual of the guess is above the tolerance, then the call there does not do this. -/
theorem C71_not_dense (s : FBstabDense ℝ) (hs : s.Reachable) (p : DenseProblem ℝ) (x : CallerVar ℝ)
    (hr : 0 < s.options.relTol) (hm : ¬s.options.innerTolMax < s.options.innerTolMin)
    (hn : (s.qp p).Nonzero) :
    ∃ g : Origin s.nz s.nl, ∀ (p' : DenseProblem ℝ) (x' : CallerVar ℝ), DenseFits s.nz s.nl s.nv p' x' →
      x'.YWritable s.nv → s.qp p' = g.qp (s.qp p) →
      (x'.z.toVec s.nz).fn = (x.z.toVec s.nz).fn + g.z →
      (x'.l.toVec s.nl).fn = (x.l.toVec s.nl).fn + g.l →
      (x'.v.toVec s.nv).fn = (x.v.toVec s.nv).fn →
      let r := residualNorm (s.problem p) s.options.alpha (x.guess (s.problem p))
      (s.solve p' x').result = .ok ⟨.success, r, 0, 0, r⟩ ∧
      (s.solve p' x').x.z = x'.z ∧ (s.solve p' x').x.l = x'.l ∧ (s.solve p' x').x.v = x'.v ∧
      (stoppingTol (s.problem p) s.options < r → s.options.stallTol < 1 →
        (s.solve p x).result ≠ (s.solve p' x').result) := by
  have ho := C01_reachable_dense s hs
  have hnz : 0 < s.nz := by
    have hj : ∃ _ : Fin s.nz, True := by
      rcases hn with h | h | h <;> obtain ⟨-, j, -⟩ := exists_entry h <;> exact ⟨j, trivial⟩
    obtain ⟨j, -⟩ := hj
    exact j.pos
  have hab : (0 : ℝ) ≤ s.options.absTol := le_trans (by norm_num) ho.absTol
  set R := residualNorm (s.problem p) s.options.alpha (x.guess (s.problem p)) with hR
  obtain ⟨g, hg⟩ := Origin.forcing_large hn (B := R / s.options.relTol) (div_nonneg (norm3_nonneg _ _ _) hr.le)
  refine ⟨g, fun p' x' hf' hy' hp hz hl hv => ?_⟩
  have I := (s.realEnv p).ops
  have J := (s.realEnv p').ops
  rw [hp] at J
  have e : residualNorm (s.problem p') s.options.alpha (x'.guess (s.problem p')) = R :=
    g.residualNorm_moved I J s.options.alpha (CallerVar.guess_margin I x) (CallerVar.guess_margin J x') hz hl hv
  have et : stoppingTol (s.problem p') s.options = s.options.absTol + s.options.relTol * (1 + (g.qp (s.qp p)).forcing) := by
    have : (s.problem p').forcingNorm = (g.qp (s.qp p)).forcing := J.forcingNorm
    rw [stoppingTol, this]
  have hle : residualNorm (s.problem p') s.options.alpha (x'.guess (s.problem p')) ≤
      stoppingTol (s.problem p') s.options := by
    rw [e, et]; exact tolerance_large hab hr hg
  obtain ⟨h1, h2, h3, h4, -⟩ := C12_dense s p' x' ho.maxProxIters hm hf' hy' hle
  rw [e] at h1
  refine ⟨h1, h2, h3, h4, fun hlt hst h => ?_⟩
  rw [h1] at h
  rcases (C12_only_dense s p x _ h rfl rfl).1 with k | k
  · exact absurd k (not_le.2 hlt)
  · have := one_le_onesNorm (nl := s.nl) (nv := s.nv) hnz
    linarith

/-- C71 for `FBstabMpc`: the same for every optimal control problem. -/
theorem C71_not_mpc (s : FBstabMpc ℝ) (hs : s.Reachable) (p : MpcProblem ℝ) (x : CallerVar ℝ) (hnx : 0 < s.nx)
    (hr : 0 < s.options.relTol) (hm : ¬s.options.innerTolMax < s.options.innerTolMin) :
    ∃ g : StageOrigin s.N s.nx s.nu, ∀ (p' : MpcProblem ℝ) (x' : CallerVar ℝ), MpcFits s.N s.nx s.nu s.nc p' x' →
      p'.Columns → s.ocp p' = g.ocp (s.ocp p) →
      (x'.z.toVec _).fn = (x.z.toVec _).fn + g.stacked.z →
      (x'.l.toVec _).fn = (x.l.toVec _).fn + g.stacked.l →
      (x'.v.toVec ((s.N + 1) * s.nc)).fn = (x.v.toVec _).fn →
      let r := residualNorm (s.problem p) s.options.alpha (x.guess (s.problem p))
      (s.solve p' x').result = .ok ⟨.success, r, 0, 0, r⟩ ∧
      (s.solve p' x').x.z = x'.z ∧ (s.solve p' x').x.l = x'.l ∧ (s.solve p' x').x.v = x'.v ∧
      (stoppingTol (s.problem p) s.options < r → s.options.stallTol < 1 →
        (s.solve p x).result ≠ (s.solve p' x').result) := by
  have ho := C01_reachable_mpc s hs
  have hnz : 0 < (s.N + 1) * (s.nx + s.nu) := Nat.mul_pos (Nat.succ_pos _) (by omega)
  have hab : (0 : ℝ) ≤ s.options.absTol := le_trans (by norm_num) ho.absTol
  set R := residualNorm (s.problem p) s.options.alpha (x.guess (s.problem p)) with hR
  obtain ⟨g, hg⟩ := StageOrigin.forcing_large (s.ocp p) hnx (B := R / s.options.relTol)
    (div_nonneg (norm3_nonneg _ _ _) hr.le)
  refine ⟨g, fun p' x' hf' hcol' hp hz hl hv => ?_⟩
  have I := (s.realEnv p).ops
  have J := (s.realEnv p').ops
  have hq : s.qp p' = g.stacked.qp (s.qp p) := by
    rw [FBstabMpc.qp, FBstabMpc.qp, hp, g.toQP]
  rw [g.toQP] at hg
  rw [hq] at J
  have e : residualNorm (s.problem p') s.options.alpha (x'.guess (s.problem p')) = R :=
    g.stacked.residualNorm_moved I J s.options.alpha (CallerVar.guess_margin I x) (CallerVar.guess_margin J x') hz hl hv
  have et : stoppingTol (s.problem p') s.options =
      s.options.absTol + s.options.relTol * (1 + (g.stacked.qp (s.qp p)).forcing) := by
    have : (s.problem p').forcingNorm = (g.stacked.qp (s.qp p)).forcing := J.forcingNorm
    rw [stoppingTol, this]
  have hle : residualNorm (s.problem p') s.options.alpha (x'.guess (s.problem p')) ≤
      stoppingTol (s.problem p') s.options := by
    rw [e, et]; exact tolerance_large hab hr hg
  obtain ⟨h1, h2, h3, h4, -⟩ := C12_mpc real_zero_beq s p' x' ho.maxProxIters hm hf' hcol' hle
  rw [e] at h1
  refine ⟨h1, h2, h3, h4, fun hlt hst h => ?_⟩
  rw [h1] at h
  rcases (C12_only_mpc real_zero_beq s p x _ h rfl rfl).1 with k | k
  · exact absurd k (not_le.2 hlt)
  · have := one_le_onesNorm (nl := (s.N + 1) * s.nx) (nv := (s.N + 1) * s.nc) hnz
    linarith

/-- C71_not_dense: with the default options, the problem `halfQP` and the guess `1`.  In the given coordinates `Solve`
does not accept the guess, in others it does. -/
example (junk : DenseJunk ℝ) :
    let s := FBstabDense.made junk 1 0 1 (Params.defaults : Params ℝ)
    ∃ (g : Origin 1 0) (r : ℝ),
      (s.solve (g.qp halfQP).toDense (guessOf (nz := 1) (nl := 0) (nv := 1) (fun i => 1 + g.z i) g.l 0)).result =
        .ok ⟨.success, r, 0, 0, r⟩ ∧
      (s.solve halfQP.toDense (guessOf (nz := 1) (nl := 0) (nv := 1) (fun _ => 1) 0 0)).result ≠
        .ok ⟨.success, r, 0, 0, r⟩ := by
  intro s
  have hs : s.Reachable := FBstabDense.made_reachable junk _ (by norm_num) (by norm_num) (by norm_num [intLimit])
    defaults_inRange
  have hq : s.qp halfQP.toDense = halfQP := FBstabDense.made_qp junk _ _
  obtain ⟨g1, g2, g3⟩ := guessOf_point (nz := 1) (nl := 0) (nv := 1) (fun _ => 1) 0 0
  obtain ⟨g, hg⟩ := C71_not_dense s hs halfQP.toDense (guessOf (nz := 1) (nl := 0) (nv := 1) (fun _ => 1) 0 0)
    (by show (0 : ℝ) < 1e-12; norm_num)
    (by show ¬(Params.defaults : Params ℝ).innerTolMax < (Params.defaults : Params ℝ).innerTolMin
        simp only [Params.defaults]; norm_num)
    (.inl (fun h => by
      rw [hq] at h
      have : (10 : ℝ) = 0 := congrFun (congrFun h (0 : Fin 1)) (0 : Fin 1)
      norm_num at this))
  obtain ⟨g1', g2', g3'⟩ := guessOf_point (nz := 1) (nl := 0) (nv := 1) (fun i => 1 + g.z i) g.l 0
  have hq' : s.qp (g.qp halfQP).toDense = g.qp halfQP := FBstabDense.made_qp junk _ _
  obtain ⟨k1, -, -, -, k2⟩ := hg (g.qp halfQP).toDense
    (guessOf (nz := 1) (nl := 0) (nv := 1) (fun i => 1 + g.z i) g.l 0) ((g.qp halfQP).toDense_fits _ _ _)
    (guessOf_writable _ _ _ _) (hq'.trans (congrArg g.qp hq).symm)
    (g1'.trans (congrArg (· + g.z) g1.symm))
    (g2'.trans ((zero_add g.l).symm.trans (congrArg (· + g.l) g2.symm))) (g3'.trans g3.symm)
  refine ⟨g, _, k1, fun h => k2 ?_ ?_ (h.trans k1.symm)⟩
  · refine not_le.1 (QP.BadGuess.residual (s.realEnv halfQP.toDense).ops (.inl ⟨(0 : Fin 1), ?_⟩))
    have et : (s.problem halfQP.toDense).forcingNorm = _ := (s.realEnv halfQP.toDense).ops.forcingNorm
    rw [stoppingTol, et, hq]
    have e1 : halfQP.lagrangeGrad ((guessOf (nz := 1) (nl := 0) (nv := 1) (fun _ => (1 : ℝ)) 0 0).z.toVec 1).fn
        ((guessOf (nz := 1) (nl := 0) (nv := 1) (fun _ => (1 : ℝ)) 0 0).l.toVec 0).fn
        ((guessOf (nz := 1) (nl := 0) (nv := 1) (fun _ => (1 : ℝ)) 0 0).v.toVec 1).fn 0 = 10 := by
      rw [g1, g2, g3]
      simp [QP.lagrangeGrad, halfQP, mulVec, dotProduct]
    have e2 := congrArg abs e1
    refine lt_of_lt_of_eq ?_ e2.symm
    show (1e-6 : ℝ) + 1e-12 * (1 + √(halfQP.f ⬝ᵥ halfQP.f + halfQP.h ⬝ᵥ halfQP.h + halfQP.b ⬝ᵥ halfQP.b)) < |10|
    have e3 : halfQP.f ⬝ᵥ halfQP.f + halfQP.h ⬝ᵥ halfQP.h + halfQP.b ⬝ᵥ halfQP.b = 0 := by
      simp [halfQP, dotProduct]
    rw [e3]; norm_num
  · show (1e-10 : ℝ) < 1
    norm_num

/-- C71_not_mpc: every optimal control problem, every guess. -/
example (junk : MpcJunk ℝ) {N nx nu nc : Nat} (o : Params ℝ) (hN : 0 < N)
    (hx : 0 < nx) (hu : 0 < nu) (hc : 0 < nc) (h1 : (nx + nu) * (N + 1) < intLimit)
    (h2 : nc * (N + 1) < intLimit) (ho : o.InRange) (hr : 0 < o.relTol) (hm : ¬o.innerTolMax < o.innerTolMin)
    (p : Ocp N nx nu nc) (z l) (v : Fin ((N + 1) * nc) → ℝ) :
    let s := FBstabMpc.made junk N nx nu nc o
    ∃ (g : StageOrigin N nx nu) (r : ℝ),
      (s.solve (g.ocp p).toMpc (fullGuessOf (z + g.stacked.z) (l + g.stacked.l) v)).result =
        .ok ⟨.success, r, 0, 0, r⟩ := by
  intro s
  obtain ⟨g1, g2, g3⟩ := fullGuessOf_point z l v
  have hq : s.ocp p.toMpc = p := FBstabMpc.made_ocp junk _ _
  obtain ⟨(g : StageOrigin N nx nu), hg⟩ := C71_not_mpc s (FBstabMpc.made_reachable junk o hN hx hu hc h1 h2 ho) p.toMpc (fullGuessOf z l v)
    hx hr hm
  obtain ⟨g1', g2', g3'⟩ := fullGuessOf_point (z + g.stacked.z) (l + g.stacked.l) v
  have hq' : s.ocp (g.ocp p).toMpc = g.ocp p := FBstabMpc.made_ocp junk _ _
  exact ⟨g, _, (hg (g.ocp p).toMpc _ ((g.ocp p).toMpc_fits _ _ _) (g.ocp p).toMpc_columns (hq'.trans (congrArg g.ocp hq).symm)
    (g1'.trans (congrArg (· + g.stacked.z) g1.symm)) (g2'.trans (congrArg (· + g.stacked.l) g2.symm))
    (g3'.trans g3.symm)).1⟩

theorem FBstabMpc.at_solution (s : FBstabMpc ℝ) (hs : s.Reachable) (p : MpcProblem ℝ) (x : CallerVar ℝ)
    (hf : MpcFits s.N s.nx s.nu s.nc p x) (hcol : p.Columns)
    (hm : ¬s.options.innerTolMax < s.options.innerTolMin)
    (h : (s.qp p).KKT (x.z.toVec _).fn (x.l.toVec _).fn (x.v.toVec ((s.N + 1) * s.nc)).fn) :
    ∃ out, (s.solve p x).result = .ok out ∧ out.eflag = .success := by
  have ho := C01_reachable_mpc s hs
  have hr := (C16_mpc s hs p (x.guess (s.problem p)) (CallerVar.guess_margin (s.realEnv p).ops x)).2 h
  have ht := absTol_le_stoppingTol (s.realEnv p).ops ho
  have ha := ho.absTol
  refine ⟨_, (C12_mpc real_zero_beq s p x ho.maxProxIters hm hf hcol ?_).1, rfl⟩
  rw [hr]
  refine le_trans ?_ ht
  norm_num at ha
  linarith

/-- C71_checked_mpc: with feasibility checks, every convex optimal control problem and every new origin, at a solution. -/
example (junk : MpcJunk ℝ) {N nx nu nc : Nat} (o : Params ℝ) (hN : 0 < N)
    (hx : 0 < nx) (hu : 0 < nu) (hc : 0 < nc) (h1 : (nx + nu) * (N + 1) < intLimit)
    (h2 : nc * (N + 1) < intLimit) (ho : o.InRange) (hr : o.relTol = 0) (hm : ¬o.innerTolMax < o.innerTolMin)
    (g : StageOrigin N nx nu) (p : Ocp N nx nu nc) (hp : p.Convex) (z l)
    (v : Fin ((N + 1) * nc) → ℝ) (hk : p.toQP.KKT z l v) :
    let s := FBstabMpc.made junk N nx nu nc o
    (s.solve (g.ocp p).toMpc (fullGuessOf (z + g.stacked.z) (l + g.stacked.l) v)).log =
      (s.solve p.toMpc (fullGuessOf z l v)).log := by
  intro s
  obtain ⟨g1, g2, g3⟩ := fullGuessOf_point z l v
  obtain ⟨g1', g2', g3'⟩ := fullGuessOf_point (z + g.stacked.z) (l + g.stacked.l) v
  have ho1 : s.ocp p.toMpc = p := FBstabMpc.made_ocp junk _ _
  have ho2 : s.ocp (g.ocp p).toMpc = g.ocp p := FBstabMpc.made_ocp junk _ _
  have hq : s.qp p.toMpc = p.toQP := FBstabMpc.made_qp junk _ _
  have hq' : s.qp (g.ocp p).toMpc = g.stacked.qp p.toQP := (FBstabMpc.made_qp junk _ _).trans (g.toQP p)
  have hs : s.Reachable := FBstabMpc.made_reachable junk o hN hx hu hc h1 h2 ho
  obtain ⟨out, a1, a2⟩ := s.at_solution hs p.toMpc (fullGuessOf z l v) (p.toMpc_fits _ _ _) p.toMpc_columns hm (by
    have : (s.qp p.toMpc).KKT z l v := by rw [hq]; exact hk
    rw [← g1, ← g2, ← g3] at this
    exact this)
  obtain ⟨out', b1, b2⟩ := s.at_solution hs (g.ocp p).toMpc (fullGuessOf (z + g.stacked.z) (l + g.stacked.l) v)
    ((g.ocp p).toMpc_fits _ _ _) (g.ocp p).toMpc_columns hm (by
      have : (s.qp (g.ocp p).toMpc).KKT (z + g.stacked.z) (l + g.stacked.l) v := by
        rw [hq']; exact g.stacked.kkt hk
      rw [← g1', ← g2', ← g3'] at this
      exact this)
  exact (C71_checked_mpc s hs g p.toMpc (g.ocp p).toMpc _ _ (by rw [ho1]; exact hp)
    (ho2.trans (congrArg g.ocp ho1).symm) (.inl hr) (g1'.trans (congrArg (· + g.stacked.z) g1.symm))
    (g2'.trans (congrArg (· + g.stacked.l) g2.symm)) (g3'.trans g3.symm) out out' a1 b1 (.inl a2) (.inl b2)).1

end Fbstab
