import Verif.Proofs.Inf
import Verif.Props.NaN

/-!
# C61: bounds at infinity

An infinite bound (`b(i) = +inf`, or `d(i) = -inf` in an MPC problem) does not mean "no constraint".
-/

namespace Fbstab

/-! ## A multiplier that is not positive: never SUCCESS -/

theorem FBstabDense.inf_step {s : FBstabDense XReal} {p : DenseProblem XReal} {x : CallerVar XReal}
    {i : Fin s.nv} (hb : p.b.toVec s.nv i = XReal.inf) (hv : ¬0 < x.v.toVec s.nv i) :
    residualNorm (s.problem p) s.options.alpha (x.guess (s.problem p)) = .nan ∧
    ((s.env p).innerRes (x.guess (s.problem p)) (x.guess (s.problem p)) s.options.sigma0).v.HasNaN := by
  have hm := DenseData.margin_inf_or (d := p.toData s.nz s.nl s.nv) (x.z.toVec s.nz) hb
  refine ⟨norm3_nan (.inr (.inr ⟨i, ?_⟩)), i, ?_⟩
  · simp only [penalizedMin, Vec.get_ofFn]
    exact XReal.penalized_nan _ hm hv
  · simp only [Core.Env.innerRes, Core.mkResid, Vec.get_ofFn]
    refine XReal.pfb_nan_or _ ?_ hv
    rcases hm with e | e
    · rw [show (x.guess (s.problem p)).y i = _ from e]
      exact XReal.inf_add_cases _
    · rw [show (x.guess (s.problem p)).y i = _ from e, XReal.nan_add']
      exact .inr rfl

/-- C61, FBstabDense: an infinite bound whose multiplier is not positive in the guess (for instance
the guess 0) never leads to SUCCESS, whatever the rest of the problem is. -/
theorem C61_never_dense (s : FBstabDense XReal) (hs : s.Reachable) (p : DenseProblem XReal)
    (x : CallerVar XReal) (i : Fin s.nv) (hb : p.b.toVec s.nv i = XReal.inf)
    (hv : ¬0 < x.v.toVec s.nv i)
    (hst : ¬onesNorm XReal s.nz s.nl s.nv ≤ s.options.stallTol) (out : SolverOut XReal)
    (h : (s.solve p x).result = .ok out) : out.eflag ≠ .success := by
  have hlim := hs.limits C01_validation_total_xreal
  obtain ⟨h1, -, fin, -, hr, rfl, -⟩ := FBstabDense.returned h
  obtain ⟨hres, hin⟩ := FBstabDense.inf_step hb hv
  refine hr.nan hst (fun x hx => DenseData.point_nan _ hs.pos.1 _ hx) (.inr ⟨?_,
    ⟨norm3_nan (.inr (.inr hin)), ?_⟩, hlim.maxInnerIters, hlim.maxNewtonIters⟩)
  · intro h
    rw [show Core.Resid.norm ((s.env p).penRes (x.guess (s.problem p))) = _ from hres] at h
    exact XReal.nan_le h
  · intro g hg
    have hg : denseFactor (p.toData s.nz s.nl s.nv) s.options.alpha (x.guess (s.problem p))
      (x.guess (s.problem p)) s.options.sigma0 = .ok (some g) := hg
    unfold denseFactor at hg
    split at hg
    · cases hg
    · split at hg
      · injection hg with hg
        injection hg with hg
        subst hg
        refine denseStep_nan_v ?_
        obtain ⟨i, e⟩ := hin
        exact ⟨i, by simp [Core.Resid.negate, e]⟩
      · cases hg

theorem FBstabMpc.inf_step {s : FBstabMpc XReal} {p : MpcProblem XReal} {x : CallerVar XReal}
    {k : Fin (s.N + 1)} {j : Fin s.nc} (hb : p.d.toVec s.nc k j = XReal.negInf)
    (hv : ¬0 < colBlock (x.v.toVec ((s.N + 1) * s.nc)) k j) :
    residualNorm (s.problem p) s.options.alpha (x.guess (s.problem p)) = .nan ∧
    ((s.env XReal.beq_zero p).innerRes (x.guess (s.problem p)) (x.guess (s.problem p))
      s.options.sigma0).v.HasNaN := by
  have hd : (p.toData s.N s.nx s.nu s.nc).d k j = XReal.negInf := by
    rw [← hb]
    simp [MpcProblem.toData]
  have hm := MpcData.margin_inf_or (d := p.toData s.N s.nx s.nu s.nc) (x.z.toVec _) hd
  rw [colBlock_get] at hv
  refine ⟨norm3_nan (.inr (.inr ⟨flatIdx k j, ?_⟩)), flatIdx k j, ?_⟩
  · simp only [penalizedMin, Vec.get_ofFn]
    exact XReal.penalized_nan _ hm hv
  · simp only [Core.Env.innerRes, Core.mkResid, Vec.get_ofFn]
    refine XReal.pfb_nan_or _ ?_ hv
    rcases hm with e | e
    · rw [show (x.guess (s.problem p)).y (flatIdx k j) = _ from e]
      exact XReal.inf_add_cases _
    · rw [show (x.guess (s.problem p)).y (flatIdx k j) = _ from e, XReal.nan_add']
      exact .inr rfl

/-- C61, FBstabMpc: the same; `d(i) = -inf` in any stage. -/
theorem C61_never_mpc (s : FBstabMpc XReal) (hs : s.Reachable) (p : MpcProblem XReal)
    (x : CallerVar XReal) (k : Fin (s.N + 1)) (j : Fin s.nc)
    (hb : p.d.toVec s.nc k j = XReal.negInf) (hv : ¬0 < colBlock (x.v.toVec ((s.N + 1) * s.nc)) k j)
    (hst : ¬onesNorm XReal ((s.N + 1) * (s.nx + s.nu)) ((s.N + 1) * s.nx) ((s.N + 1) * s.nc) ≤
      s.options.stallTol) (out : SolverOut XReal)
    (h : (s.solve p x).result = .ok out) : out.eflag ≠ .success := by
  have hlim := hs.limits XReal.beq_zero C01_validation_total_xreal
  obtain ⟨h1, -, fin, -, hr, rfl, -⟩ := FBstabMpc.returned XReal.beq_zero h
  obtain ⟨hres, hin⟩ := FBstabMpc.inf_step hb hv
  refine hr.nan hst (fun x hx => MpcData.point_nan _ hs.pos _ hx) (.inr ⟨?_,
    ⟨norm3_nan (.inr (.inr hin)), ?_⟩, hlim.maxInnerIters, hlim.maxNewtonIters⟩)
  · intro h
    rw [show Core.Resid.norm ((s.env XReal.beq_zero p).penRes (x.guess (s.problem p))) = _ from hres] at h
    exact XReal.nan_le h
  · intro g hg
    have hg : RiccatiWs.factor (p.toData s.N s.nx s.nu s.nc) s.options.alpha (x.guess (s.problem p))
      (x.guess (s.problem p)) s.options.sigma0 = .ok (some g) := hg
    unfold RiccatiWs.factor at hg
    split at hg
    · cases hg
    · split at hg
      · injection hg with hg
        injection hg with hg
        subst hg
        exact RiccatiWs.step_nan (Core.negate_nan (.inr (.inr hin)))
      · cases hg

/-! ## Positive multipliers: SUCCESS at once, with the guess as answer -/

section
variable {K : Type} [Scalar K] {nz nl nv N nx nu nc : Nat}

theorem DenseData.gradLagrangian_b (d : DenseData K nz nl nv) (b : Vec K nv) (z l v) :
    gradLagrangian ({ d with b := b } : DenseData K nz nl nv).ops z l v = gradLagrangian d.ops z l v := by
  simp only [Fbstab.gradLagrangian, DenseData.ops, DenseData.gemvAT, DenseData.gemvGT, DenseData.gemvH,
    DenseData.axpyf]

theorem DenseData.eqDefect_b (d : DenseData K nz nl nv) (b : Vec K nv) (z) :
    eqDefect ({ d with b := b } : DenseData K nz nl nv).ops z = eqDefect d.ops z := by
  simp only [Fbstab.eqDefect, DenseData.ops, DenseData.gemvG, DenseData.axpyh]

theorem MpcData.gradLagrangian_d (d : MpcData K N nx nu nc) (b : Vec (Vec K nc) (N + 1)) (z l v) :
    gradLagrangian ({ d with d := b } : MpcData K N nx nu nc).ops z l v = gradLagrangian d.ops z l v := by
  simp only [Fbstab.gradLagrangian, MpcData.ops]
  unfold MpcData.gemvAT MpcData.gemvGT MpcData.gemvH MpcData.axpyf
  rfl

theorem MpcData.eqDefect_d (d : MpcData K N nx nu nc) (b : Vec (Vec K nc) (N + 1)) (z) :
    eqDefect ({ d with d := b } : MpcData K N nx nu nc).ops z = eqDefect d.ops z := by
  simp only [Fbstab.eqDefect, MpcData.ops]
  unfold MpcData.gemvG MpcData.axpyh
  rfl

end

/-- C61, FBstabDense: a finite problem and guess, except that some bounds are `+inf`; positive
multipliers there.  `Solve` reports SUCCESS without looking at the problem any further. -/
theorem C61_false_success_dense (s : FBstabDense XReal) (p : DenseProblem ℝ) (b : DVec XReal)
    (x : CallerVar ℝ) (hf : DenseFits s.nz s.nl s.nv { p.up with b := b } x.up) (hy : x.YWritable s.nv)
    (o : Params ℝ) (ho : s.options = o.up) (hr : o.InRange) (hrel : 0 < o.relTol)
    (hm : o.innerTolMin ≤ o.innerTolMax)
    (hb : ∀ i, b.toVec s.nv i = XReal.inf ∨ ∃ r, b.toVec s.nv i = up r)
    (hv : ∀ i, b.toVec s.nv i = XReal.inf → 0 < x.v.toVec s.nv i)
    (i : Fin s.nv) (hi : b.toVec s.nv i = XReal.inf) :
    let r := s.solve { p.up with b := b } x.up
    r.result = .ok ⟨.success, XReal.inf, 0, 0, XReal.inf⟩ ∧
    r.x.z = x.z.up ∧ r.x.l = x.l.up ∧ r.x.v = x.v.up := by
  obtain ⟨P, hP⟩ : ∃ P : DenseProblem XReal, P = { p.up with b := b } := ⟨_, rfl⟩
  rw [← hP] at hf ⊢
  intro r
  have hd : P.toData s.nz s.nl s.nv = { (p.toData s.nz s.nl s.nv).up with b := b.toVec s.nv } := by
    rw [← DenseProblem.up_toData, hP]
    rfl
  have hup := DenseData.up_ops (p.toData s.nz s.nl s.nv)
  have e1 : x.up.z.toVec s.nz = (x.z.toVec s.nz).up := DVec.up_toVec ..
  have e2 : x.up.l.toVec s.nl = (x.l.toVec s.nl).up := DVec.up_toVec ..
  have e3 : x.up.v.toVec s.nv = (x.v.toVec s.nv).up := DVec.up_toVec ..
  have hA : (P.toData s.nz s.nl s.nv).A = (p.toData s.nz s.nl s.nv).A.up := by rw [hd]; rfl
  have hbd : (P.toData s.nz s.nl s.nv).b = b.toVec s.nv := by rw [hd]
  have hmar := DenseData.margin_open (d := P.toData s.nz s.nl s.nv) hA (x.z.toVec s.nz)
  rw [hbd] at hmar
  have hres : residualNorm (s.problem P) s.options.alpha (x.up.guess (s.problem P)) = XReal.inf := by
    rw [ho]
    refine residual_inf (alpha := o.alpha) hr.divisors.2.1
      (g := gradLagrangian (p.toData s.nz s.nl s.nv).ops (x.z.toVec s.nz) (x.l.toVec s.nl) (x.v.toVec s.nv))
      (e := eqDefect (p.toData s.nz s.nl s.nv).ops (x.z.toVec s.nz)) (v := x.v.toVec s.nv)
      ?_ ?_ e3 ?_ ?_ i ?_
    · show gradLagrangian (P.toData s.nz s.nl s.nv).ops (x.up.z.toVec s.nz) (x.up.l.toVec s.nl)
        (x.up.v.toVec s.nv) = _
      rw [hd, e1, e2, e3, ← hup.gradLagrangian, DenseData.gradLagrangian_b]
    · show eqDefect (P.toData s.nz s.nl s.nv).ops (x.up.z.toVec s.nz) = _
      rw [hd, e1, ← hup.eqDefect, DenseData.eqDefect_b]
    · intro j
      show (margin (P.toData s.nz s.nl s.nv).ops (x.up.z.toVec s.nz) j).Big
      rw [e1]
      rcases hb j with h | ⟨r, h⟩
      · exact .inl ((hmar j).1 h)
      · exact .inr ((hmar j).2 r h)
    · intro j hj
      rcases hb j with h | ⟨r, h⟩
      · exact hv j h
      · obtain ⟨q, e⟩ := (hmar j).2 r h
        have hj : margin (P.toData s.nz s.nl s.nv).ops (x.up.z.toVec s.nz) j = XReal.inf := hj
        rw [e1, e] at hj
        simp [up, XReal.inf] at hj
    · show margin (P.toData s.nz s.nl s.nv).ops (x.up.z.toVec s.nz) i = _
      rw [e1]
      exact (hmar i).1 hi
  have htol : stoppingTol (s.problem P) s.options = XReal.inf := by
    rw [ho]
    refine stoppingTol_inf hrel (DenseData.forcingNorm_inf (d := P.toData s.nz s.nl s.nv)
      (f := (p.toData s.nz s.nl s.nv).f) (h := (p.toData s.nz s.nl s.nv).h) (by rw [hd]; rfl) (by rw [hd]; rfl)
      ?_ (i := i) (by rw [hbd]; exact hi))
    intro j
    rw [hbd]
    exact hb j
  have hlim : 1 ≤ s.options.maxProxIters := by rw [ho]; exact hr.maxProxIters
  have hm' : ¬s.options.innerTolMax < s.options.innerTolMin := by
    rw [ho]
    show ¬up o.innerTolMax < up o.innerTolMin
    rw [up_lt]
    exact not_lt.2 hm
  have hy' : x.up.YWritable s.nv := fun h => by
    show x.y.up.size = _
    rw [← hy h]
    simp [DVec.up, DVec.size]
  have := C12_dense s P x.up hlim hm' hf hy'
    (by rw [hres, htol]; exact le_refl (⊤ : EReal))
  rw [hres] at this
  exact ⟨this.1, this.2.1, this.2.2.1, this.2.2.2.1⟩

/-- C61, FBstabMpc: the same; some entries of the `d` of some stages are `-inf`. -/
theorem C61_false_success_mpc (s : FBstabMpc XReal) (p : MpcProblem ℝ) (b : MapSequence XReal)
    (x : CallerVar ℝ) (hf : MpcFits s.N s.nx s.nu s.nc { p.up with d := b } x.up)
    (hcol : ({ p.up with d := b } : MpcProblem XReal).Columns)
    (o : Params ℝ) (ho : s.options = o.up) (hr : o.InRange) (hrel : 0 < o.relTol)
    (hm : o.innerTolMin ≤ o.innerTolMax)
    (hb : ∀ (k : Fin (s.N + 1)) i, b.toVec s.nc k i = XReal.negInf ∨ ∃ r, b.toVec s.nc k i = up r)
    (hv : ∀ (k : Fin (s.N + 1)) i, b.toVec s.nc k i = XReal.negInf →
      0 < colBlock (x.v.toVec ((s.N + 1) * s.nc)) k i)
    (k : Fin (s.N + 1)) (i : Fin s.nc) (hi : b.toVec s.nc k i = XReal.negInf) :
    let r := s.solve { p.up with d := b } x.up
    r.result = .ok ⟨.success, XReal.inf, 0, 0, XReal.inf⟩ ∧
    r.x.z = x.z.up ∧ r.x.l = x.l.up ∧ r.x.v = x.v.up := by
  obtain ⟨P, hP⟩ : ∃ P : MpcProblem XReal, P = { p.up with d := b } := ⟨_, rfl⟩
  rw [← hP] at hf hcol ⊢
  intro r
  obtain ⟨dd, hdd⟩ : ∃ dd : Vec (Vec XReal s.nc) (s.N + 1), ∀ k : Fin (s.N + 1), dd k = b.toVec s.nc k :=
    ⟨Vec.ofFn fun k => b.toVec s.nc k, by simp⟩
  have hd : P.toData s.N s.nx s.nu s.nc = { (p.toData s.N s.nx s.nu s.nc).up with d := dd } := by
    have e : dd = Vec.ofFn fun k : Fin (s.N + 1) => b.toVec s.nc k := by ext1 k; rw [hdd]; simp
    rw [← MpcProblem.up_toData, hP, e]
    rfl
  have hup := MpcData.up_ops (p.toData s.N s.nx s.nu s.nc)
  have e1 : x.up.z.toVec ((s.N + 1) * (s.nx + s.nu)) = (x.z.toVec _).up := DVec.up_toVec ..
  have e2 : x.up.l.toVec ((s.N + 1) * s.nx) = (x.l.toVec _).up := DVec.up_toVec ..
  have e3 : x.up.v.toVec ((s.N + 1) * s.nc) = (x.v.toVec _).up := DVec.up_toVec ..
  have hmar := MpcData.margin_open (d := P.toData s.N s.nx s.nu s.nc) (d' := p.toData s.N s.nx s.nu s.nc)
    (by rw [hd]) (by rw [hd]) (x.z.toVec _)
  have hbd : (P.toData s.N s.nx s.nu s.nc).d = dd := by rw [hd]
  rw [hbd] at hmar
  have hb' : ∀ k i, dd k i = XReal.negInf ∨ ∃ r, dd k i = up r := fun k i => by rw [hdd]; exact hb k i
  have hi' : dd k i = XReal.negInf := by rw [hdd]; exact hi
  have hres : residualNorm (s.problem P) s.options.alpha (x.up.guess (s.problem P)) = XReal.inf := by
    rw [ho]
    refine residual_inf (alpha := o.alpha) hr.divisors.2.1
      (g := gradLagrangian (p.toData s.N s.nx s.nu s.nc).ops (x.z.toVec _) (x.l.toVec _) (x.v.toVec _))
      (e := eqDefect (p.toData s.N s.nx s.nu s.nc).ops (x.z.toVec _)) (v := x.v.toVec _)
      ?_ ?_ e3 ?_ ?_ (flatIdx k i) ?_
    · show gradLagrangian (P.toData s.N s.nx s.nu s.nc).ops (x.up.z.toVec _) (x.up.l.toVec _)
        (x.up.v.toVec _) = _
      rw [hd, e1, e2, e3, ← hup.gradLagrangian, MpcData.gradLagrangian_d]
    · show eqDefect (P.toData s.N s.nx s.nu s.nc).ops (x.up.z.toVec _) = _
      rw [hd, e1, ← hup.eqDefect, MpcData.eqDefect_d]
    · intro j
      obtain ⟨k, j, rfl⟩ := flatIdx_surj j
      show (margin (P.toData s.N s.nx s.nu s.nc).ops (x.up.z.toVec _) _).Big
      rw [e1]
      rcases hb' k j with h | ⟨r, h⟩
      · exact .inl ((hmar k j).1 h)
      · exact .inr ((hmar k j).2 r h)
    · intro j hj
      obtain ⟨k, j, rfl⟩ := flatIdx_surj j
      rcases hb' k j with h | ⟨r, h⟩
      · rw [hdd] at h
        have := hv k j h
        rwa [colBlock_get] at this
      · obtain ⟨q, e⟩ := (hmar k j).2 r h
        have hj : margin (P.toData s.N s.nx s.nu s.nc).ops (x.up.z.toVec _) (flatIdx k j) = XReal.inf := hj
        rw [e1, e] at hj
        simp [up, XReal.inf] at hj
    · show margin (P.toData s.N s.nx s.nu s.nc).ops (x.up.z.toVec _) _ = _
      rw [e1]
      exact (hmar k i).1 hi'
  have htol : stoppingTol (s.problem P) s.options = XReal.inf := by
    rw [ho]
    exact stoppingTol_inf hrel (MpcData.forcingNorm_inf (d := P.toData s.N s.nx s.nu s.nc) hd hb' hi')
  have hlim : 1 ≤ s.options.maxProxIters := by rw [ho]; exact hr.maxProxIters
  have hm' : ¬s.options.innerTolMax < s.options.innerTolMin := by
    rw [ho]
    show ¬up o.innerTolMax < up o.innerTolMin
    rw [up_lt]
    exact not_lt.2 hm
  have := C12_mpc XReal.beq_zero s P x.up hlim hm' hf hcol
    (by rw [hres, htol]; exact le_refl (⊤ : EReal))
  rw [hres] at this
  exact ⟨this.1, this.2.1, this.2.2.1, this.2.2.2.1⟩

end Fbstab
