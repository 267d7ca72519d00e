import Verif.Proofs.UpMpc
import Verif.Proofs.Workspace
import Verif.Spec.RealApi
import Verif.Props.Options

/-!
# C49: with finite data there are no infinities and no NaN

Statements about runs in real arithmetic (convexity, KKT systems, certificates, convergence) are
statements about what the code does in arithmetic with infinities and NaN, as long as the data are
finite: no division by zero, no square root of a negative number happens.
-/

namespace Fbstab

/-- The options that matter: those that keep all divisors away from zero. -/
theorem Params.InRange.divisors {o : Params ℝ} (h : o.InRange) :
    0 < o.alpha ∧ o.alpha < 1 ∧ 0 < o.sigma0 := by
  have h1 := h.alpha.1
  have h2 := h.alpha.2
  have h3 := h.sigma0_pos
  norm_num at h1 h2 h3
  exact ⟨by linarith, by linarith, by linarith⟩

theorem CallerVar.up_YWritable (nv : Nat) (x : CallerVar ℝ) : x.up.YWritable nv ↔ x.YWritable nv := by
  simp only [CallerVar.YWritable, CallerVar.up, DVec.up_size]

/-- How the outcomes of corresponding pure runs correspond. -/
theorem Computes.up {nz nl nv : Nat} {ops : QPOps ℝ nz nl nv} {ops' : QPOps XReal nz nl nv}
    {opts : Params ℝ} {ri : Resid ℝ nz nl nv} {ri' : Resid XReal nz nl nv}
    {p : List (Core.Event ℝ nz nl nv) × Except Err (Core.Final ℝ nz nl nv)}
    {x : CallerVar ℝ} {S S' : Type} {o : Outcome ℝ S} {o' : Outcome XReal S'}
    (ht : stoppingTol ops' opts.up = Fbstab.up (stoppingTol ops opts))
    (h : Computes ops opts ri p x o.x o.log o.result)
    (h' : Computes ops' opts.up ri' (p.1.map Core.Event.up, p.2.map Core.Final.up) x.up o'.x o'.log
      o'.result) (hy : x.YWritable nv) :
    o'.result = o.result.map SolverOut.up ∧ o'.x = o.x.up ∧
      (ri' = ri.up → o'.log = o.log.map Msg.up) := by
  cases hp : p.2 with
  | error e =>
    obtain ⟨a1, a2, a3⟩ := h.error e hp
    obtain ⟨b1, b2, b3⟩ := h'.error e (by rw [hp]; rfl)
    refine ⟨by rw [a1, b1]; rfl, by rw [a2, b2], fun hr => ?_⟩
    rw [a3, b3, ht, hr, Core.up_render]
  | ok fin =>
    obtain ⟨a1, a2, a3⟩ := h.ok fin hp hy
    obtain ⟨b1, b2, b3⟩ := h'.ok fin.up (by rw [hp]; rfl) ((CallerVar.up_YWritable _ _).2 hy)
    refine ⟨by rw [a1, b1]; rfl, ?_, fun hr => ?_⟩
    · rw [a2, b2]; exact CallerVar.up_ofPoint _ _
    · rw [a3, b3, ht, hr, Core.up_render]

theorem DenseFits.up_iff (nz nl nv : Nat) (p : DenseProblem ℝ) (x : CallerVar ℝ) :
    DenseFits nz nl nv p.up x.up ↔ DenseFits nz nl nv p x := by
  constructor
  · intro h
    obtain ⟨h1, h2, h3, h4, h5, h6, h7, h8, h9, h10, h11, h12⟩ := h
    simp only [DenseProblem.up, CallerVar.up, DVec.up_size] at *
    exact ⟨h1, h2, h3, h4, h5, h6, h7, h8, h9, h10, h11, h12⟩
  · intro h
    obtain ⟨h1, h2, h3, h4, h5, h6, h7, h8, h9, h10, h11, h12⟩ := h
    constructor <;> simp only [DenseProblem.up, CallerVar.up, DVec.up_size] <;> assumption

/-- C49, FBstabDense.  In arithmetic with infinities and NaN, with finite data, options in the
documented ranges, and no infinities or NaN in the memory of the feasibility checker (or the check
switched off), `Solve` returns (or throws) and writes what it does in real arithmetic; all numbers
returned are finite.  If the last inner residuals kept in the two objects agree, so does the log. -/
theorem C49_dense (s : FBstabDense ℝ) (s' : FBstabDense XReal)
    (hz : s'.nz = s.nz) (hl : s'.nl = s.nl) (hv : s'.nv = s.nv) (ho : s'.options = s.options.up)
    (hr : s.options.InRange)
    (hw : s.options.checkFeasibility = false ∨ s'.mem.feas.ws.Finite)
    (p : DenseProblem ℝ) (x : CallerVar ℝ) (hy : x.YWritable s.nv) :
    (s'.solve p.up x.up).result = (s.solve p x).result.map SolverOut.up ∧
    (s'.solve p.up x.up).x = (s.solve p x).x.up := by
  obtain ⟨nz, nl, nv, mem⟩ := s
  obtain ⟨nz', nl', nv', mem'⟩ := s'
  dsimp only at hz hl hv
  subst hz hl hv
  obtain ⟨i1, i2, i3⟩ := hr.divisors
  by_cases hf : DenseFits nz' nl' nv' p x
  · have h1 := FBstabDense.solve_computes (s := ⟨nz', nl', nv', mem⟩) hf
    have h2 := FBstabDense.solve_computes (s := ⟨nz', nl', nv', mem'⟩)
      ((DenseFits.up_iff _ _ _ p x).2 hf)
    have ht : ∀ o : Params ℝ, stoppingTol (p.up.toData nz' nl' nv').ops o.up =
        up (stoppingTol (p.toData nz' nl' nv').ops o) := by
      intro o
      have := (DenseData.up_ops (p.toData nz' nl' nv')).forcingNorm
      rw [DenseProblem.up_toData]
      simp only [stoppingTol, Params.up, this, up_one, up_add, up_mul]
    have hU : ∀ W : FeasWs ℝ nz' nl' nv' → FeasWs XReal nz' nl' nv' → Prop,
        (mem.opts.checkFeasibility = true → ∀ x ws ws', W ws ws' →
          (checkFeasibility (p.up.toData nz' nl' nv').ops x.up (up mem.opts.infeasTol) ws').1 =
            (checkFeasibility (p.toData nz' nl' nv').ops x mem.opts.infeasTol ws).1 ∧
          W (checkFeasibility (p.toData nz' nl' nv').ops x mem.opts.infeasTol ws).2
            (checkFeasibility (p.up.toData nz' nl' nv').ops x.up (up mem.opts.infeasTol) ws').2) →
        Core.UpEnv (Core.env (denseSem ℝ nz' nl' nv') (p.toData nz' nl' nv')
          (p.toData nz' nl' nv').ops mem.opts)
          (Core.env (denseSem XReal nz' nl' nv') (p.up.toData nz' nl' nv')
          (p.up.toData nz' nl' nv').ops mem'.opts) W := by
      intro W hW
      have e : mem'.opts = mem.opts.up := ho
      constructor
      · exact e
      · rw [DenseProblem.up_toData]; exact DenseData.up_ops _
      · intro a b
        have := up_denseFactor (p.toData nz' nl' nv') i1 i2 i3 a b
        simp only [denseSem, e]
        rw [DenseProblem.up_toData]
        exact this
      · exact hW
    have key : FBstabDense.core ⟨nz', nl', nv', mem'⟩ p.up x.up =
        ((FBstabDense.core ⟨nz', nl', nv', mem⟩ p x).1.map Core.Event.up,
          (FBstabDense.core ⟨nz', nl', nv', mem⟩ p x).2.map Core.Final.up) := by
      simp only [FBstabDense.core]
      rcases hw with hc | ⟨⟨a, ha⟩, ⟨b, hb⟩, ⟨c, hc⟩⟩
      · have := (hU (fun _ _ => True) (fun h => by
          have : mem.opts.checkFeasibility = false := hc
          rw [this] at h; cases h)).solve mem.feas.ws mem'.feas.ws trivial (x.z.toVec nz')
          (x.l.toVec nl') (x.v.toVec nv')
        simp only [CallerVar.up, DVec.up_toVec]
        exact this
      · have e1 : mem'.feas.ws = FeasWs.up ⟨a, b, c⟩ := by
          simp only at ha hb hc
          cases hws : mem'.feas.ws with | mk tz tl tv =>
          rw [hws] at ha hb hc
          simp only at ha hb hc
          rw [ha, hb, hc]; rfl
        have := (hU (fun w w' => w' = w.up) (fun _ y w w' h => by
          subst h
          rw [DenseProblem.up_toData, (DenseData.up_ops _).checkFeasibility]
          exact ⟨rfl, rfl⟩)).solve ⟨a, b, c⟩ mem'.feas.ws e1 (x.z.toVec nz')
          (x.l.toVec nl') (x.v.toVec nv')
        simp only [CallerVar.up, DVec.up_toVec]
        have e2 := Core.solve_ws (E := Core.env (denseSem ℝ nz' nl' nv') (p.toData nz' nl' nv')
          (p.toData nz' nl' nv').ops mem.opts) (DenseData.clears (by simp) _) ⟨a, b, c⟩ mem.feas.ws
          (x.z.toVec nz') (x.l.toVec nl') (x.v.toVec nv')
        rw [e2] at this
        exact this
    rw [key] at h2
    have ho' : FBstabDense.options ⟨nz', nl', nv', mem'⟩ = mem.opts.up := ho
    rw [ho'] at h2
    obtain ⟨r1, r2, -⟩ := Computes.up (ht mem.opts) h1 h2 hy
    exact ⟨r1, r2⟩
  · have hn := fun h => hf ((DenseFits.up_iff nz' nl' nv' p x).1 h)
    have e : FBstabDense.validateInputs ⟨nz', nl', nv', mem'⟩ p.up x.up =
        FBstabDense.validateInputs ⟨nz', nl', nv', mem⟩ p x := by
      simp only [FBstabDense.validateInputs, DenseProblem.up, CallerVar.up, DVec.up_size]
    simp only [FBstabDense.solve, DenseProblem.up_validate]
    cases h1 : p.validate with
    | error er => exact ⟨rfl, rfl⟩
    | ok u =>
      simp only [e]
      cases h2 : FBstabDense.validateInputs ⟨nz', nl', nv', mem⟩ p x with
      | error er => exact ⟨rfl, rfl⟩
      | ok u => exact absurd (FBstabDense.fits_of_validate h1 h2) hf

theorem MpcFits.up_iff (N nx nu nc : Nat) (p : MpcProblem ℝ) (x : CallerVar ℝ) :
    MpcFits N nx nu nc p.up x.up ↔ MpcFits N nx nu nc p x := by
  constructor
  · intro h
    obtain ⟨h1, h2, h3, h4, h5, h6, h7, h8, h9, h10, h11, h12, h13, h14, h15, h16⟩ := h
    simp only [MpcProblem.up, MapSequence.up, CallerVar.up, DVec.up_size] at *
    exact ⟨h1, h2, h3, h4, h5, h6, h7, h8, h9, h10, h11, h12, h13, h14, h15, h16⟩
  · intro h
    obtain ⟨h1, h2, h3, h4, h5, h6, h7, h8, h9, h10, h11, h12, h13, h14, h15, h16⟩ := h
    constructor <;> simp only [MpcProblem.up, MapSequence.up, CallerVar.up, DVec.up_size] <;> assumption

/-- C49, FBstabMpc.  Here nothing needs to be known of the memory of the feasibility checker. -/
theorem C49_mpc (s : FBstabMpc ℝ) (s' : FBstabMpc XReal)
    (hN : s'.N = s.N) (hx : s'.nx = s.nx) (hu : s'.nu = s.nu) (hc : s'.nc = s.nc)
    (ho : s'.options = s.options.up) (hr : s.options.InRange)
    (p : MpcProblem ℝ) (x : CallerVar ℝ) :
    (s'.solve p.up x.up).result = (s.solve p x).result.map SolverOut.up ∧
    (s'.solve p.up x.up).x = (s.solve p x).x.up := by
  obtain ⟨N, nx, nu, nc, mem⟩ := s
  obtain ⟨N', nx', nu', nc', mem'⟩ := s'
  dsimp only at hN hx hu hc
  subst hN hx hu hc
  obtain ⟨i1, i2, i3⟩ := hr.divisors
  have r0 : ((0 : ℝ) == 0) = true := by simp
  have e : mem'.opts = mem.opts.up := ho
  by_cases hf : MpcFits N' nx' nu' nc' p x
  · by_cases hcol : p.Columns
    · have hcol' : p.up.Columns := hcol
      have h1 := FBstabMpc.solve_computes r0 (s := ⟨N', nx', nu', nc', mem⟩) hf hcol
      have h2 := FBstabMpc.solve_computes XReal.beq_zero (s := ⟨N', nx', nu', nc', mem'⟩)
        ((MpcFits.up_iff _ _ _ _ p x).2 hf) hcol'
      have ht : ∀ o : Params ℝ, stoppingTol (p.up.toData N' nx' nu' nc').ops o.up =
          up (stoppingTol (p.toData N' nx' nu' nc').ops o) := by
        intro o
        have := (MpcData.up_ops (p.toData N' nx' nu' nc')).forcingNorm
        rw [MpcProblem.up_toData]
        simp only [stoppingTol, Params.up, this, up_one, up_add, up_mul]
      have hU : Core.UpEnv (Core.env (riccatiSem ℝ r0 N' nx' nu' nc') (p.toData N' nx' nu' nc')
          (p.toData N' nx' nu' nc').ops mem.opts)
          (Core.env (riccatiSem XReal XReal.beq_zero N' nx' nu' nc') (p.up.toData N' nx' nu' nc')
          (p.up.toData N' nx' nu' nc').ops mem'.opts) (fun _ _ => True) := by
        constructor
        · exact e
        · rw [MpcProblem.up_toData]; exact MpcData.up_ops _
        · intro a b
          have := RiccatiWs.up_factor (p.toData N' nx' nu' nc') (alpha := mem.opts.alpha)
            (sigma := mem.opts.sigma0) i1 i2 i3 a b
          have ea : mem'.opts.alpha = up mem.opts.alpha := by rw [e]; rfl
          simp only [riccatiSem, ea]
          rw [MpcProblem.up_toData]
          revert this
          cases RiccatiWs.factor (p.toData N' nx' nu' nc') mem.opts.alpha a b mem.opts.sigma0 with
          | error er => exact fun h => h
          | ok g => cases g with
            | none => exact fun h => h
            | some g => exact fun h => h
        · intro _ y w w' _
          refine ⟨?_, trivial⟩
          rw [MpcProblem.up_toData, checkFeasibility_ws (MpcData.clears XReal.beq_zero _) y.up _ w' w.up,
            (MpcData.up_ops _).checkFeasibility]
      have key : FBstabMpc.core XReal.beq_zero ⟨N', nx', nu', nc', mem'⟩ p.up x.up =
          ((FBstabMpc.core r0 ⟨N', nx', nu', nc', mem⟩ p x).1.map Core.Event.up,
            (FBstabMpc.core r0 ⟨N', nx', nu', nc', mem⟩ p x).2.map Core.Final.up) := by
        have := hU.solve mem.feas.ws mem'.feas.ws trivial (x.z.toVec _) (x.l.toVec _) (x.v.toVec _)
        simp only [FBstabMpc.core, CallerVar.up, DVec.up_toVec]
        exact this
      rw [key] at h2
      have ho' : FBstabMpc.options ⟨N', nx', nu', nc', mem'⟩ = mem.opts.up := ho
      rw [ho'] at h2
      obtain ⟨r1, r2, -⟩ := Computes.up (ht mem.opts) h1 h2 (fun _ => hf.y)
      exact ⟨r1, r2⟩
    · have hcol' : ¬p.up.Columns := hcol
      have hfu := (MpcFits.up_iff _ _ _ _ p x).2 hf
      obtain ⟨a1, a2⟩ := FBstabMpc.validate_of_fits (s := ⟨N', nx', nu', nc', mem⟩) hf
      obtain ⟨b1, b2⟩ := FBstabMpc.validate_of_fits (s := ⟨N', nx', nu', nc', mem'⟩) hfu
      have c1 : p.q.nc ≠ 1 ∨ p.r.nc ≠ 1 ∨ p.c.nc ≠ 1 ∨ p.d.nc ≠ 1 := by
        by_contra hh
        push Not at hh
        exact hcol hh
      have c2 : p.up.q.nc ≠ 1 ∨ p.up.r.nc ≠ 1 ∨ p.up.c.nc ≠ 1 ∨ p.up.d.nc ≠ 1 := c1
      simp only [FBstabMpc.solve, a1, a2, b1, b2, if_pos c1, if_pos c2, and_true]
      rfl
  · have hn := fun h => hf ((MpcFits.up_iff N' nx' nu' nc' p x).1 h)
    have e : FBstabMpc.validateInputSizes ⟨N', nx', nu', nc', mem'⟩ p.up x.up =
        FBstabMpc.validateInputSizes ⟨N', nx', nu', nc', mem⟩ p x := by
      simp only [FBstabMpc.validateInputSizes, MpcProblem.up, MapSequence.up, CallerVar.up, DVec.up_size]
    simp only [FBstabMpc.solve, MpcProblem.up_validate]
    cases h1 : p.validate with
    | error er => exact ⟨rfl, rfl⟩
    | ok u =>
      simp only [e]
      cases h2 : FBstabMpc.validateInputSizes ⟨N', nx', nu', nc', mem⟩ p x with
      | error er => exact ⟨rfl, rfl⟩
      | ok u => exact absurd (FBstabMpc.fits_of_validate h1 h2) hf

/-- Two fresh `FBstabMpc` objects with default options, one in each arithmetic, whatever their memory
holds: the hypotheses of `C49_mpc` are met (those of `C49_dense`: see `C39_not_dense`). -/
example (junk : MpcJunk ℝ) (junk' : MpcJunk XReal) (p : MpcProblem ℝ) (x : CallerVar ℝ) :
    ∃ (s : FBstabMpc ℝ) (s' : FBstabMpc XReal), FBstabMpc.new junk 2 2 1 3 = .ok s ∧
      FBstabMpc.new junk' 2 2 1 3 = .ok s' ∧ (s'.solve p.up x.up).x = (s.solve p x).x.up := by
  have h : ∀ {K : Type} [Scalar K] (j : MpcJunk K), FBstabMpc.new j 2 2 1 3 = .ok ⟨2, 2, 1, 3,
      AlgMem.fresh (ls := riccatiSolver K 2 2 1 3)
        { j.lin 2 2 1 3 with alpha := 0.95, data := none } (j.feas _ _ _)⟩ := fun _ => rfl
  refine ⟨_, _, h junk, h junk', ?_⟩
  refine (C49_mpc _ _ ?_ ?_ ?_ ?_ ?_ ?_ p x).2
  all_goals first | exact defaults_inRange | rfl

end Fbstab
