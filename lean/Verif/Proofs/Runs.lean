import Verif.Props.FullConvergenceMpc
import Verif.Props.Infeasible
import Verif.Props.NoThrow
import Verif.Props.Stall

/-!
# Concrete runs used to show that the theorems' hypotheses can be met
-/

namespace Fbstab
open Matrix

/-- `halfOptions` with the feasibility check switched on or off and any display level. -/
noncomputable def runOptions (c : Bool) (d : Display) : Params ℝ :=
  { halfOptions with checkFeasibility := c, displayLevel := d }

theorem runOptions_inRange (c : Bool) (d : Display) : (runOptions c d).InRange := by
  constructor <;> simp only [runOptions, halfOptions, Params.defaults, Between] <;> norm_num

noncomputable abbrev runSolver (junk : DenseJunk ℝ) (c : Bool) (d : Display) : FBstabDense ℝ :=
  FBstabDense.made junk 1 0 1 (runOptions c d)

/-- `z = -1e-4` violates `-0.1 z <= 0`. -/
noncomputable abbrev runGuess : CallerVar ℝ := guessOf (nz := 1) (nl := 0) (nv := 1) (fun _ => -1e-4) 0 0

theorem runSolver_reachable (junk : DenseJunk ℝ) (c : Bool) (d : Display) : (runSolver junk c d).Reachable :=
  FBstabDense.made_reachable junk _ (by norm_num) (by norm_num) (by norm_num [intLimit]) (runOptions_inRange c d)

theorem runSolver_qp (junk : DenseJunk ℝ) (c : Bool) (d : Display) :
    (runSolver junk c d).qp halfQP.toDense = halfQP := FBstabDense.made_qp junk _ _

theorem QP.not_primalCertificate {nz nl nv : Nat} {q : QP nz nl nv} (hh : q.h = 0) (hb : q.b = 0) {tol : ℝ}
    {l : Fin nl → ℝ} {v : Fin nv → ℝ} : ¬q.PrimalCertificate tol l v := by
  intro h
  have := h.neg
  rw [hh, hb] at this
  simp at this

theorem QP.not_dualCertificate {nz nl nv : Nat} {q : QP nz nl nv} (hf : q.f = 0) {tol : ℝ}
    {z : Fin nz → ℝ} : ¬q.DualCertificate tol z := by
  intro h
  have := h.descent
  rw [hf] at this
  simp at this

theorem ExitFlag.ne_of_not_claims {f : ExitFlag} (h1 : ¬f.claimsPrimal) (h2 : ¬f.claimsDual)
    (h3 : f ≠ .divergence) : f = .success ∨ f = .maxIterations := by
  cases f
  all_goals first | exact absurd rfl h3 | exact .inl rfl | exact .inr rfl | skip
  · exact absurd (.inl rfl) h1
  · exact absurd (.inl rfl) h2
  · exact absurd (.inr rfl) h1

theorem QP.newtonPerProx_pos {nz nl nv : Nat} {q : QP nz nl nv} {o : Params ℝ} {M rho : ℝ}
    (h : o.nonmonotoneLinesearch = false) : 0 < q.newtonPerProx o M rho := by
  rw [QP.newtonPerProx, h]
  have := le_max_left 0 (Real.log (q.startResidual M rho ^ 2 / o.innerTolMin ^ 2) / q.newtonRate o M rho)
  simp only [Bool.false_eq_true, if_false]
  linarith

/-- The run: one proximal iteration, SUCCESS. -/
theorem run_dense (junk : DenseJunk ℝ) (c : Bool) (d : Display) :
    ∃ out, ((runSolver junk c d).solve halfQP.toDense runGuess).result = .ok out ∧ out.eflag = .success ∧
      out.proxIters = 1 ∧ out.newtonIters < 200000 := by
  let s := runSolver junk c d
  let x := runGuess
  have hq : s.qp halfQP.toDense = halfQP := runSolver_qp junk c d
  have hr : s.Reachable := runSolver_reachable junk c d
  have hst := absTol_le_stoppingTol (s.realEnv halfQP.toDense).ops (C01_reachable_dense s hr)
  have hst' : (9e-4 : ℝ) ≤ stoppingTol (s.problem halfQP.toDense) s.options := hst
  obtain ⟨g1, g2, g3⟩ := guessOf_point (nz := 1) (nl := 0) (nv := 1) (fun _ => -1e-4) 0 0
  have g1' : (x.z.toVec s.nz).fn = fun _ => -1e-4 := g1
  have g2' : (x.l.toVec s.nl).fn = 0 := g2
  have g3' : (x.v.toVec s.nv).fn = 0 := g3
  have hk : (s.qp halfQP.toDense).KKT 0 0 0 := by
    rw [hq]; exact halfQP_kkt
  obtain ⟨out, h1, h2⟩ := C48_dense s hr halfQP.toDense x (halfQP.toDense_fits _ _ _)
    (guessOf_writable _ _ _ _) (hq ▸ halfQP_convex)
    ⟨by show (3e-5 : ℝ) ≤ 3e-5; norm_num,
      le_trans (by show (3e-5 : ℝ) ≤ 9e-4; norm_num) hst'⟩ _ _ _ hk 1e-4 0 (by norm_num) (by
      rw [g1', g2', g3']
      show QP.dist2 (nz := 1) (nl := 0) (nv := 1) (fun _ => -1e-4) 0 0 0 0 0 ≤ _
      simp [QP.dist2, dotProduct]; norm_num) le_rfl
    (by
      have h : ∀ i : Fin 1, halfQP.b i - (halfQP.A *ᵥ 0) i ≤ 0 ∧ (0 : ℝ) ≤ 0 := fun i => by
        rw [mulVec_zero]
        simp [halfQP]
      rw [hq]
      exact h) 0 1 (by rw [hq]; exact ⟨(halfQP_enough hst').1, (halfQP_enough hst').2⟩)
    (by rw [hq]; exact ⟨halfQP_newtonEnough.1, halfQP_newtonEnough.2, halfQP_newtonEnough.3, halfQP_newtonEnough.4⟩)
    (by show ((1 : ℕ) : ℤ) < 2; norm_num)
  have hs : out.eflag = .success ∧ out.proxIters ≤ 1 ∧ out.newtonIters < 200000 := by
    rcases h2 with ⟨e1, e2, e3, -⟩ | ⟨-, n1, n2⟩
    · refine ⟨e1, e2, ?_⟩
      have hi := halfQP_newtonEnough.inner
      have e0 : 0 < halfQP.newtonPerProx halfOptions 0 (halfQP.reach halfOptions 1e-4 1) := QP.newtonPerProx_pos rfl
      rw [hq] at e3
      have e3' : (out.newtonIters : ℝ) ≤ out.proxIters * halfQP.newtonPerProx halfOptions 0 (halfQP.reach halfOptions 1e-4 1) := e3
      have e4 : (out.proxIters : ℝ) ≤ 1 := by exact_mod_cast e2
      have e5 : (out.newtonIters : ℝ) < 200000 := by
        have h6 : ((halfOptions.maxInnerIters : ℤ) : ℝ) = 200000 := by norm_num [halfOptions]
        rw [h6] at hi
        nlinarith
      exact_mod_cast e5
    · exfalso
      have c1 : ¬(s.qp halfQP.toDense).PrimalCertificate s.options.infeasTol
          (s.returnedPoint halfQP.toDense x).l.fn (s.returnedPoint halfQP.toDense x).v.fn := by
        rw [hq]
        exact QP.not_primalCertificate (q := halfQP) (Subsingleton.elim _ _) rfl
      have c2 : ¬(s.qp halfQP.toDense).DualCertificate s.options.infeasTol
          (s.returnedPoint halfQP.toDense x).z.fn := by
        rw [hq]
        exact QP.not_dualCertificate (q := halfQP) rfl
      have hf := C21_dense s hr halfQP.toDense x out h1
      by_cases a : out.eflag.claimsPrimal
      · exact c1 ((hf (.inl a)).1.1 a)
      by_cases b : out.eflag.claimsDual
      · exact c2 ((hf (.inr b)).2.1 b)
      rcases ExitFlag.ne_of_not_claims a b (C05_dense s halfQP.toDense x out h1).1 with h | h
      · exact n1 h
      · exact n2 h
  refine ⟨out, h1, hs.1, le_antisymm hs.2.1 (FBstabDense.one_prox (s := s) (Nat.one_pos) ?_ h1 hs.1 ?_), hs.2.2⟩
  · show (1e-10 : ℝ) < 1
    norm_num
  · have et : stoppingTol (s.problem halfQP.toDense) s.options = 9e-4 := by
      have e1 : s.options.relTol = 0 := rfl
      have e2 : s.options.absTol = 9e-4 := rfl
      rw [stoppingTol, e1, e2, zero_mul, add_zero]
    rw [et, hq, g1', g2', g3']
    refine .inl ⟨(0 : Fin 1), ?_⟩
    show _ < abs (halfQP.lagrangeGrad (fun _ => -1e-4) 0 0 0)
    simp only [QP.lagrangeGrad, mulVec_zero, add_zero]
    simp [halfQP, mulVec, dotProduct]
    norm_num [abs_of_pos]

theorem half_stall (X g : Point ℝ 1 0 1) (v' : Fin 1 → ℝ) (bz : |(X.z + (-1 : ℝ) * g.z).fn 0| ≤ 1e-10)
    (bv : |(X.v + (-1 : ℝ) * g.v).fn 0| ≤ 1e-10)
    (e0 : |halfQP.lagrangeGrad X.z.fn X.l.fn v' 0| ≤ 3e-5 + 1 * 1e-10)
    (e1 : |v' 0 - X.v.get 0| ≤ 2 * 3e-5 / 0.999) (gz : g.z.fn 0 = -1e-4) (gv : g.v.fn 0 = 0) : False := by
  have hz : (X.z + (-1 : ℝ) * g.z).fn 0 = X.z.fn 0 - g.z.fn 0 := by
    simp [sub_eq_add_neg]
  have hv : (X.v + (-1 : ℝ) * g.v).fn 0 = X.v.fn 0 - g.v.fn 0 := by
    simp [sub_eq_add_neg]
  have hg : halfQP.lagrangeGrad X.z.fn X.l.fn v' 0 = 10 * X.z.fn 0 - 0.1 * v' 0 := by
    simp [QP.lagrangeGrad, halfQP, mulVec, dotProduct]
    show _ + (-0.1 : ℝ) * v' 0 = _
    ring
  rw [hz, gz] at bz
  rw [hv, gv] at bv
  rw [hg] at e0
  have e1' : |v' 0 - X.v.fn 0| ≤ 2 * 3e-5 / 0.999 := e1
  rw [abs_le] at bz bv e0 e1'
  norm_num at bz bv e0 e1'
  linarith [bz.1, bz.2, bv.1, bv.2, e0.1, e0.2, e1'.1, e1'.2]

/-- The run ends because the residual is small, not because it stalls. -/
theorem run_dense_within (junk : DenseJunk ℝ) (c : Bool) (d : Display) (out : SolverOut ℝ)
    (h : ((runSolver junk c d).solve halfQP.toDense runGuess).result = .ok out) (hs : out.eflag = .success)
    (hp : out.proxIters = 1) (hn : out.newtonIters < 200000) :
    out.residual ≤ stoppingTol ((runSolver junk c d).problem halfQP.toDense) (runSolver junk c d).options := by
  let s := runSolver junk c d
  let x := runGuess
  have hq : s.qp halfQP.toDense = halfQP := runSolver_qp junk c d
  have hr : s.Reachable := runSolver_reachable junk c d
  by_contra hres
  rcases (C06_dense s (by show (1 : ℤ) ≤ 2; norm_num) halfQP.toDense x out h hs).2 with h1 | h1 | ⟨-, h1⟩
  · exact hres h1
  · omega
  obtain ⟨v', h2, h3⟩ := C44_stalled_dense s hr halfQP.toDense x out h hs (not_le.1 hres) (by omega)
    (by show (out.newtonIters : Int) < 200000; omega)
  rw [hp] at h1 h2 h3
  rw [hq] at h3
  obtain ⟨g1, -, g3⟩ := guessOf_point (nz := 1) (nl := 0) (nv := 1) (fun _ => -1e-4) 0 0
  have b := norm3_bounds h1
  have bz := (abs_le_euclid _ (0 : Fin 1)).trans b.1
  have bv := (abs_le_euclid _ (0 : Fin 1)).trans b.2.2
  have hst : s.options.stallTol = 1e-10 := rfl
  have e0 := (abs_le_euclid _ (0 : Fin 1)).trans h3.stationary
  have e1 := h2 (0 : Fin 1)
  have ht : max s.options.innerTolMin (s.options.innerTolMax * s.options.delta ^ 1) = 3e-5 := by
    show max (3e-5 : ℝ) (3e-5 * 0.0001 ^ 1) = 3e-5
    norm_num
  rw [ht] at e0 e1
  rw [hst] at bz bv e0
  have ha : s.options.alpha = 0.999 := rfl
  have hsg : s.options.sigma0 = 1 := rfl
  rw [ha] at e1
  rw [hsg] at e0
  set X := (s.solve halfQP.toDense x).x.point s.nz s.nl s.nv with hX
  have ex : s.returnedPoint halfQP.toDense x = X := rfl
  rw [ex] at e0 e1
  have p0 : s.proxIterate halfQP.toDense x (1 - 1) = x.guess (s.problem halfQP.toDense) := rfl
  rw [p0] at bz bv
  have gz : (x.guess (s.problem halfQP.toDense)).z.fn (0 : Fin 1) = -1e-4 := congrFun g1 (0 : Fin 1)
  have gv : (x.guess (s.problem halfQP.toDense)).v.fn (0 : Fin 1) = 0 := congrFun g3 (0 : Fin 1)
  generalize x.guess (s.problem halfQP.toDense) = g at *
  exact half_stall X g v' bz bv e0 e1 gz gv

/-! ## An optimal control problem -/

noncomputable def runOptionsMpc (c : Bool) (d : Display) : Params ℝ :=
  { cornerOptions with checkFeasibility := c, displayLevel := d }

theorem runOptionsMpc_inRange (c : Bool) (d : Display) : (runOptionsMpc c d).InRange := by
  constructor <;> simp only [runOptionsMpc, cornerOptions, halfOptions, Params.defaults, Between] <;> norm_num

noncomputable abbrev runSolverMpc (junk : MpcJunk ℝ) (c : Bool) (d : Display) : FBstabMpc ℝ :=
  FBstabMpc.made junk 1 1 1 1 (runOptionsMpc c d)

noncomputable abbrev runGuessMpc : CallerVar ℝ :=
  fullGuessOf (nz := (1 + 1) * (1 + 1)) (nl := (1 + 1) * 1) (nv := (1 + 1) * 1) cornerGuess 0 0

theorem runSolverMpc_reachable (junk : MpcJunk ℝ) (c : Bool) (d : Display) : (runSolverMpc junk c d).Reachable :=
  FBstabMpc.made_reachable junk _ (by norm_num) (by norm_num)
    (by norm_num) (by norm_num) (by norm_num [intLimit]) (by norm_num [intLimit]) (runOptionsMpc_inRange c d)

theorem runSolverMpc_qp (junk : MpcJunk ℝ) (c : Bool) (d : Display) :
    (runSolverMpc junk c d).qp cornerOcp.toMpc = cornerOcp.toQP := FBstabMpc.made_qp junk _ _

/-- The run: one proximal iteration, SUCCESS. -/
theorem run_mpc (junk : MpcJunk ℝ) (c : Bool) (d : Display) :
    ∃ out, ((runSolverMpc junk c d).solve cornerOcp.toMpc runGuessMpc).result = .ok out ∧
      out.eflag = .success ∧ out.proxIters = 1 ∧ out.newtonIters < 500000 := by
  let s := runSolverMpc junk c d
  let x := runGuessMpc
  have ho : s.ocp cornerOcp.toMpc = cornerOcp := FBstabMpc.made_ocp junk _ _
  have hq : s.qp cornerOcp.toMpc = cornerOcp.toQP := runSolverMpc_qp junk c d
  have hr : s.Reachable := runSolverMpc_reachable junk c d
  have hst := absTol_le_stoppingTol (s.realEnv cornerOcp.toMpc).ops (C01_reachable_mpc s hr)
  have hst' : (9.3e-4 : ℝ) ≤ stoppingTol (s.problem cornerOcp.toMpc) s.options := hst
  obtain ⟨g1, g2, g3⟩ := fullGuessOf_point (nz := (1 + 1) * (1 + 1)) (nl := (1 + 1) * 1) (nv := (1 + 1) * 1)
    cornerGuess 0 0
  have g1' : (x.z.toVec ((s.N + 1) * (s.nx + s.nu))).fn = cornerGuess := g1
  have g2' : (x.l.toVec ((s.N + 1) * s.nx)).fn = 0 := g2
  have g3' : (x.v.toVec ((s.N + 1) * s.nc)).fn = 0 := g3
  have hk : (s.qp cornerOcp.toMpc).KKT 0 0 0 := by
    rw [hq]; exact cornerOcp_kkt
  obtain ⟨out, h1, h2⟩ := C48_mpc s hr cornerOcp.toMpc x (cornerOcp.toMpc_fits _ _ _)
    cornerOcp.toMpc_columns (ho ▸ cornerOcp_convex)
    ⟨by show (3e-5 : ℝ) ≤ 3e-5; norm_num,
      le_trans (by show (3e-5 : ℝ) ≤ 9.3e-4; norm_num) hst'⟩ _ _ _ hk 1e-4 0 (by norm_num) (by
      rw [g1', g2', g3']
      show QP.dist2 (nz := 4) (nl := 2) (nv := 2) cornerGuess 0 0 0 0 0 ≤ _
      simp [QP.dist2, dotProduct, cornerGuess]; norm_num) le_rfl
    (by
      have h : ∀ i, cornerOcp.toQP.b i - (cornerOcp.toQP.A *ᵥ 0) i ≤ 0 ∧ (0 : ℝ) ≤ 0 := fun i => by
        rw [mulVec_zero, cornerOcp_b]
        simp
      rw [hq]
      exact h) 0 1 (by rw [hq]; exact ⟨(cornerOcp_enough hst').1, (cornerOcp_enough hst').2⟩)
    (by
      rw [hq]
      exact ⟨cornerOcp_newtonEnough.1, cornerOcp_newtonEnough.2, cornerOcp_newtonEnough.3,
        cornerOcp_newtonEnough.4⟩)
    (by show ((1 : ℕ) : ℤ) < 2; norm_num)
  have hs : out.eflag = .success ∧ out.proxIters ≤ 1 ∧ out.newtonIters < 500000 := by
    rcases h2 with ⟨e1, e2, e3, -⟩ | ⟨-, n1, n2⟩
    · refine ⟨e1, e2, ?_⟩
      have hi := cornerOcp_newtonEnough.inner
      have e0 : 0 < cornerOcp.toQP.newtonPerProx cornerOptions 0 (cornerOcp.toQP.reach cornerOptions 1e-4 1) := QP.newtonPerProx_pos rfl
      rw [hq] at e3
      have e3' : (out.newtonIters : ℝ) ≤ out.proxIters * cornerOcp.toQP.newtonPerProx cornerOptions 0 (cornerOcp.toQP.reach cornerOptions 1e-4 1) := e3
      have e4 : (out.proxIters : ℝ) ≤ 1 := by exact_mod_cast e2
      have e5 : (out.newtonIters : ℝ) < 500000 := by
        have h6 : ((cornerOptions.maxInnerIters : ℤ) : ℝ) = 500000 := by norm_num [cornerOptions]
        rw [h6] at hi
        nlinarith
      exact_mod_cast e5
    · exfalso
      have c1 : ¬(s.qp cornerOcp.toMpc).PrimalCertificate s.options.infeasTol
          (s.returnedPoint cornerOcp.toMpc x).l.fn (s.returnedPoint cornerOcp.toMpc x).v.fn := by
        rw [hq]
        exact QP.not_primalCertificate (q := cornerOcp.toQP) cornerOcp_h cornerOcp_b
      have c2 : ¬(s.qp cornerOcp.toMpc).DualCertificate s.options.infeasTol
          (s.returnedPoint cornerOcp.toMpc x).z.fn := by
        rw [hq]
        exact QP.not_dualCertificate (q := cornerOcp.toQP) cornerOcp_f
      have hf := C21_mpc s hr cornerOcp.toMpc x out h1
      by_cases a : out.eflag.claimsPrimal
      · exact c1 ((hf (.inl a)).1.1 a)
      by_cases b : out.eflag.claimsDual
      · exact c2 ((hf (.inr b)).2.1 b)
      rcases ExitFlag.ne_of_not_claims a b (C05_mpc real_zero_beq s cornerOcp.toMpc x out h1).1 with h | h
      · exact n1 h
      · exact n2 h
  refine ⟨out, h1, hs.1, le_antisymm hs.2.1 (FBstabMpc.one_prox (s := s)
    (by show 0 < (1 + 1) * (1 + 1); norm_num) ?_ h1 hs.1 ?_), hs.2.2⟩
  · show (1e-10 : ℝ) < 1
    norm_num
  · have et : stoppingTol (s.problem cornerOcp.toMpc) s.options = 9.3e-4 := by
      have e1 : s.options.relTol = 0 := rfl
      have e2 : s.options.absTol = 9.3e-4 := rfl
      rw [stoppingTol, e1, e2, zero_mul, add_zero]
    rw [et, hq, g1', g2', g3']
    refine .inl ⟨(0 : Fin 4), ?_⟩
    have : cornerOcp.toQP.lagrangeGrad cornerGuess 0 0 (0 : Fin 4) = -1e-3 := by
      simp only [QP.lagrangeGrad, mulVec_zero, add_zero, cornerOcp_f, cornerOcp_H]
      show ((!![10, 0, 0, 0; 0, 1, 0, 0; 0, 0, 1, 0; 0, 0, 0, 1] : Matrix (Fin 4) (Fin 4) ℝ) *ᵥ
        cornerGuess) 0 = _
      simp [mulVec, dotProduct, cornerGuess]
      norm_num
    show _ < abs (cornerOcp.toQP.lagrangeGrad cornerGuess 0 0 (0 : Fin 4))
    rw [this]
    norm_num [abs_of_pos]

end Fbstab
