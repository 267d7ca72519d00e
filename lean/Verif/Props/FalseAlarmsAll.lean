import Verif.Proofs.Boxes
import Verif.Proofs.Slopes
import Verif.Proofs.NanApi
import Verif.Proofs.WitnessMpc
import Verif.Props.NewtonMpc
import Verif.Props.Isolation

/-!
# Infeasibility flags that are wrong, for whole families of problems: C22, C23

With the default options, exact arithmetic and multipliers of the inequalities equal to one in the guess, every convex
problem with symmetric bounds at its equilibrium is reported primal infeasible, although the guess is its minimiser.  Every convex problem that has a direction of descent of tiny but positive curvature
which changes no constraint is reported dual infeasible from the cold start, although it has a minimiser.
-/

namespace Fbstab
open Matrix

namespace Ocp
variable {N nx nu nc : Nat} {p : Ocp N nx nu nc}

theorem SymmetricBox.toQP (h : p.SymmetricBox) : p.toQP.SymmetricBox where
  f := by
    funext a
    rcases xuIdx_surj a with ⟨i, j, rfl⟩ | ⟨i, j, rfl⟩
    · show Ocp.stack _ _ _ = _
      rw [stack_xIdx, h.q]; rfl
    · show Ocp.stack _ _ _ = _
      rw [stack_uIdx, h.r]; rfl
  h := by
    funext a
    revert a
    rw [forall_flat]
    intro i j
    refine Fin.cases ?_ (fun i => ?_) i
    · simp [Ocp.toQP, h.x0]
    · simp [Ocp.toQP, h.c]
  b := by
    funext a
    show -p.d _ _ = 1
    rw [h.d, neg_neg]
  rows := by
    funext a
    rcases xuIdx_surj a with ⟨i, j, rfl⟩ | ⟨i, j, rfl⟩
    · rw [Ocp.AT_x, h.rowsE]; rfl
    · rw [Ocp.AT_u, h.rowsL]; rfl

/-- Staying at the equilibrium is optimal. -/
theorem SymmetricBox.optimal (h : p.SymmetricBox) (hc : p.Convex) : p.Optimal (fun _ => 0) (fun _ => 0) where
  admissible := {
    init := h.x0.symm
    dynamics := fun i => by rw [h.c]; simp
    constraints := fun i j => by rw [h.d]; simp }
  le := fun x u _ => by
    unfold Ocp.cost
    simp only [mulVec_zero, dotProduct_zero, h.q, h.r, zero_dotProduct, mul_zero, add_zero, Finset.sum_const_zero]
    exact Finset.sum_nonneg fun i _ => mul_nonneg (by norm_num) (hc.nonneg i (x i) (u i))

end Ocp

/-- C22 fails for a whole family of dense problems: minimise `z'Hz/2` with any convex `H` subject to `G z = 0` and
symmetric bounds, in any dimensions, with any solver (new or not) that has the default options.  Started at the minimiser
`z = 0`, `l = 0` with `v = (1, ..., 1)`, `FBstabDense::Solve` reports primal infeasibility. -/
theorem C22_false_alarms_dense (s : FBstabDense ℝ) (hs : s.Reachable) (ho : s.options = Params.defaults)
    (p : DenseProblem ℝ) (x : CallerVar ℝ) (hf : DenseFits s.nz s.nl s.nv p x) (hy : x.YWritable s.nv)
    (hc : (s.qp p).Convex) (hB : (s.qp p).SymmetricBox)
    (hz : (x.z.toVec s.nz).fn = 0) (hl : (x.l.toVec s.nl).fn = 0) (hv : (x.v.toVec s.nv).fn = fun _ => 1) :
    (s.qp p).Minimiser (x.z.toVec s.nz).fn ∧
    ∃ out, (s.solve p x).result = .ok out ∧ out.eflag = .primalInfeasible := by
  obtain ⟨fin, h1, h2⟩ := hB.run hs.pos.2 (s.newtonEnv (C01_reachable_dense s hs) p hc) ho s.mem.feas.ws
    (x.z.toVec s.nz) (x.l.toVec s.nl) (x.v.toVec s.nv) hz hl hv
  refine ⟨by rw [hz]; exact hB.kkt.minimiser hc, _, ((FBstabDense.solve_computes hf).ok fin h1 hy).1, h2⟩

/-- C22 fails for a whole family of optimal control problems: the system is at the equilibrium that the costs ask for and
the bounds are symmetric.  Staying there is optimal.  Started with that trajectory and with the multipliers of the
inequalities equal to one, `FBstabMpc::Solve` with the default options reports primal infeasibility, for every horizon,
every dynamics and all convex costs. -/
theorem C22_false_alarms_mpc (s : FBstabMpc ℝ) (hs : s.Reachable) (ho : s.options = Params.defaults)
    (p : MpcProblem ℝ) (x : CallerVar ℝ) (hf : MpcFits s.N s.nx s.nu s.nc p x) (hcol : p.Columns)
    (hc : (s.ocp p).Convex) (hB : (s.ocp p).SymmetricBox)
    (hz : (x.z.toVec ((s.N + 1) * (s.nx + s.nu))).fn = 0) (hl : (x.l.toVec ((s.N + 1) * s.nx)).fn = 0)
    (hv : (x.v.toVec ((s.N + 1) * s.nc)).fn = fun _ => 1) :
    (s.ocp p).Optimal (Ocp.states (x.z.toVec ((s.N + 1) * (s.nx + s.nu))).fn)
      (Ocp.controls (x.z.toVec ((s.N + 1) * (s.nx + s.nu))).fn) ∧
    ∃ out, (s.solve p x).result = .ok out ∧ out.eflag = .primalInfeasible := by
  have hpos : 0 < (s.N + 1) * s.nc := by
    obtain ⟨junk, N, nx, nu, nc, s0, hist, h1, rfl⟩ := hs
    have h2 := FBstabMpc.new_facts h1
    have h3 := (s0.after_sizes real_zero_beq hist).2.2.2
    exact Nat.mul_pos (Nat.succ_pos _) (by omega)
  obtain ⟨fin, h1, h2⟩ := hB.toQP.run hpos (s.newtonEnv (C01_reachable_mpc s hs) p hc) ho s.mem.feas.ws
    (x.z.toVec _) (x.l.toVec _) (x.v.toVec _) hz hl hv
  refine ⟨by rw [hz]; exact hB.optimal hc, _,
    ((FBstabMpc.solve_computes real_zero_beq hf hcol).ok fin h1 fun _ => hf.y).1, h2⟩

/-! ## Instances -/

/-- Horizon 1, `x(i+1) = 2 x(i) + 3 u(i)`, costs `x^2 + u^2`, `-1 <= x + u <= 1`. -/
noncomputable def stayOcp : Ocp 1 1 1 2 where
  Q _ := fun _ _ => 2
  R _ := fun _ _ => 2
  S _ := fun _ _ => 0
  q _ := 0
  r _ := 0
  A _ := fun _ _ => 2
  B _ := fun _ _ => 3
  c _ := 0
  E _ := fun i _ => if i = 0 then 1 else -1
  L _ := fun i _ => if i = 0 then 1 else -1
  d _ := fun _ => -1
  x0 := 0

theorem stayOcp_box : stayOcp.SymmetricBox where
  q _ := rfl
  r _ := rfl
  c _ := rfl
  x0 := rfl
  d _ := rfl
  rowsE i := by
    ext j
    simp only [mulVec, dotProduct, Fin.sum_univ_two, transpose_apply]
    simp [stayOcp]
  rowsL i := by
    ext j
    simp only [mulVec, dotProduct, Fin.sum_univ_two, transpose_apply]
    simp [stayOcp]

theorem stayOcp_convex : stayOcp.Convex where
  Qsymm i := by ext a b; rfl
  Rsymm i := by ext a b; rfl
  nonneg i x u := by
    have e : x ⬝ᵥ stayOcp.Q i *ᵥ x + 2 * (u ⬝ᵥ stayOcp.S i *ᵥ x) + u ⬝ᵥ stayOcp.R i *ᵥ u =
        2 * (x 0 * x 0) + 2 * (u 0 * u 0) := by
      simp [mulVec, dotProduct, stayOcp]
      ring
    rw [e]
    nlinarith [mul_self_nonneg (x 0), mul_self_nonneg (u 0)]

/-- A solver made for `stayOcp` with the default options. -/
noncomputable abbrev staySolver (junk : MpcJunk ℝ) : FBstabMpc ℝ :=
  FBstabMpc.made junk 1 1 1 2 Params.defaults

/-- The optimal trajectory with multipliers `v = (1, 1, 1, 1)`. -/
noncomputable abbrev stayGuess : CallerVar ℝ :=
  fullGuessOf (nz := (1 + 1) * (1 + 1)) (nl := (1 + 1) * 1) (nv := (1 + 1) * 2) 0 0 fun _ => 1

/-- C22 fails for `FBstabMpc` with a new solver and the default options: the problem is convex, staying at the origin
is optimal, and primal infeasibility is reported. -/
theorem C22_false_alarm_mpc (junk : MpcJunk ℝ) :
    (staySolver junk).Reachable ∧ (staySolver junk).options = Params.defaults ∧
    ((staySolver junk).ocp stayOcp.toMpc).Convex ∧
    ((staySolver junk).ocp stayOcp.toMpc).Optimal (fun _ => 0) (fun _ => 0) ∧
    ∃ out, ((staySolver junk).solve stayOcp.toMpc stayGuess).result = .ok out ∧
      out.eflag = .primalInfeasible := by
  have ho : (staySolver junk).ocp stayOcp.toMpc = stayOcp := FBstabMpc.made_ocp junk _ _
  have hr : (staySolver junk).Reachable := FBstabMpc.made_reachable junk _ (by norm_num) (by norm_num) (by norm_num)
    (by norm_num) (by norm_num [intLimit]) (by norm_num [intLimit]) defaults_inRange
  obtain ⟨g1, g2, g3⟩ := fullGuessOf_point (nz := (1 + 1) * (1 + 1)) (nl := (1 + 1) * 1) (nv := (1 + 1) * 2) 0 0
    fun _ => 1
  have hc : ((staySolver junk).ocp stayOcp.toMpc).Convex := by rw [ho]; exact stayOcp_convex
  have hB : ((staySolver junk).ocp stayOcp.toMpc).SymmetricBox := by rw [ho]; exact stayOcp_box
  have hf : MpcFits (staySolver junk).N (staySolver junk).nx (staySolver junk).nu (staySolver junk).nc stayOcp.toMpc
    stayGuess := stayOcp.toMpc_fits _ _ _
  exact ⟨hr, rfl, hc, hB.optimal hc,
    (C22_false_alarms_mpc (staySolver junk) hr rfl stayOcp.toMpc stayGuess hf stayOcp.toMpc_columns hc hB g1 g2 g3).2⟩

/-- C22 fails for `FBstabMpc`: the primal infeasible flag does not imply that there is no admissible trajectory, not even
for convex problems, default options and exact arithmetic. -/
theorem C22_not_sound_mpc : ¬∀ (s : FBstabMpc ℝ) (_ : s.Reachable) (p : MpcProblem ℝ)
    (x : CallerVar ℝ) (out : SolverOut ℝ), (s.ocp p).Convex → s.options = Params.defaults →
    (s.solve p x).result = .ok out → out.eflag.claimsPrimal → ¬∃ x u, (s.ocp p).Admissible x u := by
  intro h
  obtain ⟨h1, h2, h3, h4, out, h5, h6⟩ := C22_false_alarm_mpc .zeros
  exact h _ h1 _ _ out h3 h2 h5 (.inl h6) ⟨_, _, h4.admissible⟩

/-- minimise `|z|^2 / 2` subject to `-1 <= z <= 1`, with `n` unknowns. -/
noncomputable def cubeQP (n : Nat) : QP n 0 (n + n) where
  H := 1
  f := 0
  G := fun i _ => i.elim0
  h := fun i => i.elim0
  A := fun i j => Fin.addCases (fun i => if i = j then 1 else 0) (fun i => if i = j then -1 else 0) i
  b := fun _ => 1

theorem cubeQP_box (n : Nat) : (cubeQP n).SymmetricBox where
  f := rfl
  h := by ext i; exact i.elim0
  b := rfl
  rows := by
    ext j
    have e1 : ∀ i : Fin n, (cubeQP n).A (Fin.castAdd n i) j = if i = j then 1 else 0 := fun i => by
      simp only [cubeQP, Fin.addCases_left]
    have e2 : ∀ i : Fin n, (cubeQP n).A (Fin.natAdd n i) j = if i = j then -1 else 0 := fun i => by
      simp only [cubeQP, Fin.addCases_right]
    simp only [mulVec, dotProduct, Fin.sum_univ_add, transpose_apply, e1, e2]
    simp

theorem cubeQP_convex (n : Nat) : (cubeQP n).Convex :=
  ⟨isSymm_one, fun z => by
    show 0 ≤ z ⬝ᵥ (1 : Matrix (Fin n) (Fin n) ℝ) *ᵥ z
    rw [one_mulVec]; exact Finset.sum_nonneg fun i _ => mul_self_nonneg _⟩

/-- Any number of unknowns between -1 and 1. -/
example (junk : DenseJunk ℝ) (n : Nat) (hn : 0 < n) (hi : n < intLimit) :
    ∃ out, ((FBstabDense.made junk n 0 (n + n) Params.defaults).solve (cubeQP n).toDense
      (guessOf (nz := n) (nl := 0) (nv := n + n) 0 0 fun _ => 1)).result = .ok out ∧ out.eflag = .primalInfeasible := by
  have hq : (FBstabDense.made junk n 0 (n + n) Params.defaults).qp (cubeQP n).toDense = cubeQP n :=
    FBstabDense.made_qp junk _ _
  obtain ⟨g1, g2, g3⟩ := guessOf_point (nz := n) (nl := 0) (nv := n + n) 0 0 fun _ => 1
  exact (C22_false_alarms_dense (FBstabDense.made junk n 0 (n + n) Params.defaults)
    (FBstabDense.made_reachable junk _ hn (by omega) (by omega) defaults_inRange) rfl (cubeQP n).toDense _
    ((cubeQP n).toDense_fits _ _ _) (fun h => nomatch h) (by rw [hq]; exact cubeQP_convex n)
    (by rw [hq]; exact cubeQP_box n) g1 g2 g3).2

/-! ## C23 -/

namespace Ocp
variable {N nx nu nc : Nat} {p : Ocp N nx nu nc} {eps : ℝ}

theorem states_f : states p.toQP.f = p.q := by
  ext i j
  rw [states_eq]
  exact stack_xIdx _ _ _ _

theorem controls_f : controls p.toQP.f = p.r := by
  ext i j
  rw [controls_eq]
  exact stack_uIdx _ _ _ _

theorem FlatSlope.toQP (S : p.FlatSlope eps) : p.toQP.FlatSlope eps where
  pos := S.pos
  h := by
    funext a
    revert a
    rw [forall_flat]
    intro i j
    refine Fin.cases ?_ (fun i => ?_) i
    · simp [Ocp.toQP, S.x0]
    · simp [Ocp.toQP, S.c]
  b := fun a => neg_nonneg.2 (S.d _ _)
  curvature := by
    funext a
    rcases xuIdx_surj a with ⟨i, j, rfl⟩ | ⟨i, j, rfl⟩
    · rw [H_x, states_f, controls_f]
      have := congrFun (S.curvatureX i) j
      rw [Pi.add_apply] at this
      rw [this, Pi.smul_apply, Pi.smul_apply]
      congr 1
      exact (stack_xIdx _ _ _ _).symm
    · rw [H_u, states_f, controls_f]
      have := congrFun (S.curvatureU i) j
      rw [Pi.add_apply] at this
      rw [this, Pi.smul_apply, Pi.smul_apply]
      congr 1
      exact (stack_uIdx _ _ _ _).symm
  eq := by
    funext a
    revert a
    rw [forall_flat]
    intro i j
    refine Fin.cases ?_ (fun i => ?_) i
    · rw [G_zero, states_f, S.init]; simp
    · rw [G_succ, states_f, controls_f, S.dynamics]; simp
  ineq := by
    funext a
    revert a
    rw [forall_flat]
    intro i j
    rw [A_c, states_f, controls_f]
    exact congrFun (S.constraints i) j

/-- The optimal trajectory is `-q / eps`, `-r / eps`. -/
theorem FlatSlope.optimal (S : p.FlatSlope eps) (hc : p.Convex) :
    p.Optimal (fun i => -(1 / eps) • p.q i) (fun i => -(1 / eps) • p.r i) := by
  have h := (C29_optimal p _).1 (S.toQP.kkt.minimiser ((C29_convex p).2 hc))
  have e1 : states (-(1 / eps) • p.toQP.f) = fun i => -(1 / eps) • p.q i := by
    rw [← states_f]; ext i j; rw [states_eq]; simp [states_eq]
  have e2 : controls (-(1 / eps) • p.toQP.f) = fun i => -(1 / eps) • p.r i := by
    rw [← controls_f]; ext i j; rw [controls_eq]; simp [controls_eq]
  rwa [e1, e2] at h

end Ocp

/-- C23 fails for a whole family of dense problems: the gradient `f` is an eigenvector of `H` with an eigenvalue `eps`
between 0 and `1e-8`, moving along it changes no constraint, and the origin is feasible.  The minimiser is `-f / eps`; from
the cold start `FBstabDense::Solve` with the default options reports dual infeasibility, in any dimensions and with any
solver (new or not). -/
theorem C23_false_alarms_dense (s : FBstabDense ℝ) (hs : s.Reachable) (ho : s.options = Params.defaults)
    (p : DenseProblem ℝ) (x : CallerVar ℝ) (hf : DenseFits s.nz s.nl s.nv p x) (hy : x.YWritable s.nv)
    (hc : (s.qp p).Convex) {eps : ℝ} (S : (s.qp p).FlatSlope eps) (he : eps ≤ 1e-8)
    (hf1 : ∃ i, 1 ≤ |(s.qp p).f i|) (hb : (s.qp p).b ⬝ᵥ (s.qp p).b ≤ 1e20)
    (hz : (x.z.toVec s.nz).fn = 0) (hl : (x.l.toVec s.nl).fn = 0) (hv : (x.v.toVec s.nv).fn = 0) :
    (s.qp p).Minimiser (-(1 / eps) • (s.qp p).f) ∧
    ∃ out, (s.solve p x).result = .ok out ∧ out.eflag = .dualInfeasible := by
  obtain ⟨fin, h1, h2, -⟩ := S.run he hf1 (by rw [S.h, dotProduct_zero, zero_add]; exact hb)
    (s.newtonEnv (C01_reachable_dense s hs) p hc) ho s.mem.feas.ws
    (x.z.toVec s.nz) (x.l.toVec s.nl) (x.v.toVec s.nv) hz hl hv
  exact ⟨S.kkt.minimiser hc, _, ((FBstabDense.solve_computes hf).ok fin h1 hy).1, h2⟩

/-- C23 fails for a whole family of optimal control problems: see `Ocp.FlatSlope`.  There is an optimal trajectory; from
the cold start `FBstabMpc::Solve` with the default options reports dual infeasibility, for every horizon. -/
theorem C23_false_alarms_mpc (s : FBstabMpc ℝ) (hs : s.Reachable) (ho : s.options = Params.defaults)
    (p : MpcProblem ℝ) (x : CallerVar ℝ) (hf : MpcFits s.N s.nx s.nu s.nc p x) (hcol : p.Columns)
    (hc : (s.ocp p).Convex) {eps : ℝ} (S : (s.ocp p).FlatSlope eps) (he : eps ≤ 1e-8)
    (hf1 : ∃ i, (∃ j, 1 ≤ |(s.ocp p).q i j|) ∨ ∃ j, 1 ≤ |(s.ocp p).r i j|)
    (hb : ∑ i, (s.ocp p).d i ⬝ᵥ (s.ocp p).d i ≤ 1e20)
    (hz : (x.z.toVec ((s.N + 1) * (s.nx + s.nu))).fn = 0) (hl : (x.l.toVec ((s.N + 1) * s.nx)).fn = 0)
    (hv : (x.v.toVec ((s.N + 1) * s.nc)).fn = 0) :
    (s.ocp p).Optimal (fun i => -(1 / eps) • (s.ocp p).q i) (fun i => -(1 / eps) • (s.ocp p).r i) ∧
    ∃ out, (s.solve p x).result = .ok out ∧ out.eflag = .dualInfeasible := by
  have hf2 : ∃ a, 1 ≤ |(s.ocp p).toQP.f a| := by
    obtain ⟨i, ⟨j, h⟩ | ⟨j, h⟩⟩ := hf1
    · refine ⟨xIdx i j, ?_⟩
      rw [← states_eq (s.ocp p).toQP.f i j, Ocp.states_f]; exact h
    · refine ⟨uIdx i j, ?_⟩
      rw [← controls_eq (s.ocp p).toQP.f i j, Ocp.controls_f]; exact h
  have hb2 : (s.ocp p).toQP.b ⬝ᵥ (s.ocp p).toQP.b = ∑ i, (s.ocp p).d i ⬝ᵥ (s.ocp p).d i := by
    simp only [dotProduct, sum_flat, Ocp.toQP, block_flatIdx, neg_mul_neg]
  obtain ⟨fin, h1, h2, -⟩ := S.toQP.run he hf2 (by rw [S.toQP.h, dotProduct_zero, zero_add, hb2]; exact hb)
    (s.newtonEnv (C01_reachable_mpc s hs) p hc) ho s.mem.feas.ws
    (x.z.toVec _) (x.l.toVec _) (x.v.toVec _) hz hl hv
  exact ⟨S.optimal hc, _, ((FBstabMpc.solve_computes real_zero_beq hf hcol).ok fin h1 fun _ => hf.y).1, h2⟩

/-- Horizon 1, `x(i+1) = x(i) + u(i)` from the origin, stage costs `(x^2 + u^2) 10^-9 / 2 - x - u` (without `x` in the first
stage), and the vacuous constraint `-1 <= 0` in every stage. -/
noncomputable def slopeOcp : Ocp 1 1 1 1 where
  Q _ := fun _ _ => 1e-9
  R _ := fun _ _ => 1e-9
  S _ := 0
  q i := fun _ => if i = 0 then 0 else -1
  r _ := fun _ => -1
  A _ := fun _ _ => 1
  B _ := fun _ _ => 1
  c _ := 0
  E _ := 0
  L _ := 0
  d _ := fun _ => -1
  x0 := 0

theorem slopeOcp_slope : slopeOcp.FlatSlope 1e-9 where
  pos := by norm_num
  x0 := rfl
  c _ := rfl
  d _ _ := by norm_num [slopeOcp]
  curvatureX i := by ext j; simp [slopeOcp, mulVec, dotProduct]
  curvatureU i := by ext j; simp [slopeOcp, mulVec, dotProduct]
  init := by ext j; simp [slopeOcp]
  dynamics i := by
    ext j
    have hi : i = 0 := Subsingleton.elim _ _
    subst hi
    simp [slopeOcp, mulVec, dotProduct]
  constraints i := by simp [slopeOcp]

theorem slopeOcp_convex : slopeOcp.Convex where
  Qsymm i := by ext a b; rfl
  Rsymm i := by ext a b; rfl
  nonneg i x u := by
    have e : x ⬝ᵥ slopeOcp.Q i *ᵥ x + 2 * (u ⬝ᵥ slopeOcp.S i *ᵥ x) + u ⬝ᵥ slopeOcp.R i *ᵥ u =
        1e-9 * (x 0 * x 0) + 1e-9 * (u 0 * u 0) := by
      simp [mulVec, dotProduct, slopeOcp]
      ring
    rw [e]
    have := mul_self_nonneg (x 0)
    have := mul_self_nonneg (u 0)
    positivity

/-- A solver made for `slopeOcp` with the default options. -/
noncomputable abbrev slopeSolver (junk : MpcJunk ℝ) : FBstabMpc ℝ :=
  FBstabMpc.made junk 1 1 1 1 Params.defaults

/-- The cold start. -/
noncomputable abbrev slopeGuess : CallerVar ℝ :=
  fullGuessOf (nz := (1 + 1) * (1 + 1)) (nl := (1 + 1) * 1) (nv := (1 + 1) * 1) 0 0 0

/-- C23 fails for `FBstabMpc` with a new solver, the default options and the cold start: the problem is convex and has an
optimal trajectory, and dual infeasibility is reported. -/
theorem C23_false_alarm_mpc (junk : MpcJunk ℝ) :
    (slopeSolver junk).Reachable ∧ (slopeSolver junk).options = Params.defaults ∧
    ((slopeSolver junk).ocp slopeOcp.toMpc).Convex ∧
    (∃ x u, ((slopeSolver junk).ocp slopeOcp.toMpc).Optimal x u) ∧
    ∃ out, ((slopeSolver junk).solve slopeOcp.toMpc slopeGuess).result = .ok out ∧
      out.eflag = .dualInfeasible := by
  have ho : (slopeSolver junk).ocp slopeOcp.toMpc = slopeOcp := FBstabMpc.made_ocp junk _ _
  have hr : (slopeSolver junk).Reachable := FBstabMpc.made_reachable junk _ (by norm_num) (by norm_num) (by norm_num)
    (by norm_num) (by norm_num [intLimit]) (by norm_num [intLimit]) defaults_inRange
  obtain ⟨g1, g2, g3⟩ := fullGuessOf_point (nz := (1 + 1) * (1 + 1)) (nl := (1 + 1) * 1) (nv := (1 + 1) * 1) 0 0 0
  have hc : ((slopeSolver junk).ocp slopeOcp.toMpc).Convex := by rw [ho]; exact slopeOcp_convex
  have hS : ((slopeSolver junk).ocp slopeOcp.toMpc).FlatSlope 1e-9 := by rw [ho]; exact slopeOcp_slope
  have hf : MpcFits (slopeSolver junk).N (slopeSolver junk).nx (slopeSolver junk).nu (slopeSolver junk).nc
    slopeOcp.toMpc slopeGuess := slopeOcp.toMpc_fits _ _ _
  have h1 : ∃ i, (∃ j, 1 ≤ |((slopeSolver junk).ocp slopeOcp.toMpc).q i j|) ∨
      ∃ j, 1 ≤ |((slopeSolver junk).ocp slopeOcp.toMpc).r i j| := by
    rw [ho]; exact ⟨(0 : Fin (1 + 1)), .inr ⟨(0 : Fin 1), by simp [slopeOcp]⟩⟩
  have hb : ∑ i, ((slopeSolver junk).ocp slopeOcp.toMpc).d i ⬝ᵥ ((slopeSolver junk).ocp slopeOcp.toMpc).d i ≤ 1e20 := by
    rw [ho]
    show ∑ i : Fin (1 + 1), slopeOcp.d i ⬝ᵥ slopeOcp.d i ≤ (1e20 : ℝ)
    simp [slopeOcp, dotProduct]; norm_num
  exact ⟨hr, rfl, hc, ⟨_, _, hS.optimal hc⟩,
    (C23_false_alarms_mpc (slopeSolver junk) hr rfl slopeOcp.toMpc slopeGuess hf slopeOcp.toMpc_columns hc hS
      (by norm_num) h1 hb g1 g2 g3).2⟩

/-- C23 fails for `FBstabMpc`: the dual infeasible flag does not imply that there is no optimal trajectory, not even for
convex problems, default options and exact arithmetic. -/
theorem C23_not_sound_mpc : ¬∀ (s : FBstabMpc ℝ) (_ : s.Reachable) (p : MpcProblem ℝ)
    (x : CallerVar ℝ) (out : SolverOut ℝ), (s.ocp p).Convex → s.options = Params.defaults →
    (s.solve p x).result = .ok out → out.eflag.claimsDual → ¬∃ x u, (s.ocp p).Optimal x u := by
  intro h
  obtain ⟨h1, h2, h3, h4, out, h5, h6⟩ := C23_false_alarm_mpc .zeros
  exact h _ h1 _ _ out h3 h2 h5 (.inl h6) h4

/-- The dense family contains the problem of `C23_false_alarm`. -/
example : flatQP.FlatSlope 1e-9 where
  h := by ext i; exact i.elim0
  b := fun i => by simp [flatQP]
  curvature := by ext i; simp [flatQP, mulVec, dotProduct]
  pos := by norm_num
  eq := by ext i; exact i.elim0
  ineq := by ext i; simp [flatQP, mulVec, dotProduct]

end Fbstab
