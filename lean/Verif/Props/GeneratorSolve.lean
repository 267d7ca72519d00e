import Verif.Props.Generator
import Verif.Props.NoThrow

/-!
# C42, over the reals: the generated problems are convex and can be satisfied, for every horizon

Consequently (C13) `FBstabMpc::Solve` returns on them.
-/

namespace Fbstab
open Matrix

/-- The stage cost is convex. -/
structure StageInputs.Convex (nx nu : Nat) (a : StageInputs ℝ) : Prop where
  Qsymm : (a.Q.toMat nx nx).fn.IsSymm
  Rsymm : (a.R.toMat nu nu).fn.IsSymm
  nonneg : ∀ x u, 0 ≤ x ⬝ᵥ (a.Q.toMat nx nx).fn *ᵥ x + 2 * (u ⬝ᵥ (a.S.toMat nu nx).fn *ᵥ x) +
    u ⬝ᵥ (a.R.toMat nu nu).fn *ᵥ u

/-- A trajectory of any length exists: `x k`, `u k` satisfy the dynamics, start at `x0`, and satisfy the
constraints (on the state only from the second stage). -/
structure StageInputs.Trajectory (nx nu nc : Nat) (a : StageInputs ℝ) (x : Nat → Fin nx → ℝ)
    (u : Nat → Fin nu → ℝ) : Prop where
  init : x 0 = (a.x0.toVec nx).fn
  dynamics : ∀ k, x (k + 1) = (a.A.toMat nx nx).fn *ᵥ x k + (a.B.toMat nx nu).fn *ᵥ u k + (a.c.toVec nx).fn
  first : ∀ j, ((a.L.toMat nc nu).fn *ᵥ u 0) j + (a.d.toVec nc).fn j ≤ 0
  later : ∀ k j, ((a.E.toMat nc nx).fn *ᵥ x (k + 1)) j + ((a.L.toMat nc nu).fn *ᵥ u (k + 1)) j +
    (a.d.toVec nc).fn j ≤ 0

variable {nx nu nc N : Nat}

theorem Repeats.convex {a : StageInputs ℝ} {D : MpcData ℝ N nx nu nc} (r : Repeats a D)
    (h : a.Convex nx nu) : (Ocp.ofMpc D).Convex where
  Qsymm i := by
    show (D.Q i).fn.IsSymm
    rw [r.Q]; exact h.Qsymm
  Rsymm i := by
    show (D.R i).fn.IsSymm
    rw [r.R]; exact h.Rsymm
  nonneg i x u := by
    show 0 ≤ x ⬝ᵥ (D.Q i).fn *ᵥ x + 2 * (u ⬝ᵥ (D.S i).fn *ᵥ x) + u ⬝ᵥ (D.R i).fn *ᵥ u
    rw [r.Q, r.R, r.S]; exact h.nonneg x u

theorem Repeats.admissible {a : StageInputs ℝ} {D : MpcData ℝ N nx nu nc} (r : Repeats a D)
    {x u} (h : a.Trajectory nx nu nc x u) :
    (Ocp.ofMpc D).Admissible (fun i => x i.1) (fun i => u i.1) where
  init := by
    show x 0 = (D.x0).fn
    rw [r.x0]; exact h.init
  dynamics i := by
    show x (i.1 + 1) = (D.A i).fn *ᵥ x i.1 + (D.B i).fn *ᵥ u i.1 + (D.c i).fn
    rw [r.A, r.B, r.c]; exact h.dynamics _
  constraints i j := by
    show ((D.E i).fn *ᵥ x i.1) j + ((D.L i).fn *ᵥ u i.1) j + (D.d i).fn j ≤ 0
    rw [r.L, r.d]
    refine Fin.cases ?_ (fun k => ?_) i
    · have : ((D.E 0).fn *ᵥ x 0) j = 0 := by
        simp only [mulVec, dotProduct, Mat.fn_apply, r.Ezero, zero_mul, Finset.sum_const_zero]
      rw [Fin.val_zero, this, zero_add]
      exact h.first j
    · rw [r.E, Fin.val_succ]
      exact h.later _ j

/-- Held problems with a convex stage: every solver object of the right sizes returns. -/
theorem OcpGen.Holds.solves {a : StageInputs ℝ} {g : OcpGen ℝ} (h : g.Holds nx nu nc N a)
    (hc : a.Convex nx nu) (s : FBstabMpc ℝ) (hs : s.Reachable) (sN : s.N = N) (sx : s.nx = nx)
    (su : s.nu = nu) (sc : s.nc = nc) (ht : TolerancesOrdered s.options s.options.absTol)
    (x : CallerVar ℝ) (hz : x.z.size = g.nz) (hl : x.l.size = g.nl) (hv : x.v.size = g.nv)
    (hy : x.y.size = g.nv) : ∃ out, (s.solve g.prob.toRef x).result = .ok out := by
  subst sN sx su sc
  exact C13_absTol_mpc s hs _ x (h.fits x hz hl hv hy) h.columns (h.repeated.convex hc) ht

/-! ## The stages -/

theorem DMat.ofFn_fn (r c : Nat) (f : Nat → Nat → ℝ) :
    ((DMat.ofFn r c f).toMat r c).fn = fun i j => f i.1 j.1 := by
  ext i j
  have hlt : j.1 * r + i.1 < r * c := by
    have : (j.1 + 1) * r ≤ c * r := Nat.mul_le_mul_right _ j.2
    rw [Nat.mul_comm r c]; have := i.2; lia
  simp only [DMat.ofFn, DMat.toMat, Mat.fn_apply, Mat.get_ofFn]
  rw [Array.getD_eq_getD_getElem?, Array.getElem?_eq_getElem (by simpa using hlt)]
  have hr : 0 < r := i.pos
  simp [Nat.add_div hr, Nat.div_eq_of_lt i.2, hr, Nat.mod_eq_of_lt i.2, not_le.2 i.2]

theorem doubleIntegrator_convex : (doubleIntegratorStage : StageInputs ℝ).Convex 2 1 := by
  constructor
  · simp only [doubleIntegratorStage, DMat.comma, DMat.ofFn_fn]
    refine Matrix.IsSymm.ext fun i j => ?_
    fin_cases i <;> fin_cases j <;> simp
  · simp only [doubleIntegratorStage, DMat.comma, DMat.ofFn_fn]
    refine Matrix.IsSymm.ext fun i j => ?_
    fin_cases i; fin_cases j; rfl
  · intro x u
    simp only [doubleIntegratorStage, DMat.comma, DMat.ofFn_fn]
    simp [mulVec, dotProduct, Fin.sum_univ_succ]
    norm_num
    nlinarith [sq_nonneg (x 0 + u 0), sq_nonneg (x 0), sq_nonneg (x 1), sq_nonneg (u 0)]

theorem servoMotor_convex : (servoMotorStage : StageInputs ℝ).Convex 4 1 := by
  constructor
  · simp only [servoMotorStage, DMat.ofFn_fn]
    refine Matrix.IsSymm.ext fun i j => ?_
    fin_cases i <;> fin_cases j <;> simp
  · simp only [servoMotorStage, DMat.ofFn_fn]
    refine Matrix.IsSymm.ext fun i j => ?_
    rfl
  · intro x u
    simp only [servoMotorStage, DMat.zero, DMat.ofFn_fn]
    simp [mulVec, dotProduct, Fin.sum_univ_succ]
    norm_num
    nlinarith [sq_nonneg (x 0), sq_nonneg (u 0)]

theorem spacecraft_convex : (spacecraftStage : StageInputs ℝ).Convex 6 3 := by
  constructor
  · simp only [spacecraftStage, DMat.ofFn_fn]
    refine Matrix.IsSymm.ext fun i j => ?_
    by_cases h : i = j
    · subst h; rfl
    · have h' : j.1 ≠ i.1 := fun e => h (Fin.ext e.symm)
      simp [h', Ne.symm h']
  · simp only [spacecraftStage, DMat.identity, DMat.ofFn_fn]
    refine Matrix.IsSymm.ext fun i j => ?_
    by_cases h : i = j
    · subst h; rfl
    · have h' : j.1 ≠ i.1 := fun e => h (Fin.ext e.symm)
      simp [h', Ne.symm h']
  · intro x u
    simp only [spacecraftStage, DMat.zero, DMat.identity, DMat.ofFn_fn]
    simp [mulVec, dotProduct, Fin.sum_univ_succ]
    norm_num
    nlinarith [sq_nonneg (x 0), sq_nonneg (x 1), sq_nonneg (x 2), sq_nonneg (x 3), sq_nonneg (x 4),
      sq_nonneg (x 5), sq_nonneg (u 0), sq_nonneg (u 1), sq_nonneg (u 2)]

theorem copolymerization_convex (sine : Nat → ℝ) : (copolymerizationStage sine).Convex 18 5 := by
  have hQ : ((copolymerizationStage sine).Q.toMat 18 18).fn =
      (of fun (k : Fin 4) (i : Fin 18) => (copolymerizationC k.1 i.1 : ℝ))ᵀ *
        of fun (k : Fin 4) (i : Fin 18) => (copolymerizationC k.1 i.1 : ℝ) := by
    simp only [copolymerizationStage, DMat.ofFn_fn]
    ext i j
    rw [dotFin_real, sumFin_eq_sum]
    rfl
  have hR : ((copolymerizationStage sine).R.toMat 5 5).fn = (0.1 : ℝ) • (1 : Matrix (Fin 5) (Fin 5) ℝ) := by
    simp only [copolymerizationStage, DMat.ofFn_fn]
    ext i j
    simp [Matrix.one_apply, Fin.ext_iff]
  have hS : ((copolymerizationStage sine).S.toMat 5 18).fn = 0 := by
    simp only [copolymerizationStage, DMat.zero, DMat.ofFn_fn]
    rfl
  constructor
  · rw [hQ, Matrix.IsSymm, transpose_mul, transpose_transpose]
  · rw [hR]; exact Matrix.isSymm_one.smul _
  · intro x u
    rw [hQ, hR, hS, zero_mulVec, dotProduct_zero, smul_mulVec, one_mulVec, dotProduct_smul,
      ← mulVec_mulVec, dotProduct_mulVec, vecMul_transpose]
    have h1 := dot_self_nonneg ((of fun (k : Fin 4) (i : Fin 18) => (copolymerizationC k.1 i.1 : ℝ)) *ᵥ x)
    have h2 := dot_self_nonneg u
    have h3 : (0 : ℝ) ≤ (0.1 : ℝ) • (u ⬝ᵥ u) := smul_nonneg (by norm_num) h2
    linarith

/-! ## Trajectories -/

theorem DVec.ofFn_fn {n : Nat} (f : Fin n → ℝ) : ((⟨Array.ofFn f⟩ : DVec ℝ).toVec n).fn = f := by
  ext i
  simp [DVec.toVec, Vec.fn]

theorem doubleIntegrator_trajectory : (doubleIntegratorStage : StageInputs ℝ).Trajectory 2 1 6
    (fun _ => 0) (fun _ => 0) := by
  have hd : ∀ j, ((doubleIntegratorStage : StageInputs ℝ).d.toVec 6).fn j ≤ 0 := by
    intro j
    fin_cases j <;> simp [doubleIntegratorStage, DVec.comma, DVec.toVec, Vec.fn] <;> norm_num
  constructor
  · ext i; fin_cases i <;> simp [doubleIntegratorStage, DVec.comma, DVec.toVec, Vec.fn] <;> norm_num
  · intro k
    rw [mulVec_zero, mulVec_zero]
    ext i; fin_cases i <;> simp [doubleIntegratorStage, DVec.comma, DVec.toVec, Vec.fn] <;> norm_num
  · intro j
    rw [mulVec_zero]; simpa using hd j
  · intro k j
    rw [mulVec_zero, mulVec_zero]; simpa using hd j

theorem servoMotor_trajectory : (servoMotorStage : StageInputs ℝ).Trajectory 4 1 4
    (fun _ => 0) (fun _ => 0) := by
  have hd : ∀ j, ((servoMotorStage : StageInputs ℝ).d.toVec 4).fn j ≤ 0 := by
    intro j
    fin_cases j <;> simp [servoMotorStage, DVec.comma, DVec.toVec, Vec.fn] <;> norm_num
  constructor
  · ext i; fin_cases i <;> simp [servoMotorStage, DVec.comma, DVec.toVec, Vec.fn] <;> norm_num
  · intro k
    rw [mulVec_zero, mulVec_zero]
    ext i; fin_cases i <;> simp [servoMotorStage, DVec.comma, DVec.toVec, Vec.fn] <;> norm_num
  · intro j
    rw [mulVec_zero]; simpa using hd j
  · intro k j
    rw [mulVec_zero, mulVec_zero]; simpa using hd j

theorem copolymerization_trajectory (sine : Nat → ℝ) : (copolymerizationStage sine).Trajectory 18 5 10
    (fun k => ((copolymerizationStage sine).A.toMat 18 18).fn ^ k *ᵥ
      ((copolymerizationStage sine).x0.toVec 18).fn) (fun _ => 0) := by
  have hE : ((copolymerizationStage sine).E.toMat 10 18).fn = 0 := by
    simp only [copolymerizationStage, DMat.zero, DMat.ofFn_fn]
    rfl
  have hc : ((copolymerizationStage sine).c.toVec 18).fn = 0 := by
    simp only [copolymerizationStage, DVec.ofFn_fn]
    rfl
  have hd : ∀ j, ((copolymerizationStage sine).d.toVec 10).fn j ≤ 0 := by
    intro j
    simp only [copolymerizationStage, DVec.ofFn_fn]
    norm_num
  constructor
  · simp
  · intro k
    rw [mulVec_zero, hc, add_zero, add_zero, mulVec_mulVec, pow_succ']
  · intro j
    rw [mulVec_zero]; simpa using hd j
  · intro k j
    rw [mulVec_zero, hE, zero_mulVec]; simpa using hd j

/-- The square of the mean motion. -/
noncomputable def orbitRate2 : ℝ := 398600.4418 / ((6371 + 650) * (6371 + 650) * (6371 + 650))

/-- The velocity at which the spacecraft drifts in a sampling period when it starts at rest. -/
noncomputable def driftV : Fin 3 → ℝ := ![30 * (2 * orbitRate2 * -2.8), 0, 30 * orbitRate2]

/-- Stay at the initial position: cancel the drift by the input. -/
noncomputable def hoverX : Nat → Fin 6 → ℝ
  | 0 => ![-2.8, -0.01, -1, 0, 0, 0]
  | _ + 1 => ![-2.8, -0.01, -1, driftV 0, driftV 1, driftV 2]

/-- The inputs for `hoverX`. -/
noncomputable def hoverU : Nat → Fin 3 → ℝ
  | 0 => 0
  | _ + 1 => fun j => -driftV j / 30

theorem spacecraft_trajectory : (spacecraftStage : StageInputs ℝ).Trajectory 6 3 12 hoverX hoverU := by
  set n : ℝ := √(398600.4418 / ((6371 + 650) * (6371 + 650) * (6371 + 650))) with hn
  have hn2 : n * n = orbitRate2 := Real.mul_self_sqrt (by norm_num)
  have hb : 0 < orbitRate2 ∧ orbitRate2 < 2e-6 := by
    unfold orbitRate2; constructor <;> norm_num
  have hs : Scalar.sqrt ((398600.4418 : ℝ) / ((6371.0 + 650.0) * (6371.0 + 650.0) * (6371.0 + 650.0))) = n := by
    show √_ = _
    rw [hn]; congr 1; norm_num
  have hd : ((spacecraftStage : StageInputs ℝ).d.toVec 12).fn = fun _ => -1e-3 := by
    simp only [spacecraftStage, DVec.ofFn_fn]
    ext i; split <;> norm_num
  have hc : ((spacecraftStage : StageInputs ℝ).c.toVec 6).fn = 0 := by
    ext i; fin_cases i <;> simp [spacecraftStage, DVec.comma, DVec.toVec, Vec.fn] <;> norm_num
  constructor
  · ext i; fin_cases i <;> simp [spacecraftStage, hoverX, DVec.comma, DVec.toVec, Vec.fn] <;> norm_num
  · intro k
    rw [hc, add_zero]
    simp only [spacecraftStage, DMat.ofFn_fn, hs, dotFin_real, sumFin_eq_sum]
    ext i
    cases k <;> fin_cases i <;>
      simp [hoverX, hoverU, driftV, mulVec, dotProduct, Fin.sum_univ_succ, spacecraftA, ← hn2] <;>
      norm_num <;> ring
  · intro j
    rw [hd]
    simp [hoverU]
    norm_num
  · intro k j
    rw [hd]
    simp only [spacecraftStage, DMat.ofFn_fn]
    fin_cases j <;> simp [hoverX, hoverU, driftV, mulVec, dotProduct, Fin.sum_univ_succ] <;>
      norm_num at hb ⊢ <;> linarith [hb.1, hb.2]

/-! ## The theorems -/

/-- C42: each of the four generators, for each horizon that fits an `int`, produces a problem with convex
stage costs for which an admissible trajectory exists, so (C13) `Solve` returns on it, for every object of
the right sizes in any state, every guess, and all options with ordered tolerances; the presets have them. -/
def GeneratedSolvable (nx nu nc : Nat) (N : Int) (r : Except Err (OcpGen ℝ)) : Prop :=
  ∃ g, r = .ok g ∧
    (Ocp.ofMpc (g.prob.toRef.toData N.toNat nx nu nc)).Convex ∧
    (∃ x u, (Ocp.ofMpc (g.prob.toRef.toData N.toNat nx nu nc)).Admissible x u) ∧
    ∀ s : FBstabMpc ℝ, s.Reachable → s.N = N.toNat → s.nx = nx → s.nu = nu → s.nc = nc →
      TolerancesOrdered s.options s.options.absTol → ∀ x : CallerVar ℝ, x.z.size = g.nz →
      x.l.size = g.nl → x.v.size = g.nv → x.y.size = g.nv →
      ∃ out, (s.solve g.prob.toRef x).result = .ok out

theorem OcpGen.Holds.solvable {nx nu nc : Nat} {N : Int} {a : StageInputs ℝ} {g : OcpGen ℝ}
    {r : Except Err (OcpGen ℝ)} (hr : r = .ok g) (h : g.Holds nx nu nc N.toNat a) (hc : a.Convex nx nu)
    {x u} (ht : a.Trajectory nx nu nc x u) : GeneratedSolvable nx nu nc N r :=
  ⟨g, hr, h.repeated.convex hc, ⟨_, _, h.repeated.admissible ht⟩,
    fun s hs h1 h2 h3 h4 ho x x1 x2 x3 x4 => h.solves hc s hs h1 h2 h3 h4 ho x x1 x2 x3 x4⟩

theorem C42_solvable_doubleIntegrator (g : OcpGen ℝ) (N : Int) (hN : 0 < N)
    (hlim : (N + 1) * 81 < 2 ^ 31) : GeneratedSolvable 2 1 6 N (g.doubleIntegrator N) := by
  obtain ⟨g', h1, h2⟩ := (C42_doubleIntegrator g N hlim).2 hN
  exact h2.solvable h1 doubleIntegrator_convex doubleIntegrator_trajectory

theorem C42_solvable_servoMotor (g : OcpGen ℝ) (N : Int) (hN : 0 < N)
    (hlim : (N + 1) * 81 < 2 ^ 31) : GeneratedSolvable 4 1 4 N (g.servoMotor N) := by
  obtain ⟨g', h1, h2⟩ := (C42_servoMotor g N hlim).2 hN
  exact h2.solvable h1 servoMotor_convex servoMotor_trajectory

theorem C42_solvable_spacecraft (g : OcpGen ℝ) (N : Int) (hN : 0 < N)
    (hlim : (N + 1) * 441 < 2 ^ 31) : GeneratedSolvable 6 3 12 N (g.spacecraft N) := by
  obtain ⟨g', h1, h2⟩ := (C42_spacecraft g N hlim).2 hN
  exact h2.solvable h1 spacecraft_convex spacecraft_trajectory

theorem C42_solvable_copolymerization (sine : Nat → ℝ) (g : OcpGen ℝ) (N : Int) (hN : 0 < N)
    (hlim : (N + 1) * 1089 < 2 ^ 31) : GeneratedSolvable 18 5 10 N (g.copolymerization sine N) := by
  obtain ⟨g', h1, h2⟩ := (C42_copolymerization sine g N hlim).2 hN
  exact h2.solvable h1 (copolymerization_convex sine) (copolymerization_trajectory sine)

end Fbstab
