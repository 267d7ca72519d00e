import Verif.Spec.Benchmarks
import Verif.Props.GeneratorSolve

/-!
# C55: the generated problems are the documented benchmark problems

For every horizon, over the reals.  The specification is in Verif/Spec/Benchmarks.lean.
-/

namespace Fbstab
open Matrix

variable {nx nu nc ny N : Nat}

/-- One stage describes the plant. -/
structure StageInputs.Regulates (nc : Nat) (a : StageInputs ℝ) (P : Plant nx nu ny) : Prop where
  start : (a.x0.toVec nx).fn = P.start
  next : ∀ x u, (a.A.toMat nx nx).fn *ᵥ x + (a.B.toMat nx nu).fn *ᵥ u + (a.c.toVec nx).fn = P.next x u
  first : ∀ u, (∀ j, ((a.L.toMat nc nu).fn *ᵥ u) j + (a.d.toVec nc).fn j ≤ 0) ↔ P.inputOk u
  later : ∀ x u, (∀ j, ((a.E.toMat nc nx).fn *ᵥ x) j + ((a.L.toMat nc nu).fn *ᵥ u) j +
    (a.d.toVec nc).fn j ≤ 0) ↔ P.inputOk u ∧ P.stateOk x
  cost : ∀ x u, (1 / 2) * (x ⬝ᵥ (a.Q.toMat nx nx).fn *ᵥ x + 2 * (u ⬝ᵥ (a.S.toMat nu nx).fn *ᵥ x) +
    u ⬝ᵥ (a.R.toMat nu nu).fn *ᵥ u) + (a.q.toVec nx).fn ⬝ᵥ x + (a.r.toVec nu).fn ⬝ᵥ u = P.cost x u

theorem Repeats.regulates {a : StageInputs ℝ} {D : MpcData ℝ N nx nu nc} {P : Plant nx nu ny}
    (r : Repeats a D) (h : a.Regulates nc P) : (Ocp.ofMpc D).Regulates P := by
  have hs : (Ocp.ofMpc D).x0 = P.start := by
    show D.x0.fn = _
    rw [r.x0, h.start]
  have hn : ∀ i x u, (Ocp.ofMpc D).A i *ᵥ x + (Ocp.ofMpc D).B i *ᵥ u + (Ocp.ofMpc D).c i = P.next x u := by
    intro i x u
    show (D.A i).fn *ᵥ x + (D.B i).fn *ᵥ u + (D.c i).fn = _
    rw [r.A, r.B, r.c, h.next]
  have hl : ∀ i x u, (∀ j, ((Ocp.ofMpc D).E i *ᵥ x) j + ((Ocp.ofMpc D).L i *ᵥ u) j +
      (Ocp.ofMpc D).d i j ≤ 0) ↔ P.inputOk u ∧ (i ≠ 0 → P.stateOk x) := by
    intro i x u
    show (∀ j, ((D.E i).fn *ᵥ x) j + ((D.L i).fn *ᵥ u) j + (D.d i).fn j ≤ 0) ↔ _
    rw [r.L, r.d]
    refine Fin.cases ?_ (fun k => ?_) i
    · have : ∀ j, ((D.E 0).fn *ᵥ x) j = 0 := fun j => by
        simp only [mulVec, dotProduct, Mat.fn_apply, r.Ezero, zero_mul, Finset.sum_const_zero]
      simp only [this, zero_add, h.first]
      simp
    · rw [r.E, h.later]
      simp [Fin.succ_ne_zero]
  refine ⟨hs, hn, hl, fun x u => ⟨fun H => ⟨H.init.trans hs, fun i => (H.dynamics i).trans (hn _ _ _),
    fun i => ((hl i (x i) (u i)).1 (H.constraints i)).1,
    fun i => ((hl i.succ _ (u i.succ)).1 (H.constraints i.succ)).2 (Fin.succ_ne_zero _)⟩,
    fun ⟨h1, h2, h3, h4⟩ => ⟨h1.trans hs.symm, fun i => (h2 i).trans (hn _ _ _).symm, fun i =>
      (hl i (x i) (u i)).2 ⟨h3 i, fun hi => ?_⟩⟩⟩, fun x u => ?_⟩
  · obtain ⟨k, rfl⟩ := Fin.exists_succ_eq.2 hi
    exact h4 k
  · unfold Ocp.cost
    refine Finset.sum_congr rfl fun i _ => ?_
    show (1 / 2) * (x i ⬝ᵥ (D.Q i).fn *ᵥ x i + 2 * (u i ⬝ᵥ (D.S i).fn *ᵥ x i) +
      u i ⬝ᵥ (D.R i).fn *ᵥ u i) + (D.q i).fn ⬝ᵥ x i + (D.r i).fn ⬝ᵥ u i = _
    rw [r.Q, r.S, r.R, r.q, r.r, h.cost]

/-- The matrices for closed loop simulation are those of the plant. -/
structure SimInputs.Simulates (x0 : DVec ℝ) (S : SimInputs ℝ) (P : Plant nx nu ny) : Prop where
  shapes : (S.A.rows = nx ∧ S.A.cols = nx) ∧ (S.B.rows = nx ∧ S.B.cols = nu) ∧
    (S.C.rows = ny ∧ S.C.cols = nx) ∧ (S.D.rows = ny ∧ S.D.cols = nu) ∧ x0.size = nx
  start : (x0.toVec nx).fn = P.start
  next : ∀ x u, (S.A.toMat nx nx).fn *ᵥ x + (S.B.toMat nx nu).fn *ᵥ u = P.next x u
  output : ∀ x u, (S.C.toMat ny nx).fn *ᵥ x + (S.D.toMat ny nu).fn *ᵥ u = P.output x
  T : S.T = P.T

/-- What a caller gets from a generator after a problem creator: both forms of the problem data, with
horizon `N`, pose the regulation problem `P`, and the simulation data simulate `P`. -/
def Provides (nc : Nat) (N : Int) (P : Plant nx nu ny) (r : Except Err (OcpGen ℝ)) : Prop :=
  ∃ g, r = .ok g ∧ g.problemSize = (N.toNat, nx, nu, nc) ∧
    (∃ D, g.getFBstabInput = .ok D ∧ (Ocp.ofMpc (D.toRef.toData N.toNat nx nu nc)).Regulates P) ∧
    (∃ D, g.getFBstabInputRef = .ok D ∧ (Ocp.ofMpc (D.toData N.toNat nx nu nc)).Regulates P) ∧
    ∃ x0 S, g.getSimulationInputs = .ok (x0, S) ∧ S.Simulates x0 P

theorem OcpGen.Holds.provides {a : StageInputs ℝ} {P : Plant nx nu ny} {N : Int} {g : OcpGen ℝ}
    {r : Except Err (OcpGen ℝ)} (hr : r = .ok g) (h : g.Holds nx nu nc N.toNat a) (hp : a.Regulates nc P)
    (hs : g.sim.Simulates g.prob.x0 P) : Provides nc N P r := by
  refine ⟨g, hr, ?_, ⟨g.prob, ?_, h.repeated.regulates hp⟩, ⟨g.prob.toRef, ?_, h.repeated.regulates hp⟩,
    g.prob.x0, g.sim, ?_, hs⟩
  · simp only [OcpGen.problemSize, h.eqN, h.eqnx, h.eqnu, h.eqnc]
  · simp only [OcpGen.getFBstabInput, h.populated, if_true]
  · simp only [OcpGen.getFBstabInputRef, h.populated, if_true]
  · simp only [OcpGen.getSimulationInputs, h.populated, if_true]

/-! ## The stages -/

theorem DVec.comma_fn {n : Nat} (l : List ℝ) : ((DVec.comma l : DVec ℝ).toVec n).fn = fun i => l.getD i.1 0 := by
  ext i
  simp [DVec.comma, DVec.toVec, Vec.fn, List.getD]

theorem doubleIntegrator_regulates :
    (doubleIntegratorStage : StageInputs ℝ).Regulates 6 doubleIntegratorPlant := by
  constructor
  · simp only [doubleIntegratorStage, DVec.comma_fn, doubleIntegratorPlant]
    ext i; fin_cases i <;> norm_num
  · intro x u
    simp only [doubleIntegratorStage, DVec.comma_fn, DMat.comma, DMat.ofFn_fn, doubleIntegratorPlant]
    ext i; fin_cases i <;> simp [mulVec, dotProduct, Fin.sum_univ_succ] <;> norm_num
  · intro u
    simp only [doubleIntegratorStage, DVec.comma_fn, DMat.comma, DMat.ofFn_fn, doubleIntegratorPlant, abs_le]
    simp [mulVec, dotProduct, Fin.forall_fin_succ]
    norm_num
    intro _
    constructor <;> intro h <;> linarith
  · intro x u
    simp only [doubleIntegratorStage, DVec.comma_fn, DMat.comma, DMat.ofFn_fn, doubleIntegratorPlant, abs_le]
    simp [mulVec, dotProduct, Fin.sum_univ_succ, Fin.forall_fin_succ]
    norm_num
    constructor
    · rintro ⟨h1, h2, h3, h4, h5, h6⟩
      refine ⟨⟨?_, ?_⟩, ⟨?_, ?_⟩, ?_, ?_⟩ <;> linarith
    · rintro ⟨⟨h1, h2⟩, ⟨h3, h4⟩, h5, h6⟩
      refine ⟨?_, ?_, ?_, ?_, ?_, ?_⟩ <;> linarith
  · intro x u
    simp only [doubleIntegratorStage, DVec.comma_fn, DMat.comma, DMat.ofFn_fn, doubleIntegratorPlant]
    simp [mulVec, dotProduct, Fin.sum_univ_succ]
    norm_num
    ring

theorem servoMotor_regulates : (servoMotorStage : StageInputs ℝ).Regulates 4 servoMotorPlant := by
  constructor
  · simp only [servoMotorStage, DVec.comma_fn, servoMotorPlant]
    ext i; fin_cases i <;> norm_num
  · intro x u
    simp only [servoMotorStage, DVec.comma_fn, DMat.comma, DMat.ofFn_fn, servoMotorPlant, shaftTorque]
    ext i
    fin_cases i <;> simp [DMat.ofFn, mulVec, dotProduct, Fin.sum_univ_succ] <;> norm_num <;> ring
  · intro u
    simp only [servoMotorStage, DVec.comma_fn, DMat.comma, DMat.ofFn_fn, servoMotorPlant, abs_le]
    simp [mulVec, dotProduct, Fin.forall_fin_succ]
    norm_num
    constructor
    · intro h; constructor <;> linarith [h.1, h.2]
    · intro h; constructor <;> linarith [h.1, h.2]
  · intro x u
    simp only [servoMotorStage, DVec.comma_fn, DMat.comma, DMat.ofFn_fn, servoMotorPlant, shaftTorque, abs_le]
    simp [mulVec, dotProduct, Fin.sum_univ_succ, Fin.forall_fin_succ]
    norm_num
    constructor
    · rintro ⟨h1, h2, h3, h4⟩
      refine ⟨⟨?_, ?_⟩, ?_, ?_⟩ <;> linarith
    · rintro ⟨⟨h1, h2⟩, h3, h4⟩
      refine ⟨?_, ?_, ?_, ?_⟩ <;> linarith
  · intro x u
    simp only [servoMotorStage, DVec.comma_fn, DMat.zero, DMat.comma, DMat.ofFn_fn, servoMotorPlant]
    simp [mulVec, dotProduct, Fin.sum_univ_succ]
    norm_num
    ring

theorem coded_mean_motion :
    Scalar.sqrt ((398600.4418 : ℝ) / ((6371.0 + 650.0) * (6371.0 + 650.0) * (6371.0 + 650.0))) =
      meanMotion := by
  show √_ = √_
  congr 1; norm_num

theorem spacecraft_regulates : (spacecraftStage : StageInputs ℝ).Regulates 12 spacecraftPlant := by
  have hd : ((spacecraftStage : StageInputs ℝ).d.toVec 12).fn = fun _ => -1e-3 := by
    simp only [spacecraftStage, DVec.ofFn_fn]
    ext i; split <;> norm_num
  constructor
  · simp only [spacecraftStage, DVec.comma_fn, spacecraftPlant]
    ext i; fin_cases i <;> norm_num
  · intro x u
    simp only [spacecraftStage, DVec.comma_fn, DMat.ofFn_fn, coded_mean_motion, dotFin_real, sumFin_eq_sum,
      spacecraftPlant, relativeMotion]
    ext i
    fin_cases i <;> simp [mulVec, dotProduct, Fin.sum_univ_succ, spacecraftA, vecHead, vecTail] <;> norm_num <;> ring
  · intro u
    rw [hd]
    simp only [spacecraftStage, DMat.ofFn_fn, spacecraftPlant, abs_le]
    simp [mulVec, dotProduct, Fin.sum_univ_succ, Fin.forall_fin_succ]
    norm_num
    constructor
    · rintro ⟨h1, h2, h3, h4, h5, h6⟩
      refine ⟨⟨?_, ?_⟩, ⟨?_, ?_⟩, ?_, ?_⟩ <;> linarith
    · rintro ⟨⟨h1, h2⟩, ⟨h3, h4⟩, h5, h6⟩
      refine ⟨?_, ?_, ?_, ?_, ?_, ?_⟩ <;> linarith
  · intro x u
    rw [hd]
    simp only [spacecraftStage, DMat.ofFn_fn, spacecraftPlant, abs_le]
    simp [mulVec, dotProduct, Fin.sum_univ_succ, Fin.forall_fin_succ]
    norm_num
    constructor
    · rintro ⟨h1, h2, h3, h4, h5, h6, h7, h8, h9, h10, h11, h12⟩
      refine ⟨⟨⟨?_, ?_⟩, ⟨?_, ?_⟩, ?_, ?_⟩, ⟨?_, ?_⟩, ⟨?_, ?_⟩, ?_, ?_⟩ <;> linarith
    · rintro ⟨⟨⟨h1, h2⟩, ⟨h3, h4⟩, h5, h6⟩, ⟨h7, h8⟩, ⟨h9, h10⟩, h11, h12⟩
      refine ⟨?_, ?_, ?_, ?_, ?_, ?_, ?_, ?_, ?_, ?_, ?_, ?_⟩ <;> linarith
  · intro x u
    simp only [spacecraftStage, DVec.comma_fn, DMat.zero, DMat.identity, DMat.ofFn_fn, spacecraftPlant]
    simp [mulVec, dotProduct, Fin.sum_univ_succ]
    norm_num
    ring

theorem reactorOutput_eq (x : Fin 18 → ℝ) :
    (of fun (k : Fin 4) (i : Fin 18) => (copolymerizationC k.1 i.1 : ℝ)) *ᵥ x = reactorOutput x := by
  have z : (0.0 : ℝ) = 0 := by norm_num
  have o : (1.0 : ℝ) = 1 := by norm_num
  ext i
  fin_cases i <;> simp [mulVec, dotProduct, Fin.sum_univ_succ, copolymerizationC, reactorOutput] <;>
    simp only [z, o, zero_mul, one_mul, zero_add, add_zero] <;> ring

theorem copolymerization_regulates (sine : Nat → ℝ) :
    (copolymerizationStage sine).Regulates 10 (reactorPlant sine) := by
  have hd : ((copolymerizationStage sine).d.toVec 10).fn = fun _ => -0.05 := by
    simp only [copolymerizationStage, DVec.ofFn_fn]
    ext i; norm_num
  have hE : ((copolymerizationStage sine).E.toMat 10 18).fn = 0 := by
    simp only [copolymerizationStage, DMat.zero, DMat.ofFn_fn]
    rfl
  have hin : ∀ u, (∀ j, (((copolymerizationStage sine).L.toMat 10 5).fn *ᵥ u) j + -0.05 ≤ 0) ↔
      (reactorPlant sine).inputOk u := by
    intro u
    simp only [copolymerizationStage, DMat.ofFn_fn, reactorPlant, abs_le]
    simp [mulVec, dotProduct, Fin.sum_univ_succ, Fin.forall_fin_succ]
    norm_num
    constructor
    · rintro ⟨h1, h2, h3, h4, h5, h6, h7, h8, h9, h10⟩
      refine ⟨⟨?_, ?_⟩, ⟨?_, ?_⟩, ⟨?_, ?_⟩, ⟨?_, ?_⟩, ?_, ?_⟩ <;> linarith
    · rintro ⟨⟨h1, h2⟩, ⟨h3, h4⟩, ⟨h5, h6⟩, ⟨h7, h8⟩, h9, h10⟩
      refine ⟨?_, ?_, ?_, ?_, ?_, ?_, ?_, ?_, ?_, ?_⟩ <;> linarith
  constructor
  · simp only [copolymerizationStage, DVec.ofFn_fn, reactorPlant]
  · intro x u
    simp only [copolymerizationStage, DVec.ofFn_fn, DMat.ofFn_fn, reactorPlant]
    ext i
    fin_cases i <;> simp [mulVec, dotProduct, Fin.sum_univ_succ, scatter, copolymerizationA,
      copolymerizationB] <;> ring
  · intro u
    rw [hd, ← hin]
  · intro x u
    rw [hd, hE, zero_mulVec, ← hin]
    simp [reactorPlant]
  · intro x u
    have hQ : ((copolymerizationStage sine).Q.toMat 18 18).fn =
        (of fun (k : Fin 4) (i : Fin 18) => (copolymerizationC k.1 i.1 : ℝ))ᵀ *
          of fun (k : Fin 4) (i : Fin 18) => (copolymerizationC k.1 i.1 : ℝ) := by
      simp only [copolymerizationStage, DMat.ofFn_fn]
      ext i j
      rw [dotFin_real, sumFin_eq_sum]
      rfl
    have hR : ((copolymerizationStage sine).R.toMat 5 5).fn = (0.1 : ℝ) • (1 : Matrix (Fin 5) (Fin 5) ℝ) := by
      simp only [copolymerizationStage, DMat.ofFn_fn]
      ext i j
      simp [Matrix.one_apply, Fin.ext_iff]
    have hS : ((copolymerizationStage sine).S.toMat 5 18).fn = 0 := by
      simp only [copolymerizationStage, DMat.zero, DMat.ofFn_fn]
      rfl
    have hq : ((copolymerizationStage sine).q.toVec 18).fn = 0 := by
      simp only [copolymerizationStage, DVec.ofFn_fn]; rfl
    have hr : ((copolymerizationStage sine).r.toVec 5).fn = 0 := by
      simp only [copolymerizationStage, DVec.ofFn_fn]; rfl
    rw [hQ, hR, hS, hq, hr, zero_mulVec, dotProduct_zero, smul_mulVec, one_mulVec, dotProduct_smul,
      ← mulVec_mulVec, dotProduct_mulVec, vecMul_transpose, zero_dotProduct, zero_dotProduct]
    rw [reactorOutput_eq]
    simp only [reactorPlant, dotProduct, ← pow_two, smul_eq_mul]
    ring

/-! ## The theorems -/

theorem DMat.identity_fn (n : Nat) : ((DMat.identity n : DMat ℝ).toMat n n).fn = 1 := by
  rw [DMat.identity, DMat.ofFn_fn]
  ext i j
  simp [Matrix.one_apply, Fin.ext_iff]

theorem DMat.zero_fn (m n : Nat) : ((DMat.zero m n : DMat ℝ).toMat m n).fn = 0 := by
  rw [DMat.zero, DMat.ofFn_fn]
  rfl

/-- C55: `DoubleIntegrator(N)`, on any generator and for every horizon that fits an `int`. -/
theorem C55_doubleIntegrator (g : OcpGen ℝ) (N : Int) (hN : 0 < N) (hlim : (N + 1) * 81 < 2 ^ 31) :
    Provides 6 N doubleIntegratorPlant (g.doubleIntegrator N) := by
  obtain ⟨g', h1, h2⟩ := (C42_doubleIntegrator g N hlim).2 hN
  have hp := doubleIntegrator_regulates
  have hsim : g'.sim = ⟨doubleIntegratorStage.A, doubleIntegratorStage.B, .identity 2, .zero 2 1, 40⟩ := by
    have h := h1
    unfold OcpGen.doubleIntegrator at h
    rw [if_neg (by omega)] at h
    cases hc : g.copyOverHorizon doubleIntegratorStage N.toNat with
    | error e => rw [hc] at h; cases h
    | ok g0 => rw [hc] at h; cases h; rfl
  refine h2.provides h1 hp ?_
  rw [hsim, h2.x0]
  refine ⟨⟨⟨rfl, rfl⟩, ⟨rfl, rfl⟩, ⟨rfl, rfl⟩, ⟨rfl, rfl⟩, rfl⟩, hp.start, fun x u => ?_, fun x u => ?_, rfl⟩
  · have h := hp.next x u
    have hc : ((doubleIntegratorStage : StageInputs ℝ).c.toVec 2).fn = 0 := by
      simp only [doubleIntegratorStage, DVec.comma_fn]
      ext i; fin_cases i <;> norm_num
    rwa [hc, add_zero] at h
  · simp only [DMat.identity_fn, DMat.zero_fn, one_mulVec, zero_mulVec, add_zero]
    rfl

/-- C55: `ServoMotor(N)` -/
theorem C55_servoMotor (g : OcpGen ℝ) (N : Int) (hN : 0 < N) (hlim : (N + 1) * 81 < 2 ^ 31) :
    Provides 4 N servoMotorPlant (g.servoMotor N) := by
  obtain ⟨g', h1, h2⟩ := (C42_servoMotor g N hlim).2 hN
  have hp := servoMotor_regulates
  have hsim : g'.sim = ⟨servoMotorStage.A, servoMotorStage.B,
      .comma 2 4 [1.0, 0.0, 0.0, 0.0, 1280.2, 0.0, -1280.2 / 20.0, 0.0], .zero 2 1, 40⟩ := by
    have h := h1
    unfold OcpGen.servoMotor at h
    rw [if_neg (by omega)] at h
    cases hc : g.copyOverHorizon servoMotorStage N.toNat with
    | error e => rw [hc] at h; cases h
    | ok g0 => rw [hc] at h; cases h; rfl
  refine h2.provides h1 hp ?_
  rw [hsim, h2.x0]
  refine ⟨⟨⟨rfl, rfl⟩, ⟨rfl, rfl⟩, ⟨rfl, rfl⟩, ⟨rfl, rfl⟩, rfl⟩, hp.start, fun x u => ?_, fun x u => ?_, rfl⟩
  · have h := hp.next x u
    have hc : ((servoMotorStage : StageInputs ℝ).c.toVec 4).fn = 0 := by
      simp only [servoMotorStage, DVec.comma_fn]
      ext i; fin_cases i <;> norm_num
    rwa [hc, add_zero] at h
  · simp only [DMat.comma, DMat.ofFn_fn, DMat.zero_fn, zero_mulVec, add_zero, servoMotorPlant, shaftTorque]
    ext i
    fin_cases i <;> simp [mulVec, dotProduct, Fin.sum_univ_succ] <;> norm_num
    ring

/-- C55: `SpacecraftRelativeMotion(N)` -/
theorem C55_spacecraft (g : OcpGen ℝ) (N : Int) (hN : 0 < N) (hlim : (N + 1) * 441 < 2 ^ 31) :
    Provides 12 N spacecraftPlant (g.spacecraft N) := by
  obtain ⟨g', h1, h2⟩ := (C42_spacecraft g N hlim).2 hN
  have hp := spacecraft_regulates
  have hsim : g'.sim = ⟨spacecraftStage.A, spacecraftStage.B, .identity 6, .zero 6 3, 100⟩ := by
    have h := h1
    unfold OcpGen.spacecraft at h
    rw [if_neg (by omega)] at h
    cases hc : g.copyOverHorizon spacecraftStage N.toNat with
    | error e => rw [hc] at h; cases h
    | ok g0 => rw [hc] at h; cases h; rfl
  refine h2.provides h1 hp ?_
  rw [hsim, h2.x0]
  refine ⟨⟨⟨rfl, rfl⟩, ⟨rfl, rfl⟩, ⟨rfl, rfl⟩, ⟨rfl, rfl⟩, rfl⟩, hp.start, fun x u => ?_, fun x u => ?_, rfl⟩
  · have h := hp.next x u
    have hc : ((spacecraftStage : StageInputs ℝ).c.toVec 6).fn = 0 := by
      simp only [spacecraftStage, DVec.comma_fn]
      ext i; fin_cases i <;> norm_num
    rwa [hc, add_zero] at h
  · simp only [DMat.identity_fn, DMat.zero_fn, one_mulVec, zero_mulVec, add_zero]
    rfl

/-- C55: `CopolymerizationReactor(N)`; `sine k` is the value of `sin(k)`. -/
theorem C55_copolymerization (sine : Nat → ℝ) (g : OcpGen ℝ) (N : Int) (hN : 0 < N)
    (hlim : (N + 1) * 1089 < 2 ^ 31) :
    Provides 10 N (reactorPlant sine) (g.copolymerization sine N) := by
  obtain ⟨g', h1, h2⟩ := (C42_copolymerization sine g N hlim).2 hN
  have hp := copolymerization_regulates sine
  have hsim : g'.sim = ⟨(copolymerizationStage sine).A, (copolymerizationStage sine).B,
      .ofFn 4 18 copolymerizationC, .zero 4 5, 200⟩ := by
    have h := h1
    unfold OcpGen.copolymerization at h
    rw [if_neg (by omega)] at h
    cases hc : g.copyOverHorizon (copolymerizationStage sine) N.toNat with
    | error e => rw [hc] at h; cases h
    | ok g0 => rw [hc] at h; cases h; rfl
  refine h2.provides h1 hp ?_
  rw [hsim, h2.x0]
  refine ⟨⟨⟨rfl, rfl⟩, ⟨rfl, rfl⟩, ⟨rfl, rfl⟩, ⟨rfl, rfl⟩, (copolymerization_shaped sine).x0⟩, hp.start,
    fun x u => ?_, fun x u => ?_, rfl⟩
  · have h := hp.next x u
    have hc : ((copolymerizationStage sine).c.toVec 18).fn = 0 := by
      simp only [copolymerizationStage, DVec.ofFn_fn]
      rfl
    rw [hc, add_zero] at h
    exact h
  · simp only [DMat.ofFn_fn, DMat.zero_fn, zero_mulVec, add_zero]
    rw [show (reactorPlant sine).output = reactorOutput from rfl, ← reactorOutput_eq]
    rfl

/-- C55: `GetSimulationInputs`, `GetFBstabInput` and `GetFBstabInputRef` throw exactly when no problem
creator was called before. -/
theorem C55_unpopulated {K : Type} [Scalar K] (g : OcpGen K) :
    ((∃ e, g.getSimulationInputs = .error e) ↔ g.populated = false) ∧
    ((∃ e, g.getFBstabInput = .error e) ↔ g.populated = false) ∧
    ((∃ e, g.getFBstabInputRef = .error e) ↔ g.populated = false) ∧
    (OcpGen.new : OcpGen K).populated = false := by
  refine ⟨?_, ?_, ?_, rfl⟩ <;>
    simp only [OcpGen.getSimulationInputs, OcpGen.getFBstabInput, OcpGen.getFBstabInputRef] <;>
    cases g.populated <;> simp

/-- C55: the generated problem can be posed and solved: the trajectory at rest is admissible for the
double integrator for every horizon; other limits do exclude trajectories. -/
example : doubleIntegratorPlant.inputOk ![1] ∧ ¬doubleIntegratorPlant.inputOk ![1.5] ∧
    doubleIntegratorPlant.stateOk ![2, 0] ∧ ¬doubleIntegratorPlant.stateOk ![0, 3] ∧
    doubleIntegratorPlant.next ![1, 2] ![3] = ![3, 5] := by
  simp only [doubleIntegratorPlant]
  refine ⟨by norm_num, by norm_num [abs_le], by norm_num, by norm_num, ?_⟩
  ext i; fin_cases i <;> norm_num

end Fbstab
