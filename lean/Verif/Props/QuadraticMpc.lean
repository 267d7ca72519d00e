import Verif.Props.Quadratic
import Mathlib.LinearAlgebra.Matrix.Notation

/-!
# C68: an instance with an optimal control problem
-/

namespace Fbstab
open Matrix

/-- `x(1) = x(0) + u(0)`, `x(0) = 0`, `u <= 1`, cost
`x(0)^2 / 2 + (x(1) - 1)^2 / 2 + (u(0) - 2)^2 / 2 + (u(1) - 2)^2 / 2`.  The solution is `u = 1`, with multipliers
1 for both constraints. -/
noncomputable def capOcp : Ocp 1 1 1 1 where
  Q := fun _ _ _ => 1
  R := fun _ _ _ => 1
  S := fun _ _ _ => 0
  q := fun i _ => if i = 0 then 0 else -1
  r := fun _ _ => -2
  A := fun _ _ _ => 1
  B := fun _ _ _ => 1
  c := fun _ _ => 0
  E := fun _ _ _ => 0
  L := fun _ _ _ => 1
  d := fun _ _ => -1
  x0 := fun _ => 0

theorem capOcp_A : capOcp.toQP.A = (!![0, 1, 0, 0; 0, 0, 0, 1] : Matrix (Fin 2) (Fin 4) ℝ) := by
  ext i j
  change Fin 2 at i
  change Fin 4 at j
  fin_cases i <;> fin_cases j <;>
    simp [capOcp, Ocp.toQP, Ocp.stage, Ocp.block, finProdFinEquiv, finSumFinEquiv, Fin.divNat,
      Fin.modNat, Fin.addCases, Matrix.fromCols]

theorem capOcp_H : capOcp.toQP.H =
    (!![1, 0, 0, 0; 0, 1, 0, 0; 0, 0, 1, 0; 0, 0, 0, 1] : Matrix (Fin 4) (Fin 4) ℝ) := by
  ext i j
  change Fin 4 at i
  change Fin 4 at j
  fin_cases i <;> fin_cases j <;>
    simp [capOcp, Ocp.toQP, Ocp.stage, Ocp.block, finProdFinEquiv, finSumFinEquiv, Fin.divNat,
      Fin.modNat, Fin.addCases, Matrix.fromBlocks, Matrix.transpose]

theorem capOcp_G : capOcp.toQP.G = (!![-1, 0, 0, 0; 1, 1, -1, 0] : Matrix (Fin 2) (Fin 4) ℝ) := by
  ext i j
  change Fin 2 at i
  change Fin 4 at j
  fin_cases i <;> fin_cases j <;>
    simp [capOcp, Ocp.toQP, Ocp.stage, Ocp.block, finProdFinEquiv, finSumFinEquiv, Fin.divNat,
      Fin.modNat, Fin.addCases, Matrix.fromCols] <;> rfl

theorem capOcp_f : capOcp.toQP.f = (![0, -2, -1, -2] : Fin 4 → ℝ) := by
  ext a
  change Fin 4 at a
  fin_cases a <;>
    simp [capOcp, Ocp.toQP, Ocp.stack, Ocp.stage, Ocp.block, finProdFinEquiv, finSumFinEquiv, Fin.divNat,
      Fin.modNat, Fin.addCases]

theorem capOcp_h : capOcp.toQP.h = 0 := by
  ext a
  simp only [Ocp.toQP, capOcp]
  rw [show (Fin.cases (0 : ℝ) (fun _ => 0) (Ocp.block a).1 : ℝ) = 0 from by
    refine Fin.cases rfl (fun _ => rfl) (Ocp.block a).1]
  simp

theorem capOcp_b : capOcp.toQP.b = fun _ => 1 := by
  ext a
  simp [Ocp.toQP, capOcp]

theorem capOcp_convex : capOcp.Convex where
  Qsymm i := Matrix.IsSymm.ext fun _ _ => rfl
  Rsymm i := Matrix.IsSymm.ext fun _ _ => rfl
  nonneg i x u := by
    simp only [capOcp, mulVec, dotProduct, Finset.univ_unique, Finset.sum_singleton]
    nlinarith [mul_self_nonneg (x default), mul_self_nonneg (u default)]

/-- The solution: `x(0) = 0`, `x(1) = 1`, `u(0) = u(1) = 1`. -/
noncomputable def capOcpSol : PD ((1 + 1) * (1 + 1)) ((1 + 1) * 1) ((1 + 1) * 1) :=
  ⟨(![0, 1, 1, 1] : Fin 4 → ℝ), 0, fun _ => 1⟩

/-- The guess: `u(1) = 1 + 1e-11`, everything else as in the solution. -/
noncomputable def capOcpGuess : PD ((1 + 1) * (1 + 1)) ((1 + 1) * 1) ((1 + 1) * 1) :=
  ⟨(![0, 1, 1, 1 + 1e-11] : Fin 4 → ℝ), 0, fun _ => 1⟩

theorem capOcp_grad (t : ℝ) : capOcp.toQP.lagrangeGrad (![0, 1, 1, t] : Fin 4 → ℝ) 0 (fun _ => 1) =
    (![0, 0, 0, t - 1] : Fin 4 → ℝ) := by
  ext i
  change Fin 4 at i
  unfold QP.lagrangeGrad
  rw [capOcp_A, capOcp_H, capOcp_f]
  rw [mulVec_zero]
  show ((!![1, 0, 0, 0; 0, 1, 0, 0; 0, 0, 1, 0; 0, 0, 0, 1] : Matrix (Fin 4) (Fin 4) ℝ) *ᵥ ![0, 1, 1, t]) i +
    (![0, -2, -1, -2] : Fin 4 → ℝ) i + 0 +
    ((!![0, 1, 0, 0; 0, 0, 0, 1] : Matrix (Fin 2) (Fin 4) ℝ)ᵀ *ᵥ fun _ => 1) i = _
  fin_cases i <;> simp [mulVec, dotProduct, Fin.sum_univ_succ, transpose] <;> ring

theorem capOcp_Az (t : ℝ) : capOcp.toQP.A *ᵥ (![0, 1, 1, t] : Fin 4 → ℝ) = (![1, t] : Fin 2 → ℝ) := by
  rw [capOcp_A]
  show (!![0, 1, 0, 0; 0, 0, 0, 1] : Matrix (Fin 2) (Fin 4) ℝ) *ᵥ ![0, 1, 1, t] = _
  ext i
  fin_cases i <;> simp [mulVec, dotProduct, Fin.sum_univ_succ]

theorem capOcp_Gz (t : ℝ) : capOcp.toQP.G *ᵥ (![0, 1, 1, t] : Fin 4 → ℝ) = 0 := by
  rw [capOcp_G]
  show (!![-1, 0, 0, 0; 1, 1, -1, 0] : Matrix (Fin 2) (Fin 4) ℝ) *ᵥ ![0, 1, 1, t] = _
  ext i
  fin_cases i <;> simp [mulVec, dotProduct, Fin.sum_univ_succ]

theorem capOcp_kkt : capOcp.toQP.KKT capOcpSol.z capOcpSol.l capOcpSol.v where
  stationary := by
    refine (capOcp_grad 1).trans ?_
    rw [sub_self]
    ext i
    change Fin 4 at i
    fin_cases i <;> rfl
  feasible := ⟨by rw [capOcp_h]; exact capOcp_Gz 1, fun i => by
    have h := congrFun (capOcp_Az 1) i
    rw [capOcp_b]
    refine le_of_eq (h.trans ?_)
    change Fin 2 at i
    fin_cases i <;> rfl⟩
  dual _ := zero_le_one
  complementary i := by
    right
    rw [capOcp_b]
    refine (congrFun (capOcp_Az 1) i).trans ?_
    change Fin 2 at i
    fin_cases i <;> rfl

theorem capOcp_strict : capOcp.toQP.StrictlyComplementary 1 1 capOcpSol.z capOcpSol.v where
  margin i := le_max_of_le_right le_rfl
  bound i := by
    rw [capOcp_b]
    refine ⟨?_, le_rfl⟩
    have h : (capOcp.toQP.A *ᵥ capOcpSol.z) i = 1 := by
      refine (congrFun (capOcp_Az 1) i).trans ?_
      change Fin 2 at i
      fin_cases i <;> rfl
    rw [h]
    norm_num
  nonneg := zero_le_one

theorem capOcp_sizes : capOcp.toQP.sizeH = 2 ∧ capOcp.toQP.sizeG = 2 ∧ 1.414 ≤ capOcp.toQP.sizeA ∧
    capOcp.toQP.sizeA ≤ 1.415 := by
  have hA : ∑ i, ∑ j, capOcp.toQP.A i j ^ 2 = 2 := by
    rw [capOcp_A]
    show ∑ i : Fin 2, ∑ j : Fin 4, (!![0, 1, 0, 0; 0, 0, 0, 1] : Matrix (Fin 2) (Fin 4) ℝ) i j ^ 2 = _
    simp [Fin.sum_univ_succ]
    norm_num
  have hH : ∑ i, ∑ j, capOcp.toQP.H i j ^ 2 = 2 ^ 2 := by
    rw [capOcp_H]
    show ∑ i : Fin 4, ∑ j : Fin 4,
      (!![1, 0, 0, 0; 0, 1, 0, 0; 0, 0, 1, 0; 0, 0, 0, 1] : Matrix (Fin 4) (Fin 4) ℝ) i j ^ 2 = _
    simp [Fin.sum_univ_succ]
    norm_num
  have hG : ∑ i, ∑ j, capOcp.toQP.G i j ^ 2 = 2 ^ 2 := by
    rw [capOcp_G]
    show ∑ i : Fin 2, ∑ j : Fin 4, (!![-1, 0, 0, 0; 1, 1, -1, 0] : Matrix (Fin 2) (Fin 4) ℝ) i j ^ 2 = _
    simp [Fin.sum_univ_succ]
    norm_num
  refine ⟨?_, ?_, ?_, ?_⟩
  · rw [QP.sizeH, hH, Real.sqrt_sq (by norm_num)]
  · rw [QP.sizeG, hG, Real.sqrt_sq (by norm_num)]
  · rw [QP.sizeA, hA]; exact Real.le_sqrt_of_sq_le (by norm_num)
  · rw [QP.sizeA, hA]; exact Real.sqrt_le_iff.2 ⟨by norm_num, by norm_num⟩

theorem capOcp_errFactor : 18.65 ≤ capOcp.toQP.errFactor 0.5 1 ∧ capOcp.toQP.errFactor 0.5 1 ≤ 18.66 := by
  obtain ⟨-, -, h1, h2⟩ := capOcp_sizes
  have e : capOcp.toQP.errFactor 0.5 1 = 13 + 4 * capOcp.toQP.sizeA := by
    unfold QP.errFactor
    ring
  rw [e]
  norm_num at *
  constructor <;> linarith

theorem capOcpGuess_dist : (capOcpGuess.diff capOcpSol).length = 1e-11 := by
  unfold PD.length PD.diff
  have e1 : capOcpGuess.z - capOcpSol.z = (![0, 0, 0, 1e-11] : Fin 4 → ℝ) := by
    ext i
    change Fin 4 at i
    fin_cases i <;> simp [capOcpGuess, capOcpSol]
  have e2 : capOcpGuess.l - capOcpSol.l = 0 := sub_self _
  have e3 : capOcpGuess.v - capOcpSol.v = 0 := sub_self _
  have e4 : (![0, 0, 0, 1e-11] : Fin 4 → ℝ) ⬝ᵥ (![0, 0, 0, 1e-11] : Fin 4 → ℝ) = 1e-11 ^ 2 := by
    simp [dotProduct, Fin.sum_univ_succ]
    norm_num
  simp only [e1, e2, e3]
  simp only [zero_dotProduct, add_zero]
  show √((![0, 0, 0, 1e-11] : Fin 4 → ℝ) ⬝ᵥ (![0, 0, 0, 1e-11] : Fin 4 → ℝ)) = _
  rw [e4, Real.sqrt_sq (by norm_num)]

/-- The parts of the residual at the guess. -/
theorem capOcpGuess_residual : Method.residual capOcp.toQP capOptions capOcpGuess = ⟨1e-11, 0, 0.5e-11⟩ := by
  refine Method.Parts.ext ?_ ?_ ?_ <;> simp only [Method.residual]
  · have e : capOcp.toQP.lagrangeGrad capOcpGuess.z capOcpGuess.l capOcpGuess.v = (![0, 0, 0, 1e-11] : Fin 4 → ℝ) := by
      refine (capOcp_grad (1 + 1e-11)).trans ?_
      rw [add_sub_cancel_left]
    rw [e]
    unfold euclid
    show √((![0, 0, 0, 1e-11] : Fin 4 → ℝ) ⬝ᵥ (![0, 0, 0, 1e-11] : Fin 4 → ℝ)) = _
    have e4 : (![0, 0, 0, 1e-11] : Fin 4 → ℝ) ⬝ᵥ (![0, 0, 0, 1e-11] : Fin 4 → ℝ) = 1e-11 ^ 2 := by
      simp [dotProduct, Fin.sum_univ_succ]
      norm_num
    rw [e4, Real.sqrt_sq (by norm_num)]
  · have e : capOcp.toQP.G *ᵥ capOcpGuess.z = 0 := capOcp_Gz _
    rw [capOcp_h, e]
    unfold euclid; simp
  · have e : (fun i => capOptions.alpha * min ((capOcp.toQP.b - capOcp.toQP.A *ᵥ capOcpGuess.z) i) (capOcpGuess.v i) +
        (1 - capOptions.alpha) * max 0 ((capOcp.toQP.b - capOcp.toQP.A *ᵥ capOcpGuess.z) i) *
          max 0 (capOcpGuess.v i)) = (![0, -0.5e-11] : Fin 2 → ℝ) := by
      ext i
      have e1 : (capOcp.toQP.b - capOcp.toQP.A *ᵥ capOcpGuess.z) i = (![0, -1e-11] : Fin 2 → ℝ) i := by
        rw [Pi.sub_apply, capOcp_b]
        have := congrFun (capOcp_Az (1 + 1e-11)) i
        have h2 : (capOcp.toQP.A *ᵥ capOcpGuess.z) i = (![1, 1 + 1e-11] : Fin 2 → ℝ) i := this
        rw [h2]
        change Fin 2 at i
        fin_cases i <;> simp
      rw [e1]
      show (0.5 : ℝ) * min ((![0, -1e-11] : Fin 2 → ℝ) i) 1 + (1 - 0.5) * max 0 ((![0, -1e-11] : Fin 2 → ℝ) i) * max 0 1 = _
      change Fin 2 at i
      fin_cases i
      · norm_num
      · show (0.5 : ℝ) * min (-1e-11) 1 + (1 - 0.5) * max 0 (-1e-11) * max 0 1 = -0.5e-11
        rw [min_eq_left (by norm_num), max_eq_left (by norm_num)]
        norm_num
    have e2 := congrArg euclid e
    refine e2.trans ?_
    unfold euclid
    have e4 : (![0, -0.5e-11] : Fin 2 → ℝ) ⬝ᵥ (![0, -0.5e-11] : Fin 2 → ℝ) = 0.5e-11 ^ 2 := by
      simp [dotProduct, Fin.sum_univ_succ]
      norm_num
    show √((![0, -0.5e-11] : Fin 2 → ℝ) ⬝ᵥ (![0, -0.5e-11] : Fin 2 → ℝ)) = _
    rw [e4, Real.sqrt_sq (by norm_num)]

theorem capOcpGuess_norm : 1e-11 ≤ (Method.residual capOcp.toQP capOptions capOcpGuess).norm ∧
    (Method.residual capOcp.toQP capOptions capOcpGuess).norm ≤ 2e-11 := by
  rw [capOcpGuess_residual]
  unfold Method.Parts.norm
  constructor
  · exact Real.le_sqrt_of_sq_le (by norm_num)
  · exact Real.sqrt_le_iff.2 ⟨by norm_num, by norm_num⟩

theorem capOcp_squareFactor :
    6e6 ≤ capOcp.toQP.squareFactor 0.5 1 1 1 ∧ capOcp.toQP.squareFactor 0.5 1 1 1 ≤ 6.3e6 := by
  unfold QP.squareFactor QP.distFactor
  obtain ⟨-, -, h1, h2⟩ := capOcp_sizes
  obtain ⟨k1, k2⟩ := capOcp_errFactor
  generalize capOcp.toQP.errFactor 0.5 1 = k at k1 k2
  generalize capOcp.toQP.sizeA = a at h1 h2
  have p1 : 63.66 ≤ (1 + a + 1) * k := by
    refine le_trans ?_ (mul_le_mul (show (3.414 : ℝ) ≤ 1 + a + 1 by norm_num at *; linarith) k1 (by norm_num)
      (by norm_num at *; linarith))
    norm_num
  have p2 : (1 + a + 1) * k ≤ 63.73 := by
    refine le_trans (mul_le_mul (show 1 + a + 1 ≤ (3.415 : ℝ) by norm_num at *; linarith) k2
      (by norm_num at *; linarith) (by norm_num)) ?_
    norm_num
  have s1 : 63.66 ^ 2 ≤ ((1 + a + 1) * k) ^ 2 := pow_le_pow_left₀ (by norm_num) p1 2
  have s2 : ((1 + a + 1) * k) ^ 2 ≤ 63.73 ^ 2 := pow_le_pow_left₀ (by norm_num at *; linarith) p2 2
  have e : (4 + 2 * (1 + 1)) * ((1 + a + 1) * (k * ((1 / (((1 : ℝ) + 1e-13) / 2) + 1) * ((1 + a + 1) * k) ^ 2))) =
      8 * (1 / (((1 : ℝ) + 1e-13) / 2) + 1) * (((1 + a + 1) * k) * ((1 + a + 1) * k) ^ 2) := by ring
  rw [e]
  generalize (1 + a + 1) * k = t at *
  have q1 := mul_le_mul p1 s1 (by norm_num) (by norm_num at *; linarith)
  have q2 := mul_le_mul p2 s2 (by positivity) (by norm_num)
  constructor
  · refine le_trans ?_ (mul_le_mul_of_nonneg_left q1 (by norm_num))
    norm_num
  · refine le_trans (mul_le_mul_of_nonneg_left q2 (by norm_num)) ?_
    norm_num

theorem capOcp_basin : capOcp.toQP.Basin capOptions 1 1 5 (capOcp.toQP.localReach capOptions
    (capOcpGuess.diff capOcpSol).length (Method.residual capOcp.toQP capOptions capOcpGuess).norm) := by
  rw [capOcpGuess_dist]
  obtain ⟨h1, h2⟩ := capOcpGuess_norm
  obtain ⟨z1, z2, a1, a2⟩ := capOcp_sizes
  obtain ⟨k1, k2⟩ := capOcp_errFactor
  set E := (Method.residual capOcp.toQP capOptions capOcpGuess).norm
  have hx : E * 0.1 / (1 - 0.1) + ((10 : Int) : ℝ) * 1e-14 ≤ 2.4e-12 := by
    norm_num at *
    linarith
  have hx0 : 0 ≤ E * 0.1 / (1 - 0.1) + ((10 : Int) : ℝ) * 1e-14 := by
    norm_num at *
    linarith
  have hr : capOcp.toQP.localReach capOptions 1e-11 E ≤ 6e-11 := by
    unfold QP.localReach
    show 1e-11 + capOcp.toQP.errFactor 0.5 1 * (E * 0.1 / (1 - 0.1) + ((10 : Int) : ℝ) * 1e-14) ≤ _
    have := mul_le_mul k2 hx hx0 (by norm_num)
    refine (add_le_add le_rfl this).trans ?_
    norm_num
  have hr0 : 0 ≤ capOcp.toQP.localReach capOptions 1e-11 E := by
    unfold QP.localReach
    show 0 ≤ 1e-11 + capOcp.toQP.errFactor 0.5 1 * (E * 0.1 / (1 - 0.1) + ((10 : Int) : ℝ) * 1e-14)
    have := mul_nonneg (le_trans (by norm_num) k1 : (0 : ℝ) ≤ capOcp.toQP.errFactor 0.5 1) hx0
    refine add_nonneg (by norm_num) this
  set rho := capOcp.toQP.localReach capOptions 1e-11 E
  have hR : capOcp.toQP.startResidual 1 rho ≤ 1.4e-9 := by
    unfold QP.startResidual
    rw [z1, z2]
    generalize capOcp.toQP.sizeA = a at a1 a2
    have q0 : (1 + a) * rho ≤ 2.415 * 6e-11 :=
      mul_le_mul (by norm_num at *; linarith) hr hr0 (by norm_num)
    have q1 : (4 + 2 * (1 + (1 + a) * rho)) * (1 + a) ≤ 6.1 * 2.415 :=
      mul_le_mul (by norm_num at *; linarith) (by norm_num at *; linarith) (by norm_num at *; linarith) (by norm_num)
    refine (mul_le_mul (show 2 + 2 * 2 + a + (4 + 2 * (1 + (1 + a) * rho)) * (1 + a) ≤ 22.5 by
      norm_num at *; linarith) hr hr0 (by norm_num)).trans ?_
    norm_num
  have hR0 : 0 ≤ capOcp.toQP.startResidual 1 rho := capOcp.toQP.startResidual_nonneg zero_le_one hr0
  obtain ⟨f1, f2⟩ := capOcp_squareFactor
  refine ⟨by norm_num, ?_, ?_, ?_, ?_, by show (5 : Int) < 50; norm_num⟩
  · show (1 + capOcp.toQP.sizeA + 2 * 1) * rho ≤ _
    refine (mul_le_mul (show 1 + capOcp.toQP.sizeA + 2 * 1 ≤ 5 by norm_num at *; linarith) hr hr0
      (by norm_num)).trans ?_
    norm_num
  · show (1 + capOcp.toQP.sizeA + 1) * capOcp.toQP.errFactor 0.5 1 * _ ≤ _
    have q := mul_le_mul (show 1 + capOcp.toQP.sizeA + 1 ≤ 4 by norm_num at *; linarith) k2
      (le_trans (by norm_num) k1) (by norm_num)
    refine (mul_le_mul q hR hR0 (by norm_num)).trans ?_
    norm_num
  · show capOcp.toQP.squareFactor 0.5 1 1 1 * _ ≤ _
    refine (mul_le_mul f2 hR hR0 (by norm_num)).trans ?_
    norm_num
  · show _ ≤ capOcp.toQP.squareFactor 0.5 1 1 1 * 1e-14
    have := mul_le_mul_of_nonneg_right f1 (by norm_num : (0 : ℝ) ≤ 1e-14)
    refine le_trans ?_ this
    norm_num

theorem capOcpGuess_sub : 1e-11 ≤ (Method.subResidual capOcp.toQP capOptions capOcpGuess capOcpGuess).norm := by
  have h1 : (Method.subResidual capOcp.toQP capOptions capOcpGuess capOcpGuess).z = 1e-11 := by
    have h2 := congrArg Method.Parts.z capOcpGuess_residual
    show euclid (capOcp.toQP.lagrangeGrad capOcpGuess.z capOcpGuess.l capOcpGuess.v +
      (1 : ℝ) • (capOcpGuess.z - capOcpGuess.z)) = _
    rw [sub_self, smul_zero, add_zero]
    exact h2
  unfold Method.Parts.norm
  rw [h1]
  refine Real.le_sqrt_of_sq_le ?_
  have := sq_nonneg (Method.subResidual capOcp.toQP capOptions capOcpGuess capOcpGuess).l
  have := sq_nonneg (Method.subResidual capOcp.toQP capOptions capOcpGuess capOcpGuess).v
  linarith

/-- C68, the hypotheses can be met by a run of `FBstabMpc` with Newton steps: from the guess `u(1) = 1 + 1e-11`
every subproblem takes at most 5 Newton iterations, the log contains a line about a Newton step, and all of it
shows quadratic convergence. -/
theorem C68_example_mpc (junk : MpcJunk ℝ) :
    let s := FBstabMpc.made junk 1 1 1 1 capOptions
    let x : CallerVar ℝ := fullGuessOf capOcpGuess.z capOcpGuess.l capOcpGuess.v
    QuadraticLog (capOcp.toQP.squareFactor 0.5 1 1 1) (s.solve capOcp.toMpc x).log ∧
      (∃ rz rl rv, .detailedLine 1 1 rz rl rv ∈ (s.solve capOcp.toMpc x).log) ∧
      ∀ out, (s.solve capOcp.toMpc x).result = .ok out → out.newtonIters ≤ (out.proxIters + 1) * 5 := by
  intro s x
  have ho : s.ocp capOcp.toMpc = capOcp := FBstabMpc.made_ocp junk _ _
  have hq : s.qp capOcp.toMpc = capOcp.toQP := FBstabMpc.made_qp junk _ _
  have hr : s.Reachable := FBstabMpc.made_reachable junk _ (by norm_num) (by norm_num)
    (by norm_num) (by norm_num) (by norm_num [intLimit]) (by norm_num [intLimit]) capOptions_inRange
  obtain ⟨g1, g2, g3⟩ := fullGuessOf_point capOcpGuess.z capOcpGuess.l capOcpGuess.v
  have hfit := capOcp.toMpc_fits capOcpGuess.z capOcpGuess.l capOcpGuess.v
  obtain ⟨sub, r, h1, -, h2, -⟩ := C54_mpc s hr capOcp.toMpc x hfit capOcp.toMpc_columns (ho ▸ capOcp_convex)
  have e : (⟨(x.z.toVec ((1 + 1) * (1 + 1))).fn, (x.l.toVec ((1 + 1) * 1)).fn, (x.v.toVec ((1 + 1) * 1)).fn⟩ :
      PD ((1 + 1) * (1 + 1)) ((1 + 1) * 1) ((1 + 1) * 1)) = capOcpGuess := PD.ext g1 g2 g3
  have h1' : Method.Run capOcp.toQP capOptions capOcpGuess sub r := by
    have h3 := h1
    rw [hq] at h3
    have h4 : Method.Run capOcp.toQP capOptions ⟨(x.z.toVec ((1 + 1) * (1 + 1))).fn,
      (x.l.toVec ((1 + 1) * 1)).fn, (x.v.toVec ((1 + 1) * 1)).fn⟩ sub r := h3
    rw [e] at h4
    exact h4
  obtain ⟨a, b⟩ := C68_mpc s hr capOcp.toMpc x hfit capOcp.toMpc_columns (ho ▸ capOcp_convex)
    (z := capOcpSol.z) (l := capOcpSol.l) (v := capOcpSol.v) (by rw [hq]; exact capOcp_kkt) (m := 1) (M := 1)
    (by rw [hq]; exact capOcp_strict) (N := 5) (by
      rw [hq]
      have hB := capOcp_basin
      rw [← e] at hB
      exact hB)
  have a' := a rfl
  rw [hq] at a'
  refine ⟨a', ?_, b⟩
  obtain ⟨t, rz, rl, rv, hm⟩ := cap_steps (by norm_num) (lo := 1e-11) (by norm_num) capOcpGuess_norm.1
    (capOcpGuess_norm.2.trans (by norm_num)) capOcpGuess_sub h1'
  have hm' : (.detailedLine 1 t rz rl rv : Msg ℝ) ∈ (s.solve capOcp.toMpc x).log := by
    rw [h2]
    exact List.mem_filter.2 ⟨hm, rfl⟩
  have ht : t = 1 := (a'.full _ hm').1
  subst ht
  exact ⟨_, _, _, hm'⟩

end Fbstab
