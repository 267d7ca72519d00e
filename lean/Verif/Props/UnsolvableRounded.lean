import Verif.Proofs.Accuracy
import Verif.Props.Duality
import Verif.Props.RoundingExamples
import Verif.Proofs.Binary64Eval

/-!
# C57 in floating point: problems without solutions that are reported as solved

How far a problem can be from having a solution if SUCCESS is reported in rounded arithmetic; and a problem without
feasible points that is reported as solved in `double`, with residual zero.
-/

namespace Fbstab
open Matrix
variable {K : Type} [Scalar K] {u eta : ℝ}

namespace QP
variable {nz nl nv : Nat} {q : QP nz nl nv}

/-- What a result with residuals `S`, `T`, `c` says about the solvability of the problem: every contradiction between the
constraints and every direction of unbounded descent is as small as these numbers (and the drift of the margin). -/
structure NearlySolvable (q : QP nz nl nv) (S T c : ℝ) (z : Fin nz → ℝ) (y : Fin nv → ℝ) : Prop where
  contradiction : ∀ l v, q.Contradiction l v →
    -(q.h ⬝ᵥ l + q.b ⬝ᵥ v) ≤ T * euclid l + q.drift z y * euclid v + c * ∑ i, v i
  recession : q.H.IsSymm → ∀ d, q.Recession d → -(q.f ⬝ᵥ d) ≤ S * euclid d + c * ∑ i, -(q.A *ᵥ d) i

theorem nearlySolvable {S T c : ℝ} {z l v y} (hS : euclid (q.lagrangeGrad z l v) ≤ S)
    (hT : euclid (q.h - q.G *ᵥ z) ≤ T) (hc : ∀ i, |min (y i) (v i)| ≤ c) : q.NearlySolvable S T c z y := by
  have hy0 : ∀ i, -c ≤ y i := fun i => (abs_le.1 (hc i)).1.trans (min_le_left _ _)
  have hv0 : ∀ i, -c ≤ v i := fun i => (abs_le.1 (hc i)).1.trans (min_le_right _ _)
  refine ⟨fun lc vc h => ?_, fun hs d hr => ?_⟩
  · have h1 : (q.Gᵀ *ᵥ lc + q.Aᵀ *ᵥ vc) ⬝ᵥ z = 0 := by rw [h.cancel, zero_dotProduct]
    rw [add_dotProduct, transpose_dot, transpose_dot] at h1
    have h2 := (abs_le.1 (abs_dot_le_euclid lc (q.h - q.G *ᵥ z))).1
    have h3 : euclid lc * euclid (q.h - q.G *ᵥ z) ≤ euclid lc * T :=
      mul_le_mul_of_nonneg_left hT (euclid_nonneg _)
    have h4 := (abs_le.1 (abs_dot_le_euclid vc (y - (q.b - q.A *ᵥ z)))).2
    have h5 : -(c * ∑ i, vc i) ≤ vc ⬝ᵥ y := by
      rw [Finset.mul_sum, ← Finset.sum_neg_distrib]
      refine Finset.sum_le_sum fun i _ => ?_
      have := mul_le_mul_of_nonneg_left (hy0 i) (h.sign i)
      linarith
    rw [dotProduct_sub] at h2
    rw [dotProduct_sub, dotProduct_sub] at h4
    rw [dotProduct_comm q.h, dotProduct_comm q.b]
    have h6 : euclid vc * euclid (y - (q.b - q.A *ᵥ z)) = q.drift z y * euclid vc := mul_comm _ _
    linarith
  · have h1 : q.lagrangeGrad z l v ⬝ᵥ d = q.f ⬝ᵥ d + v ⬝ᵥ (q.A *ᵥ d) := by
      have h : (q.H *ᵥ z) ⬝ᵥ d = 0 := by
        conv_lhs => rw [← hs.eq]
        rw [transpose_dot, hr.flat, dotProduct_zero]
      rw [lagrangeGrad, add_dotProduct, add_dotProduct, add_dotProduct, transpose_dot, transpose_dot, h,
        hr.eq, dotProduct_zero]
      ring
    have h2 := (abs_le.1 (abs_dot_le_euclid (q.lagrangeGrad z l v) d)).1
    have h3 : euclid (q.lagrangeGrad z l v) * euclid d ≤ S * euclid d :=
      mul_le_mul_of_nonneg_right hS (euclid_nonneg _)
    have h4 : v ⬝ᵥ (q.A *ᵥ d) ≤ c * ∑ i, -(q.A *ᵥ d) i := by
      rw [Finset.mul_sum]
      refine Finset.sum_le_sum fun i _ => ?_
      have := mul_le_mul_of_nonneg_right (hv0 i) (neg_nonneg.2 (hr.ineq i))
      linarith
    linarith

theorem RoundedKKT.nearlySolvable {alpha tol g w : ℝ} (ha : 0 < alpha) {z l v y}
    (h : q.RoundedKKT alpha tol g w z l v y) :
    q.NearlySolvable (q.statBound tol g w z l v) (q.eqBound tol g w z) (compBound alpha tol g w) z y :=
  Fbstab.QP.nearlySolvable h.stationary h.eq fun i => by
    rw [compBound, le_div_iff₀ ha, mul_comm]
    exact h.complementary i

end QP

/-- C57, FBstabDense, in any arithmetic with rounding, overflow and underflow: if the problem data and the tolerance are
finite, then SUCCESS by the residual test means that every contradiction between the constraints, and every direction of
unbounded descent, is as small as the tolerance and the rounding error of evaluating the residual once. -/
theorem C57_rounded_dense (F : Rounding K u eta) (s : FBstabDense K) (hz : 0 < s.nz)
    (hl : 1 ≤ s.options.maxProxIters) (p : DenseProblem K) (x : CallerVar K) (q : QP s.nz s.nl s.nv)
    (hq : F.ReadsDense (p.toData s.nz s.nl s.nv) q) (hg : roundOff u s.nz s.nl s.nv < 1)
    (alpha absTol relTol : ℝ) (ha : F.toReal s.options.alpha = some alpha) (h0 : 0 < alpha) (h1 : alpha ≤ 1)
    (hat : F.toReal s.options.absTol = some absTol) (hat0 : 0 ≤ absTol)
    (hrt : F.toReal s.options.relTol = some relTol) (hrt0 : 0 ≤ relTol)
    (hf : ∃ t, F.toReal (stoppingTol (s.problem p) s.options) = some t)
    (out : SolverOut K) (h : (s.solve p x).result = .ok out) (hs : out.eflag = .success) :
    let xr := (s.solve p x).x.point s.nz s.nl s.nv
    let g := roundOff u s.nz s.nl s.nv
    let w := underFlow eta s.nz s.nl s.nv
    let tol := roundedTol q absTol relTol g w
    (∃ z l v y, F.Reads xr.z z ∧ F.Reads xr.l l ∧ F.Reads xr.v v ∧ F.Reads xr.y y ∧
      q.NearlySolvable (q.statBound tol g w z l v) (q.eqBound tol g w z) (compBound alpha tol g w) z y) ∨
    (out.proxIters = 0 ∧ onesNorm K s.nz s.nl s.nv ≤ s.options.stallTol) ∨
    (0 < out.proxIters ∧ stepNorm xr (s.proxIterate p x (out.proxIters - 1)) ≤ s.options.stallTol) := by
  intro xr g w tol
  rcases C62_dense F s hz hl p x q hq hg alpha absTol relTol ha h0.le h1 hat hat0 hrt hrt0 hf out h hs with
    ⟨z, l, v, y, a1, a2, a3, a4, hk⟩ | hr
  · exact .inl ⟨z, l, v, y, a1, a2, a3, a4, hk.nearlySolvable h0⟩
  · exact .inr hr

/-- C57 in rounded arithmetic, `FBstabMpc`. -/
theorem C57_rounded_mpc (F : Rounding K u eta) (s : FBstabMpc K) (hx : 0 < s.nx)
    (hl : 1 ≤ s.options.maxProxIters) (p : MpcProblem K) (x : CallerVar K) (q : Ocp s.N s.nx s.nu s.nc)
    (hq : F.ReadsMpc (p.toData s.N s.nx s.nu s.nc) q)
    (hg : roundOff u ((s.N + 1) * (s.nx + s.nu)) ((s.N + 1) * s.nx) ((s.N + 1) * s.nc) < 1)
    (alpha absTol relTol : ℝ) (ha : F.toReal s.options.alpha = some alpha) (h0 : 0 < alpha) (h1 : alpha ≤ 1)
    (hat : F.toReal s.options.absTol = some absTol) (hat0 : 0 ≤ absTol)
    (hrt : F.toReal s.options.relTol = some relTol) (hrt0 : 0 ≤ relTol)
    (hf : ∃ t, F.toReal (stoppingTol (s.problem p) s.options) = some t)
    (out : SolverOut K) (h : (s.solve p x).result = .ok out) (hs : out.eflag = .success) :
    let nz := (s.N + 1) * (s.nx + s.nu)
    let nl := (s.N + 1) * s.nx
    let nv := (s.N + 1) * s.nc
    let xr := (s.solve p x).x.point nz nl nv
    let g := roundOff u nz nl nv
    let w := underFlow eta nz nl nv
    let tol := roundedTol q.toQP absTol relTol g w
    (∃ z l v y, F.Reads xr.z z ∧ F.Reads xr.l l ∧ F.Reads xr.v v ∧ F.Reads xr.y y ∧
      q.toQP.NearlySolvable (q.toQP.statBound tol g w z l v) (q.toQP.eqBound tol g w z) (compBound alpha tol g w)
        z y) ∨
    (out.proxIters = 0 ∧ onesNorm K nz nl nv ≤ s.options.stallTol) ∨
    (0 < out.proxIters ∧ stepNorm xr (s.proxIterate p x (out.proxIters - 1)) ≤ s.options.stallTol) := by
  intro nz nl nv xr g w tol
  rcases C62_mpc F s hx hl p x q hq hg alpha absTol relTol ha h0.le h1 hat hat0 hrt hrt0 hf out h hs with
    ⟨z, l, v, y, a1, a2, a3, a4, hk⟩ | hr
  · exact .inl ⟨z, l, v, y, a1, a2, a3, a4, hk.nearlySolvable h0⟩
  · exact .inr hr

/-! ## A problem without feasible points that is solved in `double` -/

open Binary64

/-- `z = 1 + 2^-52` and `(1 + 2^-52) z = 1 + 2^-51`: no number satisfies both.  (And `0 z <= 1`.) -/
noncomputable def lastBitQP : QP 1 2 1 where
  H := fun _ _ => 0
  f := fun _ => 0
  G := fun i _ => if i = 0 then 1 else 1 + 2 ^ (-52 : ℤ)
  h := fun i => if i = 0 then 1 + 2 ^ (-52 : ℤ) else 1 + 2 ^ (-51 : ℤ)
  A := fun _ _ => 0
  b := fun _ => 1

/-- The same in binary64. -/
noncomputable def lastBitProblem : DenseProblem Binary64 where
  H := ⟨1, 1, #[0], rfl⟩
  f := ⟨#[0]⟩
  G := ⟨2, 1, #[1, b64 (1 + 2 ^ (-52 : ℤ))], rfl⟩
  h := ⟨#[b64 (1 + 2 ^ (-52 : ℤ)), b64 (1 + 2 ^ (-51 : ℤ))]⟩
  A := ⟨1, 1, #[0], rfl⟩
  b := ⟨#[1]⟩

/-- The guess `z = 1 + 2^-52`, with multipliers zero. -/
noncomputable def lastBitGuess : CallerVar Binary64 :=
  ⟨false, ⟨#[b64 (1 + 2 ^ (-52 : ℤ))]⟩, ⟨#[0, 0]⟩, ⟨#[0]⟩, ⟨#[0]⟩⟩

/-- A default solver in binary64. -/
noncomputable def lastBitSolver (junk : DenseJunk Binary64) : FBstabDense Binary64 :=
  ⟨1, 2, 1, AlgMem.fresh (ls := denseSolver Binary64 1 2 1)
    { junk.lin 1 2 1 with alpha := 0.95, data := none } (junk.feas 1 2 1)⟩

theorem lastBitQP_infeasible (z : Fin 1 → ℝ) : ¬lastBitQP.Feasible z := by
  rintro ⟨h1, -⟩
  have e0 := congrFun h1 0
  have e1 := congrFun h1 1
  simp [lastBitQP, mulVec, dotProduct] at e0 e1
  rw [e0] at e1
  norm_num at e1


theorem lastBitQP_rep1 : Representable (1 + 2 ^ (-52 : ℤ)) := by
  have := rep_pow (2 ^ 52 + 1) (-52) (by norm_num) (by norm_num) (by norm_num)
  norm_num at this ⊢
  exact this

theorem lastBitQP_rep2 : Representable (1 + 2 ^ (-51 : ℤ)) := by
  have := rep_pow (2 ^ 52 + 2) (-52) (by norm_num) (by norm_num) (by norm_num)
  norm_num at this ⊢
  exact this

/-- The square of `1 + 2^-52` is rounded to `1 + 2^-51`. -/
theorem lastBitQP_round : round53 (-(1 + 2 ^ (-52 : ℤ)) * (1 + 2 ^ (-52 : ℤ))) = -(1 + 2 ^ (-51 : ℤ)) := by
  rw [round53_of (e := -52) (m := -(2 ^ 52 + 2)) (by norm_num)]
  · norm_num
  · norm_num
  · norm_num
  · norm_num [abs_lt]

theorem is_b64 {r : ℝ} (h : Representable r) : Is (b64 r) r := b64_x h

theorem norm_one {x : Vec Binary64 1} {c : ℝ} (h : Is (x 0) c) (h0 : 0 ≤ c) (hc : Representable (c * c)) :
    Is x.norm c := by
  show Is (Scalar.sqrt (0 + x 0 * x 0)) c
  exact (Is.zero.zero_add (h.mul h rfl hc)).sqrt h0 rfl h.rep

/-- The residual of the guess is zero. -/
theorem lastBitQP_residual (y : Vec Binary64 1) (hy : Is (y 0) 1) :
    Is (residualNorm (lastBitProblem.toData 1 2 1).ops (0.95 : Binary64)
      ⟨lastBitGuess.z.toVec 1, lastBitGuess.l.toVec 2, lastBitGuess.v.toVec 1, y⟩) 0 := by
  have e1 := is_b64 lastBitQP_rep1
  have e2 := is_b64 lastBitQP_rep2
  have z0 := Is.zero
  have o1 := Is.one
  have m1 := o1.neg
  have g1 : Is (gradLagrangian (lastBitProblem.toData 1 2 1).ops (lastBitGuess.z.toVec 1) (lastBitGuess.l.toVec 2)
      (lastBitGuess.v.toVec 1) 0) 0 := by
    show Is ((0 + (1 * 0) * 0) + 1 * (((0 + (1 * 1) * 0) + (1 * b64 (1 + 2 ^ (-52 : ℤ))) * 0) +
      1 * ((0 + (1 * 0) * b64 (1 + 2 ^ (-52 : ℤ))) + 1 * (0 + 1 * 0)))) 0
    have k0 := z0.add_zero ((o1.mul_zero z0).mul_zero z0)
    have k1 := ((o1.one_mul o1).mul_zero z0)
    have k2 := (o1.one_mul e1).mul_zero z0
    have k3 := (o1.mul_zero z0).zero_mul e1
    have k4 := o1.one_mul (z0.zero_add (o1.mul_zero z0))
    exact k0.zero_add (o1.one_mul (((z0.zero_add k1).zero_add k2).zero_add
      (o1.one_mul ((z0.zero_add k3).zero_add k4))))
  have g2 : Is (eqDefect (lastBitProblem.toData 1 2 1).ops (lastBitGuess.z.toVec 1) 0) 0 := by
    show Is ((0 + (-1 * 1) * b64 (1 + 2 ^ (-52 : ℤ))) + 1 * (0 + 1 * b64 (1 + 2 ^ (-52 : ℤ)))) 0
    exact (z0.zero_add ((m1.mul_one o1).neg_one_mul e1)).add (o1.one_mul (z0.zero_add (o1.one_mul e1)))
      (neg_add_cancel _) representable_zero
  have g3 : Is (eqDefect (lastBitProblem.toData 1 2 1).ops (lastBitGuess.z.toVec 1) 1) 0 := by
    show Is ((0 + (-1 * b64 (1 + 2 ^ (-52 : ℤ))) * b64 (1 + 2 ^ (-52 : ℤ))) +
      1 * (0 + 1 * b64 (1 + 2 ^ (-51 : ℤ)))) 0
    exact (z0.zero_add ((m1.neg_one_mul e1).mul' e1 lastBitQP_round (representable_neg lastBitQP_rep2))).add
      (o1.one_mul (z0.zero_add (o1.one_mul e2))) (neg_add_cancel _) representable_zero
  have g4 : Is (penalizedMin (0.95 : Binary64) y (lastBitGuess.v.toVec 1) 0) 0 := by
    show Is ((0.95 : Binary64) * cmin (y 0) 0 + (1 - 0.95) * cmax 0 (y 0) * cmax 0 0) 0
    obtain ⟨a, ra, ea, ha⟩ := lit_close (r := 0.95) (by norm_num) (by norm_num)
    have e95 : (0.95 : Binary64) = b64 a := (b64_literal 95 true 2).trans ea
    have ia := is_b64 ra
    have c0 : cmin (y 0) 0 = 0 := by
      unfold cmin; rw [if_pos ((z0.lt hy).2 (by norm_num))]
    have c1 : cmax 0 (y 0) = y 0 := by
      unfold cmax; rw [if_pos ((z0.lt hy).2 (by norm_num))]
    have c2 : cmax (0 : Binary64) 0 = 0 := by
      unfold cmax; split <;> rfl
    rw [c0, c1, c2, e95]
    rw [abs_le] at ha
    norm_num at ha
    obtain ⟨c, hc, -⟩ := o1.sub_close ia (by
        have k1 : (2 : ℝ) ^ (-500 : ℤ) ≤ (2 : ℝ) ^ (-10 : ℤ) := zpow_le_zpow_right₀ (by norm_num) (by norm_num)
        have k2 : (2 : ℝ) ^ (-10 : ℤ) ≤ 1e-2 := by norm_num
        have k3 := k1.trans k2
        clear k1 k2
        generalize (2 : ℝ) ^ (-500 : ℤ) = t at *
        norm_num at *
        linarith [ha.2]) (by
        have k1 : (2 : ℝ) ^ (1 : ℤ) ≤ (2 : ℝ) ^ (500 : ℤ) := zpow_le_zpow_right₀ (by norm_num) (by norm_num)
        have k2 : (2 : ℝ) ^ (1 : ℤ) = 2 := by norm_num
        rw [k2] at k1
        clear k2
        generalize (2 : ℝ) ^ (500 : ℤ) = t at *
        linarith [ha.1])
    exact (ia.mul_zero z0).zero_add ((hc.mul_one hy).mul_zero z0)
  have s0 : Is (Scalar.sqrt (0 : Binary64)) 0 := z0.sqrt le_rfl (by norm_num) representable_zero
  have n0 : Representable ((0 : ℝ) * 0) := by rw [mul_zero]; exact representable_zero
  have n2 : Is (eqDefect (lastBitProblem.toData 1 2 1).ops (lastBitGuess.z.toVec 1)).norm 0 := by
    show Is (Scalar.sqrt ((0 + _ * _) + _ * _)) 0
    exact ((z0.zero_add (g2.mul_zero g2)).zero_add (g3.mul_zero g3)).sqrt le_rfl (mul_zero 0).symm representable_zero
  have n1 := norm_one g1 le_rfl n0
  have n3 := norm_one g4 le_rfl n0
  show Is (Scalar.sqrt ((_ * _ + _ * _) + _ * _)) 0
  exact (((n1.mul_zero n1).zero_add (n2.mul_zero n2)).zero_add (n3.mul_zero n3)).sqrt le_rfl (mul_zero 0).symm
    representable_zero

theorem lastBitQP_y : Is (margin (lastBitProblem.toData 1 2 1).ops (lastBitGuess.z.toVec 1) 0) 1 := by
  show Is ((0 + (-1 * 0) * b64 (1 + 2 ^ (-52 : ℤ))) + 1 * (0 + 1 * 1)) 1
  have z0 := Is.zero
  have o1 := Is.one
  exact (z0.zero_add ((o1.neg.mul_zero z0).zero_mul (is_b64 lastBitQP_rep1))).zero_add
    (o1.one_mul (z0.zero_add (o1.one_mul o1)))

/-- The tolerance is finite and positive. -/
theorem lastBitQP_tol : ∃ t, 0 < t ∧ Is (stoppingTol (lastBitProblem.toData 1 2 1).ops (Params.defaults : Params Binary64)) t := by
  have z0 := Is.zero
  have o1 := Is.one
  have e1 := is_b64 lastBitQP_rep1
  have e2 := is_b64 lastBitQP_rep2
  have lo : ∀ r : ℝ, 1e-12 ≤ r → (2 : ℝ) ^ (-500 : ℤ) ≤ r := fun r hr => by
    have k1 : (2 : ℝ) ^ (-500 : ℤ) ≤ (2 : ℝ) ^ (-100 : ℤ) := zpow_le_zpow_right₀ (by norm_num) (by norm_num)
    have k2 : (2 : ℝ) ^ (-100 : ℤ) ≤ 1e-12 := by norm_num
    exact (k1.trans k2).trans hr
  have hi : ∀ r : ℝ, r ≤ 100 → r ≤ (2 : ℝ) ^ (500 : ℤ) := fun r hr => by
    have k1 : (2 : ℝ) ^ (7 : ℤ) ≤ (2 : ℝ) ^ (500 : ℤ) := zpow_le_zpow_right₀ (by norm_num) (by norm_num)
    have k2 : (100 : ℝ) ≤ (2 : ℝ) ^ (7 : ℤ) := by norm_num
    exact (hr.trans k2).trans k1
  obtain ⟨s1, h1, d1⟩ := e1.mul_close e1 (lo _ (by norm_num)) (hi _ (by norm_num))
  obtain ⟨s2, h2, d2⟩ := e2.mul_close e2 (lo _ (by norm_num)) (hi _ (by norm_num))
  rw [abs_le] at d1 d2
  norm_num at d1 d2
  have b1 : 0.9 ≤ s1 ∧ s1 ≤ 1.1 := by norm_num; constructor <;> linarith [d1.1, d1.2]
  have b2 : 0.9 ≤ s2 ∧ s2 ≤ 1.1 := by norm_num; constructor <;> linarith [d2.1, d2.2]
  clear d1 d2
  norm_num at b1 b2
  obtain ⟨s3, h3, d3⟩ := (z0.zero_add h1).add_close h2 (lo _ (by norm_num; linarith)) (hi _ (by linarith))
  rw [abs_le] at d3
  norm_num at d3
  have b3 : 1.5 ≤ s3 ∧ s3 ≤ 2.5 := by norm_num; constructor <;> linarith [d3.1, d3.2]
  clear d3
  norm_num at b3
  have f0 : Is ((0 : Binary64) + 0 * 0) 0 := z0.zero_add (z0.mul_zero z0)
  have bb : Is ((0 : Binary64) + 1 * 1) 1 := z0.zero_add (o1.one_mul o1)
  obtain ⟨s4, h4, d4⟩ := (bb.add_zero f0).add_close h3 (lo _ (by norm_num; linarith)) (hi _ (by linarith))
  rw [abs_le] at d4
  norm_num at d4
  have b4 : 2 ≤ s4 ∧ s4 ≤ 4 := by constructor <;> linarith [d4.1, d4.2]
  clear d4
  have q4 : 1 ≤ √s4 ∧ √s4 ≤ 2 := ⟨Real.one_le_sqrt.2 (by linarith), by
    rw [Real.sqrt_le_left (by norm_num)]; linarith⟩
  obtain ⟨s5, h5, d5⟩ := h4.sqrt_close (lo _ (by norm_num; linarith)) (hi _ (by linarith))
  rw [abs_le] at d5
  norm_num at d5
  have b5 : 0.9 ≤ s5 ∧ s5 ≤ 2.5 := by norm_num; constructor <;> linarith [d5.1, d5.2]
  clear d5
  norm_num at b5
  obtain ⟨s6, h6, d6⟩ := o1.add_close h5 (lo _ (by norm_num; linarith)) (hi _ (by linarith))
  rw [abs_le] at d6
  norm_num at d6
  have b6 : 1 ≤ s6 ∧ s6 ≤ 5 := by constructor <;> linarith [d6.1, d6.2]
  clear d6
  obtain ⟨a, ra, ea, ha⟩ := lit_close (r := 1e-6) (by norm_num) (by norm_num)
  obtain ⟨b, rb, eb, hb⟩ := lit_close (r := 1e-12) (by norm_num) (by norm_num)
  have e6 : (1e-6 : Binary64) = b64 a := (b64_literal 1 true 6).trans ea
  have e12 : (1e-12 : Binary64) = b64 b := (b64_literal 1 true 12).trans eb
  rw [abs_le] at ha hb
  norm_num at ha hb
  have b7 : 0 < b * s6 := mul_pos (by linarith [hb.1]) (by linarith)
  have b8 : 0.9e-12 ≤ b * s6 ∧ b * s6 ≤ 1e-11 := by
    norm_num
    constructor
    · nlinarith [hb.1]
    · nlinarith [hb.2]
  norm_num at b8
  obtain ⟨s7, h7, d7⟩ := (is_b64 rb).mul_close h6 (by
    have k1 : (2 : ℝ) ^ (-500 : ℤ) ≤ (2 : ℝ) ^ (-100 : ℤ) := zpow_le_zpow_right₀ (by norm_num) (by norm_num)
    have k2 : (2 : ℝ) ^ (-100 : ℤ) ≤ 1e-13 := by norm_num
    refine (k1.trans k2).trans ?_
    norm_num
    linarith [b8.1]) (hi _ (by linarith [b8.2]))
  rw [abs_le] at d7
  norm_num at d7
  have b9 : 0 ≤ s7 ∧ s7 ≤ 1 := by constructor <;> linarith [d7.1, d7.2, b8.1, b8.2]
  clear d7
  obtain ⟨t, h8, d8⟩ := (is_b64 ra).add_close h7 (lo _ (by norm_num; linarith [ha.1, b9.1])) (hi _ (by linarith [ha.2, b9.2]))
  rw [abs_le] at d8
  norm_num at d8
  refine ⟨t, by linarith [d8.1, ha.1, b9.1], ?_⟩
  have e : stoppingTol (lastBitProblem.toData 1 2 1).ops (Params.defaults : Params Binary64) =
    1e-6 + 1e-12 * (1 + Scalar.sqrt ((0 + 1 * 1) + (0 + 0 * 0) +
      ((0 + b64 (1 + 2 ^ (-52 : ℤ)) * b64 (1 + 2 ^ (-52 : ℤ))) +
      b64 (1 + 2 ^ (-51 : ℤ)) * b64 (1 + 2 ^ (-51 : ℤ))))) := rfl
  rw [e, e6, e12]
  exact h8

theorem lastBitQP_success (junk : DenseJunk Binary64) :
    ((lastBitSolver junk).solve lastBitProblem lastBitGuess).result = .ok ⟨.success, 0, 0, 0, 0⟩ := by
  obtain ⟨t, t0, et⟩ := lastBitQP_tol
  have er : residualNorm ((lastBitSolver junk).problem lastBitProblem) (lastBitSolver junk).options.alpha
      (lastBitGuess.guess ((lastBitSolver junk).problem lastBitProblem)) = 0 := (lastBitQP_residual _ lastBitQP_y).eq Is.zero
  have hm : ¬(1e-2 : Binary64) < 1e-12 := by
    obtain ⟨a, ra, ea, ha⟩ := lit_close (r := 1e-2) (by norm_num) (by norm_num)
    obtain ⟨b, rb, eb, hb⟩ := lit_close (r := 1e-12) (by norm_num) (by norm_num)
    have e2 : (1e-2 : Binary64) = b64 a := (b64_literal 1 true 2).trans ea
    have e12 : (1e-12 : Binary64) = b64 b := (b64_literal 1 true 12).trans eb
    rw [e2, e12, b64_lt ra rb]
    rw [abs_le] at ha hb
    norm_num at ha hb
    intro h
    linarith [ha.1, hb.2]
  have := (C12_dense (lastBitSolver junk) lastBitProblem lastBitGuess (show 1 ≤ 30 by decide) hm
    (by constructor <;> rfl) (fun h => nomatch h) (by
      rw [er]
      exact (Is.zero.le et).2 t0.le)).1
  rw [er] at this
  exact this

/-- The data in `double` are exactly those of `lastBitQP`. -/
theorem lastBitQP_reads : Binary64.rounding.ReadsDense (lastBitProblem.toData 1 2 1) lastBitQP where
  H i j := by
    obtain rfl : i = 0 := Subsingleton.elim _ _
    obtain rfl : j = 0 := Subsingleton.elim _ _
    exact Is.zero.toReal
  f i := by
    obtain rfl : i = 0 := Subsingleton.elim _ _
    exact Is.zero.toReal
  G i j := by
    obtain rfl : j = 0 := Subsingleton.elim _ _
    fin_cases i
    · exact Is.one.toReal
    · exact (is_b64 lastBitQP_rep1).toReal
  h i := by
    fin_cases i
    · exact (is_b64 lastBitQP_rep1).toReal
    · exact (is_b64 lastBitQP_rep2).toReal
  A i j := by
    obtain rfl : i = 0 := Subsingleton.elim _ _
    obtain rfl : j = 0 := Subsingleton.elim _ _
    exact Is.zero.toReal
  b i := by
    obtain rfl : i = 0 := Subsingleton.elim _ _
    exact Is.one.toReal

/-- C57 in `double`: a problem of which no point is feasible is reported as solved by a solver with the default options,
with residual zero, on finite data of size one.  So the terms with the rounding error in `C57_rounded_dense` cannot be
dropped. -/
theorem C57_binary64_lastBit (junk : DenseJunk Binary64) :
    (lastBitSolver junk).options = Params.defaults ∧
    Binary64.rounding.ReadsDense (lastBitProblem.toData 1 2 1) lastBitQP ∧ (∀ z, ¬lastBitQP.Feasible z) ∧
    lastBitQP.Contradiction (fun i => if i = 0 then -(1 + 2 ^ (-52 : ℤ)) else 1) 0 ∧
    ∃ out, ((lastBitSolver junk).solve lastBitProblem lastBitGuess).result = .ok out ∧ out.eflag = .success ∧
      out.residual = 0 := by
  refine ⟨rfl, lastBitQP_reads, lastBitQP_infeasible, ⟨?_, fun i => le_refl _, ?_⟩, _, lastBitQP_success junk, rfl, rfl⟩
  · ext i
    have e0 : lastBitQP.Gᵀ i 0 = 1 := rfl
    have e1 : lastBitQP.Gᵀ i 1 = 1 + 2 ^ (-52 : ℤ) := rfl
    simp only [mulVec, dotProduct, Fin.sum_univ_two, Pi.add_apply, e0, e1]
    norm_num
  · simp [lastBitQP, dotProduct, Fin.sum_univ_two]
    norm_num

end Fbstab
