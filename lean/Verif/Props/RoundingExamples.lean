import Verif.Props.Rounding
import Verif.Proofs.Binary64
import Verif.Proofs.Witness

/-!
# Cases that meet the hypotheses of C62: runs in binary64
-/

namespace Fbstab
open Binary64

/-- The nearest binary64 number to `r`. -/
noncomputable def b64 (r : ℝ) : Binary64 := Binary64.round (up r)

namespace Binary64

theorem ext' {a b : Binary64} (h : a.x = b.x) : a = b := by
  cases a; cases b; cases h; rfl

theorem b64_x {r : ℝ} (h : Representable r) : (b64 r).x = up r := toReal_eq.1 (round_exact rfl h)

theorem b64_toReal {r : ℝ} (h : Representable r) : (b64 r).toReal = some r := round_exact rfl h

theorem rep_int (m : ℤ) (h : |m| ≤ 2 ^ 53) : Representable m := by
  refine ⟨m, 0, h, by norm_num, by simp, ?_⟩
  have h1 : (|m| : ℝ) ≤ 2 ^ 53 := by exact_mod_cast h
  refine h1.trans_lt ?_
  rw [← zpow_natCast]
  exact zpow_lt_zpow_right₀ (by norm_num) (by norm_num)

theorem b64_zero : (0 : Binary64) = b64 0 := ext' (by rw [b64_x representable_zero]; exact up_zero)
theorem b64_one : (1 : Binary64) = b64 1 := ext' (by rw [b64_x representable_one]; exact up_one)

theorem b64_add {a b : ℝ} (ha : Representable a) (hb : Representable b) : b64 a + b64 b = b64 (a + b) := by
  show Binary64.round ((b64 a).x + (b64 b).x) = _
  rw [b64_x ha, b64_x hb, up_add]; rfl

theorem b64_sub {a b : ℝ} (ha : Representable a) (hb : Representable b) : b64 a - b64 b = b64 (a - b) := by
  show Binary64.round ((b64 a).x - (b64 b).x) = _
  rw [b64_x ha, b64_x hb, up_sub]; rfl

theorem b64_mul {a b : ℝ} (ha : Representable a) (hb : Representable b) : b64 a * b64 b = b64 (a * b) := by
  show Binary64.round ((b64 a).x * (b64 b).x) = _
  rw [b64_x ha, b64_x hb, up_mul]; rfl

theorem b64_sqrt {a : ℝ} (ha : Representable a) (h0 : 0 ≤ a) : Scalar.sqrt (b64 a) = b64 √a := by
  show Binary64.round (Scalar.sqrt (b64 a).x) = _
  rw [b64_x ha, up_sqrt h0]; rfl

theorem b64_neg {a : ℝ} (ha : Representable a) : -b64 a = b64 (-a) := by
  refine ext' ?_
  show -(b64 a).x = _
  rw [b64_x ha, b64_x (representable_neg ha), up_neg]

theorem b64_lt {a b : ℝ} (ha : Representable a) (hb : Representable b) : b64 a < b64 b ↔ a < b := by
  show (b64 a).x < (b64 b).x ↔ _
  rw [b64_x ha, b64_x hb, up_lt]

theorem b64_le {a b : ℝ} (ha : Representable a) (hb : Representable b) : b64 a ≤ b64 b ↔ a ≤ b := by
  show (b64 a).x ≤ (b64 b).x ↔ _
  rw [b64_x ha, b64_x hb, up_le]

/-- A number below `2^100` is rounded to a representable number. -/
theorem b64_round {r : ℝ} (h : |r| ≤ 2 ^ 100) :
    ∃ c, Representable c ∧ b64 r = b64 c ∧ |c - r| ≤ (2 : ℝ) ^ (-53 : ℤ) * |r| + (2 : ℝ) ^ (-1075 : ℤ) := by
  have e := round53_err r
  have k1 : (2 : ℝ) ^ (-53 : ℤ) ≤ 1 := zpow_le_one_of_nonpos₀ (by norm_num) (by norm_num)
  have k2 : (2 : ℝ) ^ (-1075 : ℤ) ≤ 1 := zpow_le_one_of_nonpos₀ (by norm_num) (by norm_num)
  have lt : |round53 r| < (2 : ℝ) ^ (1024 : ℤ) := by
    have h1 : |round53 r| ≤ |r| + |round53 r - r| := by
      have := abs_add_le r (round53 r - r)
      rwa [add_sub_cancel] at this
    have h2 : (2 : ℝ) ^ (-53 : ℤ) * |r| ≤ |r| := mul_le_of_le_one_left (abs_nonneg _) k1
    have h3 : (2 : ℝ) ^ (102 : ℤ) < (2 : ℝ) ^ (1024 : ℤ) := zpow_lt_zpow_right₀ (by norm_num) (by norm_num)
    have h4 : (2 : ℝ) ^ (102 : ℤ) = 4 * 2 ^ 100 := by norm_num
    have h5 : (1 : ℝ) ≤ 2 ^ 100 := by norm_num
    refine lt_of_le_of_lt ?_ h3
    rw [h4]
    clear h3 h4
    linarith
  refine ⟨round53 r, round53_representable r lt, ext' ?_, e⟩
  rw [b64_x (round53_representable r lt)]
  show roundX (up r) = _
  rw [roundX_up, rnd, if_pos lt]

/-- A literal of the source. -/
theorem b64_literal (m : Nat) (s : Bool) (e : Nat) :
    (OfScientific.ofScientific m s e : Binary64) = b64 (OfScientific.ofScientific m s e : ℝ) := by
  show Binary64.round (OfScientific.ofScientific m s e) = _
  rw [up_ofScientific]; rfl

end Binary64

/-- `min 3/2 z^2 - 3 z s.t. z <= 4`; the solution is `z = 1`. -/
def roundQP : QP 1 0 1 where
  H := fun _ _ => 3
  f := fun _ => -3
  G := fun i _ => i.elim0
  h := fun i => i.elim0
  A := fun _ _ => 1
  b := fun _ => 4

/-- The same in binary64. -/
noncomputable def roundProblem : DenseProblem Binary64 where
  H := ⟨1, 1, #[b64 3], rfl⟩
  f := ⟨#[b64 (-3)]⟩
  G := ⟨0, 1, #[], rfl⟩
  h := ⟨#[]⟩
  A := ⟨1, 1, #[b64 1], rfl⟩
  b := ⟨#[b64 4]⟩

/-- The guess `z = 1`, `v = 0`. -/
noncomputable def roundGuess : CallerVar Binary64 := ⟨false, ⟨#[b64 1]⟩, ⟨#[]⟩, ⟨#[b64 0]⟩, ⟨#[]⟩⟩

/-- A default solver in binary64. -/
noncomputable def roundSolver (junk : DenseJunk Binary64) : FBstabDense Binary64 :=
  ⟨1, 0, 1, AlgMem.fresh (ls := denseSolver Binary64 1 0 1)
    { junk.lin 1 0 1 with alpha := 0.95, data := none } (junk.feas 1 0 1)⟩

theorem rep_nat (m : Nat) (h : m ≤ 2 ^ 53) : Representable (m : ℝ) := by
  have := rep_int m (by rw [abs_of_nonneg (by positivity)]; exact_mod_cast h)
  exact_mod_cast this

theorem rep3 : Representable 3 := by exact_mod_cast rep_nat 3 (by norm_num)
theorem rep4 : Representable 4 := by exact_mod_cast rep_nat 4 (by norm_num)
theorem rep9 : Representable 9 := by exact_mod_cast rep_nat 9 (by norm_num)
theorem rep16 : Representable 16 := by exact_mod_cast rep_nat 16 (by norm_num)
theorem rep25 : Representable 25 := by exact_mod_cast rep_nat 25 (by norm_num)
theorem rep5 : Representable 5 := by exact_mod_cast rep_nat 5 (by norm_num)
theorem rep6 : Representable 6 := by exact_mod_cast rep_nat 6 (by norm_num)

theorem round_reads : rounding.ReadsDense (roundProblem.toData 1 0 1) roundQP where
  H i j := by
    obtain rfl : i = 0 := Subsingleton.elim _ _
    obtain rfl : j = 0 := Subsingleton.elim _ _
    simp only [roundProblem, DenseProblem.toData, DMat.toMat, Mat.get_ofFn]
    exact b64_toReal rep3
  f i := by
    obtain rfl : i = 0 := Subsingleton.elim _ _
    simp only [roundProblem, DenseProblem.toData, DVec.toVec, Vec.get_ofFn]
    exact b64_toReal (representable_neg rep3)
  G i := i.elim0
  h i := i.elim0
  A i j := by
    obtain rfl : i = 0 := Subsingleton.elim _ _
    obtain rfl : j = 0 := Subsingleton.elim _ _
    simp only [roundProblem, DenseProblem.toData, DMat.toMat, Mat.get_ofFn]
    exact b64_toReal representable_one
  b i := by
    obtain rfl : i = 0 := Subsingleton.elim _ _
    simp only [roundProblem, DenseProblem.toData, DVec.toVec, Vec.get_ofFn]
    exact b64_toReal rep4

theorem round_forcing : (roundProblem.toData 1 0 1).ops.forcingNorm = b64 5 := by
  have e : (roundProblem.toData 1 0 1).ops.forcingNorm =
      Scalar.sqrt ((0 + b64 4 * b64 4) + (0 + b64 (-3) * b64 (-3)) + 0) := rfl
  rw [e, b64_mul rep4 rep4, b64_mul (representable_neg rep3) (representable_neg rep3)]
  rw [show (4 : ℝ) * 4 = 16 by norm_num, show (-3 : ℝ) * -3 = 9 by norm_num, b64_zero,
    b64_add representable_zero rep16, b64_add representable_zero rep9, zero_add, zero_add,
    b64_add rep16 rep9, show (16 : ℝ) + 9 = 25 by norm_num, b64_add rep25 representable_zero, add_zero,
    b64_sqrt rep25 (by norm_num)]
  congr 1
  rw [show (25 : ℝ) = 5 ^ 2 by norm_num]
  exact Real.sqrt_sq (by norm_num)

/-- A rounded number is close. -/
theorem lit_close {r : ℝ} (h0 : 1e-12 ≤ r) (h1 : r ≤ 100) : ∃ c, Representable c ∧ b64 r = b64 c ∧
    |c - r| ≤ 1e-3 * r := by
  obtain ⟨c, h2, h3, h4⟩ := b64_round (r := r) (by rw [abs_of_nonneg (by linarith)]; norm_num; linarith)
  refine ⟨c, h2, h3, h4.trans ?_⟩
  rw [abs_of_nonneg (by linarith)]
  have k2 : (2 : ℝ) ^ (-1075 : ℤ) ≤ (2 : ℝ) ^ (-100 : ℤ) := zpow_le_zpow_right₀ (by norm_num) (by norm_num)
  have k3 : (2 : ℝ) ^ (-100 : ℤ) ≤ 1e-4 * 1e-12 := by norm_num
  have k4 : (2 : ℝ) ^ (-53 : ℤ) ≤ 1e-4 := by norm_num
  have k5 := k2.trans k3
  clear k2 k3 h4
  generalize (2 : ℝ) ^ (-1075 : ℤ) = t at *
  have k6 : (2 : ℝ) ^ (-53 : ℤ) * r ≤ 1e-4 * r := mul_le_mul_of_nonneg_right k4 (by norm_num at h0 ⊢; linarith)
  generalize (2 : ℝ) ^ (-53 : ℤ) * r = t' at *
  norm_num at *
  linarith

/-- The residual of the guess is zero. -/
theorem round_residual (y : Vec Binary64 1) (hy : y 0 = b64 3) :
    residualNorm (roundProblem.toData 1 0 1).ops (0.95 : Binary64)
      ⟨roundGuess.z.toVec 1, roundGuess.l.toVec 0, roundGuess.v.toVec 1, y⟩ = b64 0 := by
  obtain ⟨a, ra, ea, ha⟩ := lit_close (r := 0.95) (by norm_num) (by norm_num)
  have e95 : (0.95 : Binary64) = b64 a := (b64_literal 95 true 2).trans ea
  obtain ⟨c, rc, ec, hc⟩ := lit_close (r := 1 - a) (by norm_num at *; linarith [(abs_le.1 ha).2])
    (by norm_num at *; linarith [(abs_le.1 ha).1])
  have hc1 : |c| ≤ 2 := by
    rw [abs_le] at ha hc ⊢
    norm_num at *
    constructor <;> linarith [ha.1, ha.2, hc.1, hc.2]
  obtain ⟨d, rd, ed, -⟩ := b64_round (r := c * 3) (by rw [abs_mul]; norm_num; linarith)
  have r0 := representable_zero
  have r1 := representable_one
  have e : residualNorm (roundProblem.toData 1 0 1).ops (0.95 : Binary64)
      ⟨roundGuess.z.toVec 1, roundGuess.l.toVec 0, roundGuess.v.toVec 1, y⟩ =
    Scalar.sqrt
      ((fun t => Scalar.sqrt (0 + t * t) * Scalar.sqrt (0 + t * t))
        ((0 + (1 * b64 1) * b64 0) + 1 * (0 + 1 * ((0 + (1 * b64 3) * b64 1) + 1 * (0 + 1 * b64 (-3))))) +
      Scalar.sqrt 0 * Scalar.sqrt 0 +
      (fun t => Scalar.sqrt (0 + t * t) * Scalar.sqrt (0 + t * t))
        ((0.95 : Binary64) * cmin (y 0) (b64 0) + (1 - 0.95) * cmax 0 (y 0) * cmax 0 (b64 0))) := rfl
  have g1 : ((0 + (1 * b64 1) * b64 0) + 1 * (0 + 1 * ((0 + (1 * b64 3) * b64 1) + 1 * (0 + 1 * b64 (-3))))) =
      b64 0 := by
    have rn3 := representable_neg rep3
    rw [b64_zero, b64_one, b64_mul r1 rn3, one_mul, b64_add r0 rn3, zero_add, b64_mul r1 rn3, one_mul,
      b64_mul r1 rep3, one_mul, b64_mul rep3 r1, mul_one, b64_add r0 rep3, zero_add, b64_add rep3 rn3,
      add_neg_cancel, b64_mul r1 r0, mul_zero, b64_add r0 r0, add_zero, b64_mul r1 r0, mul_zero, b64_mul r1 r1,
      one_mul, b64_mul r1 r0, mul_zero, b64_add r0 r0, add_zero, b64_add r0 r0, add_zero]
  have c0 : cmin (b64 3) (b64 0) = b64 0 := by
    unfold cmin; rw [if_pos ((b64_lt r0 rep3).2 (by norm_num))]
  have c1 : cmax (b64 0) (b64 3) = b64 3 := by
    unfold cmax; rw [if_pos ((b64_lt r0 rep3).2 (by norm_num))]
  have c2 : cmax (b64 0) (b64 0) = b64 0 := by
    unfold cmax; split <;> rfl
  have g2 : ((0.95 : Binary64) * cmin (y 0) (b64 0) + (1 - 0.95) * cmax 0 (y 0) * cmax 0 (b64 0)) = b64 0 := by
    rw [e95, hy, b64_zero, b64_one, c0, c1, c2, b64_sub r1 ra, ec, b64_mul rc rep3, ed, b64_mul rd r0, mul_zero,
      b64_mul ra r0, mul_zero, b64_add r0 r0, add_zero]
  have s0 : Scalar.sqrt (b64 0) = b64 0 := by rw [b64_sqrt r0 le_rfl, Real.sqrt_zero]
  rw [e, g1, g2, b64_zero]
  simp only [b64_mul r0 r0, mul_zero, b64_add r0 r0, add_zero, s0]

theorem round_y : margin (roundProblem.toData 1 0 1).ops (roundGuess.z.toVec 1) 0 = b64 3 := by
  have r1 := representable_one
  have r0 := representable_zero
  have e : margin (roundProblem.toData 1 0 1).ops (roundGuess.z.toVec 1) 0 =
    (0 + (-1 * b64 1) * b64 1) + 1 * (0 + 1 * b64 4) := rfl
  have rn := representable_neg r1
  rw [e, b64_one, b64_neg r1, b64_zero, b64_mul rn r1, mul_one, b64_mul rn r1, mul_one, b64_add r0 rn, zero_add,
    b64_mul r1 rep4, one_mul, b64_add r0 rep4, zero_add, b64_mul r1 rep4, one_mul, b64_add rn rep4]
  norm_num

/-- The tolerance is finite and positive. -/
theorem round_tol : ∃ t, 0 < t ∧ Representable t ∧
    stoppingTol (roundProblem.toData 1 0 1).ops (Params.defaults : Params Binary64) = b64 t := by
  obtain ⟨a, ra, ea, ha⟩ := lit_close (r := 1e-6) (by norm_num) (by norm_num)
  obtain ⟨b, rb, eb, hb⟩ := lit_close (r := 1e-12) (by norm_num) (by norm_num)
  have e6 : (1e-6 : Binary64) = b64 a := (b64_literal 1 true 6).trans ea
  have e12 : (1e-12 : Binary64) = b64 b := (b64_literal 1 true 12).trans eb
  rw [abs_le] at ha hb
  norm_num at ha hb
  obtain ⟨c, rc, ec, hc⟩ := lit_close (r := b * 6) (by norm_num; linarith [hb.1]) (by linarith [hb.2])
  rw [abs_le] at hc
  norm_num at hc
  obtain ⟨d, rd, ed, hd⟩ := lit_close (r := a + c) (by norm_num; linarith [hb.1, ha.1, hc.1])
    (by linarith [ha.2, hb.2, hc.2])
  rw [abs_le] at hd
  norm_num at hd
  refine ⟨d, by linarith [hb.1, ha.1, hc.1, hd.1], rd, ?_⟩
  have e : stoppingTol (roundProblem.toData 1 0 1).ops (Params.defaults : Params Binary64) =
    1e-6 + 1e-12 * (1 + (roundProblem.toData 1 0 1).ops.forcingNorm) := rfl
  rw [e, round_forcing, b64_one, b64_add representable_one rep5, show (1 : ℝ) + 5 = 6 by norm_num, e6, e12,
    b64_mul rb rep6, ec, b64_add ra rc, ed]

theorem round_fits : DenseFits 1 0 1 roundProblem roundGuess := by
  constructor <;> rfl

theorem round_success (junk : DenseJunk Binary64) :
    ((roundSolver junk).solve roundProblem roundGuess).result = .ok ⟨.success, b64 0, 0, 0, b64 0⟩ := by
  obtain ⟨t, t0, rt, et⟩ := round_tol
  have er : residualNorm ((roundSolver junk).problem roundProblem) (roundSolver junk).options.alpha
      (roundGuess.guess ((roundSolver junk).problem roundProblem)) = b64 0 := round_residual _ round_y
  have hm : ¬(1e-2 : Binary64) < 1e-12 := by
    obtain ⟨a, ra, ea, ha⟩ := lit_close (r := 1e-2) (by norm_num) (by norm_num)
    obtain ⟨b, rb, eb, hb⟩ := lit_close (r := 1e-12) (by norm_num) (by norm_num)
    have e2 : (1e-2 : Binary64) = b64 a := (b64_literal 1 true 2).trans ea
    have e12 : (1e-12 : Binary64) = b64 b := (b64_literal 1 true 12).trans eb
    rw [e2, e12, b64_lt ra rb]
    rw [abs_le] at ha hb
    norm_num at ha hb
    intro h
    linarith [ha.1, hb.2]
  have := (C12_dense (roundSolver junk) roundProblem roundGuess (show 1 ≤ 30 by decide) hm round_fits
    (fun h => nomatch h) (by
      rw [er, show stoppingTol ((roundSolver junk).problem roundProblem) (roundSolver junk).options = b64 t from et,
        b64_le representable_zero rt]
      exact t0.le)).1
  rw [er] at this
  exact this

/-- The rounding error of binary64 for this problem is below 1e-14. -/
theorem round_small : roundOff ((2 : ℝ) ^ (-53 : ℤ)) 1 0 1 < 1e-14 := by
  unfold roundOff
  norm_num

theorem round_ones : ¬onesNorm Binary64 1 0 1 ≤ (1e-10 : Binary64) := by
  obtain ⟨a, ra, ea, ha⟩ := lit_close (r := 1e-10) (by norm_num) (by norm_num)
  have e10 : (1e-10 : Binary64) = b64 a := (b64_literal 1 true 10).trans ea
  have r0 := representable_zero
  have r1 := representable_one
  have r2 : Representable 2 := by exact_mod_cast rep_nat 2 (by norm_num)
  have h2 : 1 ≤ √(2 : ℝ) := Real.one_le_sqrt.2 (by norm_num)
  have h2' : √(2 : ℝ) ≤ 2 := by rw [Real.sqrt_le_left (by norm_num)]; norm_num
  obtain ⟨b, rb, eb, hb⟩ := lit_close (r := √2) (by norm_num; linarith) (by linarith)
  have e : onesNorm Binary64 1 0 1 = Scalar.sqrt (Scalar.sqrt (0 + 1 * 1) * Scalar.sqrt (0 + 1 * 1) +
    Scalar.sqrt 0 * Scalar.sqrt 0 + Scalar.sqrt (0 + 1 * 1) * Scalar.sqrt (0 + 1 * 1)) := rfl
  have s0 : Scalar.sqrt (b64 0) = b64 0 := by rw [b64_sqrt r0 le_rfl, Real.sqrt_zero]
  have s1 : Scalar.sqrt (b64 1) = b64 1 := by rw [b64_sqrt r1 zero_le_one, Real.sqrt_one]
  have s2 : Scalar.sqrt (b64 2) = b64 b := by rw [b64_sqrt r2 (by norm_num), eb]
  rw [e, b64_zero, b64_one]
  simp only [b64_mul r1 r1, mul_one, b64_add r0 r1, zero_add, s1, s0, b64_mul r0 r0, mul_zero, b64_add r1 r0,
    add_zero, b64_add r1 r1, one_add_one_eq_two, s2, e10, b64_le rb ra]
  rw [abs_le] at ha hb
  norm_num at ha hb
  intro h
  linarith [ha.2, hb.1]

/-- C62_dense: a default solver in binary64, started at the solution.  The tolerance is `abs_tol`, up to
one per cent; the rounding errors of the residual are below 1e-14. -/
theorem round_kkt (junk : DenseJunk Binary64) :
    let xr := ((roundSolver junk).solve roundProblem roundGuess).x.point 1 0 1
    ∃ z l v y alpha tol, rounding.Reads xr.z z ∧ rounding.Reads xr.l l ∧ rounding.Reads xr.v v ∧
      rounding.Reads xr.y y ∧ 0.9 ≤ alpha ∧ tol ≤ 1.01e-6 ∧
      roundQP.RoundedKKT alpha tol (roundOff ((2 : ℝ) ^ (-53 : ℤ)) 1 0 1)
        (underFlow ((2 : ℝ) ^ (-1075 : ℤ)) 1 0 1) z l v y := by
  intro xr
  obtain ⟨t, t0, rt, et⟩ := round_tol
  obtain ⟨a, ra, ea, ha⟩ := lit_close (r := 1e-6) (by norm_num) (by norm_num)
  obtain ⟨b, rb, eb, hb⟩ := lit_close (r := 1e-12) (by norm_num) (by norm_num)
  obtain ⟨al, ral, eal, hal⟩ := lit_close (r := 0.95) (by norm_num) (by norm_num)
  have e6 : (1e-6 : Binary64) = b64 a := (b64_literal 1 true 6).trans ea
  have e12 : (1e-12 : Binary64) = b64 b := (b64_literal 1 true 12).trans eb
  have e95 : (0.95 : Binary64) = b64 al := (b64_literal 95 true 2).trans eal
  rw [abs_le] at ha hb hal
  norm_num at ha hb hal
  have hg := round_small
  have hg0 : 0 ≤ roundOff ((2 : ℝ) ^ (-53 : ℤ)) 1 0 1 := by unfold roundOff; norm_num
  have hw : underFlow ((2 : ℝ) ^ (-1075 : ℤ)) 1 0 1 ≤ 1e-20 := by
    have k2 : (2 : ℝ) ^ (-1075 : ℤ) ≤ (2 : ℝ) ^ (-100 : ℤ) := zpow_le_zpow_right₀ (by norm_num) (by norm_num)
    have k3 : (2 : ℝ) ^ (-100 : ℤ) ≤ 1e-28 := by norm_num
    unfold underFlow
    generalize (2 : ℝ) ^ (-1075 : ℤ) = r at *
    norm_num at *
    linarith
  have hw0 : 0 ≤ underFlow ((2 : ℝ) ^ (-1075 : ℤ)) 1 0 1 :=
    mul_nonneg (by positivity) (two_zpow_pos _).le
  have key := C62_dense rounding (roundSolver junk) one_pos (show 1 ≤ 30 by decide) roundProblem roundGuess roundQP
    round_reads (hg.trans (by norm_num)) al a b (by rw [← b64_toReal ral, ← e95]; rfl) (by linarith [hal.1])
    (by linarith [hal.2]) (by rw [← b64_toReal ra, ← e6]; rfl) (by linarith [ha.1])
    (by rw [← b64_toReal rb, ← e12]; rfl) (by linarith [hb.1])
    ⟨t, (congrArg rounding.toReal et).trans (b64_toReal rt)⟩ _ (round_success junk) rfl
  rcases key with ⟨z, l, v, y, h1, h2, h3, h4, h5⟩ | h | h
  · refine ⟨z, l, v, y, al, _, h1, h2, h3, h4, by norm_num; linarith [hal.1], ?_, h5⟩
    have hF : roundQP.forcing ^ 2 = 25 := by
      unfold QP.forcing
      rw [Real.sq_sqrt (by simp [roundQP, dotProduct]; norm_num)]
      simp [roundQP, dotProduct]
      norm_num
    show roundedTol roundQP a b (roundOff ((2 : ℝ) ^ (-53 : ℤ)) 1 0 1)
      (underFlow ((2 : ℝ) ^ (-1075 : ℤ)) 1 0 1) ≤ _
    unfold roundedTol
    rw [hF]
    have h6 : √(25 + underFlow ((2 : ℝ) ^ (-1075 : ℤ)) 1 0 1) ≤ 6 := by
      rw [Real.sqrt_le_left (by norm_num)]; norm_num at hw ⊢; linarith
    generalize underFlow ((2 : ℝ) ^ (-1075 : ℤ)) 1 0 1 = w at *
    generalize roundOff ((2 : ℝ) ^ (-53 : ℤ)) 1 0 1 = g at *
    have h7 : b * (1 + √(25 + w)) ≤ b * 7 := mul_le_mul_of_nonneg_left (by linarith) (by linarith [hb.1])
    have h8 : a + b * (1 + √(25 + w)) + w ≤ 1.005e-6 := by norm_num at hw ⊢; linarith [ha.2, hb.2]
    calc (1 + g) * (a + b * (1 + √(25 + w)) + w) ≤ (1 + g) * 1.005e-6 :=
          mul_le_mul_of_nonneg_left h8 (by linarith)
      _ ≤ _ := by norm_num at hg ⊢; linarith
  · exact absurd h.2 round_ones
  · exact absurd h.1 (lt_irrefl _)

/-! ### The order of summation -/

/-- Fused multiply-adds, from right to left. -/
def SumOrder.fused (n : Nat) (p : Fin n → Bool) : SumOrder n :=
  (List.finRange n).foldr (fun i t => if p i then .fma i t else t) .zero

theorem SumOrder.fused_sums {n : Nat} (p : Fin n → Bool) : (SumOrder.fused n p).Sums p := by
  unfold SumOrder.fused SumOrder.Sums
  suffices h : ∀ l : List (Fin n), (l.foldr (fun i t => if p i then SumOrder.fma i t else t) .zero).indices =
      l.filter p by rw [h]
  intro l
  induction l with
  | nil => rfl
  | cons i l ih =>
    rw [List.foldr_cons]
    cases h : p i
    · simp only [Bool.false_eq_true, if_false, ih, List.filter_cons, h]
    · simp only [if_true, SumOrder.indices, ih, List.filter_cons, h]

/-- Dot products by fused multiply-adds. -/
def DotOrder.fused : DotOrder := ⟨fun n p _ _ => .fused n p, fun _ p _ _ => SumOrder.fused_sums p⟩

/-- Dot products from left to right. -/
def DotOrder.left : DotOrder := ⟨fun n p _ _ => .left n p, fun _ p _ _ => SumOrder.left_sums p⟩

/-- The assumptions on the arithmetic hold for `double` in both orders (and in every other). -/
example : Nonempty (Rounding (Binary64.WithOrder .fused) ((2 : ℝ) ^ (-53 : ℤ)) ((2 : ℝ) ^ (-1075 : ℤ))) ∧
    Nonempty (Rounding (Binary64.WithOrder .left) ((2 : ℝ) ^ (-53 : ℤ)) ((2 : ℝ) ^ (-1075 : ℤ))) :=
  ⟨⟨Binary64.rounding_of_order _⟩, ⟨Binary64.rounding_of_order _⟩⟩

end Fbstab
